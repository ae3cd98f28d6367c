import Verif.Spec.Converge
import Verif.Props.Library
/- C113: where training with gradient descent stops. -/
namespace Trixy
set_option linter.unusedSectionVars false
open Finset Losses Filter Topology

/-- Every activation of the stack is element-wise and continuous, with its companion, at the pre-activations for input `v`. -/
def ContAt : List (Dense ℝ) → (Nat → ℝ) → Prop
  | [], _ => True
  | p :: ps, v => (∃ g g' : ℝ → ℝ, p.F = (fun v i => g (v i)) ∧ p.D = (fun v i => g' (v i)) ∧
      ∀ k, k < p.m → ContinuousAt g (pre p.n p.W p.b v k) ∧ ContinuousAt g' (pre p.n p.W p.b v k)) ∧ ContAt ps (p.out v)

/-- Componentwise convergence of vectors of `m` components. -/
def VLim (m : Nat) (u : Nat → Nat → ℝ) (v : Nat → ℝ) : Prop := ∀ j, j < m → Tendsto (fun N => u N j) atTop (𝓝 (v j))

structure DLim (p : Nat → Dense ℝ) (q : Dense ℝ) : Prop where
  same : ∀ N, (p N).n = q.n ∧ (p N).m = q.m ∧ (p N).F = q.F ∧ (p N).D = q.D
  b : ∀ j, j < q.m → Tendsto (fun N => (p N).b j) atTop (𝓝 (q.b j))
  W : ∀ i j, i < q.n → j < q.m → Tendsto (fun N => (p N).W i j) atTop (𝓝 (q.W i j))

def NLim : (Nat → List (Dense ℝ)) → List (Dense ℝ) → Prop
  | P, [] => ∀ N, P N = []
  | P, q :: qs => ∃ (p : Nat → Dense ℝ) (P' : Nat → List (Dense ℝ)), (∀ N, P N = p N :: P' N) ∧ DLim p q ∧ NLim P' qs

def GLim : List (Dense ℝ) → (Nat → List (Grad ℝ)) → List (Grad ℝ) → Prop
  | [], G, H => (∀ N, G N = []) ∧ H = []
  | q :: qs, G, H => ∃ (g : Nat → Grad ℝ) (G' : Nat → List (Grad ℝ)) (h : Grad ℝ) (H' : List (Grad ℝ)), (∀ N, G N = g N :: G' N) ∧ H = h :: H' ∧
      (∀ j, j < q.m → Tendsto (fun N => (g N).1 j) atTop (𝓝 (h.1 j))) ∧
      (∀ i j, i < q.n → j < q.m → Tendsto (fun N => (g N).2 i j) atTop (𝓝 (h.2 i j))) ∧ GLim qs G' H'

theorem pre_lim {p : Nat → Dense ℝ} {q : Dense ℝ} (h : DLim p q) {u : Nat → Nat → ℝ} {v : Nat → ℝ} (hu : VLim q.n u v) :
    VLim q.m (fun N => pre (p N).n (p N).W (p N).b (u N)) (pre q.n q.W q.b v) := by
  intro j hj
  have : (fun N => pre (p N).n (p N).W (p N).b (u N) j) = fun N => ∑ i ∈ range q.n, u N i * (p N).W i j + (p N).b j := by
    funext N; unfold pre; rw [(h.same N).1]
  rw [this]
  unfold pre
  refine Tendsto.add (tendsto_finsetSum _ (fun i hi => ?_)) (h.b j hj)
  exact (hu i (mem_range.1 hi)).mul (h.W i j (mem_range.1 hi) hj)

theorem act_lim {p : Nat → Dense ℝ} {q : Dense ℝ} (h : DLim p q) {v : Nat → ℝ}
    (hc : ∃ g g' : ℝ → ℝ, q.F = (fun v i => g (v i)) ∧ q.D = (fun v i => g' (v i)) ∧
      ∀ k, k < q.m → ContinuousAt g (pre q.n q.W q.b v k) ∧ ContinuousAt g' (pre q.n q.W q.b v k))
    {u : Nat → Nat → ℝ} (hu : VLim q.n u v) :
    VLim q.m (fun N => (p N).out (u N)) (q.out v) ∧
    VLim q.m (fun N => (p N).D (affine (p N).n (p N).W (p N).b (u N))) (q.D (affine q.n q.W q.b v)) := by
  obtain ⟨g, g', hF, hD, hk⟩ := hc
  have hp := pre_lim h hu
  constructor
  · intro j hj
    have : (fun N => (p N).out (u N) j) = fun N => g (pre (p N).n (p N).W (p N).b (u N) j) := by
      funext N; unfold Dense.out; rw [affine_real, (h.same N).2.2.1, hF]
    rw [this]
    unfold Dense.out
    rw [affine_real, hF]
    exact (hk j hj).1.tendsto.comp (hp j hj)
  · intro j hj
    have : (fun N => (p N).D (affine (p N).n (p N).W (p N).b (u N)) j) = fun N => g' (pre (p N).n (p N).W (p N).b (u N) j) := by
      funext N; rw [affine_real, (h.same N).2.2.2, hD]
    rw [this, affine_real, hD]
    exact (hk j hj).2.tendsto.comp (hp j hj)

theorem netOut_lim {qs : List (Dense ℝ)} : ∀ {P : Nat → List (Dense ℝ)} {n m : Nat} {u : Nat → Nat → ℝ} {v : Nat → ℝ}, NLim P qs → Chain n qs m → ContAt qs v →
    VLim n u v → VLim m (fun N => netOut (P N) (u N)) (netOut qs v) := by
  induction qs with
  | nil =>
    intro P n m u v h hc _ hu
    have : n = m := hc
    subst this
    intro j hj
    have e : (fun N => netOut (P N) (u N) j) = fun N => u N j := by funext N; rw [h N]; rfl
    rw [e]; exact hu j hj
  | cons q qs ih =>
    intro P n m u v h hc hd hu
    obtain ⟨p, P', e, hp, h'⟩ := h
    obtain ⟨rfl, hc'⟩ := hc
    have := ih h' hc' hd.2 (act_lim hp hd.1 hu).1
    intro j hj
    have e : (fun N => netOut (P N) (u N) j) = fun N => netOut (P' N) ((p N).out (u N)) j := by funext N; rw [e N]; rfl
    rw [e]; exact this j hj

theorem netBack_lim {qs : List (Dense ℝ)} : ∀ {P : Nat → List (Dense ℝ)} {n m : Nat} {u d : Nat → Nat → ℝ} {v e : Nat → ℝ}, NLim P qs → Chain n qs m → ContAt qs v →
    VLim n u v → VLim m d e → VLim n (fun N => netBack (P N) (u N) (d N)) (netBack qs v e) := by
  induction qs with
  | nil =>
    intro P n m u d v e h hc _ hu hd
    have : n = m := hc
    subst this
    intro j hj
    have e' : (fun N => netBack (P N) (u N) (d N) j) = fun N => d N j := by funext N; rw [h N]; rfl
    rw [e']; exact hd j hj
  | cons q qs ih =>
    intro P n m u d v e h hc hd hu hde
    obtain ⟨p, P', eP, hp, h'⟩ := h
    obtain ⟨rfl, hc'⟩ := hc
    obtain ⟨h1, h2⟩ := act_lim hp hd.1 hu
    have := ih h' hc' hd.2 h1 hde
    intro i hi
    have e1 : (fun N => netBack (P N) (u N) (d N) i) = fun N => ∑ j ∈ range q.m, (p N).W i j * ((p N).D (affine (p N).n (p N).W (p N).b (u N)) j * netBack (P' N) ((p N).out (u N)) (d N) j) := by
      funext N; rw [eP N]
      show foldSum 0 (p N).m _ = _
      rw [foldSum_zero_eq, (hp.same N).2.1]
    have e2 : netBack (q :: qs) v e i = ∑ j ∈ range q.m, q.W i j * (q.D (affine q.n q.W q.b v) j * netBack qs (q.out v) e j) := by
      show foldSum 0 q.m _ = _
      rw [foldSum_zero_eq]
    rw [e1, e2]
    refine tendsto_finsetSum _ (fun j hj => ?_)
    have hj := mem_range.1 hj
    exact (hp.W i j hi hj).mul ((h2 j hj).mul (this j hj))

theorem netGrads_lim {qs : List (Dense ℝ)} : ∀ {P : Nat → List (Dense ℝ)} {n m : Nat} {u d : Nat → Nat → ℝ} {v e : Nat → ℝ}, NLim P qs → Chain n qs m → ContAt qs v →
    VLim n u v → VLim m d e → GLim qs (fun N => netGrads (P N) (u N) (d N)) (netGrads qs v e) := by
  induction qs with
  | nil =>
    intro P n m u d v e h _ _ _ _
    exact ⟨fun N => by show netGrads (P N) _ _ = []; rw [h N]; rfl, rfl⟩
  | cons q qs ih =>
    intro P n m u d v e h hc hd hu hde
    obtain ⟨p, P', eP, hp, h'⟩ := h
    obtain ⟨rfl, hc'⟩ := hc
    obtain ⟨h1, h2⟩ := act_lim hp hd.1 hu
    have hb := netBack_lim h' hc' hd.2 h1 hde
    refine ⟨fun N => (p N).grad (u N) (netBack (P' N) ((p N).out (u N)) (d N)), fun N => netGrads (P' N) ((p N).out (u N)) (d N), _, _,
      fun N => by show netGrads (P N) _ _ = _; rw [eP N]; rfl, rfl, fun j hj => ?_, fun i j hi hj => ?_, ih h' hc' hd.2 h1 hde⟩
    · exact (h2 j hj).mul (hb j hj)
    · exact (hu i hi).mul ((h2 j hj).mul (hb j hj))

theorem GLim.add {qs : List (Dense ℝ)} : ∀ {G K : Nat → List (Grad ℝ)} {H J : List (Grad ℝ)}, GLim qs G H → GLim qs K J →
    GLim qs (fun N => List.zipWith addGrad (G N) (K N)) (List.zipWith addGrad H J) := by
  induction qs with
  | nil =>
    intro G K H J h1 h2
    exact ⟨fun N => by simp [h1.1 N], by simp [h1.2]⟩
  | cons q qs ih =>
    intro G K H J h1 h2
    obtain ⟨g, G', h, H', e1, rfl, a1, a2, a3⟩ := h1
    obtain ⟨k, K', j, J', e2, rfl, b1, b2, b3⟩ := h2
    exact ⟨fun N => addGrad (g N) (k N), fun N => List.zipWith addGrad (G' N) (K' N), _, _, fun N => by simp [e1 N, e2 N], rfl,
      fun j hj => (a1 j hj).add (b1 j hj), fun i j hi hj => (a2 i j hi hj).add (b2 i j hi hj), ih a3 b3⟩

theorem GLim.zero {qs : List (Dense ℝ)} : ∀ {P : Nat → List (Dense ℝ)}, NLim P qs → GLim qs (fun N => (P N).map (fun _ => zeroGrad)) (qs.map (fun _ => zeroGrad)) := by
  induction qs with
  | nil =>
    intro P h
    exact ⟨fun N => by simp [h N], rfl⟩
  | cons q qs ih =>
    intro P h
    obtain ⟨p, P', eP, hp, h'⟩ := h
    exact ⟨fun _ => zeroGrad, fun N => (P' N).map (fun _ => zeroGrad), _, _, fun N => by simp [eP N], rfl,
      fun j hj => tendsto_const_nhds, fun i j hi hj => tendsto_const_nhds, ih h'⟩

theorem gdStep_lim (lr alpha : ℝ) {qs : List (Dense ℝ)} : ∀ {P : Nat → List (Dense ℝ)} {G : Nat → List (Grad ℝ)} {H : List (Grad ℝ)}, NLim P qs → GLim qs G H →
    NLim (fun N => gdStep lr alpha (P N) (G N)) (gdStep lr alpha qs H) := by
  induction qs with
  | nil =>
    intro P G H h _ N
    simp [gdStep, h N]
  | cons q qs ih =>
    intro P G H h hG
    obtain ⟨p, P', eP, hp, h'⟩ := h
    obtain ⟨g, G', k, H', e1, rfl, a1, a2, a3⟩ := hG
    refine ⟨fun N => Dense.gd lr alpha (p N) (g N), fun N => gdStep lr alpha (P' N) (G' N), fun N => by simp [gdStep, eP N, e1 N], ⟨fun N => hp.same N, fun j hj => ?_, fun i j hi hj => ?_⟩, ih h' a3⟩
    · exact (hp.b j hj).sub (((a1 j hj).mul_const _).mul_const _)
    · exact (hp.W i j hi hj).sub (((a2 i j hi hj).mul_const _).mul_const _)

theorem gradSum_lim {qs : List (Dense ℝ)} {P : Nat → List (Dense ℝ)} {n m : Nat} (h : NLim P qs) (hc : Chain n qs m) {dL : (Nat → ℝ) → (Nat → ℝ) → Nat → ℝ}
    (vs : List ((Nat → ℝ) × (Nat → ℝ))) (hd : ∀ vw ∈ vs, ContAt qs vw.1)
    (hL : ∀ vw ∈ vs, ∀ (y : Nat → Nat → ℝ), VLim m y (netOut qs vw.1) → VLim m (fun N => dL vw.2 (y N)) (dL vw.2 (netOut qs vw.1))) :
    GLim qs (fun N => gradSum dL (P N) vs) (gradSum dL qs vs) := by
  unfold gradSum
  have : ∀ (vs : List ((Nat → ℝ) × (Nat → ℝ))), (∀ vw ∈ vs, ContAt qs vw.1) →
    (∀ vw ∈ vs, ∀ (y : Nat → Nat → ℝ), VLim m y (netOut qs vw.1) → VLim m (fun N => dL vw.2 (y N)) (dL vw.2 (netOut qs vw.1))) →
    ∀ (A : Nat → List (Grad ℝ)) (B : List (Grad ℝ)), GLim qs A B →
      GLim qs (fun N => vs.foldl (fun acc vw => List.zipWith addGrad acc (sampleGrads dL (P N) vw)) (A N))
        (vs.foldl (fun acc vw => List.zipWith addGrad acc (sampleGrads dL qs vw)) B) := by
    intro vs
    induction vs with
    | nil => intro _ _ A B hA; exact hA
    | cons vw vs ih =>
      intro hd hL A B hA
      refine ih (fun x hx => hd x (List.mem_cons_of_mem _ hx)) (fun x hx => hL x (List.mem_cons_of_mem _ hx)) _ _ (hA.add ?_)
      have hv : VLim n (fun _ => vw.1) vw.1 := fun j _ => tendsto_const_nhds
      have hc0 := hd vw (List.mem_cons_self ..)
      exact netGrads_lim h hc hc0 hv (hL vw (List.mem_cons_self ..) _ (netOut_lim h hc hc0 hv))
  exact this vs hd hL _ _ (GLim.zero h)

/-- Equal sizes and equal parameters. -/
def Dense.Agree (p q : Dense ℝ) : Prop :=
  p.n = q.n ∧ p.m = q.m ∧ (∀ j, j < q.m → p.b j = q.b j) ∧ ∀ i j, i < q.n → j < q.m → p.W i j = q.W i j

theorem NLim.unique {qs : List (Dense ℝ)} : ∀ {qs' : List (Dense ℝ)} {P : Nat → List (Dense ℝ)}, NLim P qs' → NLim P qs → List.Forall₂ Dense.Agree qs' qs := by
  induction qs with
  | nil =>
    intro qs' P h' h
    cases qs' with
    | nil => exact .nil
    | cons q' qs' =>
      obtain ⟨p, P', e, _⟩ := h'
      have := (h 0).symm.trans (e 0)
      simp at this
  | cons q qs ih =>
    intro qs' P h' h
    obtain ⟨p, P', e, hp, hP⟩ := h
    cases qs' with
    | nil =>
      have := (h' 0).symm.trans (e 0)
      simp at this
    | cons q' qs' =>
      obtain ⟨p1, P1, e1, hp1, hP1⟩ := h'
      have hh : ∀ N, p1 N = p N ∧ P1 N = P' N := fun N => by
        have := (e1 N).symm.trans (e N)
        simpa using this
      have ep : p1 = p := funext fun N => (hh N).1
      have eP : P1 = P' := funext fun N => (hh N).2
      subst ep eP
      have en : q'.n = q.n := (hp1.same 0).1.symm.trans (hp.same 0).1
      have em : q'.m = q.m := (hp1.same 0).2.1.symm.trans (hp.same 0).2.1
      exact .cons ⟨en, em, fun j hj => tendsto_nhds_unique (hp1.b j (by omega)) (hp.b j hj),
        fun i j hi hj => tendsto_nhds_unique (hp1.W i j (by omega) (by omega)) (hp.W i j hi hj)⟩ (ih hP1 hP)

theorem NLim.shift {qs : List (Dense ℝ)} : ∀ {P : Nat → List (Dense ℝ)}, NLim P qs → NLim (fun N => P (N + 1)) qs := by
  induction qs with
  | nil => intro P h N; exact h (N + 1)
  | cons q qs ih =>
    intro P h
    obtain ⟨p, P', e, hp, hP⟩ := h
    exact ⟨fun N => p (N + 1), fun N => P' (N + 1), fun N => e (N + 1), ⟨fun N => hp.same (N + 1),
      fun j hj => (hp.b j hj).comp (tendsto_add_atTop_nat 1), fun i j hi hj => (hp.W i j hi hj).comp (tendsto_add_atTop_nat 1)⟩, ih hP⟩

/-- The limit of iterated descent steps is a fixed point. -/
theorem limit_fixed {qs : List (Dense ℝ)} {P : Nat → List (Dense ℝ)} {n m : Nat} (h : NLim P qs) (hc : Chain n qs m) {dL : (Nat → ℝ) → (Nat → ℝ) → Nat → ℝ}
    (vs : List ((Nat → ℝ) × (Nat → ℝ))) (hd : ∀ vw ∈ vs, ContAt qs vw.1)
    (hL : ∀ vw ∈ vs, ∀ (y : Nat → Nat → ℝ), VLim m y (netOut qs vw.1) → VLim m (fun N => dL vw.2 (y N)) (dL vw.2 (netOut qs vw.1)))
    (lr alpha : ℝ) (hP : ∀ N, P (N + 1) = avgStep lr alpha dL vs (P N)) : List.Forall₂ Dense.Agree (avgStep lr alpha dL vs qs) qs := by
  have h1 := gdStep_lim lr alpha h (gradSum_lim h hc vs hd hL)
  have e : (fun N => gdStep lr alpha (P N) (gradSum dL (P N) vs)) = fun N => P (N + 1) := funext fun N => (hP N).symm
  rw [e] at h1
  exact h1.unique h.shift

/-! ### Library networks -/

theorem ActKind.cd_cont (k : ActKind) (hk : k ≠ .gelu) (x : ℝ) (hx : x ∉ k.kinks) : ContinuousAt k.cd x := by
  have step : ∀ {f g : ℝ → ℝ} {x : ℝ}, Continuous f → Continuous g → x ≠ 0 → ContinuousAt (fun x => if x > 0 then f x else g x) x := by
    intro f g x hf hg hx
    rcases lt_or_gt_of_ne hx with h | h
    · refine hg.continuousAt.congr ?_
      filter_upwards [gt_mem_nhds h] with y hy
      rw [if_neg (not_lt.2 (le_of_lt hy))]
    · refine hf.continuousAt.congr ?_
      filter_upwards [lt_mem_nhds h] with y hy
      rw [if_pos hy]
  have step' : ∀ {f g : ℝ → ℝ} {x : ℝ}, Continuous f → Continuous g → x ≠ 0 → ContinuousAt (fun x => if x < 0 then f x else g x) x := by
    intro f g x hf hg hx
    rcases lt_or_gt_of_ne hx with h | h
    · refine hf.continuousAt.congr ?_
      filter_upwards [gt_mem_nhds h] with y hy
      rw [if_pos hy]
    · refine hg.continuousAt.congr ?_
      filter_upwards [lt_mem_nhds h] with y hy
      rw [if_neg (not_lt.2 (le_of_lt hy))]
  have hcosh : ∀ x : ℝ, Real.cosh x ≠ 0 := fun x => (Real.cosh_pos x).ne'
  cases k with
  | identity => exact continuousAt_const
  | relu => exact step continuous_const continuous_const (by simpa [ActKind.kinks] using hx)
  | elu => exact step continuous_const (continuous_const.mul Real.continuous_exp) (by simpa [ActKind.kinks] using hx)
  | lrelu => exact step continuous_const continuous_const (by simpa [ActKind.kinks] using hx)
  | selu => exact step continuous_const (continuous_const.mul Real.continuous_exp) (by simpa [ActKind.kinks] using hx)
  | gelu => exact absurd rfl hk
  | sigmoid =>
    refine Continuous.continuousAt (continuous_const.div (Real.continuous_cosh.add continuous_const) (fun x => ?_))
    have := Real.cosh_pos x
    linarith
  | tanh =>
    have : Continuous fun x : ℝ => 1 / Real.cosh x := continuous_const.div Real.continuous_cosh hcosh
    exact (this.mul this).continuousAt
  | softsign =>
    have : Continuous fun x : ℝ => 1 / (|x| + 1) := continuous_const.div (continuous_abs.add continuous_const) (fun x => by positivity)
    exact (this.mul this).continuousAt
  | softplus =>
    have ha : Continuous fun x : ℝ => Real.exp (-x) := Real.continuous_exp.comp continuous_neg
    have hb : Continuous fun x : ℝ => Real.exp (-x) + 1 := ha.add continuous_const
    exact (continuous_const.div hb (fun x => by have := Real.exp_pos (-x); positivity)).continuousAt
  | swish =>
    have ha : Continuous fun x : ℝ => Real.exp (-x) := Real.continuous_exp.comp continuous_neg
    have hb : Continuous fun x : ℝ => Real.exp (-x) + 1 := ha.add continuous_const
    exact (((ha.mul continuous_id).add hb).div (hb.mul hb) (fun x => mul_self_ne_zero.2 (by have := Real.exp_pos (-x); positivity))).continuousAt
  | modRelu =>
    have h0 : x ≠ 0 := fun h => hx (by simp [ActKind.kinks, h])
    have h1 : x ≠ 1 := fun h => hx (by simp [ActKind.kinks, h])
    show ContinuousAt Fn.modReluD x
    rcases lt_or_gt_of_ne h0 with h | h
    · refine (continuousAt_const (y := (0.01 : ℝ))).congr ?_
      filter_upwards [gt_mem_nhds h] with y hy
      unfold Fn.modReluD
      rw [if_pos (Or.inl hy)]
    · rcases lt_or_gt_of_ne h1 with h' | h'
      · refine (continuousAt_const (y := (1 : ℝ))).congr ?_
        filter_upwards [lt_mem_nhds h, gt_mem_nhds h'] with y hy hy'
        unfold Fn.modReluD
        rw [if_neg (by rintro (h | h) <;> linarith)]
      · refine (continuousAt_const (y := (0.01 : ℝ))).congr ?_
        filter_upwards [lt_mem_nhds h'] with y hy
        unfold Fn.modReluD
        rw [if_pos (Or.inr hy)]
  | modTanh =>
    have : Continuous fun x : ℝ => 1 / Real.cosh x := continuous_const.div Real.continuous_cosh hcosh
    exact step' (continuous_const.mul (this.mul this)) (this.mul this) (by simpa [ActKind.kinks] using hx)

theorem libSmooth_cont (ls : List LibLayer) (v : Nat → ℝ) (h : libSmooth ls v) : ContAt (ls.map LibLayer.dense) v := by
  induction ls generalizing v with
  | nil => trivial
  | cons l ls ih =>
    obtain ⟨⟨k, hk, hg, hp⟩, hr⟩ := h
    refine ⟨⟨k.fn, k.cd, ?_, ?_, fun j hj => ⟨?_, k.cd_cont hg _ (hp j hj)⟩⟩, ?_⟩
    · show l.act.fn l.m = _
      rw [hk]; rfl
    · show l.act.D = _
      rw [hk]; rfl
    · rw [← k.cf_fun]
      exact (k.hasDerivAt hg _ (hp j hj)).continuousAt
    · rw [dense_out]; exact ih _ hr

theorem LibLoss.dL_lim (k : LibLoss) (m : Nat) (w z : Nat → ℝ) (y : Nat → Nat → ℝ) (h : VLim m y z) : VLim m (fun N => k.dL w (y N)) (k.dL w z) := by
  intro j hj
  cases k
  · exact (h j hj).sub_const _
  · exact ((hasDerivAt_tanh' (z j - w j)).continuousAt.tendsto).comp ((h j hj).sub_const _)

theorem libLimit_NLim {qs : List LibLayer} : ∀ {P : Nat → List LibLayer}, libLimit P qs → NLim (fun N => (P N).map LibLayer.dense) (qs.map LibLayer.dense) := by
  induction qs with
  | nil => intro P h N; simp [h N]
  | cons q qs ih =>
    intro P h
    obtain ⟨p, P', e, hs, hb, hW, hP⟩ := h
    refine ⟨fun N => (p N).dense, fun N => (P' N).map LibLayer.dense, fun N => by simp [e N], ⟨fun N => ?_, hb, hW⟩, ih hP⟩
    obtain ⟨h1, h2, h3⟩ := hs N
    refine ⟨h1, h2, ?_, ?_⟩
    · show (p N).act.fn (p N).m = q.act.fn q.m
      rw [h2, h3]
    · show (p N).act.D = q.act.D
      rw [h3]

/-- A gradient-descent step on library layers. -/
noncomputable def libStep (lr : ℝ) (k : LibLoss) (vs : List ((Nat → ℝ) × (Nat → ℝ))) (ls : List LibLayer) : List LibLayer :=
  List.zipWith (fun (l : LibLayer) (g : Grad ℝ) => LibLayer.mk l.n l.m (fun j => l.b j - g.1 j * (1 / (vs.length : ℝ)) * lr)
    (fun i j => l.W i j - g.2 i j * (1 / (vs.length : ℝ)) * lr) l.act) ls (gradSum k.dL (ls.map LibLayer.dense) vs)

theorem libStep_dense (lr : ℝ) (k : LibLoss) (vs : List ((Nat → ℝ) × (Nat → ℝ))) (ls : List LibLayer) :
    (libStep lr k vs ls).map LibLayer.dense = avgStep lr (1 / (vs.length : ℝ)) k.dL vs (ls.map LibLayer.dense) := by
  unfold libStep avgStep gdStep
  generalize gradSum k.dL (ls.map LibLayer.dense) vs = gs
  induction ls generalizing gs with
  | nil => rfl
  | cons l ls ih =>
    cases gs with
    | nil => rfl
    | cons g gs =>
      show _ :: _ = _ :: _
      rw [ih gs]
      rfl

theorem libStep_iter (lr : ℝ) (k : LibLoss) (vs : List ((Nat → ℝ) × (Nat → ℝ))) (ls : List LibLayer) (N : Nat) :
    ((libStep lr k vs)^[N] ls).map LibLayer.dense = (avgStep lr (1 / (vs.length : ℝ)) k.dL vs)^[N] (ls.map LibLayer.dense) := by
  induction N with
  | zero => rfl
  | succ N ih => rw [Function.iterate_succ_apply', Function.iterate_succ_apply', libStep_dense, ih]

theorem libStep_shape (lr : ℝ) (k : LibLoss) (vs : List ((Nat → ℝ) × (Nat → ℝ))) (ls : List LibLayer) :
    List.Forall₂ (fun (a l : LibLayer) => a.n = l.n ∧ a.m = l.m ∧ a.act = l.act) (libStep lr k vs ls) ls := by
  unfold libStep
  have hl : (gradSum k.dL (ls.map LibLayer.dense) vs).length = ls.length := by rw [gradSum_length]; simp
  generalize gradSum k.dL (ls.map LibLayer.dense) vs = gs at hl
  induction ls generalizing gs with
  | nil => exact .nil
  | cons l ls ih =>
    cases gs with
    | nil => simp at hl
    | cons g gs => exact .cons ⟨rfl, rfl, rfl⟩ (ih gs (by simpa using hl))

theorem libLimit_fits {qs : List LibLayer} : ∀ {P : Nat → List LibLayer} {n m : Nat}, libLimit P qs → libFits n (P 0) m → libFits n qs m := by
  induction qs with
  | nil => intro P n m h hf; rw [h 0] at hf; exact hf
  | cons q qs ih =>
    intro P n m h hf
    obtain ⟨p, P', e, hs, _, _, hP⟩ := h
    rw [e 0] at hf
    obtain ⟨h1, h2, _⟩ := hs 0
    exact ⟨h1 ▸ hf.1, ih hP (h2 ▸ hf.2)⟩

theorem params_of {net : Net ℝ} {ls : List LibLayer} (h : net.IsDense (ls.map LibLayer.dense)) : net.Params ls := by
  unfold Net.IsDense at h
  unfold Net.Params
  rw [List.forall₂_map_right_iff] at h
  exact h.imp (fun l a ⟨f, e, hw, _⟩ => ⟨f, e, hw⟩)

theorem agree_of {net : Net ℝ} {ls : List LibLayer} {ps : List (Dense ℝ)} (h : net.IsDense ps) (h' : net.Params ls) : List.Forall₂ Dense.Agree ps (ls.map LibLayer.dense) := by
  unfold Net.IsDense at h
  unfold Net.Params at h'
  rw [List.forall₂_map_right_iff]
  induction h generalizing ls with
  | nil => cases h'; exact .nil
  | cons hab _ ih =>
    cases h' with
    | cons hcd h'' =>
      obtain ⟨f, e, hw, _⟩ := hab
      obtain ⟨f', e', hw'⟩ := hcd
      rw [e] at e'
      cases e'
      have en := hw.isize.symm.trans hw'.isize
      have em := hw.osize.symm.trans hw'.osize
      refine .cons ⟨en, em, fun j hj => ?_, fun i j hi hj => ?_⟩ (ih h'')
      all_goals dsimp only [LibLayer.dense] at *
      · exact (VecIs.unique hw.B hw'.B).2 j (by omega)
      · exact (MatIs.unique hw.W hw'.W).2.2 i j (by omega) (by omega)

/-- A fixed point of the descent step is a stationary point of the mean loss. -/
theorem stationary_of_agree {ls : List LibLayer} {n m : Nat} (k : LibLoss) (hf : libFits n ls m) (vs : List ((Nat → ℝ) × (Nat → ℝ)))
    (hd : ∀ vw ∈ vs, libSmooth ls vw.1) (lr : ℝ) (hlr : lr ≠ 0)
    (h : List.Forall₂ Dense.Agree (avgStep lr (1 / (vs.length : ℝ)) k.dL vs (ls.map LibLayer.dense)) (ls.map LibLayer.dense)) : libStationary m k vs ls := by
  intro pre post p e
  subst e
  have e : (pre ++ p :: post).map LibLayer.dense = pre.map LibLayer.dense ++ p.dense :: post.map LibLayer.dense := by simp
  have hc := libFits_chain _ hf
  have hdd : ∀ vw ∈ vs, DiffAt ((pre ++ p :: post).map LibLayer.dense) vw.1 := fun vw hv => libSmooth_diff _ _ (hd vw hv)
  rw [e] at h hc hdd
  obtain ⟨p', ep, _, _, _, _, h1, h2⟩ := avgStep_descent (pre.map LibLayer.dense) (post.map LibLayer.dense) p.dense n m lr (k.fn m) k.dL hc vs hdd
    (fun vw _ => k.diff m _ _)
  have hag : p'.Agree p.dense := by
    obtain ⟨hl, hh⟩ := List.forall₂_iff_get.1 h
    rw [List.length_map] at ep
    have hlt : pre.length < (pre.map LibLayer.dense ++ p.dense :: post.map LibLayer.dense).length := by simp
    have := hh pre.length (by rw [hl]; exact hlt) hlt
    obtain ⟨_, ep⟩ := List.getElem?_eq_some_iff.1 ep
    simp only [List.get_eq_getElem] at this
    rw [ep] at this
    simpa using this
  constructor
  · intro j hj
    obtain ⟨G, hG, e2⟩ := h1 j hj
    simp only [map_set_b, libMean_eq] at hG
    have : G = 0 := by
      have e3 := hag.2.2.1 j hj
      rw [e2] at e3
      have : lr * G = 0 := by linarith
      rcases mul_eq_zero.1 this with h | h
      · exact absurd h hlr
      · exact h
    rw [this] at hG
    exact hG
  · intro i j hi hj
    obtain ⟨G, hG, e2⟩ := h2 i j hi hj
    simp only [map_set_W, libMean_eq] at hG
    have : G = 0 := by
      have e3 := hag.2.2.2 i j hi hj
      rw [e2] at e3
      have : lr * G = 0 := by linarith
      rcases mul_eq_zero.1 this with h | h
      · exact absurd h hlr
      · exact h
    rw [this] at hG
    exact hG

/-- A stationary point of the mean loss is a fixed point of the descent step. -/
theorem agree_of_stationary {ls : List LibLayer} {n m : Nat} (k : LibLoss) (hf : libFits n ls m) (vs : List ((Nat → ℝ) × (Nat → ℝ)))
    (hd : ∀ vw ∈ vs, libSmooth ls vw.1) (lr : ℝ) (hs : libStationary m k vs ls) :
    List.Forall₂ (fun p q => Dense.Agree p q ∧ p.F = q.F ∧ p.D = q.D) (avgStep lr (1 / (vs.length : ℝ)) k.dL vs (ls.map LibLayer.dense)) (ls.map LibLayer.dense) := by
  have hlen : (avgStep lr (1 / (vs.length : ℝ)) k.dL vs (ls.map LibLayer.dense)).length = (ls.map LibLayer.dense).length := by
    unfold avgStep gdStep
    rw [List.length_zipWith, gradSum_length]; simp
  rw [List.forall₂_iff_get]
  refine ⟨hlen, fun i h1 h2 => ?_⟩
  have hi : i < ls.length := by simpa using h2
  obtain ⟨pre, post, e, hpl⟩ : ∃ pre post, ls = pre ++ ls[i] :: post ∧ pre.length = i :=
    ⟨ls.take i, ls.drop (i + 1), by simp, by simp; omega⟩
  generalize ls[i] = p at e
  subst e
  have e : (pre ++ p :: post).map LibLayer.dense = pre.map LibLayer.dense ++ p.dense :: post.map LibLayer.dense := by simp
  have hc := libFits_chain _ hf
  have hdd : ∀ vw ∈ vs, DiffAt ((pre ++ p :: post).map LibLayer.dense) vw.1 := fun vw hv => libSmooth_diff _ _ (hd vw hv)
  obtain ⟨s1, s2⟩ := hs pre post p rfl
  rw [e] at hc hdd
  obtain ⟨p', ep, en, em, eF, eD, g1, g2⟩ := avgStep_descent (pre.map LibLayer.dense) (post.map LibLayer.dense) p.dense n m lr (k.fn m) k.dL hc vs hdd
    (fun vw _ => k.diff m _ _)
  rw [← e, List.length_map, hpl] at ep
  obtain ⟨_, ep⟩ := List.getElem?_eq_some_iff.1 ep
  have eq : ((pre ++ p :: post).map LibLayer.dense)[i] = p.dense := by
    subst hpl
    simp
  rw [List.get_eq_getElem, List.get_eq_getElem, ep, eq]
  refine ⟨⟨en, em, fun j hj => ?_, fun i j hi hj => ?_⟩, eF, eD⟩
  · obtain ⟨G, hG, e2⟩ := g1 j hj
    simp only [map_set_b, libMean_eq] at hG
    rw [e2, hG.unique (s1 j hj), mul_zero, sub_zero]
  · obtain ⟨G, hG, e2⟩ := g2 i j hi hj
    simp only [map_set_W, libMean_eq] at hG
    rw [e2, hG.unique (s2 i j hi hj), mul_zero, sub_zero]

theorem NLim_const {ps qs : List (Dense ℝ)} (h : List.Forall₂ (fun p q => Dense.Agree p q ∧ p.F = q.F ∧ p.D = q.D) ps qs) : NLim (fun _ => ps) qs := by
  induction h with
  | nil => exact fun _ => rfl
  | @cons p q ps qs hpq _ ih =>
    obtain ⟨⟨h1, h2, h3, h4⟩, h5, h6⟩ := hpq
    exact ⟨fun _ => p, fun _ => ps, fun _ => rfl, ⟨fun _ => ⟨h1, h2, h5, h6⟩, fun j hj => by rw [h3 j hj]; exact tendsto_const_nhds,
      fun i j hi hj => by rw [h4 i j hi hj]; exact tendsto_const_nhds⟩, ih⟩

theorem const_NLim {qs : List (Dense ℝ)} : ∀ {ps : List (Dense ℝ)}, NLim (fun _ => ps) qs → List.Forall₂ (fun p q => Dense.Agree p q ∧ p.F = q.F ∧ p.D = q.D) ps qs := by
  induction qs with
  | nil => intro ps h; have e : ps = [] := h 0; subst e; exact .nil
  | cons q qs ih =>
    intro ps h
    obtain ⟨p, P', e, hp, hP⟩ := h
    cases ps with
    | nil => exact absurd (e 0) (by simp)
    | cons p0 ps =>
      have hh : ∀ N, p N = p0 ∧ P' N = ps := fun N => by have := e N; simp at this; exact ⟨this.1.symm, this.2.symm⟩
      have ep : p = fun _ => p0 := funext fun N => (hh N).1
      have eP : P' = fun _ => ps := funext fun N => (hh N).2
      subst ep eP
      obtain ⟨h1, h2, h3, h4⟩ := hp.same 0
      exact .cons ⟨⟨h1, h2, fun j hj => tendsto_nhds_unique tendsto_const_nhds (hp.b j hj),
        fun i j hi hj => tendsto_nhds_unique tendsto_const_nhds (hp.W i j hi hj)⟩, h3, h4⟩ (ih hP)

theorem forall₂_trans' {α β γ : Type} {R : α → β → Prop} {S : β → γ → Prop} {T : α → γ → Prop} (h : ∀ a b c, R a b → S b c → T a c) {as : List α} {bs : List β} {cs : List γ}
    (h1 : List.Forall₂ R as bs) (h2 : List.Forall₂ S bs cs) : List.Forall₂ T as cs := by
  induction h1 generalizing cs with
  | nil => cases h2; exact .nil
  | cons a _ ih => cases h2 with | cons b h' => exact .cons (h _ _ _ a b) (ih h')

/-! ### C113 -/

/-- If the parameters after `N` epochs of `batch()` with gradient descent converge as `N` grows, all partial derivatives of the mean loss are zero at
the limit. -/
theorem C113_limit (t : Train ℝ) (ls : List LibLayer) (n m : Nat) (k : LibLoss) (h : t.IsLib ls n m k.obj)
    (idata odata : List (Ten ℝ)) (vs : List ((Nat → ℝ) × (Nat → ℝ))) (hdata : DataIs idata odata n m vs) (hne : vs ≠ []) (lr : ℝ) (hlr : lr ≠ 0) :
    ∃ P : Nat → List LibLayer, (∀ N, List.Forall₂ (fun a l => a.n = l.n ∧ a.m = l.m ∧ a.act = l.act) (P N) ls) ∧
      (∀ N, Ok (Train.batch gdUpdate idata odata N (lr, t)) (fun r => r.2.net.Params (P N))) ∧
      ∀ qs, libLimit P qs → (∀ vw ∈ vs, libSmooth qs vw.1) → libStationary m k vs qs := by
  have hI := IsLib.toIs h (k.obj_Is m)
  refine ⟨fun N => (libStep lr k vs)^[N] ls, fun N => ?_, fun N => ?_, fun qs hq hd => ?_⟩
  · induction N with
    | zero => exact List.forall₂_same.2 (fun _ _ => ⟨rfl, rfl, rfl⟩)
    | succ N ih =>
      show List.Forall₂ _ ((libStep lr k vs)^[N + 1] ls) ls
      rw [Function.iterate_succ_apply']
      exact forall₂_trans' (fun _ _ _ a b => ⟨a.1.trans b.1, a.2.1.trans b.2.1, a.2.2.trans b.2.2⟩) (libStep_shape lr k vs _) ih
  · refine (C39_batch (fun a => mul_one a) lr t _ n m k.dL hI idata odata vs hdata hne N).mono (fun r hr => params_of ?_)
    have := hr.2.1.net
    rw [← libStep_iter] at this
    exact this
  · have hf : libFits n qs m := libLimit_fits hq h.fits
    refine stationary_of_agree k hf vs hd lr hlr (limit_fixed (libLimit_NLim hq) (libFits_chain _ hf) vs (fun vw hv => libSmooth_cont _ _ (hd vw hv))
      (fun vw _ y hy => k.dL_lim m _ _ y hy) lr _ (fun N => ?_))
    show ((libStep lr k vs)^[N + 1] ls).map LibLayer.dense = _
    rw [Function.iterate_succ_apply', libStep_dense]

/-- If one epoch of `batch()` leaves all parameters as they are, all partial derivatives of the mean loss are zero. -/
theorem C113_stops (t : Train ℝ) (ls : List LibLayer) (n m : Nat) (k : LibLoss) (h : t.IsLib ls n m k.obj)
    (idata odata : List (Ten ℝ)) (vs : List ((Nat → ℝ) × (Nat → ℝ))) (hdata : DataIs idata odata n m vs) (hne : vs ≠ []) (lr : ℝ) (hlr : lr ≠ 0)
    (hd : ∀ vw ∈ vs, libSmooth ls vw.1) (hk : Ok (Train.batch gdUpdate idata odata 1 (lr, t)) (fun r => r.2.net.Params ls)) : libStationary m k vs ls := by
  have hI := IsLib.toIs h (k.obj_Is m)
  obtain ⟨r, e, hr⟩ := C39_batch (fun a => mul_one a) lr t _ n m k.dL hI idata odata vs hdata hne 1
  obtain ⟨r', e', hr'⟩ := hk
  rw [e] at e'
  cases e'
  exact stationary_of_agree k h.fits vs hd lr hlr (agree_of hr.2.1.net hr')

/-- If all partial derivatives of the mean loss are zero, any number of epochs of `batch()` leaves all parameters as they are. -/
theorem C113_rest (t : Train ℝ) (ls : List LibLayer) (n m : Nat) (k : LibLoss) (h : t.IsLib ls n m k.obj)
    (idata odata : List (Ten ℝ)) (vs : List ((Nat → ℝ) × (Nat → ℝ))) (hdata : DataIs idata odata n m vs) (hne : vs ≠ []) (lr : ℝ)
    (hd : ∀ vw ∈ vs, libSmooth ls vw.1) (hs : libStationary m k vs ls) (N : Nat) :
    Ok (Train.batch gdUpdate idata odata N (lr, t)) (fun r => r.2.net.Params ls) := by
  have hI := IsLib.toIs h (k.obj_Is m)
  have hcont : ∀ vw ∈ vs, ContAt (ls.map LibLayer.dense) vw.1 := fun vw hv => libSmooth_cont _ _ (hd vw hv)
  have hfix := agree_of_stationary k h.fits vs hd lr hs
  have key : ∀ N, List.Forall₂ (fun p q => Dense.Agree p q ∧ p.F = q.F ∧ p.D = q.D) ((avgStep lr (1 / (vs.length : ℝ)) k.dL vs)^[N] (ls.map LibLayer.dense)) (ls.map LibLayer.dense) := by
    intro N
    induction N with
    | zero => exact List.forall₂_same.2 (fun p _ => ⟨⟨rfl, rfl, fun _ _ => rfl, fun _ _ _ _ => rfl⟩, rfl, rfl⟩)
    | succ N ih =>
      rw [Function.iterate_succ_apply']
      have h0 := NLim_const ih
      have h1 := const_NLim (gdStep_lim lr (1 / (vs.length : ℝ)) h0 (gradSum_lim h0 (libFits_chain _ h.fits) vs hcont (fun vw _ y hy => k.dL_lim m _ _ y hy)))
      exact forall₂_trans' (fun p q r ⟨⟨a1, a2, a3, a4⟩, a5, a6⟩ ⟨⟨b1, b2, b3, b4⟩, b5, b6⟩ => ⟨⟨a1.trans b1, a2.trans b2,
        fun j hj => (a3 j (by omega)).trans (b3 j hj), fun i j hi hj => (a4 i j (by omega) (by omega)).trans (b4 i j hi hj)⟩, a5.trans b5, a6.trans b6⟩) h1 hfix
  refine (C39_batch (fun a => mul_one a) lr t _ n m k.dL hI idata odata vs hdata hne N).mono (fun r hr => ?_)
  have hn := hr.2.1.net
  unfold Net.IsDense at hn
  unfold Net.Params
  have hk := key N
  rw [List.forall₂_map_right_iff] at hk
  exact forall₂_trans' (fun l p a ⟨f, e, hw, _⟩ ⟨⟨a1, a2, a3, a4⟩, _⟩ => ⟨f, e, by
    have a1 : p.n = a.n := a1
    have a2 : p.m = a.m := a2
    rw [← a1, ← a2]
    exact { hw with B := hw.B.congr (fun j hj => a3 j (show j < a.m from a2 ▸ hj)), W := hw.W.congr (fun i j hi hj => a4 i j (show i < a.n from a1 ▸ hi) (show j < a.m from a2 ▸ hj)) }⟩) hn hk

/-- Non-vacuity: a 1 → 1 → 1 network with `Identity` activations, `MSE`, one sample 1 ↦ 1, all parameters zero, learning rate 1/2. After `N` epochs the
bias of the second layer is `1 - 2⁻ᴺ`, which converges to 1. -/
noncomputable def cgTrain : Train ℝ :=
  ⟨[.fc (FC.make 1 1 ActKind.identity.obj 0 1), .fc (FC.make 1 1 ActKind.identity.obj 2 3)], ⟨1, 1, 1, [none]⟩, some MSE⟩
noncomputable def cgNet (c : ℝ) : List LibLayer := [⟨1, 1, fun _ => 0, fun _ _ => 0, .elem .identity⟩, ⟨1, 1, fun _ => c, fun _ _ => 0, .elem .identity⟩]
theorem cgStep (c : ℝ) : libStep (1 / 2) .mse [(fun _ => 1, fun _ => 1)] (cgNet c) = cgNet (c - (c - 1) / 2) := by
  simp [libStep, cgNet, gradSum, sampleGrads, netGrads, netBack, netOut, Dense.back, Dense.grad, Dense.out, LibLayer.dense, LibAct.fn, LibAct.D, ActKind.fn, ActKind.cd,
    Fn.identityD, affine, foldSum, addGrad, zeroGrad, LibLoss.dL]
  ring_nf
theorem cgIter (N : Nat) : (libStep (1 / 2) .mse [(fun _ => 1, fun _ => 1)])^[N] (cgNet 0) = cgNet (1 - (1 / 2) ^ N) := by
  induction N with
  | zero => simp
  | succ N ih => rw [Function.iterate_succ_apply', ih, cgStep]; congr 1; ring
theorem cg_IsLib : cgTrain.IsLib (cgNet 0) 1 1 LibLoss.mse.obj :=
  ⟨.cons ⟨_, rfl, FC.Wf_make 1 1 _ 0 1, rfl⟩ (.cons ⟨_, rfl, FC.Wf_make 1 1 _ 2 3, rfl⟩ .nil), by simp [cgNet], by show 2 < W64; decide, ⟨rfl, rfl, rfl⟩,
    by simp [cgNet], rfl, rfl⟩
theorem cg_data : DataIs [⟨1, 1, 1, [some (1 : ℝ)]⟩] [⟨1, 1, 1, [some (1 : ℝ)]⟩] 1 1 [(fun _ => 1, fun _ => 1)] :=
  ⟨.cons (VecIs_of [1] _ (by simp)) .nil, .cons (VecIs_of [1] _ (by simp)) .nil⟩
example : (∀ N, Ok (Train.batch gdUpdate [⟨1, 1, 1, [some (1 : ℝ)]⟩] [⟨1, 1, 1, [some (1 : ℝ)]⟩] N (1 / 2, cgTrain))
      (fun r => r.2.net.Params (cgNet (1 - (1 / 2) ^ N)))) ∧
    libLimit (fun N => cgNet (1 - (1 / 2) ^ N)) (cgNet 1) ∧ libSmooth (cgNet 1) (fun _ => 1) := by
  refine ⟨fun N => ?_, ?_, ⟨⟨.identity, rfl, by decide, fun j _ => by simp [ActKind.kinks]⟩, ⟨.identity, rfl, by decide, fun j _ => by simp [ActKind.kinks]⟩, trivial⟩⟩
  · refine (C39_batch (fun a => mul_one a) (1 / 2) cgTrain _ 1 1 _ (IsLib.toIs cg_IsLib (LibLoss.mse.obj_Is 1)) _ _ _ cg_data (by simp) N).mono (fun r hr => params_of ?_)
    have := hr.2.1.net
    rw [← libStep_iter, cgIter] at this
    exact this
  · have h1 : Tendsto (fun N : Nat => 1 - (1 / 2 : ℝ) ^ N) atTop (𝓝 1) := by
      have := (tendsto_pow_atTop_nhds_zero_of_lt_one (r := (1 / 2 : ℝ)) (by norm_num) (by norm_num)).const_sub 1
      simpa using this
    exact ⟨_, _, fun N => rfl, fun N => ⟨rfl, rfl, rfl⟩, fun j _ => tendsto_const_nhds, fun i j _ _ => tendsto_const_nhds,
      _, _, fun N => rfl, fun N => ⟨rfl, rfl, rfl⟩, fun j _ => h1, fun i j _ _ => tendsto_const_nhds, fun _ => rfl⟩

end Trixy
