import Verif.Props.Train
import Verif.Props.Checker
import Mathlib.Analysis.Calculus.Deriv.Slope
import Mathlib.Topology.Order.OrderClosed
/- Property C71: a batch step of gradient descent with a small learning rate lowers the loss. -/
namespace Trixy
set_option linter.unusedSectionVars false
open Finset

/-! ### The curve of networks produced by the learning rate -/

/-- The layer `p` after a step of gradient descent, as a curve in the learning rate. -/
noncomputable def gdCurve (a : ℝ) (p : Dense ℝ) (g : Grad ℝ) : DCurve :=
  ⟨p, fun t j => p.b j - g.1 j * a * t, fun t i j => p.W i j - g.2 i j * a * t, fun j => -(g.1 j * a), fun i j => -(g.2 i j * a)⟩

theorem gdCurve_ok (a : ℝ) (p : Dense ℝ) (g : Grad ℝ) : (gdCurve a p g).Ok 0 := by
  have key : ∀ x y : ℝ, HasDerivAt (fun t : ℝ => x - y * t) (-y) 0 := by
    intro x y
    have := ((hasDerivAt_id (0 : ℝ)).const_mul y).const_sub x
    simpa using this
  refine ⟨by funext j; simp [gdCurve], by funext i j; simp [gdCurve], fun k _ => key _ _, fun i k _ _ => key _ _⟩

theorem zip_map_p (a : ℝ) : ∀ (ps : List (Dense ℝ)) (gs : List (Grad ℝ)), gs.length = ps.length →
    (List.zipWith (gdCurve a) ps gs).map (·.p) = ps := by
  intro ps
  induction ps with
  | nil => intro gs _; simp
  | cons p ps ih =>
    intro gs h
    cases gs with
    | nil => simp at h
    | cons g gs => simp only [List.zipWith_cons_cons, List.map_cons, ih gs (by simpa using h)]; rfl

theorem zip_map_at (a : ℝ) (t : ℝ) : ∀ (ps : List (Dense ℝ)) (gs : List (Grad ℝ)),
    (List.zipWith (gdCurve a) ps gs).map (fun c => c.at t) = gdStep t a ps gs := by
  intro ps
  induction ps with
  | nil => intro gs; simp [gdStep]
  | cons p ps ih =>
    intro gs
    cases gs with
    | nil => simp [gdStep]
    | cons g gs =>
      have := ih gs
      simp only [gdStep, List.zipWith_cons_cons, List.map_cons] at this ⊢
      rw [this]; rfl

theorem pairSum_add (cs : List DCurve) : ∀ gs hs : List (Grad ℝ), gs.length = cs.length → hs.length = cs.length →
    pairSum cs (List.zipWith addGrad gs hs) = pairSum cs gs + pairSum cs hs := by
  induction cs with
  | nil => intro gs hs _ _; simp [pairSum]
  | cons c cs ih =>
    intro gs hs h1 h2
    cases gs with
    | nil => simp at h1
    | cons g gs =>
      cases hs with
      | nil => simp at h2
      | cons h hs =>
        simp only [List.zipWith_cons_cons, pairSum, ih gs hs (by simpa using h1) (by simpa using h2)]
        have : pairG c.p.n c.p.m (addGrad g h) c.b' c.W' = pairG c.p.n c.p.m g c.b' c.W' + pairG c.p.n c.p.m h c.b' c.W' := by
          simp only [pairG, addGrad, add_mul, sum_add_distrib]; ring
        rw [this]; ring

theorem pairSum_zeroGrad (cs : List DCurve) : ∀ ps : List (Dense ℝ), pairSum cs (ps.map (fun _ => (zeroGrad : Grad ℝ))) = 0 := by
  induction cs with
  | nil => intro ps; simp [pairSum]
  | cons c cs ih =>
    intro ps
    cases ps with
    | nil => simp [pairSum]
    | cons p ps =>
      have h : pairG c.p.n c.p.m (zeroGrad : Grad ℝ) c.b' c.W' = 0 := by simp [pairG, zeroGrad]
      simp only [List.map_cons, pairSum, ih ps, h, add_zero]

theorem pairSum_gradSum (cs : List DCurve) (dL : (Nat → ℝ) → (Nat → ℝ) → Nat → ℝ) (ps : List (Dense ℝ)) (h : cs.length = ps.length)
    (vs : List ((Nat → ℝ) × (Nat → ℝ))) :
    pairSum cs (gradSum dL ps vs) = (vs.map (fun vw => pairSum cs (sampleGrads dL ps vw))).sum := by
  unfold gradSum
  have : ∀ (vs : List ((Nat → ℝ) × (Nat → ℝ))) (acc : List (Grad ℝ)), acc.length = cs.length →
      pairSum cs (vs.foldl (fun acc vw => List.zipWith addGrad acc (sampleGrads dL ps vw)) acc) =
        pairSum cs acc + (vs.map (fun vw => pairSum cs (sampleGrads dL ps vw))).sum := by
    intro vs
    induction vs with
    | nil => intro acc _; simp
    | cons vw vs ih =>
      intro acc ha
      have hs : (sampleGrads dL ps vw).length = cs.length := by rw [sampleGrads_length, h]
      rw [List.foldl_cons, ih _ (by rw [List.length_zipWith, ha, hs]; simp), pairSum_add cs _ _ ha hs, List.map_cons, List.sum_cons]
      ring
  rw [this vs _ (by simp [h]), pairSum_zeroGrad, zero_add]

theorem gradSum_length (dL : (Nat → ℝ) → (Nat → ℝ) → Nat → ℝ) (ps : List (Dense ℝ)) (vs : List ((Nat → ℝ) × (Nat → ℝ))) :
    (gradSum dL ps vs).length = ps.length := by
  unfold gradSum
  have : ∀ (vs : List ((Nat → ℝ) × (Nat → ℝ))) (acc : List (Grad ℝ)), acc.length = ps.length →
      (vs.foldl (fun acc vw => List.zipWith addGrad acc (sampleGrads dL ps vw)) acc).length = ps.length := by
    intro vs
    induction vs with
    | nil => intro acc h; exact h
    | cons vw vs ih => intro acc h; exact ih _ (by rw [List.length_zipWith, h, sampleGrads_length]; simp)
  exact this vs _ (by simp)

/-- Squared length of a gradient over the parameters of the network. -/
noncomputable def normSq : List (Dense ℝ) → List (Grad ℝ) → ℝ
  | p :: ps, g :: gs => (∑ k ∈ range p.m, g.1 k * g.1 k + ∑ i ∈ range p.n, ∑ k ∈ range p.m, g.2 i k * g.2 i k) + normSq ps gs
  | _, _ => 0

theorem pairSum_gd (a : ℝ) : ∀ (ps : List (Dense ℝ)) (gs : List (Grad ℝ)),
    pairSum (List.zipWith (gdCurve a) ps gs) gs = -(a * normSq ps gs) := by
  intro ps
  induction ps with
  | nil => intro gs; simp [pairSum, normSq]
  | cons p ps ih =>
    intro gs
    cases gs with
    | nil => simp [pairSum, normSq]
    | cons g gs =>
      simp only [List.zipWith_cons_cons, pairSum, normSq, ih gs]
      have : pairG (gdCurve a p g).p.n (gdCurve a p g).p.m g (gdCurve a p g).b' (gdCurve a p g).W' =
          -(a * (∑ k ∈ range p.m, g.1 k * g.1 k + ∑ i ∈ range p.n, ∑ k ∈ range p.m, g.2 i k * g.2 i k)) := by
        show ∑ k ∈ range p.m, g.1 k * -(g.1 k * a) + ∑ i ∈ range p.n, ∑ k ∈ range p.m, g.2 i k * -(g.2 i k * a) = _
        rw [mul_add, mul_sum, mul_sum, neg_add, ← sum_neg_distrib, ← sum_neg_distrib]
        congr 1
        · exact sum_congr rfl (fun _ _ => by ring)
        · refine sum_congr rfl (fun i _ => ?_)
          rw [mul_sum, ← sum_neg_distrib]
          exact sum_congr rfl (fun _ _ => by ring)
      rw [this]; ring

theorem normSq_nonneg : ∀ (ps : List (Dense ℝ)) (gs : List (Grad ℝ)), 0 ≤ normSq ps gs := by
  intro ps
  induction ps with
  | nil => intro gs; simp [normSq]
  | cons p ps ih =>
    intro gs
    cases gs with
    | nil => simp [normSq]
    | cons g gs =>
      exact add_nonneg (add_nonneg (sum_nonneg (fun _ _ => mul_self_nonneg _)) (sum_nonneg (fun _ _ => sum_nonneg (fun _ _ => mul_self_nonneg _)))) (ih gs)

theorem normSq_pos (pre post : List (Dense ℝ)) (p : Dense ℝ) : ∀ (gs : List (Grad ℝ)) (g : Grad ℝ), gs[pre.length]? = some g →
    ((∃ j, j < p.m ∧ g.1 j ≠ 0) ∨ ∃ i j, i < p.n ∧ j < p.m ∧ g.2 i j ≠ 0) → 0 < normSq (pre ++ p :: post) gs := by
  induction pre with
  | nil =>
    intro gs g h hne
    cases gs with
    | nil => simp at h
    | cons g' gs =>
      simp only [List.length_nil, List.getElem?_cons_zero, Option.some.injEq] at h
      subst h
      have h0 := normSq_nonneg post gs
      have h1 : 0 ≤ ∑ k ∈ range p.m, g'.1 k * g'.1 k := sum_nonneg (fun _ _ => mul_self_nonneg _)
      have h2 : 0 ≤ ∑ i ∈ range p.n, ∑ k ∈ range p.m, g'.2 i k * g'.2 i k := sum_nonneg (fun _ _ => sum_nonneg (fun _ _ => mul_self_nonneg _))
      show 0 < (_ + _) + normSq post gs
      rcases hne with ⟨j, hj, hg⟩ | ⟨i, j, hi, hj, hg⟩
      · have : 0 < ∑ k ∈ range p.m, g'.1 k * g'.1 k :=
          sum_pos' (fun _ _ => mul_self_nonneg _) ⟨j, mem_range.2 hj, mul_self_pos.2 hg⟩
        linarith
      · have : 0 < ∑ i ∈ range p.n, ∑ k ∈ range p.m, g'.2 i k * g'.2 i k :=
          sum_pos' (fun _ _ => sum_nonneg (fun _ _ => mul_self_nonneg _)) ⟨i, mem_range.2 hi,
            sum_pos' (fun _ _ => mul_self_nonneg _) ⟨j, mem_range.2 hj, mul_self_pos.2 hg⟩⟩
        linarith
  | cons q pre ih =>
    intro gs g h hne
    cases gs with
    | nil => simp at h
    | cons g' gs =>
      simp only [List.length_cons, List.getElem?_cons_succ] at h
      have := ih gs g h hne
      have h1 : 0 ≤ ∑ k ∈ range q.m, g'.1 k * g'.1 k := sum_nonneg (fun _ _ => mul_self_nonneg _)
      have h2 : 0 ≤ ∑ i ∈ range q.n, ∑ k ∈ range q.m, g'.2 i k * g'.2 i k := sum_nonneg (fun _ _ => sum_nonneg (fun _ _ => mul_self_nonneg _))
      show 0 < (_ + _) + normSq (pre ++ p :: post) gs
      linarith

theorem gdStep_zero (a : ℝ) : ∀ (ps : List (Dense ℝ)) (gs : List (Grad ℝ)), gs.length = ps.length → gdStep 0 a ps gs = ps := by
  intro ps
  induction ps with
  | nil => intro gs _; simp [gdStep]
  | cons p ps ih =>
    intro gs h
    cases gs with
    | nil => simp at h
    | cons g gs =>
      have := ih gs (by simpa using h)
      simp only [gdStep, List.zipWith_cons_cons] at this ⊢
      rw [this]
      congr 1
      simp [Dense.gd]

/-- Derivative at 0 of the mean loss after one averaged step, as a function of the learning rate. -/
theorem descent_rate (ps : List (Dense ℝ)) (n m : Nat) (L : (Nat → ℝ) → (Nat → ℝ) → ℝ) (dL : (Nat → ℝ) → (Nat → ℝ) → Nat → ℝ)
    (hc : Chain n ps m) (vs : List ((Nat → ℝ) × (Nat → ℝ))) (hd : ∀ vw ∈ vs, DiffAt ps vw.1)
    (hL : ∀ vw ∈ vs, LossDiffAt L dL m vw.2 (netOut ps vw.1)) (a : ℝ) :
    HasDerivAt (fun lr => meanLoss L vs (avgStep lr a dL vs ps)) (-((1 / (vs.length : ℝ)) * (a * normSq ps (gradSum dL ps vs)))) 0 := by
  have hlen := gradSum_length dL ps vs
  set cs := List.zipWith (gdCurve a) ps (gradSum dL ps vs) with hcs
  have hp : cs.map (·.p) = ps := zip_map_p a ps _ hlen
  have hat : ∀ t, cs.map (fun c => c.at t) = avgStep t a dL vs ps := fun t => zip_map_at a t ps _
  have hok : ∀ c ∈ cs, c.Ok 0 := by
    intro c hc'
    rw [hcs] at hc'
    obtain ⟨i, hi, rfl⟩ := List.getElem_of_mem hc'
    rw [List.getElem_zipWith]
    exact gdCurve_ok _ _ _
  have hone : ∀ vw ∈ vs, HasDerivAt (fun t => L vw.2 (netOut (avgStep t a dL vs ps) vw.1)) (pairSum cs (sampleGrads dL ps vw)) 0 := by
    intro vw hvw
    obtain ⟨y', hy, hu⟩ := net_curve cs (n := n) (m := m) (t0 := 0) (xc := fun _ => vw.1) (x' := fun _ => 0) hok
      (by rw [hp]; exact hc) (by rw [hp]; exact hd vw hvw) (fun _ _ => hasDerivAt_const _ _)
    simp only [hat, hp] at hy hu
    have e0 : avgStep 0 a dL vs ps = ps := gdStep_zero a ps _ hlen
    have := hL vw hvw (fun t => netOut (avgStep t a dL vs ps) vw.1) y' 0 (fun k _ => by rw [e0]) hy
    rw [hu] at this
    simpa [sampleGrads] using this
  have := (hasDerivAt_listSum vs (fun vw t => L vw.2 (netOut (avgStep t a dL vs ps) vw.1)) (fun vw => pairSum cs (sampleGrads dL ps vw)) 0 hone).const_mul
    (1 / (vs.length : ℝ))
  rw [← pairSum_gradSum cs dL ps (by rw [← hp, List.length_map]) vs, hcs, pairSum_gd] at this
  refine this.congr_deriv (by ring)

/-- A function with negative derivative at 0 is smaller just after 0. -/
theorem lt_of_deriv_neg {f : ℝ → ℝ} {d : ℝ} (h : HasDerivAt f d 0) (hd : d < 0) : ∃ ε > 0, ∀ t, 0 < t → t < ε → f t < f 0 := by
  have hs := hasDerivAt_iff_tendsto_slope.1 h
  have ev : ∀ᶠ t in nhdsWithin (0 : ℝ) {0}ᶜ, slope f 0 t < 0 := hs.eventually (gt_mem_nhds hd)
  rw [eventually_nhdsWithin_iff, Metric.eventually_nhds_iff] at ev
  obtain ⟨ε, he, H⟩ := ev
  refine ⟨ε, he, fun t h1 h2 => ?_⟩
  have := H (y := t) (by rw [Real.dist_eq, sub_zero, abs_of_pos h1]; exact h2) (by simp [h1.ne'])
  rw [slope_def_field, sub_zero] at this
  have h3 := (div_neg_iff.1 this)
  rcases h3 with ⟨_, h4⟩ | ⟨h4, _⟩
  · linarith
  · linarith

/-! ### The loss object stays -/

theorem res_bind_inv {β δ : Type} {x : Res β} {f : β → Res δ} {b : δ} (h : x >>= f = .ok b) : ∃ a, x = .ok a ∧ f a = .ok b := by
  cases x with
  | error e => cases h
  | ok a => exact ⟨a, rfl, h⟩

variable {α σ : Type}

theorem exec_loss [Zero α] [One α] [Add α] [Mul α] [LT α] [DecidableLT α] [DecidableEq α] (upd : Upd σ α) (idata odata : List (Ten α))
    {st st' : σ × Train α} (e : TEv α) (h : TEv.exec upd idata odata st e = .ok st') : st'.2.loss = st.2.loss := by
  cases e with
  | reset =>
    obtain ⟨t, h1, h2⟩ := res_bind_inv h
    obtain ⟨n, _, h4⟩ := res_bind_inv h1
    cases h2; cases h4; rfl
  | sample i =>
    obtain ⟨t, h1, h2⟩ := res_bind_inv h
    cases h2
    obtain ⟨x, _, h4⟩ := res_bind_inv h1
    obtain ⟨t1, h5, h6⟩ := res_bind_inv h4
    obtain ⟨⟨n1, v1⟩, _, h8⟩ := res_bind_inv h5
    cases h8
    obtain ⟨y, _, h9⟩ := res_bind_inv h6
    obtain ⟨l, _, h10⟩ := res_bind_inv h9
    obtain ⟨lo, _, h11⟩ := res_bind_inv h10
    obtain ⟨d, _, h12⟩ := res_bind_inv h11
    obtain ⟨n2, _, h13⟩ := res_bind_inv h12
    cases h13; rfl
  | accumulate =>
    obtain ⟨t, h1, h2⟩ := res_bind_inv h
    obtain ⟨n, _, h4⟩ := res_bind_inv h1
    cases h2; cases h4; rfl
  | update a =>
    obtain ⟨⟨s, n⟩, _, h2⟩ := res_bind_inv h
    cases h2; rfl

theorem run_loss [Zero α] [One α] [Add α] [Mul α] [LT α] [DecidableLT α] [DecidableEq α] (upd : Upd σ α) (idata odata : List (Ten α)) :
    ∀ (es : List (TEv α)) {st st' : σ × Train α}, TEv.run upd idata odata st es = .ok st' → st'.2.loss = st.2.loss := by
  intro es
  induction es with
  | nil => intro st st' h; cases h; rfl
  | cons e es ih =>
    intro st st' h
    obtain ⟨s1, h1, h2⟩ := res_bind_inv h
    rw [ih h2, exec_loss upd idata odata e h1]

/-! ### The mean loss the API reports -/

theorem isDense_computes : ∀ (ps : List (Dense ℝ)) (net : Net ℝ) (n m : Nat) (s : Nat × Nat × Nat), Net.IsDense net ps → Chain n ps m →
    s.1 * s.2.1 * s.2.2 = n → ∃ s' : Nat × Nat × Nat, net.Computes s s' (netOut ps) ∧ s'.1 * s'.2.1 * s'.2.2 = m := by
  intro ps
  induction ps with
  | nil =>
    intro net n m s h hc hs
    cases h
    cases hc
    exact ⟨s, .nil, hs⟩
  | cons p ps ih =>
    intro net n m s h hc hs
    cases h with
    | cons h1 h2 =>
      obtain ⟨f, rfl, hw, ha⟩ := h1
      obtain ⟨e, hc⟩ := hc
      obtain ⟨s', hs', hm⟩ := ih _ p.m m (1, 1, p.m) h2 hc (by simp)
      refine ⟨s', ?_, hm⟩
      have : p.n = s.1 * s.2.1 * s.2.2 := by rw [e, hs]
      refine Net.Computes.cons (F := p.out) (G := netOut ps) ?_ hs'
      obtain ⟨d, h, w⟩ := s
      dsimp only at this
      have e2 : p.out = fun v => p.F (affine (d * h * w) p.W p.b v) := by funext v; unfold Dense.out; rw [this]
      rw [e2]
      exact Layer.Computes.fc (D := p.D) (by rw [← this]; exact hw) ha

theorem forall₂_lget {β δ : Type} {R : β → δ → Prop} {xs : List β} {vs : List δ} (h : List.Forall₂ R xs vs) {i : Nat} (hi : i < vs.length) :
    ∃ x, lget xs i = .ok x ∧ x ∈ xs ∧ R x (vs[i]) := by
  have hx : i < xs.length := by rw [h.length_eq]; exact hi
  refine ⟨xs[i], ?_, List.getElem_mem _, h.get hx hi⟩
  unfold lget
  rw [List.getElem?_eq_getElem hx]

/-- What `Training::loss` reports for a dense network: the mean of the losses. -/
theorem loss_dense (t : Train ℝ) (ps : List (Dense ℝ)) (n m : Nat) (L : (Nat → ℝ) → (Nat → ℝ) → ℝ) (dL : (Nat → ℝ) → (Nat → ℝ) → Nat → ℝ)
    (h : t.Is ps n m dL) (hloss : ∃ l, t.loss = some l ∧ l.Is m L dL) (idata odata : List (Ten ℝ)) (vs : List ((Nat → ℝ) × (Nat → ℝ)))
    (hd : DataIs idata odata n m vs) (hne : vs ≠ []) (s : Nat × Nat × Nat) (hs : s.1 * s.2.1 * s.2.2 = n)
    (hsh : ∀ x ∈ idata, (x.d, x.h, x.w) = s) :
    Ok (t.lossMean idata odata) (fun r => r.1 = meanLoss L vs ps) := by
  obtain ⟨s', hc, hm⟩ := isDense_computes ps t.net n m s h.net h.chain hs
  obtain ⟨l, el, hl⟩ := hloss
  have hlen : t.net.length = ps.length := h.net.length_eq
  have h2 := h.two
  have hw := h.word
  have hN : 0 < vs.length := List.length_pos_iff.2 hne
  refine (C69_training (t := t) (l := l) (N := vs.length) (m := m) (x := fun i => (vs[i]?.getD ((fun _ => 0), fun _ => 0)).1)
    (y := fun i => (vs[i]?.getD ((fun _ => 0), fun _ => 0)).2)
    (by intro e; rw [e] at hlen; simp at hlen; omega) (by omega) hc el hl hm (fun i hi => ?_) (hd.2.length_eq) (fun i hi => ?_) hN).mono (fun r q => ?_)
  · obtain ⟨x, e, hmem, hx⟩ := forall₂_lget hd.1 hi
    rw [e]
    refine Ok_ok.2 ?_
    have := hsh x hmem
    rw [List.getElem?_eq_getElem hi]
    refine ⟨congrArg (·.1) this, congrArg (·.2.1) this, congrArg (·.2.2) this, ?_⟩
    rw [hs]; exact hx
  · obtain ⟨x, e, _, hx⟩ := forall₂_lget hd.2 hi
    rw [e, List.getElem?_eq_getElem hi]
    exact Ok_ok.2 hx
  · rw [q.1]
    unfold meanLoss
    have : ∀ (f : ((Nat → ℝ) × (Nat → ℝ)) → ℝ) (us : List ((Nat → ℝ) × (Nat → ℝ))),
        ∑ i ∈ range us.length, f (us[i]?.getD ((fun _ => 0), fun _ => 0)) = (us.map f).sum := by
      intro f us
      induction us with
      | nil => simp
      | cons u us ih =>
        rw [List.length_cons, Finset.sum_range_succ', List.map_cons, List.sum_cons, ← ih, add_comm]
        simp
    rw [← this (fun vw => L vw.2 (netOut ps vw.1)) vs]
    ring

/-! ## C71 -/

/-- Some partial derivative of the mean loss with respect to a bias or a weight of the network is not zero. -/
def NotStationary (L : (Nat → ℝ) → (Nat → ℝ) → ℝ) (vs : List ((Nat → ℝ) × (Nat → ℝ))) (ps : List (Dense ℝ)) : Prop :=
  ∃ pre p post G, ps = pre ++ p :: post ∧ G ≠ 0 ∧
    ((∃ j, j < p.m ∧ HasDerivAt (fun z => meanLoss L vs (pre ++ { p with b := setAt p.b j z } :: post)) G (p.b j)) ∨
     (∃ i j, i < p.n ∧ j < p.m ∧ HasDerivAt (fun z => meanLoss L vs (pre ++ { p with W := setEntry p.W i j z } :: post)) G (p.W i j)))

theorem normSq_pos_of (ps : List (Dense ℝ)) (n m : Nat) (L : (Nat → ℝ) → (Nat → ℝ) → ℝ) (dL : (Nat → ℝ) → (Nat → ℝ) → Nat → ℝ)
    (hc : Chain n ps m) (vs : List ((Nat → ℝ) × (Nat → ℝ))) (hd : ∀ vw ∈ vs, DiffAt ps vw.1)
    (hL : ∀ vw ∈ vs, LossDiffAt L dL m vw.2 (netOut ps vw.1)) (hns : NotStationary L vs ps) :
    0 < normSq ps (gradSum dL ps vs) := by
  obtain ⟨pre, p, post, G, rfl, hG, hD⟩ := hns
  obtain ⟨p', e, _, _, _, _, h1, h2⟩ := avgStep_descent pre post p n m 1 L dL hc vs hd hL
  have hlt : pre.length < (gradSum dL (pre ++ p :: post) vs).length := by rw [gradSum_length]; simp
  have hg := List.getElem?_eq_getElem hlt
  have ep : p' = Dense.gd 1 (1 / (vs.length : ℝ)) p ((gradSum dL (pre ++ p :: post) vs)[pre.length]) := by
    unfold avgStep gdStep at e
    rw [List.getElem?_zipWith, hg, show (pre ++ p :: post)[pre.length]? = some p from by simp] at e
    exact (Option.some.inj e).symm
  refine normSq_pos pre post p _ _ hg ?_
  rcases hD with ⟨j, hj, hD⟩ | ⟨i, j, hi, hj, hD⟩
  · left
    refine ⟨j, hj, fun h0 => hG ?_⟩
    obtain ⟨G', hG', e'⟩ := h1 j hj
    have := hD.unique hG'
    rw [ep] at e'
    simp only [Dense.gd, h0] at e'
    rw [this]; linarith
  · right
    refine ⟨i, j, hi, hj, fun h0 => hG ?_⟩
    obtain ⟨G', hG', e'⟩ := h2 i j hi hj
    have := hD.unique hG'
    rw [ep] at e'
    simp only [Dense.gd, h0] at e'
    rw [this]; linarith

/-- For every dense network with differentiable activations and loss that is not at a stationary point of its mean loss on
the data set, there is a bound such that one epoch of `batch` with gradient descent and any positive learning rate below it
strictly lowers the mean loss that `loss(idata, odata)` reports. -/
theorem C71_descent (t : Train ℝ) (ps : List (Dense ℝ)) (n m : Nat) (L : (Nat → ℝ) → (Nat → ℝ) → ℝ)
    (dL : (Nat → ℝ) → (Nat → ℝ) → Nat → ℝ) (h : t.Is ps n m dL) (hloss : ∃ l, t.loss = some l ∧ l.Is m L dL)
    (idata odata : List (Ten ℝ)) (vs : List ((Nat → ℝ) × (Nat → ℝ))) (hdata : DataIs idata odata n m vs) (hne : vs ≠ [])
    (s : Nat × Nat × Nat) (hs : s.1 * s.2.1 * s.2.2 = n) (hsh : ∀ x ∈ idata, (x.d, x.h, x.w) = s)
    (hd : ∀ vw ∈ vs, DiffAt ps vw.1) (hL : ∀ vw ∈ vs, LossDiffAt L dL m vw.2 (netOut ps vw.1)) (hns : NotStationary L vs ps) :
    ∃ ε > 0, ∀ lr, 0 < lr → lr < ε → Ok (t.lossMean idata odata) (fun before =>
      Ok (Train.batch gdUpdate idata odata 1 (lr, t)) (fun r =>
        Ok (r.2.lossMean idata odata) (fun after => after.1 < before.1))) := by
  have hN : (0 : ℝ) < 1 / (vs.length : ℝ) := by
    have : 0 < vs.length := List.length_pos_iff.2 hne
    positivity
  have hpos := normSq_pos_of ps n m L dL h.chain vs hd hL hns
  obtain ⟨ε, he, H⟩ := lt_of_deriv_neg (descent_rate ps n m L dL h.chain vs hd hL (1 / (vs.length : ℝ)))
    (by have := mul_pos hN (mul_pos hN hpos); linarith)
  refine ⟨ε, he, fun lr h1 h2 => ?_⟩
  refine (loss_dense t ps n m L dL h hloss idata odata vs hdata hne s hs hsh).mono (fun before hb => ?_)
  have hb0 := C39_batch (fun a => mul_one a) lr t ps n m dL h idata odata vs hdata hne 1
  obtain ⟨r, er, hr⟩ := hb0
  refine ⟨r, er, ?_⟩
  have hid : idata.length ≠ 0 := by
    rw [hdata.1.length_eq]; exact fun e => hne (List.length_eq_zero_iff.1 e)
  rw [batch_run _ _ _ _ _ hid] at er
  have el := run_loss _ _ _ _ er
  refine (loss_dense r.2 _ n m L dL hr.2.1 (by rw [el]; exact hloss) idata odata vs hdata hne s hs hsh).mono (fun after ha => ?_)
  rw [ha, hb]
  have := H lr h1 h2
  have e0 : avgStep 0 (1 / (vs.length : ℝ)) dL vs ps = ps := gdStep_zero _ ps _ (gradSum_length dL ps vs)
  rw [e0] at this
  exact this

/-- The hypotheses are met: a fresh 2 → 2 → 1 network with identity activations, half squared error and the single sample
(0, 1) ↦ 3 can be improved. -/
example : ∃ ε > 0, ∀ lr : ℝ, 0 < lr → lr < ε →
    Ok ((exTrain (1 / 2 : ℝ) (fun x => x) (fun _ => 1)).lossMean [⟨1, 1, 2, Buf.of [0, 1]⟩] [⟨1, 1, 1, Buf.of [3]⟩]) (fun before =>
      Ok (Train.batch gdUpdate [⟨1, 1, 2, Buf.of [0, 1]⟩] [⟨1, 1, 1, Buf.of [3]⟩] 1 (lr, exTrain (1 / 2 : ℝ) (fun x => x) (fun _ => 1))) (fun r =>
        Ok (r.2.lossMean [⟨1, 1, 2, Buf.of [0, 1]⟩] [⟨1, 1, 1, Buf.of [3]⟩]) (fun after => after.1 < before.1))) := by
  have hlossD : ∀ y : Nat → ℝ, LossDiffAt (fun t y => ∑ i ∈ range 1, (1 / 2) * ((y i - t i) * (y i - t i))) (fun t y i => (1 / 2 + 1 / 2) * (y i - t i)) 1
      (fun _ => 3) y := by
    intro y yc y' t0 h0 hy
    have h1 := ((((hy 0 (by decide)).sub_const 3).mul ((hy 0 (by decide)).sub_const 3)).const_mul (1 / 2 : ℝ))
    simp only [sum_range_one]
    rw [← h0 0 (by decide)]
    exact h1.congr_deriv (by ring)
  refine C71_descent _ _ 2 1 (fun t y => ∑ i ∈ range 1, (1 / 2) * ((y i - t i) * (y i - t i))) _ (exTrain_Is (1 / 2 : ℝ) (fun x => x) (fun _ => 1))
    ⟨_, rfl, sqLoss_Is (1 / 2 : ℝ) 1⟩ _ _ [((fun i => (i : ℝ)), fun _ => 3)] ⟨.cons ⟨rfl, ?_⟩ .nil, .cons ⟨rfl, ?_⟩ .nil⟩ (by simp) (1, 1, 2) (by simp)
    (by intro x hx; simp at hx; subst hx; rfl) ?_ ?_ ?_
  · intro i hi
    have : i = 0 ∨ i = 1 := by omega
    rcases this with rfl | rfl <;> simp [Buf.of]
  · intro i hi
    have : i = 0 := by omega
    subst this; simp [Buf.of]
  · intro vw h; simp at h; subst h
    exact ⟨⟨fun x => x, fun _ => 1, rfl, rfl, fun k _ => hasDerivAt_id _⟩, ⟨fun x => x, fun _ => 1, rfl, rfl, fun k _ => hasDerivAt_id _⟩, trivial⟩
  · intro vw h; simp at h; subst h
    exact hlossD _
  · refine ⟨[exDense (fun x => x) (fun _ => 1) 2 2], exDense (fun x => x) (fun _ => 1) 2 1, [], -3, rfl, by norm_num, .inl ⟨0, by decide, ?_⟩⟩
    have h1 : HasDerivAt (fun z : ℝ => (1 / 2 : ℝ) * ((z - 3) * (z - 3))) (-3) 0 := by
      have h2 := (((hasDerivAt_id (0 : ℝ)).sub_const 3).mul ((hasDerivAt_id (0 : ℝ)).sub_const 3)).const_mul (1 / 2 : ℝ)
      exact h2.congr_deriv (by norm_num)
    have e : (fun z => meanLoss (fun t y => ∑ i ∈ range 1, (1 / 2 : ℝ) * ((y i - t i) * (y i - t i))) [((fun i => (i : ℝ)), fun _ => 3)]
        ([exDense (fun x => x) (fun _ => 1) 2 2] ++ { exDense (fun x : ℝ => x) (fun _ => 1) 2 1 with b := setAt (exDense (fun x : ℝ => x) (fun _ => 1) 2 1).b 0 z } :: []))
        = fun z : ℝ => (1 / 2 : ℝ) * ((z - 3) * (z - 3)) := by
      funext z
      simp [meanLoss, netOut, Dense.out, exDense, affine, setAt, foldSum]
    rw [e]
    exact h1

end Trixy
