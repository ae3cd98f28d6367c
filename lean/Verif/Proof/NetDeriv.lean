import Verif.Spec.NetDeriv
import Verif.Proof.Deriv
import Verif.Proof.TrainDense
import Verif.Proof.Sum
/- The chain rule through a stack of dense layers. -/
namespace Trixy
open Finset

theorem affine_pre (n : Nat) (W : Nat → Nat → ℝ) (b x : Nat → ℝ) : affine n W b x = pre n W b x := by
  funext j; unfold affine pre; rw [foldSum_zero_eq]

/-- A dense layer whose parameters move along curves. -/
structure DCurve where
  p : Dense ℝ
  bc : ℝ → Nat → ℝ
  Wc : ℝ → Nat → Nat → ℝ
  b' : Nat → ℝ
  W' : Nat → Nat → ℝ

def DCurve.at (c : DCurve) (t : ℝ) : Dense ℝ := { c.p with b := c.bc t, W := c.Wc t }

structure DCurve.Ok (c : DCurve) (t0 : ℝ) : Prop where
  b0 : c.bc t0 = c.p.b
  W0 : c.Wc t0 = c.p.W
  hb : ∀ k, k < c.p.m → HasDerivAt (fun t => c.bc t k) (c.b' k) t0
  hW : ∀ i k, i < c.p.n → k < c.p.m → HasDerivAt (fun t => c.Wc t i k) (c.W' i k) t0

noncomputable def pairG (n m : Nat) (gr : Grad ℝ) (b' : Nat → ℝ) (W' : Nat → Nat → ℝ) : ℝ :=
  ∑ k ∈ range m, gr.1 k * b' k + ∑ i ∈ range n, ∑ k ∈ range m, gr.2 i k * W' i k

noncomputable def pairSum : List DCurve → List (Grad ℝ) → ℝ
  | c :: cs, gr :: gs => pairG c.p.n c.p.m gr c.b' c.W' + pairSum cs gs
  | _, _ => 0

theorem net_curve (cs : List DCurve) : ∀ {n m : Nat} {t0 : ℝ} {xc : ℝ → Nat → ℝ} {x' : Nat → ℝ},
    (∀ c ∈ cs, c.Ok t0) → Chain n (cs.map (·.p)) m → DiffAt (cs.map (·.p)) (xc t0) →
    (∀ i, i < n → HasDerivAt (fun t => xc t i) (x' i) t0) →
    ∃ y' : Nat → ℝ, (∀ k, k < m → HasDerivAt (fun t => netOut (cs.map (fun c => c.at t)) (xc t) k) (y' k) t0) ∧
      ∀ u : Nat → ℝ, ∑ k ∈ range m, u k * y' k =
        pairSum cs (netGrads (cs.map (·.p)) (xc t0) u) + ∑ i ∈ range n, netBack (cs.map (·.p)) (xc t0) u i * x' i := by
  induction cs with
  | nil =>
    intro n m t0 xc x' _ hc _ hx
    cases hc
    refine ⟨x', hx, fun u => ?_⟩
    simp [pairSum, netBack]
  | cons c cs ih =>
    intro n m t0 xc x' hok hc hd hx
    obtain ⟨e, hc⟩ := hc
    subst e
    obtain ⟨⟨g, g', eF, eD, hg⟩, hd⟩ := hd
    have hc0 := hok c (by simp)
    have hout : ∀ t, c.p.F (affine c.p.n (c.Wc t) (c.bc t) (xc t)) = fun k => g (pre c.p.n (c.Wc t) (c.bc t) (xc t) k) := by
      intro t; rw [eF, affine_pre]
    have h0 : c.at t0 = c.p := by unfold DCurve.at; rw [hc0.b0, hc0.W0]
    -- the output curve of this layer
    have hx1 : (c.at t0).out (xc t0) = c.p.out (xc t0) := by rw [h0]
    have step := ih (n := c.p.m) (m := m) (t0 := t0) (xc := fun t => (c.at t).out (xc t))
      (x' := fun k => g' (pre c.p.n c.p.W c.p.b (xc t0) k) *
        (∑ i ∈ range c.p.n, (x' i * c.p.W i k + xc t0 i * c.W' i k) + c.b' k))
      (fun c' h' => hok c' (by simp [h'])) hc (by rw [hx1]; exact hd) (fun k hk => ?_)
    · obtain ⟨y', hy, hu⟩ := step
      refine ⟨y', hy, fun u => ?_⟩
      rw [hu u, hx1]
      show _ = pairG _ _ _ _ _ + pairSum cs _ + ∑ i ∈ range c.p.n, Dense.back c.p _ _ i * x' i
      generalize hU : netBack (cs.map (·.p)) (c.p.out (xc t0)) u = U
      have key := fc_pairing c.p.n c.p.m c.p.W c.W' (xc t0) x' c.b' (fun k => g' (pre c.p.n c.p.W c.p.b (xc t0) k) * U k)
      have hD : c.p.D (affine c.p.n c.p.W c.p.b (xc t0)) = fun k => g' (pre c.p.n c.p.W c.p.b (xc t0) k) := by rw [eD, affine_pre]
      have e1 : ∑ i ∈ range c.p.m, U i * (g' (pre c.p.n c.p.W c.p.b (xc t0) i) *
          (∑ j ∈ range c.p.n, (x' j * c.p.W j i + xc t0 j * c.W' j i) + c.b' i)) =
          ∑ k ∈ range c.p.m, (fun k => g' (pre c.p.n c.p.W c.p.b (xc t0) k) * U k) k *
            (∑ i ∈ range c.p.n, (x' i * c.p.W i k + xc t0 i * c.W' i k) + c.b' k) :=
        Finset.sum_congr rfl (fun k _ => by ring)
      rw [e1, key]
      unfold pairG Dense.grad Dense.back
      simp only [hD, List.map_cons, foldSum_zero_eq]
      ring
    · have := fc_curve (n := c.p.n) (g := g) (Wc := c.Wc) (bc := c.bc) (xc := xc) (W' := c.W') (b' := c.b') (x' := x') (t0 := t0)
        (gk := g' (pre c.p.n c.p.W c.p.b (xc t0) k)) (k := k) (fun i hi => hc0.hW i k hi hk) (hc0.hb k hk) hx
        (by rw [hc0.b0, hc0.W0]; exact hg k hk)
      rw [hc0.W0] at this
      have e : (fun t => (c.at t).out (xc t) k) = fun t => g (pre c.p.n (c.Wc t) (c.bc t) (xc t) k) := by
        funext t
        show c.p.F (affine c.p.n (c.Wc t) (c.bc t) (xc t)) k = _
        rw [hout]
      rw [e]; exact this

/-- A layer that does not move. -/
def constC (p : Dense ℝ) : DCurve := ⟨p, fun _ => p.b, fun _ => p.W, fun _ => 0, fun _ _ => 0⟩

theorem constC_ok (p : Dense ℝ) (t0 : ℝ) : (constC p).Ok t0 :=
  ⟨rfl, rfl, fun _ _ => hasDerivAt_const _ _, fun _ _ _ _ => hasDerivAt_const _ _⟩

theorem pairG_zero (n m : Nat) (gr : Grad ℝ) : pairG n m gr (fun _ => 0) (fun _ _ => 0) = 0 := by simp [pairG]

theorem pairSum_const (ps : List (Dense ℝ)) : ∀ gs : List (Grad ℝ), pairSum (ps.map constC) gs = 0 := by
  induction ps with
  | nil => intro gs; simp [pairSum]
  | cons p ps ih =>
    intro gs
    cases gs with
    | nil => simp [pairSum]
    | cons g gs => simp only [List.map_cons, pairSum, ih, constC, pairG_zero, add_zero]

theorem pairSum_one (pre post : List (Dense ℝ)) (c : DCurve) : ∀ (gs : List (Grad ℝ)) (gr : Grad ℝ), gs[pre.length]? = some gr →
    pairSum (pre.map constC ++ c :: post.map constC) gs = pairG c.p.n c.p.m gr c.b' c.W' := by
  induction pre with
  | nil =>
    intro gs gr h
    cases gs with
    | nil => simp at h
    | cons g gs =>
      simp only [List.length_nil, List.getElem?_cons_zero, Option.some.injEq] at h
      subst h
      simp only [List.map_nil, List.nil_append, pairSum, pairSum_const, add_zero]
  | cons p pre ih =>
    intro gs gr h
    cases gs with
    | nil => simp at h
    | cons g gs =>
      simp only [List.length_cons, List.getElem?_cons_succ] at h
      simp only [List.map_cons, List.cons_append, pairSum, ih gs gr h, constC, pairG_zero, zero_add]

/-- Moving the parameters of one layer of a stack. -/
theorem net_one (pre post : List (Dense ℝ)) (c : DCurve) {n m : Nat} {t0 : ℝ} {v w : Nat → ℝ}
    {L : (Nat → ℝ) → (Nat → ℝ) → ℝ} {dL : (Nat → ℝ) → (Nat → ℝ) → Nat → ℝ} (hok : c.Ok t0)
    (hc : Chain n (pre ++ c.p :: post) m) (hd : DiffAt (pre ++ c.p :: post) v)
    (hL : LossDiffAt L dL m w (netOut (pre ++ c.p :: post) v)) :
    ∃ gr, (sampleGrads dL (pre ++ c.p :: post) (v, w))[pre.length]? = some gr ∧
      HasDerivAt (fun t => L w (netOut (pre ++ c.at t :: post) v)) (pairG c.p.n c.p.m gr c.b' c.W') t0 := by
  have hmap : (pre.map constC ++ c :: post.map constC).map (·.p) = pre ++ c.p :: post := by
    simp [Function.comp_def, constC]
  have hat : ∀ t, (pre.map constC ++ c :: post.map constC).map (fun c => c.at t) = pre ++ c.at t :: post := by
    intro t; simp [Function.comp_def, constC, DCurve.at]
  have h0 : c.at t0 = c.p := by unfold DCurve.at; rw [hok.b0, hok.W0]
  have hlen : (sampleGrads dL (pre ++ c.p :: post) (v, w)).length = pre.length + (post.length + 1) := by
    rw [sampleGrads_length]; simp
  have hget : (sampleGrads dL (pre ++ c.p :: post) (v, w))[pre.length]? = some ((sampleGrads dL (pre ++ c.p :: post) (v, w))[pre.length]'(by omega)) :=
    List.getElem?_eq_getElem _
  refine ⟨_, hget, ?_⟩
  obtain ⟨y', hy, hu⟩ := net_curve (pre.map constC ++ c :: post.map constC) (n := n) (m := m) (t0 := t0) (xc := fun _ => v) (x' := fun _ => 0)
    (fun c' h' => by
      rcases List.mem_append.1 h' with h' | h'
      · obtain ⟨p, _, rfl⟩ := List.mem_map.1 h'; exact constC_ok p t0
      · rcases List.mem_cons.1 h' with rfl | h'
        · exact hok
        · obtain ⟨p, _, rfl⟩ := List.mem_map.1 h'; exact constC_ok p t0)
    (by rw [hmap]; exact hc) (by rw [hmap]; exact hd) (fun _ _ => hasDerivAt_const _ _)
  simp only [hat, hmap] at hy hu
  have := hL (fun t => netOut (pre ++ c.at t :: post) v) y' t0 (fun k _ => by rw [h0]) hy
  have e : pairSum (pre.map constC ++ c :: post.map constC) (netGrads (pre ++ c.p :: post) v (dL w (netOut (pre ++ c.p :: post) v))) = _ :=
    pairSum_one pre post c _ _ hget
  rw [hu, e] at this
  simpa using this

end Trixy
