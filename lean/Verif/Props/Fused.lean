import Verif.Props.Loss
import Verif.Props.Activation
/- C53: gradients of softmax/sigmoid output layers with the fused loss derivatives. -/
namespace Trixy
open Finset Losses

/-- The target has a single 1, at `c`. -/
def OneHot (m : Nat) (t : Nat → ℝ) (c : Nat) : Prop := c < m ∧ t c = 1 ∧ ∀ k, k < m → k ≠ c → t k = 0

theorem OneHot.sum {m : Nat} {t : Nat → ℝ} {c : Nat} (h : OneHot m t c) (f : Nat → ℝ) : ∑ k ∈ range m, t k * f k = f c := by
  rw [sum_eq_single c, h.2.1, one_mul]
  · intro k hk hne; rw [h.2.2 k (mem_range.1 hk) hne, zero_mul]
  · intro hh; exact absurd (mem_range.2 h.1) hh

/-- log-softmax. -/
theorem log_softmaxFn {m : Nat} (z : Nat → ℝ) {k : Nat} (hk : k < m) :
    Real.log (softmaxFn m z k) = z k - Real.log (∑ j ∈ range m, Real.exp (z j)) := by
  unfold softmaxFn
  rw [Real.log_div (Real.exp_pos _).ne' (sum_exp_pos (by omega) z).ne', Real.log_exp]

theorem cce_softmax {m : Nat} (t z : Nat → ℝ) (ht : ∑ k ∈ range m, t k = 1) :
    cceFn 0 m t (softmaxFn m z) = Real.log (∑ j ∈ range m, Real.exp (z j)) - ∑ k ∈ range m, t k * z k := by
  unfold cceFn
  have : ∑ i ∈ range m, t i * Real.log (softmaxFn m z i + 0) =
      ∑ i ∈ range m, (t i * z i - t i * Real.log (∑ j ∈ range m, Real.exp (z j))) :=
    sum_congr rfl (fun i hi => by rw [add_zero, log_softmaxFn z (mem_range.1 hi)]; ring)
  rw [this, sum_sub_distrib, ← sum_mul, ht]
  ring

theorem nll_softmax {m : Nat} (t z : Nat → ℝ) {c : Nat} (h : OneHot m t c) :
    nllFn m t (softmaxFn m z) = Real.log (∑ j ∈ range m, Real.exp (z j)) - ∑ k ∈ range m, t k * z k := by
  unfold nllFn
  rw [h.sum, h.sum, log_softmaxFn z h.1]
  ring

/-- The gradient of log Σ e^{z} - ⟨t, z⟩ is softmax z - t. -/
theorem lse_diff {m : Nat} (hm : 0 < m) (t z : Nat → ℝ) :
    LossDiffAt (fun t z => Real.log (∑ j ∈ range m, Real.exp (z j)) - ∑ k ∈ range m, t k * z k) (fun _ _ i => softmaxFn m z i - t i) m t z := by
  intro yc y' t0 h0 hy
  have h1 : HasDerivAt (fun s => ∑ j ∈ range m, Real.exp (yc s j)) (∑ j ∈ range m, Real.exp (z j) * y' j) t0 := by
    have := HasDerivAt.fun_sum (u := range m) (A := fun j s => Real.exp (yc s j)) (A' := fun j => Real.exp (z j) * y' j) (x := t0)
      (fun j hj => by have := (hy j (mem_range.1 hj)).exp; rwa [h0 j (mem_range.1 hj)] at this)
    exact this
  have h2 : HasDerivAt (fun s => ∑ k ∈ range m, t k * yc s k) (∑ k ∈ range m, t k * y' k) t0 := by
    have := HasDerivAt.fun_sum (u := range m) (A := fun j s => t j * yc s j) (A' := fun j => t j * y' j) (x := t0)
      (fun j hj => (hy j (mem_range.1 hj)).const_mul (t j))
    exact this
  have e0 : ∑ j ∈ range m, Real.exp (yc t0 j) = ∑ j ∈ range m, Real.exp (z j) := sum_congr rfl (fun j hj => by rw [h0 j (mem_range.1 hj)])
  have h3 := (h1.log (by rw [e0]; exact (sum_exp_pos hm z).ne')).sub h2
  refine h3.congr_deriv ?_
  rw [e0, sum_div, ← sum_sub_distrib]
  refine sum_congr rfl (fun k _ => ?_)
  unfold softmaxFn
  ring

/-- The gradient with respect to the softmax's input, for an ε-free cross entropy with targets summing to 1 … -/
theorem C53_cross_entropy_gradient {m : Nat} (hm : 0 < m) (t z : Nat → ℝ) (ht : ∑ k ∈ range m, t k = 1) :
    LossDiffAt (fun t z => cceFn 0 m t (softmaxFn m z)) (fun t z i => softmaxFn m z i - t i) m t z := by
  intro yc y' t0 h0 hy
  simp only [cce_softmax t _ ht]
  exact lse_diff hm t z yc y' t0 h0 hy

/-- … and for the negative log-likelihood with a one-hot target, is p - t. -/
theorem C53_nll_gradient {m : Nat} (t z : Nat → ℝ) {c : Nat} (h : OneHot m t c) :
    LossDiffAt (fun t z => nllFn m t (softmaxFn m z)) (fun t z i => softmaxFn m z i - t i) m t z := by
  intro yc y' t0 h0 hy
  simp only [nll_softmax t _ h]
  exact lse_diff (by have := h.1; omega) t z yc y' t0 h0 hy

/-- The `NLL` and `CCE` objects write prediction - target. -/
theorem NLL_Is (m : Nat) : NLL.Is m (nllFn m) (fun t y i => y i - t i) :=
  ⟨fun t y vt vy ht hy => (C52_values m).2.2.2.2.2.2 t y vt vy ht hy trivial, fun _ _ _ _ _ hr ht hy => mseD_writes hr ht hy⟩
theorem CCE_Is (m : Nat) : CCE.Is m (cceFn 1e-9 m) (fun t y i => y i - t i) :=
  ⟨fun t y vt vy ht hy => (C52_values m).2.2.2.2.1 t y vt vy ht hy trivial, fun _ _ _ _ _ hr ht hy => mseD_writes hr ht hy⟩

/-! ### Networks with a softmax output layer -/

/-- The layer without its activation. -/
def Dense.lin (q : Dense ℝ) : Dense ℝ := { q with F := fun v => v }

theorem netOut_append (ps : List (Dense ℝ)) (q : Dense ℝ) (v : Nat → ℝ) : netOut (ps ++ [q]) v = q.out (netOut ps v) := by
  induction ps generalizing v with
  | nil => rfl
  | cons p ps ih => exact ih (p.out v)

theorem netOut_lin (ps : List (Dense ℝ)) (q : Dense ℝ) (v : Nat → ℝ) : netOut (ps ++ [q]) v = q.F (netOut (ps ++ [q.lin]) v) := by
  rw [netOut_append, netOut_append]; rfl

theorem netBack_lin (ps : List (Dense ℝ)) (q : Dense ℝ) (v u : Nat → ℝ) : netBack (ps ++ [q]) v u = netBack (ps ++ [q.lin]) v u := by
  induction ps generalizing v with
  | nil => rfl
  | cons p ps ih =>
    show p.back v (netBack (ps ++ [q]) (p.out v) u) = p.back v (netBack (ps ++ [q.lin]) (p.out v) u)
    rw [ih]

theorem netGrads_lin (ps : List (Dense ℝ)) (q : Dense ℝ) (v u : Nat → ℝ) : netGrads (ps ++ [q]) v u = netGrads (ps ++ [q.lin]) v u := by
  induction ps generalizing v with
  | nil => rfl
  | cons p ps ih =>
    show p.grad v (netBack (ps ++ [q]) (p.out v) u) :: netGrads (ps ++ [q]) (p.out v) u =
      p.grad v (netBack (ps ++ [q.lin]) (p.out v) u) :: netGrads (ps ++ [q.lin]) (p.out v) u
    rw [ih, netBack_lin]

theorem Chain_lin (ps : List (Dense ℝ)) (q : Dense ℝ) {n m : Nat} (h : Chain n (ps ++ [q]) m) : Chain n (ps ++ [q.lin]) m ∧ q.m = m := by
  induction ps generalizing n with
  | nil => exact ⟨h, h.2⟩
  | cons p ps ih => exact ⟨⟨h.1, (ih h.2).1⟩, (ih h.2).2⟩

theorem DiffAt_lin (ps : List (Dense ℝ)) (q : Dense ℝ) (hq : q.D = fun _ _ => 1) (v : Nat → ℝ) (h : DiffAt ps v) : DiffAt (ps ++ [q.lin]) v := by
  induction ps generalizing v with
  | nil => exact ⟨⟨fun x => x, fun _ => 1, rfl, hq, fun k _ => hasDerivAt_id _⟩, trivial⟩
  | cons p ps ih => exact ⟨h.1, ih _ h.2⟩

/-- The gradients computed by backprop in a stack ending in a softmax layer, with the loss derivative p - t, are the partial
derivatives of a loss `L` for which p - t is the gradient of `L ∘ softmax`. -/
theorem softmax_partials (pre post hid : List (Dense ℝ)) (p q : Dense ℝ) (n m : Nat) (L : (Nat → ℝ) → (Nat → ℝ) → ℝ)
    (hc : Chain n (pre ++ p :: post) m) (v w : Nat → ℝ) (hs : pre ++ p :: post = hid ++ [q]) (hF : q.F = softmaxFn m) (hD : q.D = fun _ _ => 1)
    (hd : DiffAt hid v)
    (hL : ∀ z, LossDiffAt (fun t z => L t (softmaxFn m z)) (fun t z i => softmaxFn m z i - t i) m w z) :
    ∃ g : Grad ℝ, (sampleGrads (fun t y i => y i - t i) (pre ++ p :: post) (v, w))[pre.length]? = some g ∧
      (∀ j, j < p.m → HasDerivAt (fun z => L w (netOut (pre ++ { p with b := setAt p.b j z } :: post) v)) (g.1 j) (p.b j)) ∧
      (∀ i j, i < p.n → j < p.m →
        HasDerivAt (fun z => L w (netOut (pre ++ { p with W := setEntry p.W i j z } :: post) v)) (g.2 i j) (p.W i j)) := by
  have key : sampleGrads (fun t y i => y i - t i) (pre ++ p :: post) (v, w) =
      sampleGrads (fun t z i => softmaxFn m z i - t i) (hid ++ [q.lin]) (v, w) := by
    unfold sampleGrads
    rw [hs, netGrads_lin, netOut_lin, hF]
  rw [key]
  have hc' := (Chain_lin hid q (hs ▸ hc)).1
  have hd' := DiffAt_lin hid q hD v hd
  rcases List.eq_nil_or_concat post with rfl | ⟨post', q', rfl⟩
  · obtain ⟨rfl, e⟩ := List.append_inj' hs rfl
    cases e
    obtain ⟨g, h1, h2, h3⟩ := net_partials pre [] p.lin n m (fun t z => L t (softmaxFn m z)) _ hc' v w hd' (hL _)
    refine ⟨g, h1, fun j hj => ?_, fun i j hi hj => ?_⟩
    · have := h2 j hj
      refine this.congr_of_eventuallyEq (Filter.Eventually.of_forall (fun z => ?_))
      dsimp only
      rw [netOut_append, netOut_append]
      show L w (p.F _) = _
      rw [hF]; rfl
    · have := h3 i j hi hj
      refine this.congr_of_eventuallyEq (Filter.Eventually.of_forall (fun z => ?_))
      dsimp only
      rw [netOut_append, netOut_append]
      show L w (p.F _) = _
      rw [hF]; rfl
  · have hs' : (pre ++ p :: post') ++ [q'] = hid ++ [q] := by rw [← hs]; simp
    obtain ⟨rfl, e⟩ := List.append_inj' hs' rfl
    cases e
    have el : (pre ++ p :: post') ++ [q.lin] = pre ++ p :: (post' ++ [q.lin]) := by simp
    rw [el] at hc' hd' ⊢
    obtain ⟨g, h1, h2, h3⟩ := net_partials pre (post' ++ [q.lin]) p n m (fun t z => L t (softmaxFn m z)) _ hc' v w hd' (hL _)
    refine ⟨g, h1, fun j hj => ?_, fun i j hi hj => ?_⟩
    · refine (h2 j hj).congr_of_eventuallyEq (Filter.Eventually.of_forall (fun z => ?_))
      dsimp only
      have e1 : ∀ (a : Dense ℝ) (q : Dense ℝ), pre ++ a :: (post' ++ [q]) = (pre ++ a :: post') ++ [q] := by simp
      rw [List.concat_eq_append, e1, e1, netOut_lin, hF]
    · refine (h3 i j hi hj).congr_of_eventuallyEq (Filter.Eventually.of_forall (fun z => ?_))
      dsimp only
      have e1 : ∀ (a : Dense ℝ) (q : Dense ℝ), pre ++ a :: (post' ++ [q]) = (pre ++ a :: post') ++ [q] := by simp
      rw [List.concat_eq_append, e1, e1, netOut_lin, hF]

/-- C53: a network of fully connected layers whose last activation is `SoftMax`, trained with `NLL`: after
`feedforward(x); backprop(x, y)` with a one-hot target the gradients of every layer are the partial derivatives of
`NLL(y, network(x))`. -/
theorem softmax_nll_dense (t : Train ℝ) (pre post hid : List (Dense ℝ)) (p q : Dense ℝ) (n m c : Nat)
    (hs : pre ++ p :: post = hid ++ [q]) (hF : q.F = softmaxFn m) (hD : q.D = fun _ _ => 1)
    (h : t.Is (pre ++ p :: post) n m (fun t y i => y i - t i)) (_hloss : t.loss = some NLL)
    (x y : Ten ℝ) (v w : Nat → ℝ) (hx : VecIs x.data n v) (hy : VecIs y.data m w) (hw : OneHot m w c) (hd : DiffAt hid v) :
    Ok (do let t ← t.feedforward x; t.backprop x y) (fun t' => ∃ g : Grad ℝ, t'.net.GradAt pre.length p g ∧
      (∀ j, j < p.m → HasDerivAt (fun z => nllFn m w (netOut (pre ++ { p with b := setAt p.b j z } :: post) v)) (g.1 j) (p.b j)) ∧
      (∀ i j, i < p.n → j < p.m →
        HasDerivAt (fun z => nllFn m w (netOut (pre ++ { p with W := setEntry p.W i j z } :: post) v)) (g.2 i j) (p.W i j))) := by
  refine (C38_backprop t _ n m _ h x y v w hx hy).mono (fun t' q' => ?_)
  obtain ⟨g, hg, h1, h2⟩ := softmax_partials pre post hid p q n m (nllFn m) h.chain v w hs hF hD hd (fun z => C53_nll_gradient w z hw)
  exact ⟨g, q'.2 pre.length p g (by simp) hg, h1, h2⟩

/-- C53: the same with the class `CCE` and any target summing to 1; the gradients are those of the ε-free cross entropy. -/
theorem softmax_cce_dense (t : Train ℝ) (pre post hid : List (Dense ℝ)) (p q : Dense ℝ) (n m : Nat) (hm : 0 < m)
    (hs : pre ++ p :: post = hid ++ [q]) (hF : q.F = softmaxFn m) (hD : q.D = fun _ _ => 1)
    (h : t.Is (pre ++ p :: post) n m (fun t y i => y i - t i)) (_hloss : t.loss = some CCE)
    (x y : Ten ℝ) (v w : Nat → ℝ) (hx : VecIs x.data n v) (hy : VecIs y.data m w) (hw : ∑ k ∈ range m, w k = 1) (hd : DiffAt hid v) :
    Ok (do let t ← t.feedforward x; t.backprop x y) (fun t' => ∃ g : Grad ℝ, t'.net.GradAt pre.length p g ∧
      (∀ j, j < p.m → HasDerivAt (fun z => cceFn 0 m w (netOut (pre ++ { p with b := setAt p.b j z } :: post) v)) (g.1 j) (p.b j)) ∧
      (∀ i j, i < p.n → j < p.m →
        HasDerivAt (fun z => cceFn 0 m w (netOut (pre ++ { p with W := setEntry p.W i j z } :: post) v)) (g.2 i j) (p.W i j))) := by
  refine (C38_backprop t _ n m _ h x y v w hx hy).mono (fun t' q' => ?_)
  obtain ⟨g, hg, h1, h2⟩ := softmax_partials pre post hid p q n m (cceFn 0 m) h.chain v w hs hF hD hd
    (fun z => C53_cross_entropy_gradient hm w z hw)
  exact ⟨g, q'.2 pre.length p g (by simp) hg, h1, h2⟩

/-- A 2 → 3 → 2 classifier: tanh, then softmax, with `NLL`. -/
noncomputable def exClassifier : Train ℝ :=
  ⟨[.fc (FC.make 2 3 ActKind.tanh.obj 0 1), .fc (FC.make 3 2 softMaxAct 2 3)], ⟨1, 1, 2, [none, none]⟩, some NLL⟩
noncomputable def exHid : Dense ℝ := ⟨2, 3, fun _ => 0, fun _ _ => 0, fun v i => ActKind.tanh.cf (v i), fun v i => ActKind.tanh.cd (v i)⟩
noncomputable def exOut : Dense ℝ := ⟨3, 2, fun _ => 0, fun _ _ => 0, softmaxFn 2, fun _ _ => 1⟩

/-- The hypotheses of `softmax_nll_dense` are met. -/
example : exClassifier.Is [exHid, exOut] 2 2 (fun t y i => y i - t i) ∧ exClassifier.loss = some NLL ∧ ([] ++ exHid :: [exOut] = [exHid] ++ [exOut]) ∧
    OneHot 2 (fun i => if i = 1 then 1 else 0) 1 ∧ ∀ v, DiffAt [exHid] v := by
  refine ⟨⟨.cons ⟨_, rfl, FC.Wf_make 2 3 _ 0 1, ?_⟩ (.cons ⟨_, rfl, FC.Wf_make 3 2 _ 2 3, softMaxAct_Is 2 (by omega)⟩ .nil), by simp,
    by show 2 < W64; decide, ⟨rfl, rfl, rfl⟩, rfl, ⟨NLL, _, rfl, NLL_Is 2⟩⟩, rfl, rfl, ⟨by omega, by simp, fun k _ hk => by simp [hk]⟩, fun v => ?_⟩
  · have := Act.Is.elementwise ActKind.tanh.cf ActKind.tanh.cd 3
    rw [← ActKind.obj_eq] at this
    exact this
  · exact ⟨⟨_, _, rfl, rfl, fun k _ => ActKind.tanh.hasDerivAt (by decide) _ (by simp [ActKind.kinks])⟩, trivial⟩

/-! ### Sigmoid with BCE -/

theorem sigmoidD_pos (x : ℝ) : 0 < Fn.sigmoidD x := by
  unfold Fn.sigmoidD
  have := Real.cosh_pos x
  positivity

/-- C53 fails for a `Sigmoid` output layer with `BCE`: with 0/1 targets, the bias gradient backprop computes for component `j` is
σ'(z)·(p - t), which is not the derivative of the loss with respect to that bias, for any weights, biases and input. -/
theorem C53_sigmoid_bce_violated (l : FC ℝ) (hl : l.act = ActKind.sigmoid.obj) (n m : Nat) (b : Nat → ℝ) (W : Nat → Nat → ℝ) (h : l.Wf n m b W)
    (x y d : Ten ℝ) (v w : Nat → ℝ) (hx : VecIs x.data n v) (hy : VecIs y.data m w) (hd : d.data.length = m) (j : Nat) (hj : j < m)
    (hw : w j = 0 ∨ w j = 1) :
    Ok (do
      let l ← l.forward x
      let d ← d.onData (fun r => BCE.df r y.data l.value.data)
      l.backward x d false) (fun l' => ∃ β : Nat → ℝ, VecIs l'.gradB m β ∧
        β j = Fn.sigmoidD (pre n W b v j) * (Fn.sigmoid (pre n W b v j) - w j) ∧
        ¬ HasDerivAt (fun z => bceFn 1e-9 m w (fun k => Fn.sigmoid (pre n W (setAt b j z) v k))) (β j) (b j)) := by
  have hact : l.act.Is m (fun v i => ActKind.sigmoid.cf (v i)) (fun v i => ActKind.sigmoid.cd (v i)) := by rw [hl, ActKind.obj_eq]; exact Act.Is.elementwise ActKind.sigmoid.cf ActKind.sigmoid.cd m
  refine (FC.forward_spec h hact hx).bind (fun l1 q1 => ?_)
  have e1 := q1.2.2.2
  have hval := q1.2.1.2.2.2
  have hbce : Ok (BCE.df d.data y.data l1.value.data) (fun r' => VecIs r' m (fun k => Fn.sigmoid (affine n W b v k) - w k)) :=
    write_loop hd _ _ (fun i hi s g hg => by
      rw [hy.get hi, bind_ok, hval.get hi, bind_ok]
      refine (hg.set hi _).mono (fun s' h' => h'.congr (fun k _ => ?_))
      by_cases e : k = i
      · simp only [e, if_true]
        show some (w i * (Fn.sigmoid (affine n W b v i) - 1) + Fn.sigmoid (affine n W b v i) * (1 - w i)) = _
        congr 1; ring
      · simp only [e, if_false])
  refine (Ten.onData_spec (t := d) (f := fun r => BCE.df r y.data l1.value.data) hbce).bind (fun d' hd' => ?_)
  refine (FC.backward_spec q1.1 (by rw [e1]; exact hact) hx hd'.2.2.2 q1.2.2.1 false).mono (fun l2 q2 => ?_)
  refine ⟨_, q2.2.1, by rw [affine_real]; rfl, fun hder => ?_⟩
  rw [affine_real] at hder
  have hz : HasDerivAt (fun z => pre n W (setAt b j z) v j) 1 (b j) := by
    unfold pre
    simp only [setAt, if_true]
    exact (hasDerivAt_id (b j)).const_add _
  have hz0 : pre n W (setAt b j (b j)) v j = pre n W b v j := by simp [pre, setAt]
  have hsig : HasDerivAt (fun z => Fn.sigmoid (pre n W (setAt b j z) v j)) (Fn.sigmoidD (pre n W b v j)) (b j) := by
    have h1 := hasDerivAt_sigmoid (pre n W b v j)
    rw [← hz0] at h1
    have := h1.comp (b j) hz
    rw [hz0, mul_one] at this
    exact this
  have hs0 : 0 < Fn.sigmoid (pre n W b v j) := by unfold Fn.sigmoid; positivity
  have hs1 : Fn.sigmoid (pre n W b v j) < 1 := by
    have := (ActKind.sigmoid.fn_range (pre n W b v j)).2
    rwa [← ActKind.cf_eq] at this
  have hD := sigmoidD_pos (pre n W b v j)
  -- the loss as a function of this bias
  have hrest : ∀ z, bceFn 1e-9 m w (fun k => Fn.sigmoid (pre n W (setAt b j z) v k)) =
      -(w j * Real.log (Fn.sigmoid (pre n W (setAt b j z) v j) + 1e-9) + (1 - w j) * Real.log (1 - Fn.sigmoid (pre n W (setAt b j z) v j) + 1e-9)) +
      -∑ k ∈ (range m).erase j, (w k * Real.log (Fn.sigmoid (pre n W b v k) + 1e-9) + (1 - w k) * Real.log (1 - Fn.sigmoid (pre n W b v k) + 1e-9)) := by
    intro z
    unfold bceFn
    rw [← add_sum_erase _ _ (mem_range.2 hj), neg_add]
    congr 2
    refine sum_congr rfl (fun k hk => ?_)
    have : pre n W (setAt b j z) v k = pre n W b v k := by simp [pre, setAt, (mem_erase.1 hk).1]
    dsimp only
    rw [this]
  simp only [hrest] at hder
  have l1' := (hsig.add_const (1e-9 : ℝ)).log (by rw [hz0]; linarith)
  have l2' := ((hsig.const_sub 1).add_const (1e-9 : ℝ)).log (by rw [hz0]; linarith)
  have htrue := (((l1'.const_mul (w j)).add (l2'.const_mul (1 - w j))).neg).add_const
    (-∑ k ∈ (range m).erase j, (w k * Real.log (Fn.sigmoid (pre n W b v k) + 1e-9) + (1 - w k) * Real.log (1 - Fn.sigmoid (pre n W b v k) + 1e-9)))
  have e := hder.unique htrue
  rw [hz0] at e
  change Fn.sigmoidD (pre n W b v j) * (Fn.sigmoid (pre n W b v j) - w j) = _ at e
  set s := Fn.sigmoid (pre n W b v j)
  set D := Fn.sigmoidD (pre n W b v j)
  rcases hw with hw | hw <;> rw [hw] at e
  · have k : 1 - s + 1e-9 ≠ 0 := by linarith
    have e2 : D * s = D / (1 - s + 1e-9) := by
      rw [sub_zero] at e
      rw [e]; ring
    rw [eq_div_iff k] at e2
    have e3 : s * (1 - s + 1e-9) = 1 := by
      have : D * (s * (1 - s + 1e-9) - 1) = 0 := by linear_combination e2
      rcases mul_eq_zero.1 this with h0 | h0
      · exact absurd h0 hD.ne'
      · linarith
    nlinarith [sq_nonneg (s - 1 / 2)]
  · have k : s + 1e-9 ≠ 0 := by linarith
    have e2 : D * (s - 1) = -(D / (s + 1e-9)) := by rw [e]; ring
    have e3 : (1 - s) * (s + 1e-9) = 1 := by
      have e4 : D * (s - 1) * (s + 1e-9) = -D := by rw [e2]; field_simp
      have : D * ((1 - s) * (s + 1e-9) - 1) = 0 := by linear_combination -e4
      rcases mul_eq_zero.1 this with h0 | h0
      · exact absurd h0 hD.ne'
      · linarith
    nlinarith [sq_nonneg (s - 1 / 2)]

end Trixy
