import Verif.Proof.Loss
import Verif.Props.FC
import Verif.Props.Train
/- C51-C54: softmax and the losses. -/
namespace Trixy
open Finset Losses

/-! ### C51 softmax -/

/-- C51: for every non-empty input, into a separate range and in place, softmax writes e^{vᵢ} / Σⱼ e^{vⱼ}; it does so with any
functions `exp'` and `recip'` that agree with the exponential on non-positive numbers and with 1/s for s between 1 and the
number of elements, i.e. it never exponentiates a positive number nor divides by a sum below 1. -/
theorem C51_stable (exp' recip' : ℝ → Res ℝ) (n : Nat) (hn : 0 < n) (r x : Buf ℝ) (v : Nat → ℝ) (hr : r.length = n) (hx : VecIs x n v)
    (he : ∀ a, a ≤ 0 → exp' a = .ok (Real.exp a)) (hc : ∀ s : ℝ, 1 ≤ s → s ≤ n → recip' s = .ok (1 / s)) :
    Ok (softmax exp' recip' r x) (fun r' => VecIs r' n (softmaxFn n v)) ∧
    Ok (softmaxSelf exp' recip' x) (fun r' => VecIs r' n (softmaxFn n v)) := by
  obtain ⟨M, eM, h1, h2⟩ := rangeMax_spec hx hn
  have he' : ∀ i, i < n → exp' (v i - M) = .ok (Real.exp (v i - M)) := fun i hi => he _ (by linarith [h2 i hi])
  have hb := shifted_sum_bounds v M h1 h2
  have hc' := hc _ hb.1 hb.2
  have hf : ∀ i, i < n → Real.exp (v i - M) * (1 / ∑ j ∈ range n, Real.exp (v j - M)) = softmaxFn n v i := fun i _ => shift_softmax v M i
  constructor
  · unfold softmax
    rw [eM, bind_ok]
    exact (expInto_spec hr hx he').bind (fun r' h => (normalise_spec h hc').mono (fun r'' h' => VecIs.congr h' hf))
  · unfold softmaxSelf
    rw [eM, bind_ok]
    exact (expSelf_spec hx he').bind (fun r' h => (normalise_spec h hc').mono (fun r'' h' => VecIs.congr h' hf))

theorem realRecip_ok {s : ℝ} (h : s ≠ 0) : realRecip s = .ok (1 / s) := rdiv_ok h

/-- The `SoftMax` object on a non-empty range. -/
theorem softMaxAct_Is (n : Nat) (hn : 0 < n) : softMaxAct.Is n (softmaxFn n) (fun _ _ => 1) := by
  have key := fun r x v hr hx => C51_stable realExp realRecip n hn r x v hr hx (fun _ _ => rfl) (fun s h _ => realRecip_ok (by linarith))
  refine ⟨fun r x v hr hx => (key r x v hr hx).1, fun x v hx => (key x x v hx.length hx).2, fun r x v hr _ => fillInto_spec hr 1,
    fun x v hx => fillInto_spec hx.length 1, fun v v' h i hi => ?_, fun _ _ _ _ _ => rfl⟩
  unfold softmaxFn
  rw [h i hi, sum_congr rfl (fun j hj => by rw [h j (mem_range.1 hj)])]

/-- C51: the results of the `SoftMax` activation are positive, sum to 1, are ordered like the inputs (strictly), do not change
when a constant is added to all inputs, and equal those of `unstable_softmax`. -/
theorem C51_distribution (n : Nat) (hn : 0 < n) (r x : Buf ℝ) (v : Nat → ℝ) (hr : r.length = n) (hx : VecIs x n v) :
    ∃ p : Nat → ℝ, Ok (softMaxAct.f r x) (fun r' => VecIs r' n p) ∧ Ok (softMaxAct.fSelf x) (fun r' => VecIs r' n p) ∧
      (∀ i, i < n → 0 < p i) ∧ ∑ i ∈ range n, p i = 1 ∧ (∀ i, i < n → p i ≤ 1) ∧
      (∀ i j, i < n → j < n → (v i < v j ↔ p i < p j)) ∧
      (∀ (c : ℝ) (x' : Buf ℝ), VecIs x' n (fun i => v i + c) → Ok (softMaxAct.f r x') (fun r' => VecIs r' n p)) ∧
      Ok (unstableSoftmax realExp realRecip r x) (fun r' => VecIs r' n p) := by
  have hS := sum_exp_pos hn v
  have h := softMaxAct_Is n hn
  have hpos : ∀ i, i < n → 0 < softmaxFn n v i := fun i _ => div_pos (Real.exp_pos _) hS
  have hsum : ∑ i ∈ range n, softmaxFn n v i = 1 := by
    unfold softmaxFn
    rw [← sum_div, div_self hS.ne']
  refine ⟨softmaxFn n v, h.f r x v hr hx, h.fSelf x v hx, hpos, hsum, fun i hi => ?_, fun i j _ _ => ?_, fun c x' hx' => ?_, ?_⟩
  · rw [← hsum]
    exact single_le_sum (f := softmaxFn n v) (fun j hj => (hpos j (mem_range.1 hj)).le) (mem_range.2 hi)
  · unfold softmaxFn
    rw [div_lt_div_iff_of_pos_right hS, Real.exp_lt_exp]
  · refine (h.f r x' _ hr hx').mono (fun r' h' => VecIs.congr h' (fun i _ => ?_))
    unfold softmaxFn
    simp only [Real.exp_add]
    rw [← sum_mul]
    have := (Real.exp_pos c).ne'
    field_simp
  · unfold unstableSoftmax
    have : Ok (forN r.length r (fun i r => do let a ← x.get i; let e ← realExp a; r.set i e)) (fun r' => VecIs r' n (fun i => Real.exp (v i))) :=
      write_loop hr _ _ (fun i hi s g hg => by
        rw [hx.get hi, bind_ok]
        unfold realExp
        rw [bind_ok]
        exact hg.set hi _)
    refine this.bind (fun r' h' => (normalise_spec h' (realRecip_ok hS.ne')).mono (fun r'' h'' => VecIs.congr h'' (fun i _ => ?_)))
    unfold softmaxFn
    ring

/-- C51: on an empty range `softmax` reads outside of it. -/
theorem C51_empty : softMaxAct.f [] [] = .error .oob ∧ softMaxAct.fSelf [] = .error .oob := ⟨rfl, rfl⟩

example : VecIs (Buf.of [1, 2, 3] : Buf ℝ) 3 (fun i => i + 1) :=
  VecIs_of _ _ (fun i hi => by have : i < 3 := hi; interval_cases i <;> norm_num)

/-! ### C52 loss derivatives -/

/-- The values the loss functions return: textbook formulas. -/
theorem C52_values (m : Nat) :
    ValueIs MSE.f m (mseFn m) (fun _ _ => True) ∧ ValueIs MAE.f m (maeFn m) (fun _ _ => True) ∧
    ValueIs MSLE.f m (msleFn m) (fun t p => ∀ i, i < m → -1 < t i ∧ -1 < p i) ∧ ValueIs LC.f m (lcFn m) (fun _ _ => True) ∧
    ValueIs CCE.f m (cceFn 1e-9 m) (fun _ _ => True) ∧ ValueIs BCE.f m (bceFn 1e-9 m) (fun _ _ => True) ∧
    ValueIs NLL.f m (nllFn m) (fun _ _ => True) := by
  refine ⟨?_, ?_, ?_, ?_, ?_, ?_, ?_⟩ <;> intro t p vt vp ht hp hd
  · show mse t p = _
    unfold mse
    rw [acc_loop ht.length (fun i => (vp i - vt i) ^ 2) _ (fun i hi s => by
      rw [ht.get hi, bind_ok, hp.get hi, bind_ok]; exact congrArg Except.ok (by ring)), bind_ok]
    exact congrArg Except.ok (by unfold mseFn; ring)
  · exact acc_loop ht.length _ _ (fun i hi s => by rw [hp.get hi, bind_ok, ht.get hi, bind_ok]; rfl)
  · show msle t p = _
    unfold msle
    rw [acc_loop ht.length (fun i => (Real.log (vp i + 1) - Real.log (vt i + 1)) ^ 2) _ (fun i hi s => by
      have h := hd i hi
      rw [hp.get hi, bind_ok, ht.get hi, bind_ok, rdiv_ok (by linarith), bind_ok]
      refine congrArg Except.ok ?_
      rw [Real.log_div (by linarith) (by linarith)]
      ring), bind_ok]
    exact congrArg Except.ok (by unfold msleFn; ring)
  · exact acc_loop ht.length _ _ (fun i hi s => by rw [hp.get hi, bind_ok, ht.get hi, bind_ok]; rfl)
  · show cce t p = _
    unfold cce cceFn
    rw [← sum_neg_distrib]
    exact acc_loop ht.length _ _ (fun i hi s => by
      rw [ht.get hi, bind_ok, hp.get hi, bind_ok]; exact congrArg Except.ok (by unfold eps; ring))
  · show bce t p = _
    unfold bce bceFn
    rw [← sum_neg_distrib]
    exact acc_loop ht.length _ _ (fun i hi s => by
      rw [ht.get hi, bind_ok, hp.get hi, bind_ok]
      refine congrArg Except.ok ?_
      rw [show 1 + (eps - vp i) = 1 - vp i + eps by ring, sub_eq_add_neg]
      rfl)
  · show nll t p = _
    unfold nll
    rw [acc_loop ht.length (fun i => vt i * vp i) _ (fun i hi s => by rw [ht.get hi, bind_ok, hp.get hi, bind_ok]; rfl), bind_ok]
    rfl

theorem mseD_writes {m : Nat} {r t p : Buf ℝ} {vt vp : Nat → ℝ} (hr : r.length = m) (ht : VecIs t m vt) (hp : VecIs p m vp) :
    Ok (mseD r t p) (fun r' => VecIs r' m (fun i => vp i - vt i)) :=
  write_loop hr _ _ (fun i hi s g hg => by rw [hp.get hi, bind_ok, ht.get hi, bind_ok]; exact hg.set hi _)

theorem maeD_writes {m : Nat} {r t p : Buf ℝ} {vt vp : Nat → ℝ} (hr : r.length = m) (ht : VecIs t m vt) (hp : VecIs p m vp) :
    Ok (maeD r t p) (fun r' => VecIs r' m (fun i => if vt i - vp i < 0 then -1 else if vt i - vp i > 0 then 1 else 0)) :=
  write_loop hr _ _ (fun i hi s g hg => by
    rw [ht.get hi, bind_ok, hp.get hi, bind_ok]
    obtain ⟨s1, e1, h1⟩ := hg.set hi (vt i - vp i)
    have e2 : s1.get i = .ok (vt i - vp i) := h1.get hi (if_pos rfl)
    rw [e1, bind_ok, e2, bind_ok]
    exact (h1.set hi _).mono (fun s' h' => h'.congr (fun j _ => by by_cases e : j = i <;> simp [e])))

theorem gradient_of {df : Buf ℝ → Buf ℝ → Buf ℝ → Res (Buf ℝ)} {m : Nat} {L : (Nat → ℝ) → (Nat → ℝ) → ℝ} {g vt vp : Nat → ℝ} {r t p : Buf ℝ}
    (h1 : Ok (df r t p) (fun r' => VecIs r' m g)) (h2 : LossDiffAt L (fun _ _ => g) m vt vp) :
    ∃ g : Nat → ℝ, Ok (df r t p) (fun r' => VecIs r' m g) ∧
      (∀ i, i < m → HasDerivAt (fun z => L vt (setAt vp i z)) (g i) (vp i)) ∧ LossDiffAt L (fun _ _ => g) m vt vp :=
  ⟨g, h1, fun i hi => setAt_curve h2 i hi, h2⟩

/-- C52: `MSE.df`, `LC.df` and, for predictions and targets above -1, `MSLE.df` write the gradient of the loss with respect to
the prediction, and so does `categorical_cross_entropy_derived` for predictions above -1e-9. -/
theorem C52_gradients_partial (m : Nat) :
    GradientIs MSE.df m (mseFn m) (fun _ _ => True) ∧ GradientIs LC.df m (lcFn m) (fun _ _ => True) ∧
    GradientIs MSLE.df m (msleFn m) (fun t p => ∀ i, i < m → -1 < t i ∧ -1 < p i) ∧
    GradientIs cceD m (cceFn 1e-9 m) (fun _ p => ∀ i, i < m → -1e-9 < p i) := by
  refine ⟨?_, ?_, ?_, ?_⟩ <;> intro r t p vt vp hr ht hp hd
  · refine gradient_of (mseD_writes hr ht hp) ?_
    have := (sum_lossDiff (m := m) (vt := vt) (vp := vp) (fun i t z => (z - t i) ^ 2) (fun i => 2 * (vp i - vt i)) (fun i _ =>
      (((hasDerivAt_id (vp i)).sub_const (vt i)).fun_pow 2).congr_deriv (by simp))).const_mul (1 / 2)
    exact this.congr (fun p => rfl) (fun i _ => by ring)
  · refine gradient_of (df := LC.df) (g := fun i => Real.tanh (vp i - vt i)) (write_loop hr _ _ (fun i hi s g hg => by
      rw [hp.get hi, bind_ok, ht.get hi, bind_ok]; exact hg.set hi _)) ?_
    exact sum_lossDiff (m := m) (fun i t z => Real.log (Real.cosh (z - t i))) _ (fun i _ => by
      have h1 := (Real.hasDerivAt_cosh (vp i - vt i)).comp (vp i) ((hasDerivAt_id (vp i)).sub_const (vt i))
      refine (h1.log (Real.cosh_pos _).ne').congr_deriv ?_
      rw [Real.tanh_eq_sinh_div_cosh]
      simp)
  · refine gradient_of (df := MSLE.df) (g := fun i => Real.log ((vp i + 1) / (vt i + 1)) / (vp i + 1)) (write_loop hr _ _ (fun i hi s g hg => by
      have h := hd i hi
      rw [hp.get hi, bind_ok]
      obtain ⟨s1, e1, h1⟩ := hg.set hi (vp i + 1)
      have e2 : s1.get i = .ok (vp i + 1) := h1.get hi (if_pos rfl)
      rw [e1, bind_ok, e2, bind_ok, ht.get hi, bind_ok, rdiv_ok (by linarith), bind_ok, bind_ok,
        rdiv_ok (by linarith), bind_ok]
      exact (h1.set hi _).mono (fun s' h' => h'.congr (fun j _ => by by_cases e : j = i <;> simp [e])))) ?_
    have := (sum_lossDiff (m := m) (vt := vt) (vp := vp) (fun i t z => (Real.log (z + 1) - Real.log (t i + 1)) ^ 2)
      (fun i => 2 * (Real.log (vp i + 1) - Real.log (vt i + 1)) * (1 / (vp i + 1))) (fun i hi => by
        have h := hd i hi
        have h1 := (((hasDerivAt_id (vp i)).add_const 1).log (by simp only [id]; linarith)).sub_const (Real.log (vt i + 1))
        exact (h1.fun_pow 2).congr_deriv (by simp))).const_mul (1 / 2)
    exact this.congr (fun p => rfl) (fun i hi => by
      have h := hd i hi
      rw [Real.log_div (by linarith) (by linarith)]; ring)
  · refine gradient_of (g := fun i => -vt i / (vp i + eps)) (write_loop hr _ _ (fun i hi s g hg => by
      have h := hd i hi
      rw [ht.get hi, bind_ok, hp.get hi, bind_ok, rdiv_ok (by unfold eps; linarith), bind_ok]
      exact hg.set hi _)) ?_
    have := (sum_lossDiff (m := m) (vt := vt) (vp := vp) (fun i t z => t i * Real.log (z + 1e-9))
      (fun i => vt i * (1 / (vp i + 1e-9))) (fun i hi => by
        have h := hd i hi
        have h1 := (((hasDerivAt_id (vp i)).add_const (1e-9 : ℝ)).log (by simp only [id]; linarith))
        exact h1.const_mul (vt i))).const_mul (-1)
    exact this.congr (fun p => by unfold cceFn; ring) (fun i _ => by unfold eps; ring)

/-- C52 fails for `MAE`: wherever the prediction differs from the target, the value `df` writes is the negative of the partial
derivative (which is not 0). -/
theorem C52_mae_violated (m : Nat) (r t p : Buf ℝ) (vt vp : Nat → ℝ) (hr : r.length = m) (ht : VecIs t m vt) (hp : VecIs p m vp) :
    ∃ g : Nat → ℝ, Ok (MAE.df r t p) (fun r' => VecIs r' m g) ∧
      ∀ i, i < m → vp i ≠ vt i → g i ≠ 0 ∧ HasDerivAt (fun z => maeFn m vt (setAt vp i z)) (-g i) (vp i) := by
  refine ⟨_, maeD_writes hr ht hp, fun i hi hne => ?_⟩
  have hs : ∀ z, maeFn m vt (setAt vp i z) = |z - vt i| + ∑ j ∈ (range m).erase i, |vp j - vt j| := fun z => by
    unfold maeFn
    rw [← add_sum_erase _ _ (mem_range.2 hi)]
    congr 1
    · simp [setAt]
    · exact sum_congr rfl (fun j hj => by simp [setAt, (mem_erase.1 hj).1])
  simp only [hs]
  rcases lt_or_gt_of_ne hne with h | h
  · rw [if_neg (by linarith), if_pos (by linarith)]
    refine ⟨one_ne_zero, HasDerivAt.add_const _ ?_⟩
    exact glue_lt h (fun y hy => abs_of_neg (by linarith)) (((hasDerivAt_id (vp i)).sub_const (vt i)).neg)
  · rw [if_pos (by linarith)]
    refine ⟨by norm_num, HasDerivAt.add_const _ ?_⟩
    rw [neg_neg]
    exact glue_gt h (fun y hy => abs_of_pos (by linarith)) ((hasDerivAt_id (vp i)).sub_const (vt i))

/-- C52 fails for `binary_cross_entropy_derived`: for predictions strictly between 0 and 1 - 1e-9 and any target other than 1,
what it writes is not the derivative of `binary_cross_entropy` (one component). -/
theorem C52_bce_derived_violated (a b : ℝ) (ha : a ≠ 1) (hb : 0 < b) (hb' : b < 1 - 1e-9) (r : Buf ℝ) (hr : r.length = 1) :
    ∃ g, bceD r (Buf.of [a]) (Buf.of [b]) = .ok (Buf.of [g]) ∧
      ¬ HasDerivAt (fun z => bceFn 1e-9 1 (fun _ => a) (fun _ => z)) g b := by
  have hx : ∀ c : ℝ, VecIs (Buf.of [c] : Buf ℝ) 1 (fun _ => c) := fun c => VecIs_of [c] _ (fun i hi => by simp)
  refine ⟨(a - 1) / (b + (eps - 1)) - a / (b + eps), ?_, fun h => ?_⟩
  · obtain ⟨r', e, h⟩ : Ok (bceD r (Buf.of [a]) (Buf.of [b])) (fun r' => VecIs r' 1 (fun _ => (a - 1) / (b + (eps - 1)) - a / (b + eps))) :=
      write_loop hr _ _ (fun i hi s g hg => by
        rw [(hx a).get hi, bind_ok, (hx b).get hi, bind_ok, rdiv_ok (by unfold eps; linarith), bind_ok,
          rdiv_ok (by unfold eps; linarith), bind_ok]
        exact hg.set hi _)
    rw [e]
    congr 1
    exact BufIs.ext h (hx _)
  · have h1 : HasDerivAt (fun z => bceFn 1e-9 1 (fun _ => a) (fun _ => z)) (-(a * (1 / (b + 1e-9)) + (1 - a) * (-1 / (1 - b + 1e-9)))) b := by
      unfold bceFn
      simp only [sum_range_one]
      have l1 := ((hasDerivAt_id b).add_const (1e-9 : ℝ)).log (by simp only [id]; linarith)
      have l2 := ((((hasDerivAt_id b).const_sub 1)).add_const (1e-9 : ℝ)).log (by simp only [id]; linarith)
      exact ((l1.const_mul a).add (l2.const_mul (1 - a))).neg
    have e := h.unique h1
    unfold eps at e
    have k1 : b + (1e-9 - 1) ≠ 0 := by linarith
    have k2 : 1 - b + 1e-9 ≠ 0 := by linarith
    have k3 : b + 1e-9 ≠ 0 := by linarith
    have e2 : (a - 1) / (b + (1e-9 - 1)) = -((1 - a) * (-1 / (1 - b + 1e-9))) := by
      have : a / (b + 1e-9) = a * (1 / (b + 1e-9)) := by ring
      linarith
    have e3 : (a - 1) / (b + (1e-9 - 1)) = (1 - a) / (1 - b + 1e-9) := by rw [e2]; ring
    rw [div_eq_div_iff k1 k2] at e3
    have : (1 - a) * (2 * 1e-9) = 0 := by linear_combination -e3
    rcases mul_eq_zero.1 this with h0 | h0
    · exact ha (by linarith)
    · norm_num at h0

/-- C52 fails for the class `CCE` on its own (it is meant to be used with `SoftMax`): its `df` is not the gradient of its `f`.
With one component, `df` writes prediction - target whereas the derivative is -target/(prediction + 1e-9): they differ for
every prediction p >= 0 and target 1 except on one curve; in particular for p = 1. -/
theorem C52_cce_violated (r : Buf ℝ) (hr : r.length = 1) :
    CCE.df r (Buf.of [1]) (Buf.of [1]) = .ok (Buf.of [0]) ∧
      ¬ HasDerivAt (fun z => cceFn 1e-9 1 (fun _ => 1) (fun _ => z)) 0 1 := by
  have hx : ∀ c : ℝ, VecIs (Buf.of [c] : Buf ℝ) 1 (fun _ => c) := fun c => VecIs_of [c] _ (fun i hi => by simp)
  constructor
  · obtain ⟨r', e, h⟩ := mseD_writes hr (hx 1) (hx 1)
    show mseD _ _ _ = _
    rw [e]
    congr 1
    exact BufIs.ext h ((hx 0).congr (fun i _ => by simp))
  · intro h
    have h1 : HasDerivAt (fun z => cceFn 1e-9 1 (fun _ => 1) (fun _ => z)) (-(1 * (1 / (1 + 1e-9)))) 1 := by
      unfold cceFn
      simp only [sum_range_one]
      exact ((((hasDerivAt_id (1:ℝ)).add_const (1e-9 : ℝ)).log (by norm_num)).const_mul 1).neg
    have := h.unique h1
    norm_num at this

/-! ### C54 non-negativity -/

/-- C54: the values of `MSE`, `MAE`, `LC`, and of `MSLE` above -1, are non-negative and are 0 exactly when the prediction
equals the target in every component. -/
theorem C54_nonneg (m : Nat) (t p : Buf ℝ) (vt vp : Nat → ℝ) (ht : VecIs t m vt) (hp : VecIs p m vp) :
    (∀ l : Loss ℝ, l = MSE ∨ l = MAE ∨ l = LC ∨ (l = MSLE ∧ ∀ i, i < m → -1 < vt i ∧ -1 < vp i) →
      Ok (l.f t p) (fun e => 0 ≤ e ∧ (e = 0 ↔ ∀ i, i < m → vp i = vt i))) := by
  obtain ⟨h1, h2, h3, h4, -⟩ := C52_values m
  rintro l (rfl | rfl | rfl | ⟨rfl, hd⟩)
  · rw [h1 t p vt vp ht hp trivial, Ok_ok]
    unfold mseFn
    have hs : 0 ≤ ∑ i ∈ range m, (vp i - vt i) ^ 2 := sum_nonneg (fun i _ => sq_nonneg _)
    refine ⟨by linarith, ⟨fun h i hi => ?_, fun h => ?_⟩⟩
    · have h0 : ∑ i ∈ range m, (vp i - vt i) ^ 2 = 0 := by linarith
      have := (sum_eq_zero_iff_of_nonneg (fun i _ => sq_nonneg (vp i - vt i))).1 h0 i (mem_range.2 hi)
      have := pow_eq_zero_iff (two_ne_zero) |>.1 this
      linarith
    · rw [sum_eq_zero (fun i hi => by rw [h i (mem_range.1 hi)]; ring)]; ring
  · rw [h2 t p vt vp ht hp trivial, Ok_ok]
    unfold maeFn
    refine ⟨sum_nonneg (fun i _ => abs_nonneg _), ⟨fun h i hi => ?_, fun h => ?_⟩⟩
    · have := (sum_eq_zero_iff_of_nonneg (fun i _ => abs_nonneg (vp i - vt i))).1 h i (mem_range.2 hi)
      have := abs_eq_zero.1 this
      linarith
    · exact sum_eq_zero (fun i hi => by rw [h i (mem_range.1 hi)]; simp)
  · rw [h4 t p vt vp ht hp trivial, Ok_ok]
    unfold lcFn
    have hn : ∀ i ∈ range m, 0 ≤ Real.log (Real.cosh (vp i - vt i)) := fun i _ => Real.log_nonneg (Real.one_le_cosh _)
    refine ⟨sum_nonneg hn, ⟨fun h i hi => ?_, fun h => ?_⟩⟩
    · have := (sum_eq_zero_iff_of_nonneg hn).1 h i (mem_range.2 hi)
      by_contra hne
      have := Real.log_pos ((Real.one_lt_cosh (x := vp i - vt i)).2 (fun e => hne (by linarith)))
      linarith
    · exact sum_eq_zero (fun i hi => by rw [h i (mem_range.1 hi)]; simp)
  · rw [h3 t p vt vp ht hp hd, Ok_ok]
    unfold msleFn
    have hs : 0 ≤ ∑ i ∈ range m, (Real.log (vp i + 1) - Real.log (vt i + 1)) ^ 2 := sum_nonneg (fun i _ => sq_nonneg _)
    refine ⟨by linarith, ⟨fun h i hi => ?_, fun h => ?_⟩⟩
    · have h0 : ∑ i ∈ range m, (Real.log (vp i + 1) - Real.log (vt i + 1)) ^ 2 = 0 := by linarith
      have := (sum_eq_zero_iff_of_nonneg (fun i _ => sq_nonneg (Real.log (vp i + 1) - Real.log (vt i + 1)))).1 h0 i (mem_range.2 hi)
      have h5 := pow_eq_zero_iff (two_ne_zero) |>.1 this
      have hdi := hd i hi
      have := Real.log_injOn_pos (show vp i + 1 ∈ Set.Ioi 0 by simp; linarith) (show vt i + 1 ∈ Set.Ioi 0 by simp; linarith) (by linarith)
      linarith
    · rw [sum_eq_zero (fun i hi => by rw [h i (mem_range.1 hi)]; ring)]; ring

end Trixy
