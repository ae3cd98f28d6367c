import Verif.Spec.Loss
import Verif.Proof.Scalar
import Verif.Proof.Sum
import Mathlib.Algebra.Order.BigOperators.Group.Finset
import Mathlib.Analysis.Calculus.Deriv.Abs
/- Softmax and losses. -/
namespace Trixy
open Finset

/-! ### Softmax loops -/

theorem rangeMax_spec {x : Buf ℝ} {n : Nat} {v : Nat → ℝ} (hx : VecIs x n v) (hn : 0 < n) :
    Ok (rangeMax x) (fun M => (∃ i, i < n ∧ v i = M) ∧ ∀ i, i < n → v i ≤ M) := by
  unfold rangeMax
  rw [hx.get hn, bind_ok]
  have := forLoop_spec (lo := 1) (hi := x.length) (s := v 0) (body := fun i (m : ℝ) => do
      let a ← x.get i
      return if m < a then a else m) (fun k M => (∃ i, i < n ∧ v i = M) ∧ ∀ i, i < k → v i ≤ M) (by rw [hx.length]; omega)
      ⟨⟨0, hn, rfl⟩, fun i hi => by (have h0 : i = 0 := by omega); (rw [h0])⟩ (fun i h1 h2 M hM => by
        rw [hx.length] at h2
        rw [hx.get h2, bind_ok]
        refine Ok_ok.2 ?_
        split_ifs with h
        · refine ⟨⟨i, h2, rfl⟩, fun j hj => ?_⟩
          rcases Nat.lt_succ_iff_lt_or_eq.1 hj with h' | rfl
          · exact (hM.2 j h').trans h.le
          · rfl
        · refine ⟨hM.1, fun j hj => ?_⟩
          rcases Nat.lt_succ_iff_lt_or_eq.1 hj with h' | rfl
          · exact hM.2 j h'
          · exact not_lt.1 h)
  rw [hx.length] at this
  rw [hx.length]
  exact this

theorem sum_loop {x : Buf ℝ} {n : Nat} {v : Nat → ℝ} (hx : VecIs x n v) :
    forN x.length (0 : ℝ) (fun i s => do let a ← x.get i; return s + a) = .ok (∑ i ∈ range n, v i) := by
  refine Ok.eq ?_
  rw [hx.length]
  exact forN_spec (fun k s => s = ∑ i ∈ range k, v i) (by simp) (fun i hi s hs => by
    rw [hx.get hi, bind_ok]; exact Ok_ok.2 (by rw [sum_range_succ, hs]))

theorem normalise_spec {x : Buf ℝ} {n : Nat} {v : Nat → ℝ} (hx : VecIs x n v) {recip : ℝ → Res ℝ} {c : ℝ}
    (hc : recip (∑ i ∈ range n, v i) = .ok c) : Ok (normalise recip x) (fun r => VecIs r n (fun i => v i * c)) := by
  unfold normalise
  rw [sum_loop hx, bind_ok, hc, bind_ok]
  exact scaleInto_spec hx c

theorem expInto_spec {r x : Buf ℝ} {n : Nat} {v : Nat → ℝ} {M : ℝ} (hr : r.length = n) (hx : VecIs x n v) {exp : ℝ → Res ℝ}
    (he : ∀ i, i < n → exp (v i - M) = .ok (Real.exp (v i - M))) : Ok (expInto exp M r x) (fun r => VecIs r n (fun i => Real.exp (v i - M))) := by
  unfold expInto
  subst hr
  refine forN_vec (BufIs_self r) (fun j hj r' g hg _ => ?_)
  rw [hx.get hj, bind_ok, he j hj, bind_ok]
  exact hg.set hj _

theorem expSelf_spec {x : Buf ℝ} {n : Nat} {v : Nat → ℝ} {M : ℝ} (hx : VecIs x n v) {exp : ℝ → Res ℝ}
    (he : ∀ i, i < n → exp (v i - M) = .ok (Real.exp (v i - M))) : Ok (expSelf exp M x) (fun r => VecIs r n (fun i => Real.exp (v i - M))) := by
  unfold expSelf
  rw [hx.length]
  refine forN_vec hx (fun j hj r' g hg hh => ?_)
  rw [hg.get hj hh, bind_ok, he j hj, bind_ok]
  exact hg.set hj _

theorem sum_exp_pos {n : Nat} (hn : 0 < n) (v : Nat → ℝ) : 0 < ∑ j ∈ range n, Real.exp (v j) :=
  sum_pos (fun i _ => Real.exp_pos _) ⟨0, mem_range.2 hn⟩

/-- Shifting does not change the distribution. -/
theorem shift_softmax {n : Nat} (v : Nat → ℝ) (M : ℝ) (i : Nat) :
    Real.exp (v i - M) * (1 / ∑ j ∈ range n, Real.exp (v j - M)) = softmaxFn n v i := by
  unfold softmaxFn
  simp only [Real.exp_sub]
  rw [← sum_div]
  have hM := (Real.exp_pos M).ne'
  by_cases h : (∑ j ∈ range n, Real.exp (v j)) = 0
  · rw [h]; simp
  · field_simp

/-- The sum of the shifted exponentials lies between 1 and `n`. -/
theorem shifted_sum_bounds {n : Nat} (v : Nat → ℝ) (M : ℝ) (h1 : ∃ i, i < n ∧ v i = M) (h2 : ∀ i, i < n → v i ≤ M) :
    1 ≤ ∑ j ∈ range n, Real.exp (v j - M) ∧ ∑ j ∈ range n, Real.exp (v j - M) ≤ n := by
  obtain ⟨i, hi, rfl⟩ := h1
  constructor
  · have := single_le_sum (f := fun j => Real.exp (v j - v i)) (fun j _ => (Real.exp_pos _).le) (mem_range.2 hi)
    simpa using this
  · calc ∑ j ∈ range n, Real.exp (v j - v i) ≤ ∑ j ∈ range n, (1 : ℝ) :=
          sum_le_sum (fun j hj => Real.exp_le_one_iff.2 (by linarith [h2 j (mem_range.1 hj)]))
      _ = n := by simp

/-! ### Losses as sums -/

theorem acc_loop {t : Buf ℝ} {m : Nat} (ht : t.length = m) (term : Nat → ℝ) (body : Nat → ℝ → Res ℝ)
    (hb : ∀ i, i < m → ∀ s, body i s = .ok (s + term i)) : forN t.length (0 : ℝ) body = .ok (∑ i ∈ range m, term i) := by
  refine Ok.eq ?_
  rw [ht]
  exact forN_spec (fun k s => s = ∑ i ∈ range k, term i) (by simp) (fun i hi s hs => by
    rw [hb i hi]; exact Ok_ok.2 (by rw [sum_range_succ, hs]))

theorem write_loop {r : Buf ℝ} {m : Nat} (hr : r.length = m) (term : Nat → ℝ) (body : Nat → Buf ℝ → Res (Buf ℝ))
    (hb : ∀ i, i < m → ∀ (s : Buf ℝ) (g : Nat → Option ℝ), BufIs s m g →
      Ok (body i s) (fun s' => BufIs s' m (fun j => if j = i then some (term i) else g j))) :
    Ok (forN r.length r body) (fun r' => VecIs r' m term) := by
  subst hr
  exact forN_vec (BufIs_self r) (fun j hj r' g hg _ => hb j hj r' g hg)

/-- A loss that is a sum over components is differentiable componentwise. -/
theorem sum_lossDiff {m : Nat} {vt vp : Nat → ℝ} (l : Nat → (Nat → ℝ) → ℝ → ℝ) (g : Nat → ℝ)
    (h : ∀ i, i < m → HasDerivAt (l i vt) (g i) (vp i)) :
    LossDiffAt (fun t p => ∑ i ∈ range m, l i t (p i)) (fun _ _ => g) m vt vp := by
  intro yc y' t0 h0 hy
  have := HasDerivAt.fun_sum (u := range m) (A := fun i z => l i vt (yc z i)) (A' := fun i => g i * y' i) (x := t0) (fun i hi => by
    have hi := mem_range.1 hi
    have h1 := h i hi
    rw [← h0 i hi] at h1
    exact h1.comp t0 (hy i hi))
  exact this

theorem setAt_curve {m : Nat} {L : (Nat → ℝ) → (Nat → ℝ) → ℝ} {g vt vp : Nat → ℝ} (h : LossDiffAt L (fun _ _ => g) m vt vp) (i : Nat) (hi : i < m) :
    HasDerivAt (fun z => L vt (setAt vp i z)) (g i) (vp i) := by
  have := h (fun z => setAt vp i z) (fun k => if k = i then 1 else 0) (vp i) (fun k _ => by unfold setAt; split_ifs with e; · rw [e]
                                                                                            · rfl)
    (fun k _ => by
      unfold setAt
      by_cases e : k = i
      · simp only [if_pos e]; exact hasDerivAt_id _
      · simp only [if_neg e]; exact hasDerivAt_const _ _)
  refine this.congr_deriv ?_
  simp only [mul_ite, mul_one, mul_zero]
  rw [sum_ite_eq' (range m) i]
  rw [if_pos (mem_range.2 hi)]

theorem LossDiffAt.const_mul {m : Nat} {L : (Nat → ℝ) → (Nat → ℝ) → ℝ} {g vt vp : Nat → ℝ} (c : ℝ) (h : LossDiffAt L (fun _ _ => g) m vt vp) :
    LossDiffAt (fun t p => c * L t p) (fun _ _ i => c * g i) m vt vp := by
  intro yc y' t0 h0 hy
  refine ((h yc y' t0 h0 hy).const_mul c).congr_deriv ?_
  rw [mul_sum]
  exact sum_congr rfl (fun i _ => by ring)

theorem LossDiffAt.congr {m : Nat} {L L' : (Nat → ℝ) → (Nat → ℝ) → ℝ} {g g' vt vp : Nat → ℝ} (h : LossDiffAt L (fun _ _ => g) m vt vp)
    (e1 : ∀ p, L' vt p = L vt p) (e2 : ∀ i, i < m → g i = g' i) : LossDiffAt L' (fun _ _ => g') m vt vp := by
  intro yc y' t0 h0 hy
  have := h yc y' t0 h0 hy
  simp only [e1]
  refine this.congr_deriv (sum_congr rfl (fun i hi => by dsimp only; rw [e2 i (mem_range.1 hi)]))

theorem rdiv_ok {a b : ℝ} (h : b ≠ 0) : fdiv a b = .ok (a / b) := by unfold fdiv; rw [if_neg h]

end Trixy
