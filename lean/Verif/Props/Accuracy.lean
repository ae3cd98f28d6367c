import Verif.Spec.Accuracy
import Verif.Props.Checker
import Verif.Props.Class
import Verif.Props.Fit
/-
C117: how the measures of `Accuracy` and the losses reported by `Checker` bound each other.
-/
namespace Trixy
open Finset Losses FitMath
set_option linter.unusedSectionVars false

variable {α ν ι : Type}

theorem fractionOf_mono {N : Nat} {P Q : Nat → Prop} (h : ∀ i, i < N → P i → Q i) : fractionOf N P ≤ fractionOf N Q := by
  classical
  unfold fractionOf
  have : (((range N).filter P).card : Rat) ≤ ((range N).filter Q).card := by
    have := card_le_card (s := (range N).filter P) (t := (range N).filter Q) (fun i hi => by
      rw [mem_filter] at hi ⊢
      exact ⟨hi.1, h i (mem_range.1 hi.1) hi.2⟩)
    exact_mod_cast this
  gcongr

theorem fractionOf2_mono {N m : Nat} {P Q : Nat → Nat → Prop} (h : ∀ i j, i < N → j < m → P i j → Q i j) : fractionOf2 N m P ≤ fractionOf2 N m Q := by
  classical
  unfold fractionOf2
  have : (((range N ×ˢ range m).filter (fun ij => P ij.1 ij.2)).card : Rat) ≤ ((range N ×ˢ range m).filter (fun ij => Q ij.1 ij.2)).card := by
    have := card_le_card (s := (range N ×ˢ range m).filter (fun ij => P ij.1 ij.2)) (t := (range N ×ˢ range m).filter (fun ij => Q ij.1 ij.2)) (fun i hi => by
      rw [mem_filter, mem_product] at hi ⊢
      exact ⟨hi.1, h _ _ (mem_range.1 hi.1.1) (mem_range.1 hi.1.2) hi.2⟩)
    exact_mod_cast this
  gcongr

theorem fractionOf_rows {N m : Nat} (hm : 0 < m) (P : Nat → Prop) : fractionOf N P = fractionOf2 N m (fun i _ => P i) := by
  classical
  unfold fractionOf fractionOf2
  have e : (range N ×ˢ range m).filter (fun ij => P ij.1) = (range N).filter P ×ˢ range m := by
    ext ⟨i, j⟩
    simp only [mem_filter, mem_product]
    tauto
  rw [e, card_product, card_range, Nat.cast_mul, Nat.cast_mul]
  have hm' : (m : Rat) ≠ 0 := by exact_mod_cast hm.ne'
  rw [mul_div_mul_right _ _ hm']

/-- Markov's inequality. -/
theorem fractionOf_markov {N : Nat} (hN : 0 < N) {P : Nat → Prop} {g : Nat → ℝ} {c : ℝ} (hc : 0 < c) (hg : ∀ i, i < N → 0 ≤ g i)
    (h : ∀ i, i < N → ¬P i → c ≤ g i) : 1 - (fractionOf N P : ℝ) ≤ (∑ i ∈ range N, g i) / N / c := by
  classical
  unfold fractionOf
  have h1 : ((range N).filter P).card + ((range N).filter (fun i => ¬P i)).card = N := by
    rw [card_filter_add_card_filter_not, card_range]
  have h2 : (((range N).filter (fun i => ¬P i)).card : ℝ) * c ≤ ∑ i ∈ range N, g i := by
    calc (((range N).filter (fun i => ¬P i)).card : ℝ) * c = ∑ i ∈ (range N).filter (fun i => ¬P i), c := by rw [sum_const, nsmul_eq_mul]
      _ ≤ ∑ i ∈ (range N).filter (fun i => ¬P i), g i := sum_le_sum (fun i hi => by
          rw [mem_filter] at hi
          exact h i (mem_range.1 hi.1) hi.2)
      _ ≤ ∑ i ∈ range N, g i := sum_le_sum_of_subset_of_nonneg (filter_subset _ _) (fun i hi _ => hg i (mem_range.1 hi))
  have hN' : (0 : ℝ) < N := by exact_mod_cast hN
  have h3 : (((range N).filter P).card : ℝ) + ((range N).filter (fun i => ¬P i)).card = N := by exact_mod_cast h1
  push_cast
  rw [le_div_iff₀ hc, le_div_iff₀ hN', one_sub_div hN'.ne']
  have : (N - (((range N).filter P).card : ℝ)) / N * c * N = (((range N).filter (fun i => ¬P i)).card : ℝ) * c := by
    rw [← eq_sub_iff_add_eq'.2 h3]; field_simp
  linarith

theorem fractionOf2_markov {N m : Nat} (hN : 0 < N) (hm : 0 < m) {P : Nat → Nat → Prop} {g : Nat → Nat → ℝ} {c : ℝ} (hc : 0 < c) (hg : ∀ i j, i < N → j < m → 0 ≤ g i j)
    (h : ∀ i j, i < N → j < m → ¬P i j → c ≤ g i j) : 1 - (fractionOf2 N m P : ℝ) ≤ (∑ i ∈ range N, ∑ j ∈ range m, g i j) / N / (m * c) := by
  classical
  unfold fractionOf2
  have h1 : ((range N ×ˢ range m).filter (fun ij => P ij.1 ij.2)).card + ((range N ×ˢ range m).filter (fun ij => ¬P ij.1 ij.2)).card = N * m := by
    rw [card_filter_add_card_filter_not, card_product, card_range, card_range]
  have h2 : (((range N ×ˢ range m).filter (fun ij => ¬P ij.1 ij.2)).card : ℝ) * c ≤ ∑ i ∈ range N, ∑ j ∈ range m, g i j := by
    rw [← sum_product']
    calc (((range N ×ˢ range m).filter (fun ij => ¬P ij.1 ij.2)).card : ℝ) * c = ∑ i ∈ (range N ×ˢ range m).filter (fun ij => ¬P ij.1 ij.2), c := by
          rw [sum_const, nsmul_eq_mul]
      _ ≤ ∑ ij ∈ (range N ×ˢ range m).filter (fun ij => ¬P ij.1 ij.2), g ij.1 ij.2 := sum_le_sum (fun i hi => by
          rw [mem_filter, mem_product] at hi
          exact h _ _ (mem_range.1 hi.1.1) (mem_range.1 hi.1.2) hi.2)
      _ ≤ ∑ ij ∈ range N ×ˢ range m, g ij.1 ij.2 := sum_le_sum_of_subset_of_nonneg (filter_subset _ _) (fun i hi _ => by
          rw [mem_product] at hi
          exact hg _ _ (mem_range.1 hi.1) (mem_range.1 hi.2))
  have hN' : (0 : ℝ) < N := by exact_mod_cast hN
  have hm' : (0 : ℝ) < m := by exact_mod_cast hm
  have h3 : (((range N ×ˢ range m).filter (fun ij => P ij.1 ij.2)).card : ℝ) + ((range N ×ˢ range m).filter (fun ij => ¬P ij.1 ij.2)).card = N * m := by exact_mod_cast h1
  push_cast
  rw [le_div_iff₀ (by positivity), le_div_iff₀ hN', one_sub_div (by positivity)]
  have : (N * m - (((range N ×ˢ range m).filter (fun ij => P ij.1 ij.2)).card : ℝ)) / (N * m) * (m * c) * N =
      (((range N ×ˢ range m).filter (fun ij => ¬P ij.1 ij.2)).card : ℝ) * c := by
    rw [← h3]
    have : (((range N ×ˢ range m).filter (fun ij => P ij.1 ij.2)).card : ℝ) + ((range N ×ˢ range m).filter (fun ij => ¬P ij.1 ij.2)).card ≠ 0 := by
      rw [h3]; positivity
    field_simp
    rw [h3]
    field_simp
    linarith
  linarith

section
variable {ff : ι → ν → Res (ν × Buf ℝ)} {Inv : ν → Prop} {D : ι → Prop} {N m : Nat} {F : ι → Nat → ℝ} {idata : List ι} {odata : List (Buf ℝ)}
  {x : Nat → ι} {y : Nat → Nat → ℝ} {net : ν}

/-- A wider range never lowers an accuracy. -/
theorem C117_range (hff : Predicts ff Inv D m F) (hd : SetIs idata odata D N m x y) (hnet : Inv net) (hN : 0 < N) (hm : 0 < m) (hw : N * m < W64) (r r' : ℝ) (h : r ≤ r') :
    Ok (Accuracy.full ff r idata odata net) (fun a => Ok (Accuracy.full ff r' idata odata a.2) (fun b => a.1 ≤ b.1)) ∧
    Ok (Accuracy.global ff r idata odata net) (fun a => Ok (Accuracy.global ff r' idata odata a.2) (fun b => a.1 ≤ b.1)) := by
  refine ⟨(C57_full hff hd hnet hN r).mono (fun a ha => (C57_full hff hd ha.2 hN r').mono (fun b hb => ?_)),
    (C57_global hff hd hnet hN hm hw r).mono (fun a ha => (C57_global hff hd ha.2 hN hm hw r').mono (fun b hb => ?_))⟩
  · rw [ha.1, hb.1]
    exact fractionOf_mono (fun i _ hi j hj => (hi j hj).trans h)
  · rw [ha.1, hb.1]
    exact fractionOf2_mono (fun i j _ _ hi => hi.trans_le h)

/-- A sample that counts for `full` counts in all its components for `global` with any wider range. -/
theorem C117_full_global (hff : Predicts ff Inv D m F) (hd : SetIs idata odata D N m x y) (hnet : Inv net) (hN : 0 < N) (hm : 0 < m) (hw : N * m < W64) (r r' : ℝ) (h : r < r') :
    Ok (Accuracy.full ff r idata odata net) (fun a => Ok (Accuracy.global ff r' idata odata a.2) (fun b => a.1 ≤ b.1)) := by
  refine (C57_full hff hd hnet hN r).mono (fun a ha => (C57_global hff hd ha.2 hN hm hw r').mono (fun b hb => ?_))
  rw [ha.1, hb.1, fractionOf_rows hm]
  exact fractionOf2_mono (fun i j _ hj hi => (hi j hj).trans_lt h)

theorem Hot.firstMax {w : Nat → ℝ} {c : Nat} (h : Hot m w c) : IsFirstMax (fun x y : ℝ => decide (x < y)) w m c := by
  refine ⟨h.1, fun j hj => ?_, fun j hj => ?_⟩
  · rw [decide_eq_false_iff_not, h.2.1, not_lt]
    by_cases e : j = c
    · rw [e, h.2.1]
    · rw [h.2.2 j hj e]; exact zero_le_one
  · rw [decide_eq_true_eq, h.2.1, h.2.2 j (hj.trans h.1) (by omega)]
    exact zero_lt_one

/-- The component of the class is larger than every other one. -/
theorem sameArgmax_of {w p : Nat → ℝ} {c : Nat} (h : Hot m w c) (hp : ∀ j, j < m → j ≠ c → p j < p c) : SameArgmax m w p := by
  refine ⟨c, h.firstMax, h.1, fun j hj => ?_, fun j hj => ?_⟩
  · rw [decide_eq_false_iff_not, not_lt]
    by_cases e : j = c
    · rw [e]
    · exact (hp j hj e).le
  · rw [decide_eq_true_eq]
    exact hp j (hj.trans h.1) (by omega)

/-- With one class per target, a range below one half makes `full` at least as strict as `normal`. -/
theorem C117_classes (hff : Predicts ff Inv D m F) (hd : SetIs idata odata D N m x y) (hnet : Inv net) (hN : 0 < N) (hm : 0 < m) (hy : HotTargets N m y) (r : ℝ)
    (h : r < 1 / 2) :
    Ok (Accuracy.full ff r idata odata net) (fun a => Ok (Accuracy.normal ff idata odata a.2) (fun b => a.1 ≤ b.1)) := by
  refine (C57_full hff hd hnet hN r).mono (fun a ha => (C57_normal hff hd ha.2 hN hm).mono (fun b hb => ?_))
  rw [ha.1, hb.1]
  refine fractionOf_mono (fun i hi hw => ?_)
  obtain ⟨c, hc⟩ := hy i hi
  refine sameArgmax_of hc (fun j hj hne => ?_)
  have h1 := abs_le.1 (hw c hc.1)
  have h2 := abs_le.1 (hw j hj)
  rw [hc.2.1] at h1
  rw [hc.2.2 j hj hne] at h2
  linarith [h1.2, h2.1]

/-- The mean squared error bounds the fraction of samples, and of components, out of range. -/
theorem C117_mse (hff : Predicts ff Inv D m F) (hd : SetIs idata odata D N m x y) (hnet : Inv net) (hN : 0 < N) (hm : 0 < m) (hw : N * m < W64) (r : ℝ) (hr : 0 < r) :
    Ok (Checker.loss ff MSE.f idata odata net) (fun q => Ok (Accuracy.full ff r idata odata q.2) (fun a => 1 - (a.1 : ℝ) ≤ 2 * q.1 / r ^ 2) ∧
      Ok (Accuracy.global ff r idata odata q.2) (fun a => 1 - (a.1 : ℝ) ≤ 2 * q.1 / (m * r ^ 2))) := by
  refine (C69_checker (L := mseFn m) hff hd hnet hN (fun t p a b ht hp => (C52_values m).1 t p a b ht hp trivial)).mono (fun q hq => ⟨?_, ?_⟩)
  · refine (C57_full hff hd hq.2 hN r).mono (fun a ha => ?_)
    rw [ha.1, hq.1, foldSum_zero_eq]
    refine (fractionOf_markov hN (g := fun i => 2 * mseFn m (y i) (F (x i))) (c := r ^ 2) (by positivity) (fun i _ => ?_) (fun i _ hi => ?_)).trans (le_of_eq ?_)
    · have : 0 ≤ ∑ j ∈ range m, (F (x i) j - y i j) ^ 2 := sum_nonneg (fun _ _ => sq_nonneg _)
      unfold mseFn; linarith
    · unfold AllWithin at hi
      push Not at hi
      obtain ⟨j, hj, hlt⟩ := hi
      have h1 : (F (x i) j - y i j) ^ 2 ≤ ∑ j ∈ range m, (F (x i) j - y i j) ^ 2 :=
        single_le_sum (f := fun j => (F (x i) j - y i j) ^ 2) (fun _ _ => sq_nonneg _) (mem_range.2 hj)
      have h2 : r ^ 2 ≤ (y i j - F (x i) j) ^ 2 := by
        rw [← sq_abs (y i j - _)]
        exact pow_le_pow_left₀ hr.le hlt.le 2
      unfold mseFn
      nlinarith
    · rw [← mul_sum]; ring
  · refine (C57_global hff hd hq.2 hN hm hw r).mono (fun a ha => ?_)
    rw [ha.1, hq.1, foldSum_zero_eq]
    refine (fractionOf2_markov hN hm (g := fun i j => (F (x i) j - y i j) ^ 2) (c := r ^ 2) (by positivity) (fun i _ _ _ => sq_nonneg _) (fun i j _ _ hi => ?_)).trans
      (le_of_eq ?_)
    · have h2 : r ^ 2 ≤ |y i j - F (x i) j| ^ 2 := pow_le_pow_left₀ hr.le (not_lt.1 hi) 2
      rw [sq_abs] at h2
      nlinarith
    · unfold mseFn
      rw [← mul_sum]; ring

/-- The same for the mean absolute error. -/
theorem C117_mae (hff : Predicts ff Inv D m F) (hd : SetIs idata odata D N m x y) (hnet : Inv net) (hN : 0 < N) (hm : 0 < m) (hw : N * m < W64) (r : ℝ) (hr : 0 < r) :
    Ok (Checker.loss ff MAE.f idata odata net) (fun q => Ok (Accuracy.full ff r idata odata q.2) (fun a => 1 - (a.1 : ℝ) ≤ q.1 / r) ∧
      Ok (Accuracy.global ff r idata odata q.2) (fun a => 1 - (a.1 : ℝ) ≤ q.1 / (m * r))) := by
  refine (C69_checker (L := maeFn m) hff hd hnet hN (fun t p a b ht hp => (C52_values m).2.1 t p a b ht hp trivial)).mono (fun q hq => ⟨?_, ?_⟩)
  · refine (C57_full hff hd hq.2 hN r).mono (fun a ha => ?_)
    rw [ha.1, hq.1, foldSum_zero_eq]
    refine fractionOf_markov hN (g := fun i => maeFn m (y i) (F (x i))) hr (fun i _ => sum_nonneg (fun _ _ => abs_nonneg _)) (fun i _ hi => ?_)
    unfold AllWithin at hi
    push Not at hi
    obtain ⟨j, hj, hlt⟩ := hi
    have h1 : |F (x i) j - y i j| ≤ ∑ j ∈ range m, |F (x i) j - y i j| :=
      single_le_sum (f := fun j => |F (x i) j - y i j|) (fun _ _ => abs_nonneg _) (mem_range.2 hj)
    rw [abs_sub_comm] at hlt
    exact hlt.le.trans h1
  · refine (C57_global hff hd hq.2 hN hm hw r).mono (fun a ha => ?_)
    rw [ha.1, hq.1, foldSum_zero_eq]
    refine fractionOf2_markov hN hm (g := fun i j => |F (x i) j - y i j|) hr (fun i _ _ _ => abs_nonneg _) (fun i j _ _ hi => ?_)
    rw [abs_sub_comm]
    exact not_lt.1 hi

theorem half_max {p : Nat → ℝ} {c : Nat} (hc : c < m) (h0 : ∀ j, j < m → 0 ≤ p j) (h1 : ∑ j ∈ range m, p j = 1) (hp : 1 / 2 < p c) : ∀ j, j < m → j ≠ c → p j < p c := by
  intro j hj hne
  have : p j + p c ≤ 1 := by
    rw [← h1, ← sum_pair hne]
    exact sum_le_sum_of_subset_of_nonneg (fun i hi => by
      rw [mem_insert, mem_singleton] at hi
      rcases hi with rfl | rfl <;> simpa using ‹_›) (fun i hi _ => h0 i (mem_range.1 hi))
  linarith

theorem prob_le_one {p : Nat → ℝ} {c : Nat} (hc : c < m) (h0 : ∀ j, j < m → 0 ≤ p j) (h1 : ∑ j ∈ range m, p j = 1) : p c ≤ 1 := by
  rw [← h1]
  exact single_le_sum (fun i hi => h0 i (mem_range.1 hi)) (mem_range.2 hc)

/-- Negative log-likelihood bounds the error rate: one class per target, predictions that are positive probabilities. -/
theorem C117_nll (hff : Predicts ff Inv D m F) (hd : SetIs idata odata D N m x y) (hnet : Inv net) (hN : 0 < N) (hm : 0 < m) (hy : HotTargets N m y)
    (hp : Probabilities D m F) (hpos : ∀ x, D x → ∀ j, j < m → 0 < F x j) :
    Ok (Checker.loss ff NLL.f idata odata net) (fun q => Ok (Accuracy.normal ff idata odata q.2) (fun a => 1 - (a.1 : ℝ) ≤ q.1 / Real.log 2)) := by
  refine (C69_checker (L := nllFn m) hff hd hnet hN (fun t p a b ht hp => (C52_values m).2.2.2.2.2.2 t p a b ht hp trivial)).mono (fun q hq => ?_)
  refine (C57_normal hff hd hq.2 hN hm).mono (fun a ha => ?_)
  rw [ha.1, hq.1, foldSum_zero_eq]
  have val : ∀ i c, Hot m (y i) c → nllFn m (y i) (F (x i)) = -Real.log (F (x i) c) := fun i c hc => by
    unfold nllFn; rw [hc.sum]
  refine fractionOf_markov hN (Real.log_pos one_lt_two) (fun i hi => ?_) (fun i hi hn => ?_)
  · obtain ⟨c, hc⟩ := hy i hi
    have hx := (hd.input i hi).2
    rw [val i c hc, neg_nonneg]
    exact Real.log_nonpos (hpos _ hx c hc.1).le (prob_le_one hc.1 (hp _ hx).1 (hp _ hx).2)
  · obtain ⟨c, hc⟩ := hy i hi
    have hx := (hd.input i hi).2
    by_contra hlt
    rw [val i c hc, not_le] at hlt
    refine hn (sameArgmax_of hc (half_max hc.1 (hp _ hx).1 (hp _ hx).2 ?_))
    have : Real.log (1 / 2) < Real.log (F (x i) c) := by
      rw [one_div, Real.log_inv]; linarith
    exact (Real.log_lt_log_iff (by norm_num) (hpos _ hx c hc.1)).1 this

/-- The same for categorical cross-entropy, with the constant 10⁻⁹ its values contain. -/
theorem C117_cce (hff : Predicts ff Inv D m F) (hd : SetIs idata odata D N m x y) (hnet : Inv net) (hN : 0 < N) (hm : 0 < m) (hy : HotTargets N m y)
    (hp : Probabilities D m F) :
    Ok (Checker.loss ff CCE.f idata odata net) (fun q => Ok (Accuracy.normal ff idata odata q.2) (fun a =>
      1 - (a.1 : ℝ) ≤ (q.1 + Real.log (1 + 1e-9)) / (Real.log (1 + 1e-9) - Real.log (1 / 2 + 1e-9)))) := by
  refine (C69_checker (L := cceFn 1e-9 m) hff hd hnet hN (fun t p a b ht hp => (C52_values m).2.2.2.2.1 t p a b ht hp trivial)).mono (fun q hq => ?_)
  refine (C57_normal hff hd hq.2 hN hm).mono (fun a ha => ?_)
  rw [ha.1, hq.1, foldSum_zero_eq]
  have hNr : (0 : ℝ) < N := by exact_mod_cast hN
  have val : ∀ i c, Hot m (y i) c → cceFn 1e-9 m (y i) (F (x i)) = -Real.log (F (x i) c + 1e-9) := fun i c hc => by
    unfold cceFn; rw [hc.sum]
  refine (fractionOf_markov hN (g := fun i => cceFn 1e-9 m (y i) (F (x i)) + Real.log (1 + 1e-9)) (c := Real.log (1 + 1e-9) - Real.log (1 / 2 + 1e-9)) (sub_pos.2 (Real.log_lt_log (by norm_num) (by norm_num)))
    (fun i hi => ?_) (fun i hi hn => ?_)).trans (le_of_eq ?_)
  · obtain ⟨c, hc⟩ := hy i hi
    have hx := (hd.input i hi).2
    have h0 := (hp _ hx).1 c hc.1
    have h1 := prob_le_one hc.1 (hp _ hx).1 (hp _ hx).2
    rw [val i c hc]
    have := Real.log_le_log (show 0 < F (x i) c + 1e-9 by positivity) (show F (x i) c + 1e-9 ≤ 1 + 1e-9 by linarith)
    linarith
  · obtain ⟨c, hc⟩ := hy i hi
    have hx := (hd.input i hi).2
    have h0 := (hp _ hx).1 c hc.1
    by_contra hlt
    rw [val i c hc, not_le] at hlt
    refine hn (sameArgmax_of hc (half_max hc.1 (hp _ hx).1 (hp _ hx).2 ?_))
    have : Real.log (1 / 2 + 1e-9) < Real.log (F (x i) c + 1e-9) := by linarith
    have := (Real.log_lt_log_iff (by norm_num) (by positivity)).1 this
    linarith
  · rw [sum_add_distrib, sum_const, card_range, nsmul_eq_mul]
    congr 1
    field_simp
end

theorem softmax_prob {m : Nat} (hm : 0 < m) (z : Nat → ℝ) : (∀ j, j < m → 0 < softmaxFn m z j) ∧ ∑ j ∈ range m, softmaxFn m z j = 1 := by
  have hs : 0 < ∑ j ∈ range m, Real.exp (z j) := sum_pos (fun _ _ => Real.exp_pos _) ⟨0, mem_range.2 hm⟩
  refine ⟨fun j _ => div_pos (Real.exp_pos _) hs, ?_⟩
  unfold softmaxFn
  rw [← sum_div, div_self hs.ne']

/-- Any network whose last layer is a `FullyConnected` layer with `SoftMax`: the error rate is at most the mean negative log-likelihood over log 2. -/
theorem C117_network (pre : Net ℝ) (s : Nat × Nat × Nat) (d h w : Nat) (G : (Nat → ℝ) → Nat → ℝ) (hp : pre.Computes s (d, h, w) G) (hw : pre.length + 1 < W64)
    (f : FC ℝ) (m : Nat) (hm : 0 < m) (b : Nat → ℝ) (W : Nat → Nat → ℝ) (hf : f.Wf (d * h * w) m b W) (N : Nat) (hN : 0 < N) (idata : List (Ten ℝ)) (odata : List (Buf ℝ))
    (x : Nat → Ten ℝ) (v : Ten ℝ → Nat → ℝ) (y : Nat → Nat → ℝ) (hd : SetIs idata odata (fun x => FlatIs x s (v x)) N m x y) (hy : HotTargets N m y) :
    Ok (Checker.loss netFF NLL.f idata odata (pre ++ [.fc { f with act := softMaxAct }])) (fun q =>
      Ok (Accuracy.normal netFF idata odata q.2) (fun a => 1 - (a.1 : ℝ) ≤ q.1 / Real.log 2)) := by
  have hc := withLast_computes hp hf hm .softmax
  have hff := C57_network s (1, 1, m) (fun v => softmaxFn m (affine (d * h * w) W b (G v))) ((pre ++ [Layer.fc { f with act := softMaxAct }]).map Layer.params) v
  simp only [one_mul] at hff
  refine C117_nll hff hd ⟨by simp, by simpa using hw, hc, rfl⟩ hN hm hy (fun x hx => ?_) (fun x hx => (softmax_prob hm _).1)
  exact ⟨fun j hj => ((softmax_prob hm _).1 j hj).le, (softmax_prob hm _).2⟩

/-- After enough steps (C116) the accuracy of the softmax layer on a separable training set is 1. -/
theorem C117_learns (k : FitKind) (hk : k = .nll ∨ k = .cce) (n m : Nat) (θ : Theta) (l : FC ℝ) (h : l.IsFit k n m θ) (B : List (Ten ℝ × Ten ℝ))
    (vs : List ((Nat → ℝ) × (Nat → ℝ))) (hv : BatchIs B n m vs) (hne : vs ≠ []) (hw : ∀ vw ∈ vs, ∃ c, Hot m vw.2 c) (hs : Separable n m vs) (lr : ℝ) (hlr : 0 < lr)
    (hL : lr * meanSq n vs ≤ 1) (hr : ∀ xy ∈ B, xy.1.d = 1 ∧ xy.1.h = 1 ∧ xy.1.w = n) :
    ∃ N0 : Nat, ∀ N, N0 ≤ N → Ok (l.fit k.loss lr (fun _ => B) N) (fun l' =>
      Ok (Accuracy.normal netFF (B.map (·.1)) (B.map (·.2.data)) [.fc l']) (fun a => a.1 = 1)) := by
  obtain ⟨P, hP, N0, hN0⟩ := learns_sums k hk n m θ l h B vs hv hne hw hs lr hlr hL
  refine ⟨N0, fun N hN => (hP N).mono (fun l' hl' => ?_)⟩
  have hlen : B.length = vs.length := List.Forall₂.length_eq hv
  have hpos : 0 < vs.length := List.length_pos_iff.2 hne
  have hm : 0 < m := by
    obtain ⟨c, hc⟩ := hw vs[0] (List.getElem_mem hpos)
    exact Nat.lt_of_le_of_lt (Nat.zero_le _) hc.1
  have hact : k.act = .softmax := by rcases hk with rfl | rfl <;> rfl
  let v : Ten ℝ → Nat → ℝ := fun x i => ((x.data[i]?).getD none).getD 0
  have hvec : ∀ (x : Ten ℝ) (u : Nat → ℝ), VecIs x.data n u → VecIs x.data n (v x) ∧ ∀ i, i < n → v x i = u i := fun x u hx => by
    have e : ∀ i, i < n → v x i = u i := fun i hi => by show ((x.data[i]?).getD none).getD 0 = u i; rw [hx.2 i hi]; rfl
    exact ⟨⟨hx.1, fun i hi => by rw [hx.2 i hi]; exact congrArg (fun q => some (some q)) (e i hi).symm⟩, e⟩
  have hwf : l'.Wf (1 * 1 * n) m (P N).1 (P N).2 := by simpa using hl'.1
  have hc : Net.Computes [Layer.fc l'] (1, 1, n) (1, 1, m) (fun v => softmaxFn m (affine (1 * 1 * n) (P N).2 (P N).1 v)) :=
    Net.Computes.cons (F := fun v => softmaxFn m (affine (1 * 1 * n) (P N).2 (P N).1 v)) (G := fun v => v)
      (.fc (D := fun _ _ => 1) hwf (by rw [hl'.2, hact]; exact softMaxAct_Is m hm)) .nil
  have hff := C57_network (1, 1, n) (1, 1, m) (fun v => softmaxFn m (affine (1 * 1 * n) (P N).2 (P N).1 v)) ([Layer.fc l'].map Layer.params) v
  simp only [one_mul] at hff
  have hget : ∀ i (hi : i < vs.length), VecIs (B[i]'(hlen ▸ hi)).1.data n vs[i].1 ∧ VecIs (B[i]'(hlen ▸ hi)).2.data m vs[i].2 := fun i hi =>
    List.Forall₂.get hv (hlen ▸ hi) hi
  have hd : SetIs (B.map (·.1)) (B.map (·.2.data)) (fun x => FlatIs x (1, 1, n) (v x)) vs.length m (fun i => ((B.map (·.1))[i]?).getD (Ten.fill 1 1 n 0))
      (fun i => ((vs.map (·.2))[i]?).getD (fun _ => 0)) := by
    refine ⟨by simp [hlen], by simp [hlen], fun i hi => ?_, fun i hi => ?_⟩
    · have hi' : i < B.length := hlen ▸ hi
      have e : (B.map (·.1))[i]? = some B[i].1 := by simp [hi']
      rw [e]
      refine ⟨by unfold lget; rw [e]; rfl, ?_⟩
      have := hr B[i] (List.getElem_mem hi')
      refine ⟨this.1, this.2.1, this.2.2, ?_⟩
      simpa using (hvec _ _ (hget i hi).1).1
    · have hi' : i < B.length := hlen ▸ hi
      have e : (B.map (·.2.data))[i]? = some B[i].2.data := by simp [hi']
      have e2 : (vs.map (·.2))[i]? = some vs[i].2 := by simp [hi]
      rw [e2]
      refine ⟨B[i].2.data, by unfold lget; rw [e], (hget i hi).2⟩
  refine (C57_normal hff hd (net := [Layer.fc l']) ⟨by simp, (show 1 < W64 by decide), by simpa using hc, rfl⟩ hpos hm).mono (fun a ha => ?_)
  rw [ha.1]
  refine ((C57_unit_interval vs.length m _ (fun _ _ => True)).2.2 hpos).2 (fun i hi => ?_)
  have hi' : i < B.length := hlen ▸ hi
  have e : (B.map (·.1))[i]? = some B[i].1 := by simp [hi']
  have e2 : (vs.map (·.2))[i]? = some vs[i].2 := by simp [hi]
  rw [e, e2]
  obtain ⟨c, hc⟩ := hw vs[i] (List.getElem_mem hi)
  refine sameArgmax_of (c := c) hc (fun j hj hne => ?_)
  have hz := hN0 N hN vs[i] (List.getElem_mem hi) c hc j hj hne
  show softmaxFn m _ j < softmaxFn m _ c
  have haff : ∀ q, affine n (P N).2 (P N).1 (v B[i].1) q = (P N).sums n vs[i].1 q := fun q => by
    rw [← sums_eq]
    unfold affine
    congr 1
    refine foldSum_congr _ _ (fun a ha => ?_)
    rw [(hvec _ _ (hget i hi).1).2 a ha]
  unfold softmaxFn
  simp only [Option.getD_some, haff]
  exact div_lt_div_of_pos_right (Real.exp_lt_exp.2 hz) (expSum_pos hm _)

/-! Non-vacuity. -/

/-- A "network" without layers: the prediction is the input. -/
def acFF (x : Buf ℝ) (n : Unit) : Res (Unit × Buf ℝ) := .ok (n, x)

theorem acFF_Predicts : Predicts acFF (fun _ => True) (fun x => VecIs x 2 (fun i => ((x[i]?).getD none).getD 0)) 2 (fun x i => ((x[i]?).getD none).getD 0) :=
  fun _ _ hx _ => ⟨_, rfl, trivial, hx⟩

/-- Two samples; predictions (0.75, 0.25) and (0.25, 0.75) for class 0: the second is wrong. -/
noncomputable def acX (i : Nat) : Buf ℝ := if i = 0 then Buf.of [3 / 4, 1 / 4] else Buf.of [1 / 4, 3 / 4]
def acY (_ j : Nat) : ℝ := if j = 0 then 1 else 0

theorem acSet : SetIs [acX 0, acX 1] [Buf.of [1, 0], Buf.of [1, 0]] (fun x => VecIs x 2 (fun i => ((x[i]?).getD none).getD 0)) 2 2 acX acY := by
  refine ⟨rfl, rfl, fun i hi => ?_, fun i hi => ?_⟩
  · interval_cases i
    · exact ⟨rfl, rfl, fun j hj => by interval_cases j <;> rfl⟩
    · exact ⟨rfl, rfl, fun j hj => by interval_cases j <;> rfl⟩
  · interval_cases i
    · exact ⟨_, rfl, rfl, fun j hj => by interval_cases j <;> simp [Buf.of, acY]⟩
    · exact ⟨_, rfl, rfl, fun j hj => by interval_cases j <;> simp [Buf.of, acY]⟩

/-- The bound of `C117_mse` and the comparison of `C117_classes` on these samples. -/
example : Ok (Checker.loss acFF MSE.f [acX 0, acX 1] [Buf.of [1, 0], Buf.of [1, 0]] ()) (fun q =>
      Ok (Accuracy.full acFF (1 / 2) [acX 0, acX 1] [Buf.of [1, 0], Buf.of [1, 0]] q.2) (fun a => 1 - (a.1 : ℝ) ≤ 2 * q.1 / (1 / 2) ^ 2) ∧
      Ok (Accuracy.global acFF (1 / 2) [acX 0, acX 1] [Buf.of [1, 0], Buf.of [1, 0]] q.2) (fun a => 1 - (a.1 : ℝ) ≤ 2 * q.1 / ((2 : Nat) * (1 / 2) ^ 2))) :=
  C117_mse acFF_Predicts acSet trivial (by decide) (by decide) (by decide) (1 / 2) (by norm_num)

theorem acHot : HotTargets 2 2 acY := fun i _ => ⟨0, by decide, by simp [acY], fun j hj hne => by simp [acY, hne]⟩

example : Ok (Accuracy.full acFF (1 / 4) [acX 0, acX 1] [Buf.of [1, 0], Buf.of [1, 0]] ()) (fun a =>
    Ok (Accuracy.normal acFF [acX 0, acX 1] [Buf.of [1, 0], Buf.of [1, 0]] a.2) (fun b => a.1 ≤ b.1)) :=
  C117_classes acFF_Predicts acSet trivial (by decide) (by decide) acHot (1 / 4) (by norm_num)

/-- The accuracy there is 1/2, not 0 or 1. -/
example : Ok (Accuracy.normal acFF [acX 0, acX 1] [Buf.of [1, 0], Buf.of [1, 0]] ()) (fun a => a.1 = 1 / 2) := by
  refine (C57_normal acFF_Predicts acSet trivial (by decide) (by decide)).mono (fun a ha => ?_)
  have h0 : SameArgmax 2 (acY 0) (fun i => (((acX 0)[i]?).getD none).getD 0) := sameArgmax_of (c := 0) ⟨by decide, by simp [acY], fun j hj hne => by simp [acY, hne]⟩
    (fun j hj hne => by have : j = 1 := by omega
                        subst this
                        norm_num [acX, Buf.of])
  have h1 : ¬SameArgmax 2 (acY 1) (fun i => (((acX 1)[i]?).getD none).getD 0) := by
    rintro ⟨c, hc, hc'⟩
    have e := C12_unique _ _ _ _ hc (Hot.firstMax (c := 0) ⟨by decide, by simp [acY], fun j hj hne => by simp [acY, hne]⟩)
    subst e
    have := hc'.2.1 1 (by decide)
    norm_num [acX, Buf.of] at this
  classical
  rw [ha.1]
  unfold fractionOf
  rw [show (range 2) = {0, 1} from rfl, filter_insert, if_pos h0, filter_singleton, if_neg h1]
  simp

/-- The softmax layer of C116 reaches accuracy 1 on its two samples. -/
example : ∃ N0 : Nat, ∀ N, N0 ≤ N → Ok ((ftLayer .nll 1 2).fit Losses.NLL (1 / 2) (fun _ => ftBatch 1 2 ftTwo) N) (fun l' =>
      Ok (Accuracy.normal netFF ((ftBatch 1 2 ftTwo).map (·.1)) ((ftBatch 1 2 ftTwo).map (·.2.data)) [.fc l']) (fun a => a.1 = 1)) :=
  C117_learns .nll (.inl rfl) 1 2 _ _ (ftLayer_IsFit _ _ _) _ _ (ftBatch_Is _ _ _) (by simp [ftTwo]) ftTwo_hot ftTwo_sep (1 / 2) (by norm_num) (by rw [ftTwo_sq]; norm_num)
    (fun xy h => by
      simp only [ftBatch, List.mem_map] at h
      obtain ⟨vw, -, rfl⟩ := h
      exact ⟨rfl, rfl, rfl⟩)

/-- A network that meets the hypotheses of `C117_network`. -/
example : Net.Computes ([] : Net ℝ) (1, 1, 1) (1, 1, 1) (fun v => v) ∧ (ftLayer .nll 1 2).Wf (1 * 1 * 1) 2 (fun _ => 0) (fun _ _ => 0) ∧
    SetIs [(⟨1, 1, 1, Buf.of [7]⟩ : Ten ℝ)] [Buf.of [1, 0]] (fun x => FlatIs x (1, 1, 1) (fun _ => 7)) 1 2 (fun _ => ⟨1, 1, 1, Buf.of [7]⟩) acY := by
  refine ⟨.nil, (ftLayer_IsFit .nll 1 2).1, rfl, rfl, fun i hi => ?_, fun i hi => ?_⟩
  · interval_cases i
    exact ⟨rfl, rfl, rfl, rfl, rfl, fun j hj => by have : j = 0 := by simpa using hj
                                                   subst this; rfl⟩
  · interval_cases i
    exact ⟨_, rfl, rfl, fun j hj => by interval_cases j <;> simp [Buf.of, acY]⟩

end Trixy
