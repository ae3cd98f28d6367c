import Mathlib.Topology.Algebra.InfiniteSum.Real
import Mathlib.Analysis.SpecificLimits.Basic
/- Sequences of distances that decrease up to summable errors. -/
namespace Trixy.FitMath
open Finset Filter Topology

theorem quasi_sum {u r b : Nat → ℝ} (hu : ∀ e, 0 ≤ u e) (h : ∀ e, u (e + 1) + b e ≤ u e + r e) (s N : Nat) :
    u (s + N) + ∑ i ∈ range N, b (s + i) ≤ u s + ∑ i ∈ range N, r (s + i) := by
  induction N with
  | zero => simp
  | succ N ih =>
    rw [sum_range_succ, sum_range_succ, show s + (N + 1) = s + N + 1 from rfl]
    have := h (s + N)
    linarith

/-- Steps whose sum is infinite meet arbitrarily small gains, arbitrarily late. -/
theorem small_gap {u r g : Nat → ℝ} {rate : Nat → ℝ} (hu : ∀ e, 0 ≤ u e) (hr0 : ∀ e, 0 ≤ r e) (hr : Summable r) (hrate : ∀ e, 0 < rate e) (hinf : ¬ Summable rate)
    (h : ∀ e, u (e + 1) + rate e * g e ≤ u e + r e) (ε : ℝ) (hε : 0 < ε) (N : Nat) : ∃ e, N ≤ e ∧ g e < ε := by
  by_contra hno
  push Not at hno
  refine hinf ?_
  rw [← summable_nat_add_iff N]
  refine summable_of_sum_range_le (c := (u N + ∑' i, r i) / ε) (fun e => (hrate _).le) (fun M => ?_)
  rw [le_div_iff₀ hε, sum_mul]
  have h1 := quasi_sum hu h N M
  have h2 : ∑ i ∈ range M, r (N + i) ≤ ∑' i, r i := by
    have e1 : ∑ i ∈ range M, r (N + i) = ∑ i ∈ range (N + M), r i - ∑ i ∈ range N, r i := by rw [sum_range_add]; ring
    have e2 := hr.sum_le_tsum (range (N + M)) (fun i _ => hr0 i)
    have e3 : 0 ≤ ∑ i ∈ range N, r i := sum_nonneg (fun i _ => hr0 i)
    linarith
  have h3 : ∑ i ∈ range M, rate (i + N) * ε ≤ ∑ i ∈ range M, rate (N + i) * g (N + i) := sum_le_sum (fun i _ => by
    rw [Nat.add_comm i N]
    exact mul_le_mul_of_nonneg_left (hno (N + i) (Nat.le_add_right _ _)) (hrate _).le)
  have := hu (N + M)
  linarith

/-- If a subsequence vanishes, so does the sequence. -/
theorem quasi_tendsto {u r : Nat → ℝ} (hu : ∀ e, 0 ≤ u e) (hr0 : ∀ e, 0 ≤ r e) (hr : Summable r) (h : ∀ e, u (e + 1) ≤ u e + r e) {φ : Nat → Nat} (hφ : Tendsto φ atTop atTop)
    (hs : Tendsto (fun j => u (φ j)) atTop (𝓝 0)) : Tendsto u atTop (𝓝 0) := by
  have ht : Tendsto (fun j => u (φ j) + (∑' i, r i - ∑ i ∈ range (φ j), r i)) atTop (𝓝 0) := by
    have h1 := (hr.hasSum.tendsto_sum_nat.comp hφ).const_sub (∑' i, r i)
    rw [sub_self] at h1
    have := hs.add h1
    rwa [add_zero] at this
  rw [Metric.tendsto_atTop]
  intro ε hε
  obtain ⟨j, hj⟩ := (ht.eventually (gt_mem_nhds hε)).exists
  refine ⟨φ j, fun e he => ?_⟩
  rw [Real.dist_eq, sub_zero, abs_of_nonneg (hu e)]
  obtain ⟨d, rfl⟩ := Nat.exists_eq_add_of_le he
  have h1 := quasi_sum (b := fun _ => 0) hu (fun e => by simpa using h e) (φ j) d
  simp only [sum_const_zero, add_zero] at h1
  have e1 : ∑ i ∈ range d, r (φ j + i) = ∑ i ∈ range (φ j + d), r i - ∑ i ∈ range (φ j), r i := by rw [sum_range_add]; ring
  have e2 := hr.sum_le_tsum (range (φ j + d)) (fun i _ => hr0 i)
  linarith

end Trixy.FitMath
