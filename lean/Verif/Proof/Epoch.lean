import Verif.Props.Online
/- One pass over mini-batches: the losses after it, compared with those of any other parameters. -/
namespace Trixy.FitMath
open Finset

variable {k : FitKind} {n m : Nat}

theorem enrm_nonneg (n m : Nat) (A : Nat → Nat → ℝ) : 0 ≤ nrm n m A := sum_nonneg (fun _ _ => sum_nonneg (fun _ _ => sq_nonneg _))

/-- Losses at nearby parameters. -/
theorem shift_bound (hm : 0 < m) (us : List ((Nat → ℝ) × (Nat → ℝ))) (hw : ∀ uw ∈ us, k.Target m uw.2) (h0 : ∀ T, 0 ≤ tot k n m us T) (hl : 0 < len2 n us)
    (T D : Nat → Nat → ℝ) (δ : ℝ) (hδ : 0 < δ) :
    tot k n m us (fun i j => T i j + D i j) ≤ (1 + δ) * tot k n m us T + (1 + 1 / δ) * (len2 n us * nrm n m D / 2) := by
  have up := (tot_bounds k n m hm us hw T D).2
  have sb := self_bound k n m hm us hw T h0 hl
  set G := grd k n m us T
  set L := len2 n us
  have h1 : ∑ i ∈ range n, ∑ j ∈ range m, G i j * D i j ≤ δ / (2 * L) * nrm n m G + L / (2 * δ) * nrm n m D := by
    unfold nrm
    simp only [mul_sum, ← sum_add_distrib]
    refine sum_le_sum (fun i _ => sum_le_sum (fun j _ => ?_))
    have e : δ / (2 * L) * G i j ^ 2 + L / (2 * δ) * D i j ^ 2 - G i j * D i j = (δ * G i j - L * D i j) ^ 2 / (2 * L * δ) := by
      field_simp
      ring
    have : 0 ≤ (δ * G i j - L * D i j) ^ 2 / (2 * L * δ) := by positivity
    linarith
  have h2 : δ / (2 * L) * nrm n m G ≤ δ * tot k n m us T := by
    have := mul_le_mul_of_nonneg_left sb (show 0 ≤ δ / (2 * L) by positivity)
    have e : δ / (2 * L) * (2 * L * tot k n m us T) = δ * tot k n m us T := by field_simp
    rwa [e] at this
  have e3 : (1 + 1 / δ) * (L * nrm n m D / 2) = L * nrm n m D / 2 + L / (2 * δ) * nrm n m D := by field_simp
  rw [e3]
  linarith

/-- One step, compared with `R`. -/
theorem step_regret (hm : 0 < m) (us : List ((Nat → ℝ) × (Nat → ℝ))) (hw : ∀ uw ∈ us, k.Target m uw.2) (h0 : ∀ T, 0 ≤ tot k n m us T) (hl : 0 < len2 n us)
    (lr a c : ℝ) (hlr : 0 < lr) (ha : 0 ≤ a) (hL : lr * (a * len2 n us) ≤ c) (T R : Nat → Nat → ℝ) :
    nrm n m (fun i j => T i j + -(grd k n m us T i j * a * lr) - R i j) + 2 * lr * ((1 - c) * (a * tot k n m us T) - a * tot k n m us R) ≤ nrm n m (fun i j => T i j - R i j) ∧
    nrm n m (fun i j => T i j + -(grd k n m us T i j * a * lr) - T i j) ≤ 2 * lr * c * (a * tot k n m us T) := by
  have low := (tot_bounds k n m hm us hw T (fun i j => R i j - T i j)).1
  have sb := self_bound k n m hm us hw T h0 hl
  set G := grd k n m us T
  have e0 : (fun i j => T i j + (R i j - T i j)) = R := by funext i j; ring
  rw [e0] at low
  have q1 : (lr * a) ^ 2 * nrm n m G ≤ 2 * lr * c * (a * tot k n m us T) := by
    have h1 := mul_le_mul_of_nonneg_left sb (sq_nonneg (lr * a))
    have h2 := mul_le_mul_of_nonneg_left hL (show 0 ≤ 2 * lr * (a * tot k n m us T) from mul_nonneg (by linarith) (mul_nonneg ha (h0 T)))
    nlinarith
  constructor
  · have e : nrm n m (fun i j => T i j + -(G i j * a * lr) - R i j) =
        nrm n m (fun i j => T i j - R i j) + 2 * lr * a * (∑ i ∈ range n, ∑ j ∈ range m, G i j * (R i j - T i j)) + (lr * a) ^ 2 * nrm n m G := by
      unfold nrm
      simp only [mul_sum, ← sum_add_distrib]
      exact sum_congr rfl (fun i _ => sum_congr rfl (fun j _ => by ring))
    rw [e]
    have h3 := mul_le_mul_of_nonneg_left low (show 0 ≤ 2 * lr * a by positivity)
    nlinarith
  · refine le_trans (le_of_eq ?_) q1
    unfold nrm
    simp only [mul_sum]
    exact sum_congr rfl (fun i _ => sum_congr rfl (fun j _ => by ring))

variable {us : Nat → List ((Nat → ℝ) × (Nat → ℝ))} (hm : 0 < m) (hw : ∀ N, ∀ uw ∈ us N, k.Target m uw.2) (h0 : ∀ N T, 0 ≤ tot k n m (us N) T) (hl : ∀ N, 0 < len2 n (us N))
  {lr c : ℝ} (hlr : 0 < lr) {a : Nat → ℝ} (ha : ∀ N, 0 ≤ a N) (hL : ∀ N, lr * (a N * len2 n (us N)) ≤ c) {T : Nat → Nat → Nat → ℝ}
  (hT : ∀ N, T (N + 1) = fun i j => T N i j + -(grd k n m (us N) (T N) i j * a N * lr))
include hm hw h0 hl hlr ha hL hT

/-- Losses, each before its step, compared with those of `R`. -/
theorem run_regret (R : Nat → Nat → ℝ) (s N : Nat) :
    nrm n m (fun i j => T (s + N) i j - R i j) + 2 * lr * ((1 - c) * ∑ q ∈ range N, a (s + q) * tot k n m (us (s + q)) (T (s + q)) - ∑ q ∈ range N, a (s + q) * tot k n m (us (s + q)) R) ≤
      nrm n m (fun i j => T s i j - R i j) := by
  induction N with
  | zero => simp
  | succ N ih =>
    have := (step_regret hm (us (s + N)) (hw _) (h0 _) (hl _) lr (a (s + N)) c hlr (ha _) (hL _) (T (s + N)) R).1
    rw [sum_range_succ, sum_range_succ, ← add_assoc, hT]
    linarith

/-- The losses of the parameters before a pass, compared with those met on the way. -/
theorem pass_bound (hc : 0 < c) (s K : Nat) (hK : 0 < K) :
    ∑ q ∈ range K, a (s + q) * tot k n m (us (s + q)) (T s) ≤ (1 + c * K) ^ 2 * ∑ q ∈ range K, a (s + q) * tot k n m (us (s + q)) (T (s + q)) := by
  set F := ∑ q ∈ range K, a (s + q) * tot k n m (us (s + q)) (T (s + q)) with hF
  have hK' : (0 : ℝ) < K := by exact_mod_cast hK
  have hf : ∀ q, 0 ≤ a (s + q) * tot k n m (us (s + q)) (T (s + q)) := fun q => mul_nonneg (ha _) (h0 _ _)
  have hF0 : 0 ≤ F := sum_nonneg (fun q _ => hf q)
  have hd : ∀ N, N < K → nrm n m (fun i j => T s i j - T (s + N) i j) ≤ K * (2 * lr * c * F) := fun N hN => by
    have tele : ∀ N i j, T s i j - T (s + N) i j = -∑ q ∈ range N, (T (s + q + 1) i j - T (s + q) i j) := fun N i j => by
      induction N with
      | zero => simp
      | succ N ih => rw [sum_range_succ, ← add_assoc]; linear_combination ih
    calc nrm n m (fun i j => T s i j - T (s + N) i j) ≤ ∑ i ∈ range n, ∑ j ∈ range m, (N : ℝ) * ∑ q ∈ range N, (T (s + q + 1) i j - T (s + q) i j) ^ 2 := by
          refine sum_le_sum (fun i _ => sum_le_sum (fun j _ => ?_))
          dsimp only
          rw [tele, neg_sq]
          have := sq_sum_le_card_mul_sum_sq (s := range N) (f := fun q => T (s + q + 1) i j - T (s + q) i j)
          rwa [card_range] at this
      _ = N * ∑ q ∈ range N, nrm n m (fun i j => T (s + q + 1) i j - T (s + q) i j) := by
          unfold nrm
          simp only [mul_sum]
          rw [sum_comm]
          rw [sum_comm (s := range N)]
          refine (sum_comm).trans (sum_congr rfl (fun i _ => ?_))
          rw [sum_comm]
      _ ≤ N * ∑ q ∈ range N, 2 * lr * c * (a (s + q) * tot k n m (us (s + q)) (T (s + q))) := by
          refine mul_le_mul_of_nonneg_left (sum_le_sum (fun q _ => ?_)) (Nat.cast_nonneg N)
          rw [hT]
          exact (step_regret hm (us (s + q)) (hw _) (h0 _) (hl _) lr (a (s + q)) c hlr (ha _) (hL _) (T (s + q)) (fun _ _ => 0)).2
      _ = N * (2 * lr * c * ∑ q ∈ range N, a (s + q) * tot k n m (us (s + q)) (T (s + q))) := by rw [mul_sum (a := 2 * lr * c)]
      _ ≤ K * (2 * lr * c * F) := by
          have h1 : ∑ q ∈ range N, a (s + q) * tot k n m (us (s + q)) (T (s + q)) ≤ F := sum_le_sum_of_subset_of_nonneg (range_mono hN.le) (fun q _ _ => hf q)
          have h2 : (N : ℝ) ≤ K := by exact_mod_cast hN.le
          have h3 : 0 ≤ ∑ q ∈ range N, a (s + q) * tot k n m (us (s + q)) (T (s + q)) := sum_nonneg (fun q _ => hf q)
          have h4 : 2 * lr * c * ∑ q ∈ range N, a (s + q) * tot k n m (us (s + q)) (T (s + q)) ≤ 2 * lr * c * F := mul_le_mul_of_nonneg_left h1 (by positivity)
          exact mul_le_mul h2 h4 (by positivity) hK'.le
  have hone : ∀ q, q < K → a (s + q) * tot k n m (us (s + q)) (T s) ≤
      (1 + c * K) * (a (s + q) * tot k n m (us (s + q)) (T (s + q))) + (1 + 1 / (c * K)) * (c * (K * (c * F))) := fun q hq => by
    have h1 := shift_bound hm (us (s + q)) (hw _) (h0 _) (hl _) (T (s + q)) (fun i j => T s i j - T (s + q) i j) (c * K) (by positivity)
    have e : (fun i j => T (s + q) i j + (T s i j - T (s + q) i j)) = T s := by funext i j; ring
    rw [e] at h1
    have h2 := mul_le_mul_of_nonneg_left h1 (ha (s + q))
    have h3 : a (s + q) * (len2 n (us (s + q)) * nrm n m (fun i j => T s i j - T (s + q) i j) / 2) ≤ c * (K * (c * F)) := by
      have h4 := mul_le_mul_of_nonneg_left (hd q hq) (show 0 ≤ a (s + q) * len2 n (us (s + q)) / 2 from div_nonneg (mul_nonneg (ha _) (hl _).le) (by norm_num))
      have h5 := mul_le_mul_of_nonneg_right (hL (s + q)) (show 0 ≤ K * (c * F) by positivity)
      nlinarith
    have h6 := mul_le_mul_of_nonneg_left h3 (show 0 ≤ 1 + 1 / (c * K) by positivity)
    nlinarith
  refine (sum_le_sum (fun q hq => hone q (mem_range.1 hq))).trans (le_of_eq ?_)
  rw [sum_add_distrib, ← mul_sum, ← hF, sum_const, card_range, nsmul_eq_mul]
  field_simp
  ring

end Trixy.FitMath
