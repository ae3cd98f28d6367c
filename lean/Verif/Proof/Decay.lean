import Verif.Proof.Fit
import Verif.Spec.Decay
/- Gradient steps on convex smooth functions do not increase distances. -/
namespace Trixy.FitMath
open Finset

variable (k : FitKind) (n m : Nat)

theorem nrm_nonneg (T : Nat → Nat → ℝ) : 0 ≤ nrm n m T := sum_nonneg (fun _ _ => sum_nonneg (fun _ _ => sq_nonneg _))

/-- Scalar product. -/
noncomputable def pair (S T : Nat → Nat → ℝ) : ℝ := ∑ i ∈ range n, ∑ j ∈ range m, S i j * T i j

/-- Cauchy-Schwarz. -/
theorem pair_sq (S T : Nat → Nat → ℝ) : pair n m S T ^ 2 ≤ nrm n m S * nrm n m T := by
  have e : ∀ f : Nat → Nat → ℝ, ∑ i ∈ range n, ∑ j ∈ range m, f i j = ∑ q ∈ range n ×ˢ range m, f q.1 q.2 := fun f => (sum_product (range n) (range m) (fun q => f q.1 q.2)).symm
  unfold pair nrm
  rw [e, e (fun i j => S i j ^ 2), e (fun i j => T i j ^ 2)]
  exact Finset.sum_mul_sq_le_sq_mul_sq _ _ _

/-- Triangle inequality. -/
theorem nrm_add {S T : Nat → Nat → ℝ} {a b : ℝ} (ha : 0 ≤ a) (hb : 0 ≤ b) (hS : nrm n m S ≤ a ^ 2) (hT : nrm n m T ≤ b ^ 2) :
    nrm n m (fun i j => S i j + T i j) ≤ (a + b) ^ 2 := by
  have e : nrm n m (fun i j => S i j + T i j) = nrm n m S + 2 * pair n m S T + nrm n m T := by
    unfold nrm pair
    simp only [mul_sum, ← sum_add_distrib]
    exact sum_congr rfl (fun i _ => sum_congr rfl (fun j _ => by ring))
  have h1 : pair n m S T ^ 2 ≤ (a * b) ^ 2 := by
    refine (pair_sq n m S T).trans ?_
    rw [mul_pow]
    exact mul_le_mul hS hT (nrm_nonneg n m T) (sq_nonneg a)
  have h2 : pair n m S T ≤ a * b := le_of_abs_le (abs_le_of_sq_le_sq h1 (mul_nonneg ha hb)) 
  rw [e]
  nlinarith

/-- Gradients of a convex smooth function at two points. -/
theorem cocoercive (hm : 0 < m) (us : List ((Nat → ℝ) × (Nat → ℝ))) (hw : ∀ uw ∈ us, k.Target m uw.2) (T R : Nat → Nat → ℝ) (t : ℝ) :
    (2 * t - t ^ 2 * len2 n us) * nrm n m (fun i j => grd k n m us T i j - grd k n m us R i j) ≤
      pair n m (fun i j => grd k n m us T i j - grd k n m us R i j) (fun i j => T i j - R i j) := by
  have half : ∀ T R : Nat → Nat → ℝ, tot k n m us T + pair n m (grd k n m us T) (fun i j => R i j - T i j) +
      (t - t ^ 2 * len2 n us / 2) * nrm n m (fun i j => grd k n m us T i j - grd k n m us R i j) ≤ tot k n m us R := by
    intro T R
    obtain ⟨_, up⟩ := tot_bounds k n m hm us hw R (fun i j => t * (grd k n m us T i j - grd k n m us R i j))
    obtain ⟨low, _⟩ := tot_bounds k n m hm us hw T (fun i j => R i j + t * (grd k n m us T i j - grd k n m us R i j) - T i j)
    have e : (fun i j => T i j + (R i j + t * (grd k n m us T i j - grd k n m us R i j) - T i j)) =
        fun i j => R i j + t * (grd k n m us T i j - grd k n m us R i j) := by funext i j; ring
    rw [e] at low
    have e1 : ∑ i ∈ range n, ∑ j ∈ range m, grd k n m us T i j * (R i j + t * (grd k n m us T i j - grd k n m us R i j) - T i j) =
        pair n m (grd k n m us T) (fun i j => R i j - T i j) + ∑ i ∈ range n, ∑ j ∈ range m, grd k n m us R i j * (t * (grd k n m us T i j - grd k n m us R i j)) +
        t * nrm n m (fun i j => grd k n m us T i j - grd k n m us R i j) := by
      unfold pair nrm
      simp only [mul_sum, ← sum_add_distrib]
      exact sum_congr rfl (fun i _ => sum_congr rfl (fun j _ => by ring))
    have e2 : nrm n m (fun i j => t * (grd k n m us T i j - grd k n m us R i j)) = t ^ 2 * nrm n m (fun i j => grd k n m us T i j - grd k n m us R i j) := by
      unfold nrm
      simp only [mul_sum]
      exact sum_congr rfl (fun i _ => sum_congr rfl (fun j _ => by ring))
    rw [e1] at low
    rw [e2] at up
    linarith
  have h1 := half T R
  have h2 := half R T
  have e3 : nrm n m (fun i j => grd k n m us R i j - grd k n m us T i j) = nrm n m (fun i j => grd k n m us T i j - grd k n m us R i j) := by
    unfold nrm
    exact sum_congr rfl (fun i _ => sum_congr rfl (fun j _ => by ring))
  have e4 : pair n m (grd k n m us T) (fun i j => R i j - T i j) + pair n m (grd k n m us R) (fun i j => T i j - R i j) =
      -pair n m (fun i j => grd k n m us T i j - grd k n m us R i j) (fun i j => T i j - R i j) := by
    unfold pair
    rw [← sum_add_distrib, ← sum_neg_distrib]
    refine sum_congr rfl (fun i _ => ?_)
    rw [← sum_add_distrib, ← sum_neg_distrib]
    exact sum_congr rfl (fun j _ => by ring)
  rw [e3] at h2
  linarith

/-- One step with weight decay brings any two sets of parameters closer by the factor `1 - lr · decay`. -/
theorem decay_contract (hm : 0 < m) (us : List ((Nat → ℝ) × (Nat → ℝ))) (hw : ∀ uw ∈ us, k.Target m uw.2) (lr a al : ℝ) (hlr : 0 < lr) (ha : 0 < a) (hal : 0 < al)
    (hL : lr * (a * len2 n us) ≤ 2 * al) (T R : Nat → Nat → ℝ) :
    nrm n m (fun i j => (T i j * al - grd k n m us T i j * a * lr) - (R i j * al - grd k n m us R i j * a * lr)) ≤ al ^ 2 * nrm n m (fun i j => T i j - R i j) := by
  set D := fun i j => grd k n m us T i j - grd k n m us R i j with hD
  set Q := nrm n m D with hQ
  have hQ0 : 0 ≤ Q := nrm_nonneg n m D
  have e : nrm n m (fun i j => (T i j * al - grd k n m us T i j * a * lr) - (R i j * al - grd k n m us R i j * a * lr)) =
      al ^ 2 * nrm n m (fun i j => T i j - R i j) - 2 * al * (a * lr) * pair n m D (fun i j => T i j - R i j) + (a * lr) ^ 2 * Q := by
    rw [hQ, hD]
    unfold nrm pair
    simp only [mul_sum, ← sum_add_distrib, ← sum_sub_distrib]
    exact sum_congr rfl (fun i _ => sum_congr rfl (fun j _ => by ring))
  have hc := cocoercive k n m hm us hw T R (lr * a / al / 2)
  rw [← hD, ← hQ] at hc
  have hs : lr * a / al * len2 n us ≤ 2 := by
    rw [div_mul_eq_mul_div, div_le_iff₀ hal]
    linarith
  have hs0 : 0 < lr * a / al := by positivity
  have h2 : lr * a / al / 2 * Q ≤ pair n m D (fun i j => T i j - R i j) := by
    refine le_trans ?_ hc
    have : lr * a / al / 2 ≤ 2 * (lr * a / al / 2) - (lr * a / al / 2) ^ 2 * len2 n us := by nlinarith
    exact mul_le_mul_of_nonneg_right this hQ0
  have h3 : (a * lr) ^ 2 * Q = 2 * al * (a * lr) * (lr * a / al / 2 * Q) := by field_simp
  rw [e, h3]
  have : 0 ≤ 2 * al * (a * lr) := by positivity
  nlinarith [mul_le_mul_of_nonneg_left h2 this]

/-- A fixed point of the step minimises the regularised sum. -/
theorem fixed_min (hm : 0 < m) (us : List ((Nat → ℝ) × (Nat → ℝ))) (hw : ∀ uw ∈ us, k.Target m uw.2) (a d : ℝ) (ha : 0 ≤ a) (T R : Nat → Nat → ℝ)
    (h : ∀ i j, i < n → j < m → grd k n m us T i j * a = -(d * T i j)) :
    a * tot k n m us T + d / 2 * nrm n m T + d / 2 * nrm n m (fun i j => R i j - T i j) ≤ a * tot k n m us R + d / 2 * nrm n m R := by
  obtain ⟨low, _⟩ := tot_bounds k n m hm us hw T (fun i j => R i j - T i j)
  have eR : (fun i j => T i j + (R i j - T i j)) = R := by funext i j; ring
  rw [eR] at low
  have low' := mul_le_mul_of_nonneg_left low ha
  have e : a * ∑ i ∈ range n, ∑ j ∈ range m, grd k n m us T i j * (R i j - T i j) =
      d / 2 * nrm n m T + d / 2 * nrm n m (fun i j => R i j - T i j) - d / 2 * nrm n m R := by
    unfold nrm
    simp only [mul_sum, ← sum_add_distrib, ← sum_sub_distrib]
    refine sum_congr rfl (fun i hi => sum_congr rfl (fun j hj => ?_))
    have := h i j (mem_range.1 hi) (mem_range.1 hj)
    calc a * (grd k n m us T i j * (R i j - T i j)) = (grd k n m us T i j * a) * (R i j - T i j) := by ring
      _ = _ := by rw [this]; ring
  rw [mul_add, e] at low'
  linarith

/-- Gradients of bounded losses. -/
theorem zGrad_sq {c : ℝ} (hk : Steep k m c) {w : Nat → ℝ} (hw : k.Target m w) (z : Nat → ℝ) : ∑ j ∈ range m, zGrad k m w z j ^ 2 ≤ c := by
  cases hk with
  | lc =>
    have : ∀ j ∈ range m, zGrad .lc m w z j ^ 2 ≤ 1 := fun j _ => by
      show Real.tanh (z j - w j) ^ 2 ≤ 1
      have h1 := Real.tanh_lt_one (z j - w j)
      have h2 := Real.neg_one_lt_tanh (z j - w j)
      nlinarith
    simpa using sum_le_sum this
  | nll =>
    obtain ⟨c, hc, h1, h0⟩ := hw
    have hm : 0 < m := Nat.lt_of_le_of_lt (Nat.zero_le _) hc
    have hp : ∀ j, 0 < softmaxFn m z j := fun j => div_pos (Real.exp_pos _) (expSum_pos hm z)
    have hs : ∑ j ∈ range m, softmaxFn m z j = 1 := by
      show ∑ j ∈ range m, Real.exp (z j) / expSum m z = 1
      rw [← sum_div]
      exact div_self (expSum_pos hm z).ne'
    have hle : ∀ j ∈ range m, softmaxFn m z j ≤ 1 := fun j hj => by
      rw [← hs]; exact single_le_sum (f := softmaxFn m z) (fun j _ => (hp j).le) hj
    have hsq : ∀ j ∈ range m, zGrad .nll m w z j ^ 2 ≤ softmaxFn m z j + if j = c then 1 else 0 := fun j hj => by
      show (softmaxFn m z j - w j) ^ 2 ≤ _
      have := hp j
      have := hle j hj
      by_cases e : j = c
      · subst e
        rw [if_pos rfl, h1]
        nlinarith
      · rw [if_neg e, h0 j (mem_range.1 hj) e]
        nlinarith
    refine (sum_le_sum hsq).trans ?_
    rw [sum_add_distrib, hs, sum_ite_eq', if_pos (mem_range.2 hc)]
    norm_num

end Trixy.FitMath
