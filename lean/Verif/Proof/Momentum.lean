import Verif.Proof.Decay
/- Gradient descent with momentum (heavy ball, and Nesterov) on a convex smooth function of a matrix. -/
namespace Trixy.FitMath
open Finset

variable (n m : Nat)

/-- `f` is convex with gradient `G`, and smooth with constant `L`. -/
structure Smooth (f : (Nat → Nat → ℝ) → ℝ) (G : (Nat → Nat → ℝ) → Nat → Nat → ℝ) (L : ℝ) : Prop where
  low : ∀ T D, f T + pair n m (G T) D ≤ f (fun i j => T i j + D i j)
  up : ∀ T D, f (fun i j => T i j + D i j) ≤ f T + pair n m (G T) D + L * nrm n m D / 2

/-- The mean of the losses is of this kind. -/
theorem smooth_mean (k : FitKind) (hm : 0 < m) (us : List ((Nat → ℝ) × (Nat → ℝ))) (hw : ∀ uw ∈ us, k.Target m uw.2) (a : ℝ) (ha : 0 ≤ a) :
    Smooth n m (fun T => a * tot k n m us T) (fun T i j => grd k n m us T i j * a) (a * len2 n us) := by
  have e : ∀ T D, pair n m (fun i j => grd k n m us T i j * a) D = a * ∑ i ∈ range n, ∑ j ∈ range m, grd k n m us T i j * D i j := fun T D => by
    unfold pair
    simp only [mul_sum]
    exact sum_congr rfl (fun i _ => sum_congr rfl (fun j _ => by ring))
  refine ⟨fun T D => ?_, fun T D => ?_⟩
  · have := mul_le_mul_of_nonneg_left (tot_bounds k n m hm us hw T D).1 ha
    rw [mul_add] at this
    rw [e]; exact this
  · have := mul_le_mul_of_nonneg_left (tot_bounds k n m hm us hw T D).2 ha
    rw [mul_add, mul_add] at this
    rw [e]
    linarith

variable {n m} {f : (Nat → Nat → ℝ) → ℝ} {G : (Nat → Nat → ℝ) → Nat → Nat → ℝ} {L : ℝ}

/-- The squared gradient is bounded by the distance to the lowest value. -/
theorem Smooth.grad_le (h : Smooth n m f G L) (hL : 0 < L) {lo : ℝ} (hlo : ∀ R, lo ≤ f R) (T : Nat → Nat → ℝ) : nrm n m (G T) ≤ 2 * L * (f T - lo) := by
  have up := h.up T (fun i j => -(G T i j / L))
  have e1 : pair n m (G T) (fun i j => -(G T i j / L)) = -(nrm n m (G T) / L) := by
    unfold nrm pair
    rw [sum_div, ← sum_neg_distrib]
    refine sum_congr rfl (fun i _ => ?_)
    rw [sum_div, ← sum_neg_distrib]
    exact sum_congr rfl (fun j _ => by ring)
  have e2 : nrm n m (fun i j => -(G T i j / L)) = nrm n m (G T) / L ^ 2 := by
    unfold nrm
    rw [sum_div]
    refine sum_congr rfl (fun i _ => ?_)
    rw [sum_div]
    exact sum_congr rfl (fun j _ => by field_simp)
  rw [e1, e2] at up
  have h3 : L * (nrm n m (G T) / L ^ 2) / 2 = nrm n m (G T) / L / 2 := by field_simp
  have h4 := hlo (fun i j => T i j + -(G T i j / L))
  have h5 : nrm n m (G T) / L ≤ 2 * (f T - lo) := by linarith
  rw [div_le_iff₀ hL] at h5
  linarith

/-! ### Heavy ball: `V' = μ V - lr G`, `T' = T + V'` -/

section
variable {T V : Nat → Nat → Nat → ℝ} {lr mu : ℝ}

/-- A run of the heavy ball method. -/
structure Ball (G : (Nat → Nat → ℝ) → Nat → Nat → ℝ) (lr mu : ℝ) (T V : Nat → Nat → Nat → ℝ) : Prop where
  start : V 0 = fun _ _ => 0
  vel : ∀ t, V (t + 1) = fun i j => V t i j * mu - lr * G (T t) i j
  pos : ∀ t, T (t + 1) = fun i j => T t i j + V (t + 1) i j

/-- Kinetic and potential energy together fall. -/
theorem Ball.energy (hb : Ball G lr mu T V) (h : Smooth n m f G L) (hlr : 0 < lr) (hmu : 0 ≤ mu) (t : Nat) :
    f (T (t + 1)) + mu / (2 * lr) * nrm n m (V (t + 1)) + ((1 - mu) / lr - L / 2) * nrm n m (V (t + 1)) ≤ f (T t) + mu / (2 * lr) * nrm n m (V t) := by
  have up := h.up (T t) (V (t + 1))
  rw [← hb.pos t] at up
  have hp : 0 ≤ nrm n m (fun i j => V t i j - V (t + 1) i j) := nrm_nonneg ..
  have e : lr * pair n m (G (T t)) (V (t + 1)) = mu / 2 * nrm n m (V t) + mu / 2 * nrm n m (V (t + 1)) - nrm n m (V (t + 1)) -
      mu / 2 * nrm n m (fun i j => V t i j - V (t + 1) i j) := by
    unfold pair nrm
    simp only [mul_sum, ← sum_add_distrib, ← sum_sub_distrib]
    refine sum_congr rfl (fun i _ => sum_congr rfl (fun j _ => ?_))
    have : lr * G (T t) i j = V t i j * mu - V (t + 1) i j := by rw [hb.vel t]; ring
    calc lr * (G (T t) i j * V (t + 1) i j) = (lr * G (T t) i j) * V (t + 1) i j := by ring
      _ = _ := by rw [this]; ring
  have e2 : pair n m (G (T t)) (V (t + 1)) = (mu / 2 * nrm n m (V t) + mu / 2 * nrm n m (V (t + 1)) - nrm n m (V (t + 1)) -
      mu / 2 * nrm n m (fun i j => V t i j - V (t + 1) i j)) / lr := by rw [← e]; field_simp
  have e3 : (mu / 2 * nrm n m (V t) + mu / 2 * nrm n m (V (t + 1)) - nrm n m (V (t + 1)) - mu / 2 * nrm n m (fun i j => V t i j - V (t + 1) i j)) / lr =
      mu / (2 * lr) * nrm n m (V t) + mu / (2 * lr) * nrm n m (V (t + 1)) - 1 / lr * nrm n m (V (t + 1)) -
      mu / (2 * lr) * nrm n m (fun i j => V t i j - V (t + 1) i j) := by field_simp
  have h0 : 0 ≤ mu / (2 * lr) * nrm n m (fun i j => V t i j - V (t + 1) i j) := by positivity
  rw [e2, e3] at up
  have e4 : (1 - mu) / lr = 1 / lr - 2 * (mu / (2 * lr)) := by field_simp
  rw [e4]
  nlinarith

/-- One step, compared with `R`. -/
theorem Ball.step (hb : Ball G lr mu T V) (h : Smooth n m f G L) (hL : 0 < L) (hlr : 0 < lr) (hmu : 0 ≤ mu) (hmu1 : mu < 1) {lo : ℝ} (hlo : ∀ R, lo ≤ f R) (R : Nat → Nat → ℝ)
    (t : Nat) :
    f (T t) - f R - lr * L / (1 - mu) * (f (T t) - lo) + mu / (1 - mu) * (f (T t) - f (fun i j => T t i j + -V t i j)) ≤
      (1 - mu) / (2 * lr) * (nrm n m (fun i j => T t i j + mu / (1 - mu) * V t i j - R i j) - nrm n m (fun i j => T (t + 1) i j + mu / (1 - mu) * V (t + 1) i j - R i j)) := by
  have h1 : 0 < 1 - mu := by linarith
  have l1 := h.low (T t) (fun i j => R i j - T t i j)
  have eR : (fun i j => T t i j + (R i j - T t i j)) = R := by funext i j; ring
  rw [eR] at l1
  have l2 := h.low (T t) (fun i j => -V t i j)
  have e : nrm n m (fun i j => T t i j + mu / (1 - mu) * V t i j - R i j) - nrm n m (fun i j => T (t + 1) i j + mu / (1 - mu) * V (t + 1) i j - R i j) =
      -(2 * (lr / (1 - mu)) * pair n m (G (T t)) (fun i j => R i j - T t i j)) - 2 * (lr / (1 - mu)) * (mu / (1 - mu)) * pair n m (G (T t)) (fun i j => -V t i j) -
      (lr / (1 - mu)) ^ 2 * nrm n m (G (T t)) := by
    unfold pair nrm
    simp only [mul_sum, ← sum_sub_distrib, ← sum_neg_distrib]
    refine sum_congr rfl (fun i _ => sum_congr rfl (fun j _ => ?_))
    have e1 : T (t + 1) i j + mu / (1 - mu) * V (t + 1) i j - R i j = (T t i j + mu / (1 - mu) * V t i j - R i j) - lr / (1 - mu) * G (T t) i j := by
      rw [hb.pos t, hb.vel t]
      field_simp
      ring
    rw [e1]
    ring
  have hg := h.grad_le hL hlo (T t)
  have hg2 : (1 - mu) / (2 * lr) * ((lr / (1 - mu)) ^ 2 * nrm n m (G (T t))) ≤ lr * L / (1 - mu) * (f (T t) - lo) := by
    have : (1 - mu) / (2 * lr) * ((lr / (1 - mu)) ^ 2 * nrm n m (G (T t))) = lr / (2 * (1 - mu)) * nrm n m (G (T t)) := by field_simp
    rw [this]
    have := mul_le_mul_of_nonneg_left hg (show 0 ≤ lr / (2 * (1 - mu)) by positivity)
    have e3 : lr / (2 * (1 - mu)) * (2 * L * (f (T t) - lo)) = lr * L / (1 - mu) * (f (T t) - lo) := by field_simp
    linarith
  rw [e]
  have e5 : (1 - mu) / (2 * lr) * (-(2 * (lr / (1 - mu)) * pair n m (G (T t)) (fun i j => R i j - T t i j)) -
      2 * (lr / (1 - mu)) * (mu / (1 - mu)) * pair n m (G (T t)) (fun i j => -V t i j) - (lr / (1 - mu)) ^ 2 * nrm n m (G (T t))) =
      -pair n m (G (T t)) (fun i j => R i j - T t i j) - mu / (1 - mu) * pair n m (G (T t)) (fun i j => -V t i j) -
      (1 - mu) / (2 * lr) * ((lr / (1 - mu)) ^ 2 * nrm n m (G (T t))) := by
    field_simp
  rw [e5]
  have h6 := mul_le_mul_of_nonneg_left l2 (show 0 ≤ mu / (1 - mu) by positivity)
  nlinarith

/-- The sum of the values of the first `N` positions. -/
theorem Ball.sum (hb : Ball G lr mu T V) (h : Smooth n m f G L) (hL : 0 < L) (hlr : 0 < lr) (hmu : 0 ≤ mu) (hmu1 : mu < 1) {lo : ℝ} (hlo : ∀ R, lo ≤ f R) (R : Nat → Nat → ℝ)
    (N : Nat) :
    (∑ t ∈ range N, (f (T t) - f R - lr * L / (1 - mu) * (f (T t) - lo))) ≤
      mu / (1 - mu) * (f (T 0) - lo) + (1 - mu) / (2 * lr) * nrm n m (fun i j => T 0 i j - R i j) := by
  have h1 : 0 < 1 - mu := by linarith
  have hq : 0 ≤ mu / (1 - mu) := by positivity
  have key : ∀ N, (∑ t ∈ range (N + 1), (f (T t) - f R - lr * L / (1 - mu) * (f (T t) - lo))) + mu / (1 - mu) * (f (T N) - f (T 0)) ≤
      (1 - mu) / (2 * lr) * (nrm n m (fun i j => T 0 i j - R i j) - nrm n m (fun i j => T (N + 1) i j + mu / (1 - mu) * V (N + 1) i j - R i j)) := by
    intro N
    induction N with
    | zero =>
      have := hb.step h hL hlr hmu hmu1 hlo R 0
      rw [hb.start] at this
      simp only [neg_zero, add_zero, mul_zero, sub_self] at this
      rw [zero_add, sum_range_one]
      simpa using this
    | succ N ih =>
      have := hb.step h hL hlr hmu hmu1 hlo R (N + 1)
      have e : (fun i j => T (N + 1) i j + -V (N + 1) i j) = T N := by
        funext i j
        rw [hb.pos N]; ring
      rw [e] at this
      rw [sum_range_succ]
      nlinarith
  cases N with
  | zero =>
    have := hlo (T 0)
    have : 0 ≤ mu / (1 - mu) * (f (T 0) - lo) := mul_nonneg hq (by linarith)
    have h3 : 0 ≤ (1 - mu) / (2 * lr) * nrm n m (fun i j => T 0 i j - R i j) := mul_nonneg (by positivity) (nrm_nonneg ..)
    simp only [range_zero, sum_empty]
    linarith
  | succ N =>
    have := key N
    have h2 : 0 ≤ (1 - mu) / (2 * lr) * nrm n m (fun i j => T (N + 1) i j + mu / (1 - mu) * V (N + 1) i j - R i j) := mul_nonneg (by positivity) (nrm_nonneg ..)
    have h3 := mul_le_mul_of_nonneg_left (hlo (T N)) hq
    nlinarith

/-- The energy after `N` steps is close to the value at any almost lowest `R`. -/
theorem Ball.bound (hb : Ball G lr mu T V) (h : Smooth n m f G L) (hL : 0 < L) (hlr : 0 < lr) (hmu : 0 ≤ mu) (hr : lr * L < 1 - mu) {lo : ℝ} (hlo : ∀ R, lo ≤ f R)
    (R : Nat → Nat → ℝ) (N : Nat) (hN : 0 < N) :
    (1 - lr * L / (1 - mu)) * (f (T N) - lo) ≤ f R - lo + ((1 - mu) / (2 * lr) * nrm n m (fun i j => T 0 i j - R i j) + 2 * mu / (1 - mu) * (f (T 0) - lo)) / N := by
  have hmu1 : mu < 1 := by have := mul_pos hlr hL; linarith
  have h1 : 0 < 1 - mu := by linarith
  set ρ := lr * L / (1 - mu) with hρ
  have hρ0 : 0 < ρ := by positivity
  have hρ1 : ρ < 1 := by rw [hρ, div_lt_one h1]; exact hr
  let E : Nat → ℝ := fun t => f (T t) + mu / (2 * lr) * nrm n m (V t)
  let c := (1 - mu) / (2 * lr)
  have hc : c ≤ (1 - mu) / lr - L / 2 := by
    show (1 - mu) / (2 * lr) ≤ _
    have : L / 2 ≤ (1 - mu) / (2 * lr) := by
      rw [div_le_div_iff₀ (by norm_num) (by positivity)]; nlinarith
    have e : (1 - mu) / lr = (1 - mu) / (2 * lr) + (1 - mu) / (2 * lr) := by field_simp; ring
    linarith
  have hE : ∀ t, E (t + 1) + c * nrm n m (V (t + 1)) ≤ E t := fun t => by
    have := hb.energy h hlr hmu t
    have h2 := mul_le_mul_of_nonneg_right hc (nrm_nonneg n m (V (t + 1)))
    show f (T (t + 1)) + mu / (2 * lr) * nrm n m (V (t + 1)) + c * nrm n m (V (t + 1)) ≤ f (T t) + mu / (2 * lr) * nrm n m (V t)
    linarith
  have hc0 : 0 < c := by show 0 < (1 - mu) / (2 * lr); positivity
  have hanti : Antitone E := antitone_nat_of_succ_le (fun t => by
    have := hE t
    have := mul_nonneg hc0.le (nrm_nonneg n m (V (t + 1)))
    linarith)
  have hV : ∀ N, c * ∑ t ∈ range (N + 1), nrm n m (V t) ≤ E 0 - E N := by
    intro N
    induction N with
    | zero =>
      rw [zero_add, sum_range_one, hb.start]
      simp [nrm]
    | succ N ih =>
      rw [sum_range_succ, mul_add]
      have := hE N
      linarith
  have hE0 : E 0 = f (T 0) := by
    show f (T 0) + mu / (2 * lr) * nrm n m (V 0) = _
    rw [hb.start]; simp [nrm]
  have hElo : ∀ t, lo ≤ E t := fun t => by
    have := hlo (T t)
    have h2 : 0 ≤ mu / (2 * lr) * nrm n m (V t) := mul_nonneg (by positivity) (nrm_nonneg ..)
    show lo ≤ f (T t) + mu / (2 * lr) * nrm n m (V t)
    linarith
  obtain ⟨M, rfl⟩ : ∃ M, N = M + 1 := ⟨N - 1, by omega⟩
  have hV2 : mu / (2 * lr) * ∑ t ∈ range (M + 1), nrm n m (V t) ≤ mu / (1 - mu) * (f (T 0) - lo) := by
    have h3 := hV M
    have h4 := hElo M
    have h5 : ∑ t ∈ range (M + 1), nrm n m (V t) ≤ (f (T 0) - lo) / c := by
      rw [le_div_iff₀ hc0]; linarith
    have h6 := mul_le_mul_of_nonneg_left h5 (show 0 ≤ mu / (2 * lr) by positivity)
    have e : mu / (2 * lr) * ((f (T 0) - lo) / c) = mu / (1 - mu) * (f (T 0) - lo) := by
      show mu / (2 * lr) * ((f (T 0) - lo) / ((1 - mu) / (2 * lr))) = _
      field_simp
    linarith
  have hN' : (0 : ℝ) < ((M + 1 : Nat) : ℝ) := by positivity
  have hlast : ((M + 1 : Nat) : ℝ) * (f (T (M + 1)) - lo) ≤ ∑ t ∈ range (M + 1), (E t - lo) := by
    have := Finset.card_nsmul_le_sum (range (M + 1)) (fun t => E t - lo) (f (T (M + 1)) - lo) (fun t ht => by
      have h7 := hanti (show t ≤ M + 1 by have := mem_range.1 ht; omega)
      have h8 : f (T (M + 1)) ≤ E (M + 1) := by
        have : 0 ≤ mu / (2 * lr) * nrm n m (V (M + 1)) := mul_nonneg (by positivity) (nrm_nonneg ..)
        show f (T (M + 1)) ≤ f (T (M + 1)) + mu / (2 * lr) * nrm n m (V (M + 1))
        linarith
      linarith)
    simpa using this
  have hsplit : ∑ t ∈ range (M + 1), (E t - lo) = ∑ t ∈ range (M + 1), (f (T t) - lo) + mu / (2 * lr) * ∑ t ∈ range (M + 1), nrm n m (V t) := by
    rw [mul_sum, ← sum_add_distrib]
    exact sum_congr rfl (fun t _ => by show f (T t) + mu / (2 * lr) * nrm n m (V t) - lo = _; ring)
  have hsum := hb.sum h hL hlr hmu hmu1 hlo R (M + 1)
  have e6 : (∑ t ∈ range (M + 1), (f (T t) - f R - lr * L / (1 - mu) * (f (T t) - lo))) = (1 - ρ) * ∑ t ∈ range (M + 1), (f (T t) - lo) - ((M + 1 : Nat) : ℝ) * (f R - lo) := by
    rw [mul_sum]
    have : ((M + 1 : Nat) : ℝ) * (f R - lo) = ∑ t ∈ range (M + 1), (f R - lo) := by rw [sum_const, card_range, nsmul_eq_mul]
    rw [this, ← sum_sub_distrib]
    exact sum_congr rfl (fun t _ => by rw [hρ]; ring)
  rw [e6] at hsum
  have h7 := mul_le_mul_of_nonneg_left hlast (show 0 ≤ 1 - ρ by linarith)
  rw [hsplit, mul_add] at h7
  have h8 : (1 - ρ) * (mu / (2 * lr) * ∑ t ∈ range (M + 1), nrm n m (V t)) ≤ mu / (1 - mu) * (f (T 0) - lo) := by
    have h9 : 0 ≤ mu / (2 * lr) * ∑ t ∈ range (M + 1), nrm n m (V t) := mul_nonneg (by positivity) (sum_nonneg (fun _ _ => nrm_nonneg ..))
    nlinarith
  have e10 : 2 * mu / (1 - mu) * (f (T 0) - lo) = mu / (1 - mu) * (f (T 0) - lo) + mu / (1 - mu) * (f (T 0) - lo) := by ring
  have h11 : ((M + 1 : Nat) : ℝ) * ((1 - ρ) * (f (T (M + 1)) - lo)) ≤ ((M + 1 : Nat) : ℝ) * (f R - lo + ((1 - mu) / (2 * lr) * nrm n m (fun i j => T 0 i j - R i j) +
      2 * mu / (1 - mu) * (f (T 0) - lo)) / ((M + 1 : Nat) : ℝ)) := by
    rw [mul_add, mul_div_cancel₀ _ hN'.ne', e10]
    linarith
  exact le_of_mul_le_mul_left h11 hN'

end

/-! ### Nesterov: `V' = μ V - lr G`, `T' = T - lr G + μ V'` -/

section
variable {T V : Nat → Nat → Nat → ℝ} {lr mu : ℝ}

/-- A run of the method as implemented. -/
structure Lookahead (G : (Nat → Nat → ℝ) → Nat → Nat → ℝ) (lr mu : ℝ) (T V : Nat → Nat → Nat → ℝ) : Prop where
  start : V 0 = fun _ _ => 0
  vel : ∀ t, V (t + 1) = fun i j => V t i j * mu - lr * G (T t) i j
  pos : ∀ t, T (t + 1) = fun i j => T t i j - lr * G (T t) i j + mu * V (t + 1) i j

/-- The point the parameters look ahead of. -/
def behind (mu : ℝ) (T V : Nat → Nat → Nat → ℝ) (t i j : Nat) : ℝ := T t i j - mu * V t i j

theorem Lookahead.next (hb : Lookahead G lr mu T V) (t : Nat) : behind mu T V (t + 1) = fun i j => T t i j + -(lr * G (T t) i j) := by
  funext i j
  unfold behind
  rw [hb.pos t]; ring

theorem Lookahead.diff (hb : Lookahead G lr mu T V) (t : Nat) (i j : Nat) : behind mu T V (t + 1) i j - behind mu T V t i j = V (t + 1) i j := by
  rw [hb.next t, hb.vel t]
  unfold behind; ring

/-- The step from the look ahead point, compared with `R`. -/
theorem Lookahead.desc (hb : Lookahead G lr mu T V) (h : Smooth n m f G L) (hlr : 0 < lr) (hL : lr * L ≤ 1) (t : Nat) :
    f (behind mu T V (t + 1)) ≤ f (T t) - lr / 2 * nrm n m (G (T t)) := by
  have up := h.up (T t) (fun i j => -(lr * G (T t) i j))
  rw [← hb.next t] at up
  have e1 : pair n m (G (T t)) (fun i j => -(lr * G (T t) i j)) = -(lr * nrm n m (G (T t))) := by
    unfold nrm pair
    simp only [mul_sum, ← sum_neg_distrib]
    exact sum_congr rfl (fun i _ => sum_congr rfl (fun j _ => by ring))
  have e2 : nrm n m (fun i j => -(lr * G (T t) i j)) = lr ^ 2 * nrm n m (G (T t)) := by
    unfold nrm
    simp only [mul_sum]
    exact sum_congr rfl (fun i _ => sum_congr rfl (fun j _ => by ring))
  rw [e1, e2] at up
  have := mul_le_mul_of_nonneg_right hL (mul_nonneg hlr.le (nrm_nonneg n m (G (T t))))
  nlinarith

theorem Lookahead.energy (hb : Lookahead G lr mu T V) (h : Smooth n m f G L) (hlr : 0 < lr) (hL : lr * L ≤ 1) (t : Nat) :
    f (behind mu T V (t + 1)) + 1 / (2 * lr) * nrm n m (V (t + 1)) ≤ f (behind mu T V t) + mu ^ 2 / (2 * lr) * nrm n m (V t) := by
  have d := hb.desc h hlr hL t
  have l := h.low (T t) (fun i j => -(mu * V t i j))
  have e0 : (fun i j => T t i j + -(mu * V t i j)) = behind mu T V t := by funext i j; unfold behind; ring
  rw [e0] at l
  have e : 1 / (2 * lr) * nrm n m (V (t + 1)) = mu ^ 2 / (2 * lr) * nrm n m (V t) + pair n m (G (T t)) (fun i j => -(mu * V t i j)) + lr / 2 * nrm n m (G (T t)) := by
    rw [hb.vel t]
    unfold nrm pair
    simp only [mul_sum, ← sum_add_distrib]
    refine sum_congr rfl (fun i _ => sum_congr rfl (fun j _ => ?_))
    field_simp
    ring
  linarith

theorem Lookahead.step (hb : Lookahead G lr mu T V) (h : Smooth n m f G L) (hlr : 0 < lr) (hL : lr * L ≤ 1) (hmu : 0 ≤ mu) (hmu1 : mu < 1) (R : Nat → Nat → ℝ) (t : Nat) :
    f (behind mu T V (t + 1)) - f R + mu / (1 - mu) * (f (behind mu T V (t + 1)) - f (behind mu T V t)) ≤
      (1 - mu) / (2 * lr) * (nrm n m (fun i j => T t i j + mu ^ 2 / (1 - mu) * V t i j - R i j) - nrm n m (fun i j => T (t + 1) i j + mu ^ 2 / (1 - mu) * V (t + 1) i j - R i j)) := by
  have h1 : 0 < 1 - mu := by linarith
  have d := hb.desc h hlr hL t
  have l1 := h.low (T t) (fun i j => R i j - T t i j)
  have eR : (fun i j => T t i j + (R i j - T t i j)) = R := by funext i j; ring
  rw [eR] at l1
  have l2 := h.low (T t) (fun i j => -(mu * V t i j))
  have e0 : (fun i j => T t i j + -(mu * V t i j)) = behind mu T V t := by funext i j; unfold behind; ring
  rw [e0] at l2
  have e : (1 - mu) / (2 * lr) * (nrm n m (fun i j => T t i j + mu ^ 2 / (1 - mu) * V t i j - R i j) -
      nrm n m (fun i j => T (t + 1) i j + mu ^ 2 / (1 - mu) * V (t + 1) i j - R i j)) =
      -pair n m (G (T t)) (fun i j => R i j - T t i j) - mu / (1 - mu) * pair n m (G (T t)) (fun i j => -(mu * V t i j)) -
      1 / (1 - mu) * (lr / 2 * nrm n m (G (T t))) := by
    unfold pair nrm
    rw [← sum_sub_distrib]
    simp only [mul_sum, ← sum_sub_distrib, ← sum_neg_distrib]
    refine sum_congr rfl (fun i _ => sum_congr rfl (fun j _ => ?_))
    have e1 : T (t + 1) i j + mu ^ 2 / (1 - mu) * V (t + 1) i j - R i j = (T t i j + mu ^ 2 / (1 - mu) * V t i j - R i j) - lr / (1 - mu) * G (T t) i j := by
      rw [hb.pos t, hb.vel t]
      field_simp
      ring
    rw [e1]
    field_simp
    ring
  rw [e]
  have h6 := mul_le_mul_of_nonneg_left l2 (show 0 ≤ mu / (1 - mu) by positivity)
  have h7 := mul_le_mul_of_nonneg_left d (show 0 ≤ 1 / (1 - mu) by positivity)
  have e7 : 1 / (1 - mu) = 1 + mu / (1 - mu) := by field_simp; ring
  rw [e7] at h7 ⊢
  nlinarith

theorem Lookahead.sum (hb : Lookahead G lr mu T V) (h : Smooth n m f G L) (hlr : 0 < lr) (hL : lr * L ≤ 1) (hmu : 0 ≤ mu) (hmu1 : mu < 1) (R : Nat → Nat → ℝ) (N : Nat) :
    (∑ t ∈ range N, (f (behind mu T V (t + 1)) - f R)) + mu / (1 - mu) * (f (behind mu T V N) - f (T 0)) ≤ (1 - mu) / (2 * lr) * nrm n m (fun i j => T 0 i j - R i j) := by
  have h1 : 0 < 1 - mu := by linarith
  have e0 : behind mu T V 0 = T 0 := by funext i j; unfold behind; rw [hb.start]; ring
  have key : ∀ N, (∑ t ∈ range N, (f (behind mu T V (t + 1)) - f R)) + mu / (1 - mu) * (f (behind mu T V N) - f (T 0)) ≤
      (1 - mu) / (2 * lr) * (nrm n m (fun i j => T 0 i j - R i j) - nrm n m (fun i j => T N i j + mu ^ 2 / (1 - mu) * V N i j - R i j)) := by
    intro N
    induction N with
    | zero => rw [e0, hb.start]; simp
    | succ N ih =>
      have := hb.step h hlr hL hmu hmu1 R N
      rw [sum_range_succ]
      nlinarith
  have := key N
  have h2 : 0 ≤ (1 - mu) / (2 * lr) * nrm n m (fun i j => T N i j + mu ^ 2 / (1 - mu) * V N i j - R i j) := mul_nonneg (by positivity) (nrm_nonneg ..)
  nlinarith

/-- The value at the parameters after `N` steps. -/
theorem Lookahead.bound (hb : Lookahead G lr mu T V) (h : Smooth n m f G L) (hlr : 0 < lr) (hL : lr * L ≤ 1) (hmu : 0 ≤ mu) (hmu1 : mu < 1) {lo : ℝ} (hlo : ∀ R, lo ≤ f R)
    (R : Nat → Nat → ℝ) (N : Nat) (hN : 0 < N) :
    f (T N) - lo ≤ 4 * (f R - lo + ((1 - mu) / (2 * lr) * nrm n m (fun i j => T 0 i j - R i j) + 2 / (1 - mu) * (f (T 0) - lo)) / N) := by
  have h1 : 0 < 1 - mu := by linarith
  let x := behind mu T V
  have e0 : x 0 = T 0 := by funext i j; show T 0 i j - mu * V 0 i j = _; rw [hb.start]; ring
  let E : Nat → ℝ := fun t => f (x t) + 1 / (2 * lr) * nrm n m (V t)
  have hE : ∀ t, E (t + 1) + (1 - mu ^ 2) * (1 / (2 * lr) * nrm n m (V t)) ≤ E t := fun t => by
    have := hb.energy h hlr hL t
    show f (x (t + 1)) + 1 / (2 * lr) * nrm n m (V (t + 1)) + (1 - mu ^ 2) * (1 / (2 * lr) * nrm n m (V t)) ≤ f (x t) + 1 / (2 * lr) * nrm n m (V t)
    have e : mu ^ 2 / (2 * lr) * nrm n m (V t) = mu ^ 2 * (1 / (2 * lr) * nrm n m (V t)) := by ring
    rw [e] at this
    show f (behind mu T V (t + 1)) + _ + _ ≤ f (behind mu T V t) + _
    linarith
  have hk : ∀ t, 0 ≤ 1 / (2 * lr) * nrm n m (V t) := fun t => mul_nonneg (by positivity) (nrm_nonneg ..)
  have hmu2 : 0 < 1 - mu ^ 2 := by nlinarith
  have hanti : Antitone E := antitone_nat_of_succ_le (fun t => by
    have := hE t
    have := mul_nonneg hmu2.le (hk t)
    linarith)
  have hE0 : E 0 = f (T 0) := by
    show f (x 0) + 1 / (2 * lr) * nrm n m (V 0) = _
    rw [hb.start, e0]; simp [nrm]
  have hElo : ∀ t, 1 / (2 * lr) * nrm n m (V t) ≤ E t - lo := fun t => by
    have := hlo (x t)
    show _ ≤ f (x t) + 1 / (2 * lr) * nrm n m (V t) - lo
    linarith
  have hV : ∀ N, (1 - mu ^ 2) * ∑ t ∈ range N, 1 / (2 * lr) * nrm n m (V t) ≤ E 0 - E N := by
    intro N
    induction N with
    | zero => simp
    | succ N ih =>
      rw [sum_range_succ, mul_add]
      have := hE N
      linarith
  have hN' : (0 : ℝ) < (N : ℝ) := by exact_mod_cast hN
  -- the sum of the energies at 1 .. N
  have hlast : (N : ℝ) * (E N - lo) ≤ ∑ t ∈ range N, (E (t + 1) - lo) := by
    have := Finset.card_nsmul_le_sum (range N) (fun t => E (t + 1) - lo) (E N - lo) (fun t ht => by
      have h7 := hanti (show t + 1 ≤ N by have := mem_range.1 ht; omega)
      linarith)
    simpa using this
  have hsplit : ∑ t ∈ range N, (E (t + 1) - lo) = ∑ t ∈ range N, (f (x (t + 1)) - f R) + N * (f R - lo) + ∑ t ∈ range N, 1 / (2 * lr) * nrm n m (V (t + 1)) := by
    have : (N : ℝ) * (f R - lo) = ∑ t ∈ range N, (f R - lo) := by rw [sum_const, card_range, nsmul_eq_mul]
    rw [this, ← sum_add_distrib, ← sum_add_distrib]
    exact sum_congr rfl (fun t _ => by show f (x (t + 1)) + 1 / (2 * lr) * nrm n m (V (t + 1)) - lo = _; ring)
  have hV2 : (1 - mu) * ∑ t ∈ range N, 1 / (2 * lr) * nrm n m (V (t + 1)) ≤ f (T 0) - lo := by
    have h3 := hV N
    have e3 := sum_range_succ' (fun t => 1 / (2 * lr) * nrm n m (V t)) N
    have e4 := sum_range_succ (fun t => 1 / (2 * lr) * nrm n m (V t)) N
    have e5 : 1 / (2 * lr) * nrm n m (V 0) = 0 := by rw [hb.start]; simp [nrm]
    have e6 : E N = f (x N) + 1 / (2 * lr) * nrm n m (V N) := rfl
    have h4 := hlo (x N)
    have h5 := hk N
    have h6 : 0 ≤ ∑ t ∈ range N, 1 / (2 * lr) * nrm n m (V t) := sum_nonneg (fun t _ => hk t)
    have e7 : ∑ t ∈ range N, 1 / (2 * lr) * nrm n m (V (t + 1)) = ∑ t ∈ range N, 1 / (2 * lr) * nrm n m (V t) + 1 / (2 * lr) * nrm n m (V N) := by
      simp only [e5, add_zero] at e3
      rw [← e3, e4]
    rw [e7]
    rw [hE0, e6] at h3
    have hm2 : 1 - mu ≤ 1 - mu ^ 2 := by nlinarith
    nlinarith [mul_le_mul_of_nonneg_right hm2 h6, mul_nonneg hmu h5]
  have hV3 : ∑ t ∈ range N, 1 / (2 * lr) * nrm n m (V (t + 1)) ≤ 1 / (1 - mu) * (f (T 0) - lo) := by
    rw [one_div_mul_eq_div, le_div_iff₀ h1]; linarith
  have hsum := hb.sum h hlr hL hmu hmu1 R N
  have h8 : mu / (1 - mu) * (f (T 0) - lo) ≤ 1 / (1 - mu) * (f (T 0) - lo) := by
    refine mul_le_mul_of_nonneg_right ?_ (by have := hlo (T 0); linarith)
    gcongr
  have h9 : mu / (1 - mu) * (f (T 0) - f (x N)) ≤ mu / (1 - mu) * (f (T 0) - lo) :=
    mul_le_mul_of_nonneg_left (by have := hlo (x N); linarith) (by positivity)
  have hEN : E N - lo ≤ f R - lo + ((1 - mu) / (2 * lr) * nrm n m (fun i j => T 0 i j - R i j) + 2 / (1 - mu) * (f (T 0) - lo)) / N := by
    refine le_of_mul_le_mul_left ?_ hN'
    rw [mul_add, mul_div_cancel₀ _ hN'.ne']
    have e10 : 2 / (1 - mu) * (f (T 0) - lo) = 1 / (1 - mu) * (f (T 0) - lo) + 1 / (1 - mu) * (f (T 0) - lo) := by ring
    have e11 : mu / (1 - mu) * (f (x N) - f (T 0)) = -(mu / (1 - mu) * (f (T 0) - f (x N))) := by ring
    have hsum' : ∑ t ∈ range N, (f (x (t + 1)) - f R) + mu / (1 - mu) * (f (x N) - f (T 0)) ≤ (1 - mu) / (2 * lr) * nrm n m (fun i j => T 0 i j - R i j) := hsum
    rw [e11] at hsum'
    rw [e10]
    linarith
  -- from the point behind to the parameters
  have l := h.low (T N) (fun i j => -(mu * V N i j))
  have ex : (fun i j => T N i j + -(mu * V N i j)) = x N := by funext i j; show _ = T N i j - mu * V N i j; ring
  rw [ex] at l
  have ep : -pair n m (G (T N)) (fun i j => -(mu * V N i j)) ≤ 2 * (1 / (2 * lr) * nrm n m (V N)) + (1 / (2 * lr) * nrm n m (V N) + 1 / (2 * lr) * nrm n m (V (N + 1))) := by
    have e : -pair n m (G (T N)) (fun i j => -(mu * V N i j)) = mu * (mu * (2 * (1 / (2 * lr) * nrm n m (V N)))) +
        mu * (1 / (2 * lr) * nrm n m (V N) + 1 / (2 * lr) * nrm n m (V (N + 1)) - 1 / (2 * lr) * nrm n m (fun i j => V N i j + V (N + 1) i j)) := by
      unfold nrm pair
      simp only [mul_sum, ← sum_add_distrib, ← sum_sub_distrib, ← sum_neg_distrib]
      refine sum_congr rfl (fun i _ => sum_congr rfl (fun j _ => ?_))
      have : G (T N) i j = (V N i j * mu - V (N + 1) i j) / lr := by rw [hb.vel N]; field_simp; ring
      rw [this]
      field_simp
      ring
    have h0 : 0 ≤ 1 / (2 * lr) * nrm n m (fun i j => V N i j + V (N + 1) i j) := mul_nonneg (by positivity) (nrm_nonneg ..)
    have a1 := hk N
    have a2 := hk (N + 1)
    have b1 : mu * (mu * (2 * (1 / (2 * lr) * nrm n m (V N)))) ≤ 2 * (1 / (2 * lr) * nrm n m (V N)) := by
      have : mu * mu ≤ 1 := by nlinarith
      nlinarith [mul_le_mul_of_nonneg_right this (show 0 ≤ 2 * (1 / (2 * lr) * nrm n m (V N)) by linarith)]
    have b2 : mu * (1 / (2 * lr) * nrm n m (V N) + 1 / (2 * lr) * nrm n m (V (N + 1)) - 1 / (2 * lr) * nrm n m (fun i j => V N i j + V (N + 1) i j)) ≤
        1 / (2 * lr) * nrm n m (V N) + 1 / (2 * lr) * nrm n m (V (N + 1)) := by nlinarith
    rw [e]
    linarith
  have h12 := hElo N
  have h13 := hElo (N + 1)
  have h14 := hanti (Nat.le_succ N)
  have h15 : f (x N) = E N - 1 / (2 * lr) * nrm n m (V N) := by show _ = f (x N) + _ - _; ring
  have h16 : E (N + 1) ≤ E N := h14
  linarith

end

end Trixy.FitMath
