import Verif.Spec.Robust
import Verif.Props.Symmetry
import Verif.Props.Class
import Mathlib.Analysis.Calculus.MeanValue
/- C112: small changes of the input make small changes of the predictions. -/
namespace Trixy
open Finset
set_option linter.unusedSectionVars false

/-! ### Slopes of the activation functions -/

theorem lip_of_deriv {f f' : ℝ → ℝ} {C : ℝ} (hf : ∀ x, HasDerivAt f (f' x) x) (hb : ∀ x, |f' x| ≤ C) (x y : ℝ) : |f x - f y| ≤ C * |x - y| := by
  have := Convex.norm_image_sub_le_of_norm_hasDerivWithin_le (f := f) (f' := f') (C := C) (s := Set.univ) (x := y) (y := x)
    (fun x _ => (hf x).hasDerivWithinAt) (fun x _ => hb x) convex_univ (Set.mem_univ _) (Set.mem_univ _)
  simpa only [Real.norm_eq_abs] using this

theorem lip_of_mono {f : ℝ → ℝ} {C : ℝ} (h : ∀ x y, x ≤ y → 0 ≤ f y - f x ∧ f y - f x ≤ C * (y - x)) (x y : ℝ) : |f x - f y| ≤ C * |x - y| := by
  rcases le_total x y with hxy | hxy
  · rw [abs_sub_comm, abs_sub_comm x y, abs_of_nonneg (h x y hxy).1, abs_of_nonneg (sub_nonneg.2 hxy)]
    exact (h x y hxy).2
  · rw [abs_of_nonneg (h y x hxy).1, abs_of_nonneg (sub_nonneg.2 hxy)]
    exact (h y x hxy).2

theorem sech_le (x : ℝ) : |1 / Real.cosh x * (1 / Real.cosh x)| ≤ 1 := by
  have h1 := Real.one_le_cosh x
  have h2 : 0 < 1 / Real.cosh x := by positivity
  have h3 : 1 / Real.cosh x ≤ 1 := by rw [div_le_one (by linarith)]; exact h1
  rw [abs_of_nonneg (by positivity)]
  nlinarith

theorem exp_lip {x y : ℝ} (hxy : x ≤ y) (hy : y ≤ 0) : Real.exp y - Real.exp x ≤ y - x := by
  have h1 := Real.add_one_le_exp (x - y)
  have h2 : Real.exp x = Real.exp y * Real.exp (x - y) := by rw [← Real.exp_add]; congr 1; ring
  have h3 : Real.exp y ≤ 1 := Real.exp_le_one_iff.2 hy
  have h4 := Real.exp_pos y
  rw [h2]
  nlinarith

theorem sigmoid_slope (x : ℝ) : |Real.exp (-x) / (1 + Real.exp (-x)) ^ 2| ≤ 1 / 4 := by
  have h := Real.exp_pos (-x)
  rw [abs_of_nonneg (by positivity), div_le_div_iff₀ (by positivity) (by norm_num)]
  nlinarith [sq_nonneg (1 - Real.exp (-x))]

theorem sigmoid_deriv (x : ℝ) : HasDerivAt ActKind.sigmoid.fn (Real.exp (-x) / (1 + Real.exp (-x)) ^ 2) x := by
  have h : HasDerivAt (fun x : ℝ => 1 + Real.exp (-x)) (-Real.exp (-x)) x := by
    have := ((hasDerivAt_id x).neg.exp).const_add 1
    exact this.congr_deriv (by simp)
  have h2 := h.inv (by positivity)
  exact h2.congr_deriv (by rw [neg_neg])

theorem swish_slope (x : ℝ) : |(1 + Real.exp (-x))⁻¹ + x * (Real.exp (-x) / (1 + Real.exp (-x)) ^ 2)| ≤ 5 / 4 := by
  have h := Real.exp_pos (-x)
  have h1 : 0 ≤ (1 + Real.exp (-x))⁻¹ := by positivity
  have h2 : (1 + Real.exp (-x))⁻¹ ≤ 1 := inv_le_one_of_one_le₀ (by linarith)
  have h3 : |x * (Real.exp (-x) / (1 + Real.exp (-x)) ^ 2)| ≤ 1 / 4 := by
    have e : Real.exp (-x) / (1 + Real.exp (-x)) ^ 2 = 1 / (2 + 2 * Real.cosh x) := by
      rw [Real.cosh_eq, Real.exp_neg]
      have := Real.exp_pos x
      field_simp
      ring
    rw [e, abs_mul, abs_of_nonneg (show (0:ℝ) ≤ 1 / (2 + 2 * Real.cosh x) by have := Real.cosh_pos x; positivity), mul_one_div,
      div_le_div_iff₀ (by have := Real.cosh_pos x; positivity) (by norm_num)]
    have hc : 1 + x ^ 2 / 2 ≤ Real.cosh x := by
      have := Real.cosh_sq' (x / 2)
      have h2 := Real.cosh_two_mul (x / 2)
      rw [show 2 * (x / 2) = x by ring] at h2
      have h3 : (x / 2) ^ 2 ≤ Real.sinh (x / 2) ^ 2 := by
        rw [sq_le_sq, Real.abs_sinh]
        exact Real.self_le_sinh_iff.2 (abs_nonneg _)
      nlinarith
    have := sq_abs x
    nlinarith [sq_nonneg (|x| - 2), abs_nonneg x]
  calc _ ≤ |(1 + Real.exp (-x))⁻¹| + _ := abs_add_le _ _
    _ ≤ 1 + 1 / 4 := add_le_add (by rwa [abs_of_nonneg h1]) h3
    _ = 5 / 4 := by norm_num

theorem gelu_slope (x : ℝ) : |1 / 2 * (1 + Real.tanh (0.797885 * x + 0.0356774 * x ^ 3)) +
    x / 2 * (1 / Real.cosh (0.797885 * x + 0.0356774 * x ^ 3) * (1 / Real.cosh (0.797885 * x + 0.0356774 * x ^ 3)) * (0.797885 + 0.0356774 * (3 * x ^ 2)))| ≤ 7 / 4 := by
  set u := 0.797885 * x + 0.0356774 * x ^ 3 with hu
  have h1 := Real.neg_one_lt_tanh u
  have h2 := Real.tanh_lt_one u
  have hc := Real.cosh_pos u
  have h3 : |x * (0.797885 + 0.0356774 * (3 * x ^ 2))| ≤ 3 * |u| := by
    have e1 : u = x * (0.797885 + 0.0356774 * x ^ 2) := by rw [hu]; ring
    rw [e1, abs_mul, abs_mul, abs_of_nonneg (show (0:ℝ) ≤ 0.797885 + 0.0356774 * (3 * x ^ 2) by positivity),
      abs_of_nonneg (show (0:ℝ) ≤ 0.797885 + 0.0356774 * x ^ 2 by positivity)]
    nlinarith [abs_nonneg x, sq_nonneg x, mul_nonneg (abs_nonneg x) (sq_nonneg x)]
  have h4 : |u| * (1 / Real.cosh u * (1 / Real.cosh u)) ≤ 1 / 2 := by
    have e : 1 / Real.cosh u * (1 / Real.cosh u) = 1 / Real.cosh u ^ 2 := by field_simp
    rw [e, mul_one_div, div_le_div_iff₀ (by positivity) (by norm_num), Real.cosh_sq']
    have : u ^ 2 ≤ Real.sinh u ^ 2 := by
      rw [sq_le_sq, Real.abs_sinh]
      exact Real.self_le_sinh_iff.2 (abs_nonneg _)
    have hs := sq_abs u
    nlinarith [sq_nonneg (|u| - 1)]
  have h5 : |x / 2 * (1 / Real.cosh u * (1 / Real.cosh u) * (0.797885 + 0.0356774 * (3 * x ^ 2)))| ≤ 3 / 4 := by
    have e : x / 2 * (1 / Real.cosh u * (1 / Real.cosh u) * (0.797885 + 0.0356774 * (3 * x ^ 2))) =
      1 / 2 * (x * (0.797885 + 0.0356774 * (3 * x ^ 2)) * (1 / Real.cosh u * (1 / Real.cosh u))) := by ring
    rw [e, abs_mul, abs_mul, abs_of_nonneg (show (0:ℝ) ≤ 1 / Real.cosh u * (1 / Real.cosh u) by positivity), abs_of_nonneg (show (0:ℝ) ≤ 1 / 2 by norm_num)]
    have h6 : |x * (0.797885 + 0.0356774 * (3 * x ^ 2))| * (1 / Real.cosh u * (1 / Real.cosh u)) ≤ 3 * |u| * (1 / Real.cosh u * (1 / Real.cosh u)) :=
      mul_le_mul_of_nonneg_right h3 (by positivity)
    linarith
  calc _ ≤ |1 / 2 * (1 + Real.tanh u)| + _ := abs_add_le _ _
    _ ≤ 1 + 3 / 4 := add_le_add (by rw [abs_of_nonneg (by linarith)]; linarith) h5
    _ = 7 / 4 := by norm_num

/-- Every activation function changes by at most its gain times the change of its argument. -/
theorem ActKind.lip (k : ActKind) (x y : ℝ) : |k.fn x - k.fn y| ≤ k.gain * |x - y| := by
  have hms : ∀ x : ℝ, max x 0 + min x 0 = x := fun x => by rw [max_add_min, add_zero]
  have split : ∀ {A B : ℝ} {f : ℝ → ℝ}, (∀ x y : ℝ, x ≤ y → 0 ≤ f y - f x ∧ f y - f x ≤ A * (max y 0 - max x 0) + B * (min y 0 - min x 0)) →
      ∀ {C : ℝ}, A ≤ C → B ≤ C → ∀ x y, |f x - f y| ≤ C * |x - y| := by
    intro A B f h C hA hB
    refine lip_of_mono (fun x y hxy => ⟨(h x y hxy).1, (h x y hxy).2.trans ?_⟩)
    have h1 := max_le_max_right 0 hxy
    have h2 := min_le_min_right 0 hxy
    have h3 := hms x
    have h4 := hms y
    have h5 := mul_le_mul_of_nonneg_right hA (sub_nonneg.2 h1)
    have h6 := mul_le_mul_of_nonneg_right hB (sub_nonneg.2 h2)
    have h7 : C * (y - x) = C * (max y 0 - max x 0) + C * (min y 0 - min x 0) := by rw [← mul_add]; congr 1; linarith
    linarith
  cases k with
  | identity => simp only [ActKind.fn, ActKind.gain, one_mul]; exact le_refl _
  | relu =>
    refine split (A := 1) (B := 0) (f := ActKind.relu.fn) (fun x y hxy => ?_) (le_refl _) (by norm_num [ActKind.gain]) x y
    have h1 := max_le_max_right 0 hxy
    simp only [ActKind.fn]
    constructor <;> linarith
  | lrelu =>
    refine lip_of_mono (f := ActKind.lrelu.fn) (fun x y hxy => ?_) x y
    simp only [ActKind.fn, ActKind.gain]
    rcases max_cases x (0.01 * x) with h | h <;> rcases max_cases y (0.01 * y) with h' | h' <;> rw [h.1, h'.1] <;> constructor <;> linarith [h.2, h'.2]
  | elu =>
    refine split (A := 1) (B := 0.2) (f := ActKind.elu.fn) (fun x y hxy => ?_) (le_refl _) (by norm_num [ActKind.gain]) x y
    have h1 := max_le_max_right 0 hxy
    have h2 := min_le_min_right 0 hxy
    have h3 := exp_lip h2 (min_le_right _ _)
    have h4 := Real.exp_le_exp.2 h2
    simp only [ActKind.fn]
    constructor <;> linarith
  | selu =>
    refine split (A := 1.050701) (B := 1.758099) (f := ActKind.selu.fn) (fun x y hxy => ?_) (by norm_num [ActKind.gain]) (le_refl _) x y
    have h1 := max_le_max_right 0 hxy
    have h2 := min_le_min_right 0 hxy
    have h3 := exp_lip h2 (min_le_right _ _)
    have h4 := Real.exp_le_exp.2 h2
    simp only [ActKind.fn]
    constructor <;> linarith
  | modRelu =>
    refine lip_of_mono (f := ActKind.modRelu.fn) (fun x y hxy => ?_) x y
    simp only [ActKind.fn, ActKind.gain]
    rcases max_cases x 0 with h | h <;> rcases max_cases y 0 with h' | h' <;> rw [h.1, h'.1]
    · rcases min_cases x 1 with g | g <;> rcases min_cases y 1 with g' | g' <;> rw [g.1, g'.1] <;> constructor <;> linarith [h.2, h'.2, g.2, g'.2]
    · rcases min_cases x 1 with g | g <;> rcases min_cases (0:ℝ) 1 with g' | g' <;> rw [g.1, g'.1] <;> constructor <;> linarith [h.2, h'.2, g.2, g'.2]
    · rcases min_cases (0:ℝ) 1 with g | g <;> rcases min_cases y 1 with g' | g' <;> rw [g.1, g'.1] <;> constructor <;> linarith [h.2, h'.2, g.2, g'.2]
    · constructor <;> linarith
  | modTanh =>
    have ht : ∀ x y : ℝ, x ≤ y → Real.tanh y - Real.tanh x ≤ y - x := fun x y hxy => by
      have := lip_of_deriv hasDerivAt_tanh' sech_le y x
      rw [one_mul, abs_of_nonneg (sub_nonneg.2 hxy)] at this
      exact (le_abs_self _).trans this
    refine split (A := 1) (B := 0.01) (f := ActKind.modTanh.fn) (fun x y hxy => ?_) (le_refl _) (by norm_num [ActKind.gain]) x y
    have h1 := max_le_max_right 0 hxy
    have h2 := min_le_min_right 0 hxy
    have h3 := ht _ _ h1
    have h4 := ht _ _ h2
    have h5 := tanh_mono h1
    have h6 := tanh_mono h2
    simp only [ActKind.fn]
    constructor <;> linarith
  | sigmoid => exact lip_of_deriv (fun x => sigmoid_deriv x) sigmoid_slope x y
  | tanh => exact lip_of_deriv (f := ActKind.tanh.fn) (fun x => hasDerivAt_tanh' x) sech_le x y
  | softsign =>
    refine lip_of_deriv (f := ActKind.softsign.fn) (f' := Fn.softsignD) (fun x => ?_) (fun x => ?_) x y
    · rw [← ActKind.cf_fun]; exact hasDerivAt_softsign x
    · have h1 : 0 < 1 / (|x| + 1) := by positivity
      have h2 : 1 / (|x| + 1) ≤ 1 := by rw [div_le_one (by positivity)]; linarith [abs_nonneg x]
      show |1 / (|x| + 1) * (1 / (|x| + 1))| ≤ 1
      rw [abs_of_nonneg (by positivity)]
      nlinarith
  | softplus =>
    refine lip_of_deriv (f := ActKind.softplus.fn) (f' := ActKind.softplus.cd) (fun x => ?_) (fun x => ?_) x y
    · rw [← ActKind.cf_fun]; exact ActKind.softplus.hasDerivAt (by decide) x (by simp [ActKind.kinks])
    · have := Real.exp_pos (-x)
      show |1 / (Real.exp (-x) + 1)| ≤ 1
      rw [abs_of_nonneg (by positivity), div_le_one (by positivity)]
      linarith
  | swish =>
    refine lip_of_deriv (f := ActKind.swish.fn) (fun x => ?_) swish_slope x y
    have := (hasDerivAt_id x).mul (sigmoid_deriv x)
    exact this.congr_deriv (by simp [ActKind.fn])
  | gelu =>
    refine lip_of_deriv (f := ActKind.gelu.fn) (fun x => ?_) gelu_slope x y
    have h1 : HasDerivAt (fun x : ℝ => 0.797885 * x + 0.0356774 * x ^ 3) (0.797885 + 0.0356774 * (3 * x ^ 2)) x := by
      have := ((hasDerivAt_id x).const_mul 0.797885).add ((hasDerivAt_pow 3 x).const_mul 0.0356774)
      exact this.congr_deriv (by simp)
    have h2 := ((hasDerivAt_tanh' _).comp x h1).const_add 1
    have h3 := ((hasDerivAt_id x).div_const 2).mul h2
    exact h3.congr_deriv (by simp)

/-- Softmax changes by at most half the largest change of its arguments. -/
theorem softmax_lip (m : Nat) {v w : Nat → ℝ} {ε : ℝ} (h : ∀ j, j < m → |v j - w j| ≤ ε) (j : Nat) (hj : j < m) :
    |softmaxFn m v j - softmaxFn m w j| ≤ 1 / 2 * ε := by
  let d : Nat → ℝ := fun i => v i - w i
  let u : ℝ → Nat → ℝ := fun t i => w i + t * d i
  let Z : ℝ → ℝ := fun t => ∑ i ∈ range m, Real.exp (u t i)
  have hZ : ∀ t, 0 < Z t := fun t => sum_pos (fun i _ => Real.exp_pos _) ⟨j, mem_range.2 hj⟩
  have hu : ∀ i t, HasDerivAt (fun t => Real.exp (u t i)) (Real.exp (u t i) * d i) t := fun i t => by
    have := (((hasDerivAt_id t).mul_const (d i)).const_add (w i)).exp
    exact this.congr_deriv (by simp [u])
  have hz : ∀ t, HasDerivAt Z (∑ i ∈ range m, Real.exp (u t i) * d i) t := fun t => HasDerivAt.fun_sum (fun i _ => hu i t)
  let P : ℝ → Nat → ℝ := fun t i => Real.exp (u t i) / Z t
  have hP0 : ∀ t i, 0 ≤ P t i := fun t i => div_nonneg (Real.exp_pos _).le (hZ t).le
  have hP1 : ∀ t, ∑ i ∈ range m, P t i = 1 := fun t => by
    simp only [P]
    rw [← sum_div]; exact div_self (hZ t).ne'
  have hp : ∀ t, HasDerivAt (fun t => Real.exp (u t j) / Z t) (P t j * ∑ i ∈ range m, P t i * (d j - d i)) t := fun t => by
    refine ((hu j t).div (hz t) (hZ t).ne').congr_deriv ?_
    have e : ∑ i ∈ range m, P t i * (d j - d i) = d j - (∑ i ∈ range m, Real.exp (u t i) * d i) / Z t := by
      rw [sum_congr rfl (fun i _ => mul_sub _ _ _), sum_sub_distrib, ← sum_mul, hP1, one_mul, sum_div]
      congr 1
      exact sum_congr rfl (fun i _ => by simp only [P]; ring)
    rw [e]
    have := (hZ t).ne'
    simp only [P]
    field_simp
  have hε : 0 ≤ ε := (abs_nonneg _).trans (h j hj)
  have hb : ∀ t, |P t j * ∑ i ∈ range m, P t i * (d j - d i)| ≤ 1 / 2 * ε := fun t => by
    have h1 : |∑ i ∈ range m, P t i * (d j - d i)| ≤ (1 - P t j) * (2 * ε) := by
      have e1 : 1 - P t j = ∑ i ∈ (range m).erase j, P t i := by rw [← hP1 t, ← add_sum_erase (range m) (P t) (mem_range.2 hj), add_sub_cancel_left]
      rw [e1, ← add_sum_erase (range m) (fun i => P t i * (d j - d i)) (mem_range.2 hj), sub_self, mul_zero, zero_add, sum_mul]
      refine (abs_sum_le_sum_abs _ _).trans (sum_le_sum (fun i hi => ?_))
      rw [abs_mul, abs_of_nonneg (hP0 t i)]
      refine mul_le_mul_of_nonneg_left ?_ (hP0 t i)
      have h1 := h i (mem_range.1 (mem_of_mem_erase hi))
      have h2 := h j hj
      have := abs_sub (d j) (d i)
      simp only [d] at *
      linarith
    have h2 : P t j ≤ 1 := by rw [← hP1 t]; exact single_le_sum (f := P t) (fun i _ => hP0 t i) (mem_range.2 hj)
    rw [abs_mul, abs_of_nonneg (hP0 t j)]
    have h3 := mul_le_mul_of_nonneg_left h1 (hP0 t j)
    have h4 : P t j * ((1 - P t j) * (2 * ε)) ≤ 1 / 2 * ε := by
      have : P t j * (1 - P t j) ≤ 1 / 4 := by nlinarith [sq_nonneg (P t j - 1 / 2)]
      nlinarith
    linarith
  have := lip_of_deriv hp hb 1 0
  have e1 : ∀ i, u 1 i = v i := fun i => by simp only [u, d]; ring
  have e0 : ∀ i, u 0 i = w i := fun i => by simp only [u, d]; ring
  simp only [Z, e1, e0, sub_zero, abs_one, mul_one] at this
  exact this

theorem LibAct.lip (a : LibAct) (m : Nat) {v w : Nat → ℝ} {ε : ℝ} (h : ∀ j, j < m → |v j - w j| ≤ ε) (j : Nat) (hj : j < m) :
    |a.fn m v j - a.fn m w j| ≤ a.gain * ε := by
  cases a with
  | softmax => exact softmax_lip m h j hj
  | elem k =>
    have h0 : 0 ≤ k.gain := by cases k <;> norm_num [ActKind.gain]
    exact (k.lip _ _).trans (mul_le_mul_of_nonneg_left (h j hj) h0)

theorem LibLayer.lip (l : LibLayer) {K : ℝ} (hK : l.Weighs K) {v w : Nat → ℝ} {ε : ℝ} (hε : 0 ≤ ε) (h : ∀ j, j < l.n → |v j - w j| ≤ ε) (j : Nat) (hj : j < l.m) :
    |l.act.fn l.m (l.pre v) j - l.act.fn l.m (l.pre w) j| ≤ l.act.gain * K * ε := by
  rw [mul_assoc]
  refine l.act.lip l.m (fun j hj => ?_) j hj
  have e : l.pre v j - l.pre w j = ∑ i ∈ range l.n, (v i - w i) * l.W i j := by
    unfold LibLayer.pre
    rw [add_sub_add_right_eq_sub, ← sum_sub_distrib]
    exact sum_congr rfl (fun i _ => by ring)
  rw [e]
  calc |∑ i ∈ range l.n, (v i - w i) * l.W i j| ≤ ∑ i ∈ range l.n, |(v i - w i) * l.W i j| := abs_sum_le_sum_abs _ _
    _ ≤ ∑ i ∈ range l.n, ε * |l.W i j| := sum_le_sum (fun i hi => by rw [abs_mul]; exact mul_le_mul_of_nonneg_right (h i (mem_range.1 hi)) (abs_nonneg _))
    _ = ε * ∑ i ∈ range l.n, |l.W i j| := by rw [mul_sum]
    _ ≤ ε * K := mul_le_mul_of_nonneg_left (hK.2 j hj) hε
    _ = K * ε := mul_comm _ _

theorem LibAct.gain_nonneg (a : LibAct) : 0 ≤ a.gain := by
  cases a with
  | softmax => norm_num [LibAct.gain]
  | elem k => cases k <;> norm_num [LibAct.gain, ActKind.gain]

theorem libOut_lip : ∀ {ls : List LibLayer} {Ks : List ℝ}, List.Forall₂ LibLayer.Weighs ls Ks → ∀ {n m : Nat} {v w : Nat → ℝ} {ε : ℝ}, libFits n ls m → 0 ≤ ε →
    (∀ j, j < n → |v j - w j| ≤ ε) → ∀ j, j < m → |libOut ls v j - libOut ls w j| ≤ libGain ls Ks * ε := by
  intro ls Ks h
  induction h with
  | nil =>
    intro n m v w ε hf hε h j hj
    cases hf
    show |v j - w j| ≤ 1 * ε
    rw [one_mul]; exact h j hj
  | @cons l K ls Ks hK _ ih =>
    intro n m v w ε hf hε h j hj
    have h1 := l.lip hK hε (fun j hj => h j (hf.1 ▸ hj))
    have h2 := ih hf.2 (mul_nonneg (mul_nonneg l.act.gain_nonneg hK.1) hε) h1 j hj
    refine h2.trans (le_of_eq ?_)
    show _ = l.act.gain * K * libGain ls Ks * ε
    ring

/-- If no component of the input changes by more than `ε`, no component of the output changes by more than `ε` times the gain of the network. -/
theorem C112_lipschitz (net : Net ℝ) (ls : List LibLayer) (n m : Nat) (h : net.IsLib ls n m) (Ks : List ℝ) (hK : List.Forall₂ LibLayer.Weighs ls Ks)
    (x x' : Ten ℝ) (v w : Nat → ℝ) (hx : VecIs x.data n v) (hx' : VecIs x'.data n w) (ε : ℝ) (hε : 0 ≤ ε) (hvw : ∀ i, i < n → |v i - w i| ≤ ε) :
    ∃ r r' y y', Net.feedforward x net = .ok r ∧ Net.feedforward x' net = .ok r' ∧ RowIs r.2 m y ∧ RowIs r'.2 m y' ∧
      ∀ j, j < m → |y j - y' j| ≤ libGain ls Ks * ε := by
  obtain ⟨r, e1, q1⟩ := h.out hx
  obtain ⟨r', e2, q2⟩ := h.out hx'
  exact ⟨r, r', _, _, e1, e2, q1, q2, libOut_lip hK h.fits hε hvw⟩

/-- Certified predictions: if output `c` exceeds every other output by more than twice the gain times `ε`, every input within `ε` is given the class `c`. -/
theorem C112_margin (net : Net ℝ) (ls : List LibLayer) (n m : Nat) (h : net.IsLib ls n m) (Ks : List ℝ) (hK : List.Forall₂ LibLayer.Weighs ls Ks)
    (x : Ten ℝ) (v : Nat → ℝ) (hx : VecIs x.data n v) (ε : ℝ) (hε : 0 ≤ ε) (c : Nat) (hc : c < m) (r : Net ℝ × Ten ℝ) (y : Nat → ℝ)
    (e : Net.feedforward x net = .ok r) (hy : RowIs r.2 m y) (hm : ∀ j, j < m → j ≠ c → y j + 2 * (libGain ls Ks * ε) < y c) :
    ∀ (x' : Ten ℝ) (w : Nat → ℝ), VecIs x'.data n w → (∀ i, i < n → |v i - w i| ≤ ε) → net.predict x' = .ok c := by
  intro x' w hx' hvw
  obtain ⟨r1, r', y1, y', e1, e2, q1, q2, hd⟩ := C112_lipschitz net ls n m h Ks hK x x' v w hx hx' ε hε hvw
  cases e.symm.trans e1
  have hyy : ∀ j, j < m → y j = y1 j := (VecIs.unique (show VecIs r.2.data m y from hy.2.2.2) (show VecIs r.2.data m y1 from q1.2.2.2)).2
  unfold Net.predict
  rw [e2, bind_ok]
  have hr : VecIs r'.2.data m y' := q2.2.2.2
  obtain ⟨c', ec, hc'⟩ := C12_argmax strictWeak_of_linearOrder r'.2.data m y' hr (by omega)
  show argmax (fun a b : ℝ => decide (a < b)) r'.2.data = .ok c
  rw [ec]
  have hlt : ∀ j, j < m → j ≠ c → y' j < y' c := fun j hj hjc => by
    have h1 := abs_le.1 (hd j hj)
    have h2 := abs_le.1 (hd c hc)
    have h3 := hm j hj hjc
    rw [hyy j hj, hyy c hc] at h3
    linarith [h1.1, h2.2]
  refine congrArg Except.ok (C12_unique _ _ _ c hc' ⟨hc, fun j hj => ?_, fun j hj => ?_⟩)
  · refine decide_eq_false (not_lt.2 ?_)
    by_cases hjc : j = c
    · rw [hjc]
    · exact (hlt j hj hjc).le
  · exact decide_eq_true (hlt j (by omega) (by omega))

theorem libGain_nonneg : ∀ {ls : List LibLayer} {Ks : List ℝ}, List.Forall₂ LibLayer.Weighs ls Ks → 0 ≤ libGain ls Ks := by
  intro ls Ks h
  induction h with
  | nil => exact zero_le_one
  | @cons l K ls Ks hK _ ih => exact mul_nonneg (mul_nonneg l.act.gain_nonneg hK.1) ih

/-- A prediction that is not a tie is stable: all inputs near enough are given the same class. -/
theorem C112_stable (net : Net ℝ) (ls : List LibLayer) (n m : Nat) (h : net.IsLib ls n m) (x : Ten ℝ) (v : Nat → ℝ) (hx : VecIs x.data n v)
    (c : Nat) (hc : c < m) (r : Net ℝ × Ten ℝ) (y : Nat → ℝ) (e : Net.feedforward x net = .ok r) (hy : RowIs r.2 m y)
    (hm : ∀ j, j < m → j ≠ c → y j < y c) :
    ∃ ε, 0 < ε ∧ ∀ (x' : Ten ℝ) (w : Nat → ℝ), VecIs x'.data n w → (∀ i, i < n → |v i - w i| ≤ ε) → net.predict x' = .ok c := by
  have hK : List.Forall₂ LibLayer.Weighs ls (ls.map (fun l => ∑ j ∈ range l.m, ∑ i ∈ range l.n, |l.W i j|)) := by
    rw [List.forall₂_map_right_iff, List.forall₂_same]
    refine fun l _ => ⟨sum_nonneg (fun j _ => sum_nonneg (fun i _ => abs_nonneg _)), fun j hj => ?_⟩
    exact single_le_sum (f := fun j => ∑ i ∈ range l.n, |l.W i j|) (fun j _ => sum_nonneg (fun i _ => abs_nonneg _)) (mem_range.2 hj)
  set Ks := ls.map (fun l => ∑ j ∈ range l.m, ∑ i ∈ range l.n, |l.W i j|) with hKs
  have hG := libGain_nonneg hK
  have hδ : ∃ δ, 0 < δ ∧ ∀ j, j < m → j ≠ c → y j + δ ≤ y c := by
    by_cases hs : ((range m).erase c).Nonempty
    · obtain ⟨j0, hj0, hmin⟩ := exists_max_image ((range m).erase c) y hs
      have h0 := hm j0 (mem_range.1 (mem_of_mem_erase hj0)) (ne_of_mem_erase hj0)
      refine ⟨y c - y j0, sub_pos.2 h0, fun j hj hjc => ?_⟩
      have := hmin j (mem_erase.2 ⟨hjc, mem_range.2 hj⟩)
      linarith
    · refine ⟨1, one_pos, fun j hj hjc => absurd ⟨j, mem_erase.2 ⟨hjc, mem_range.2 hj⟩⟩ hs⟩
  obtain ⟨δ, hδ0, hδ⟩ := hδ
  have h2 : 0 < 2 * libGain ls Ks + 1 := by linarith
  refine ⟨δ / (2 * libGain ls Ks + 1), div_pos hδ0 h2, C112_margin net ls n m h Ks hK x v hx _ (div_pos hδ0 h2).le c hc r y e hy (fun j hj hjc => ?_)⟩
  have h3 : 2 * (libGain ls Ks * (δ / (2 * libGain ls Ks + 1))) < δ := by
    have : 2 * (libGain ls Ks * (δ / (2 * libGain ls Ks + 1))) = (2 * libGain ls Ks * δ) / (2 * libGain ls Ks + 1) := by ring
    rw [this, div_lt_iff₀ h2]
    linarith
  have := hδ j hj hjc
  linarith

/-! ### Changed parameters -/

theorem LibLayer.Near.step {l l' : LibLayer} {B : NearBound} (h : l.Near l' B) {v w : Nat → ℝ} {e : ℝ} (hv : ∀ i, i < l.n → |v i| ≤ B.M)
    (hw : ∀ i, i < l.n → |w i - v i| ≤ e) (he : 0 ≤ e) (j : Nat) (hj : j < l.m) :
    |l'.act.fn l'.m (l'.pre w) j - l.act.fn l.m (l.pre v) j| ≤ l.act.gain * (B.K * e + B.δ * B.M + B.β) := by
  rw [h.act, h.m]
  refine l.act.lip l.m (fun j hj => ?_) j hj
  have eq : l'.pre w j - l.pre v j = (∑ i ∈ range l.n, (w i - v i) * l'.W i j + ∑ i ∈ range l.n, v i * (l'.W i j - l.W i j)) + (l'.b j - l.b j) := by
    unfold LibLayer.pre
    rw [h.n, ← sum_add_distrib]
    have : ∑ i ∈ range l.n, ((w i - v i) * l'.W i j + v i * (l'.W i j - l.W i j)) = ∑ i ∈ range l.n, w i * l'.W i j - ∑ i ∈ range l.n, v i * l.W i j := by
      rw [← sum_sub_distrib]
      exact sum_congr rfl (fun i _ => by ring)
    rw [this]; ring
  have hK := h.K.2 j (h.m ▸ hj)
  rw [h.n] at hK
  have h1 : |∑ i ∈ range l.n, (w i - v i) * l'.W i j| ≤ e * B.K := by
    refine (abs_sum_le_sum_abs _ _).trans (le_trans ?_ (mul_le_mul_of_nonneg_left hK he))
    rw [mul_sum]
    exact sum_le_sum (fun i hi => by rw [abs_mul]; exact mul_le_mul_of_nonneg_right (hw i (mem_range.1 hi)) (abs_nonneg _))
  have h2 : |∑ i ∈ range l.n, v i * (l'.W i j - l.W i j)| ≤ B.M * B.δ := by
    refine (abs_sum_le_sum_abs _ _).trans (le_trans ?_ (mul_le_mul_of_nonneg_left (h.W j hj) h.M))
    rw [mul_sum]
    exact sum_le_sum (fun i hi => by rw [abs_mul]; exact mul_le_mul_of_nonneg_right (hv i (mem_range.1 hi)) (abs_nonneg _))
  rw [eq]
  calc _ ≤ (|∑ i ∈ range l.n, (w i - v i) * l'.W i j| + |∑ i ∈ range l.n, v i * (l'.W i j - l.W i j)|) + |l'.b j - l.b j| :=
        (abs_add_le _ _).trans (add_le_add_left (abs_add_le _ _) _)
    _ ≤ (e * B.K + B.M * B.δ) + B.β := add_le_add (add_le_add h1 h2) (h.b j hj)
    _ = B.K * e + B.δ * B.M + B.β := by ring

theorem libOut_near : ∀ (ls ls' : List LibLayer) (Bs : List NearBound) {n m : Nat} {v w : Nat → ℝ} {e : ℝ}, libNear ls ls' Bs v → libFits n ls m → 0 ≤ e →
    (∀ l ∈ ls, 0 < l.m) → (∀ i, i < n → |w i - v i| ≤ e) → ∀ j, j < m → |libOut ls' w j - libOut ls v j| ≤ libDrift ls Bs e
  | [], [], [], n, m, v, w, e, _, hf, _, _, hw, j, hj => by cases hf; exact hw j hj
  | l :: ls, l' :: ls', B :: Bs, n, m, v, w, e, h, hf, he, hp, hw, j, hj => by
    obtain ⟨h1, h2, h3⟩ := h
    have hs := h1.step (w := w) h2 (fun i hi => hw i (hf.1 ▸ hi)) he
    refine libOut_near ls ls' Bs h3 hf.2 ?_ (fun l hl => hp l (List.mem_cons_of_mem _ hl)) hs j hj
    exact (abs_nonneg _).trans (hs 0 (hp l (List.mem_cons_self ..)))
  | [], _ :: _, _, _, _, _, _, _, h, _, _, _, _, _, _ => nomatch h
  | [], [], _ :: _, _, _, _, _, _, h, _, _, _, _, _, _ => nomatch h
  | _ :: _, [], _, _, _, _, _, _, h, _, _, _, _, _, _ => nomatch h
  | _ :: _, _ :: _, [], _, _, _, _, _, h, _, _, _, _, _, _ => nomatch h

/-- Changing the parameters of a network a little (rounding them for storage, say) changes its outputs a little: by no more than the bounds on the changes,
carried through the layers. -/
theorem C112_parameters (net net' : Net ℝ) (ls ls' : List LibLayer) (n m : Nat) (h : net.IsLib ls n m) (h' : net'.IsLib ls' n m) (Bs : List NearBound)
    (x : Ten ℝ) (v : Nat → ℝ) (hx : VecIs x.data n v) (hB : libNear ls ls' Bs v) :
    ∃ r r' y y', Net.feedforward x net = .ok r ∧ Net.feedforward x net' = .ok r' ∧ RowIs r.2 m y ∧ RowIs r'.2 m y' ∧
      ∀ j, j < m → |y' j - y j| ≤ libDrift ls Bs 0 := by
  obtain ⟨r, e1, q1⟩ := h.out hx
  obtain ⟨r', e2, q2⟩ := h'.out hx
  exact ⟨r, r', _, _, e1, e2, q1, q2, libOut_near ls ls' Bs hB h.fits le_rfl h.pos (fun i _ => by rw [sub_self, abs_zero])⟩

/-! ### Non-vacuity -/

/-- A network `2 → 2 → 2` with `tanh` and softmax; gain `1·3·(1/2)·2 = 3`. -/
noncomputable def rbHidden : LibLayer := ⟨2, 2, fun _ => 0, fun i j => if i = j then 2 else 1, .elem .tanh⟩
noncomputable def rbOut : LibLayer := ⟨2, 2, fun _ => 1, fun i j => if i = j then 1 else -1, .softmax⟩

example : (∃ net : Net ℝ, net.IsLib [rbHidden, rbOut] 2 2) ∧ List.Forall₂ LibLayer.Weighs [rbHidden, rbOut] [3, 2] ∧ libGain [rbHidden, rbOut] [3, 2] = 3 := by
  refine ⟨isLib_exists _ 2 2 (by simp) (by show 2 < W64; decide) ⟨rfl, rfl, rfl⟩ (by simp [rbHidden, rbOut]), .cons ⟨by norm_num, fun j hj => ?_⟩
    (.cons ⟨by norm_num, fun j hj => ?_⟩ .nil), by norm_num [libGain, rbHidden, rbOut, LibAct.gain, ActKind.gain]⟩
  all_goals
    change j < 2 at hj
    obtain rfl | rfl : j = 0 ∨ j = 1 := by omega
    all_goals norm_num [rbHidden, rbOut, sum_range_succ]

/-- The same network with the first weights rounded by at most 1/10 each, on inputs within 1. -/
noncomputable def rbHidden' : LibLayer := ⟨2, 2, fun _ => 0, fun i j => if i = j then 1.9 else 1, .elem .tanh⟩

example (v : Nat → ℝ) (hv : ∀ i, i < 2 → |v i| ≤ 1) : libNear [rbHidden, rbOut] [rbHidden', rbOut] [⟨3, 0.1, 0, 1⟩, ⟨2, 0, 0, 1⟩] v ∧
    libDrift [rbHidden, rbOut] [⟨3, 0.1, 0, 1⟩, ⟨2, 0, 0, 1⟩] 0 = 0.1 := by
  refine ⟨⟨⟨rfl, rfl, rfl, ⟨by norm_num, fun j hj => ?_⟩, by norm_num, fun j hj => ?_, fun j hj => ?_⟩, hv,
    ⟨⟨rfl, rfl, rfl, ⟨by norm_num, fun j hj => ?_⟩, by norm_num, fun j hj => ?_, fun j hj => ?_⟩, fun i hi => ?_, trivial⟩⟩, ?_⟩
  · change j < 2 at hj
    obtain rfl | rfl : j = 0 ∨ j = 1 := by omega
    all_goals norm_num [rbHidden', sum_range_succ]
  · change j < 2 at hj
    obtain rfl | rfl : j = 0 ∨ j = 1 := by omega
    all_goals norm_num [rbHidden, rbHidden', sum_range_succ, abs_of_neg]
  · norm_num [rbHidden, rbHidden']
  · change j < 2 at hj
    obtain rfl | rfl : j = 0 ∨ j = 1 := by omega
    all_goals norm_num [rbOut, sum_range_succ]
  · norm_num [rbOut]
  · norm_num [rbOut]
  · show |Real.tanh _| ≤ 1
    exact abs_le.2 ⟨(Real.neg_one_lt_tanh _).le, (Real.tanh_lt_one _).le⟩
  · norm_num [libDrift, rbHidden, rbOut, LibAct.gain, ActKind.gain]

end Trixy
