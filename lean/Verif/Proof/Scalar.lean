import Verif.Spec.Activation
import Verif.Proof.FC
import Mathlib.Analysis.SpecialFunctions.Trigonometric.DerivHyp
import Mathlib.Analysis.SpecialFunctions.ExpDeriv
import Mathlib.Analysis.SpecialFunctions.Log.Deriv
import Mathlib.Analysis.SpecialFunctions.Artanh
import Mathlib.Analysis.Calculus.Deriv.Inv
import Mathlib.Analysis.Calculus.Deriv.Abs
import Mathlib.Tactic.Ring
import Mathlib.Tactic.Linarith
import Mathlib.Tactic.FieldSimp
import Mathlib.Tactic.Positivity
import Mathlib.Tactic.NormNum
/- Scalar activation functions: closed forms and derivatives. -/
namespace Trixy
open Set Filter Topology

/-- The scalar function the code applies. -/
noncomputable def ActKind.cf : ActKind → ℝ → ℝ
  | .identity => Fn.identity | .relu => Fn.relu | .elu => Fn.elu | .lrelu => Fn.lrelu | .selu => Fn.selu
  | .gelu => Fn.gelu | .sigmoid => Fn.sigmoid | .tanh => Fn.tanh | .softsign => Fn.softsign | .softplus => Fn.softplus
  | .swish => Fn.swish | .modRelu => Fn.modRelu | .modTanh => Fn.modTanh
/-- The scalar `_derived` function the code applies. -/
noncomputable def ActKind.cd : ActKind → ℝ → ℝ
  | .identity => Fn.identityD | .relu => Fn.reluD | .elu => Fn.eluD | .lrelu => Fn.lreluD | .selu => Fn.seluD
  | .gelu => Fn.geluD | .sigmoid => Fn.sigmoidD | .tanh => Fn.tanhD | .softsign => Fn.softsignD | .softplus => Fn.softplusD
  | .swish => Fn.swishD | .modRelu => Fn.modReluD | .modTanh => Fn.modTanhD

theorem ActKind.obj_eq (k : ActKind) : k.obj = Act.elementwise k.cf k.cd := by cases k <;> rfl

theorem ActKind.cf_eq (k : ActKind) (x : ℝ) : k.cf x = k.fn x := by
  cases k with
  | identity => rfl
  | relu =>
    show Fn.relu x = max x 0
    unfold Fn.relu
    split_ifs with h
    · rw [max_eq_left h.le]
    · rw [max_eq_right (not_lt.1 h)]
  | elu =>
    show Fn.elu x = max x 0 + 0.2 * (Real.exp (min x 0) - 1)
    unfold Fn.elu Fn.expm1
    split_ifs with h
    · rw [max_eq_left h.le, min_eq_right h.le, Real.exp_zero]; ring
    · rw [max_eq_right (not_lt.1 h), min_eq_left (not_lt.1 h)]; ring
  | lrelu =>
    show Fn.lrelu x = max x (0.01 * x)
    unfold Fn.lrelu
    split_ifs with h
    · rw [max_eq_left]; linarith
    · rw [max_eq_right]; linarith
  | selu =>
    show Fn.selu x = 1.050701 * max x 0 + 1.758099 * (Real.exp (min x 0) - 1)
    unfold Fn.selu Fn.expm1
    split_ifs with h
    · rw [max_eq_left h.le, min_eq_right h.le, Real.exp_zero]; ring
    · rw [max_eq_right (not_lt.1 h), min_eq_left (not_lt.1 h)]; ring
  | gelu =>
    show Fn.gelu x = x / 2 * (1 + Real.tanh (0.797885 * x + 0.0356774 * x ^ 3))
    unfold Fn.gelu
    rw [show x * 0.797885 + x * x * x * 0.0356774 = 0.797885 * x + 0.0356774 * x ^ 3 by ring]; ring
  | sigmoid =>
    show Fn.sigmoid x = (1 + Real.exp (-x))⁻¹
    unfold Fn.sigmoid
    rw [one_div, add_comm]
  | tanh => rfl
  | softsign =>
    show Fn.softsign x = x / (1 + |x|)
    unfold Fn.softsign
    rw [add_comm]
  | softplus =>
    show Fn.softplus x = Real.log (1 + Real.exp x)
    unfold Fn.softplus
    rw [add_comm]
  | swish =>
    show Fn.swish x = x * (1 + Real.exp (-x))⁻¹
    unfold Fn.swish
    rw [div_eq_mul_inv, add_comm]
  | modRelu =>
    show Fn.modRelu x = 0.01 * x + 0.99 * min (max x 0) 1
    unfold Fn.modRelu
    split_ifs with h1 h2
    · rw [max_eq_right h1.le, min_eq_left (by norm_num)]; ring
    · rw [max_eq_left (by linarith), min_eq_right h2.le]; ring
    · rw [max_eq_left (by linarith), min_eq_left (by linarith)]; ring
  | modTanh =>
    show Fn.modTanh x = Real.tanh (max x 0) + 0.01 * Real.tanh (min x 0)
    unfold Fn.modTanh
    split_ifs with h1
    · rw [max_eq_right h1.le, min_eq_left h1.le, Real.tanh_zero]; ring
    · rw [max_eq_left (not_lt.1 h1), min_eq_right (not_lt.1 h1), Real.tanh_zero]; ring

theorem ActKind.cf_fun (k : ActKind) : k.cf = k.fn := funext k.cf_eq

/-! ### Gluing -/

theorem glue_gt {h f : ℝ → ℝ} {c d x : ℝ} (hx : c < x) (he : ∀ y, c < y → h y = f y) (hf : HasDerivAt f d x) : HasDerivAt h d x :=
  hf.congr_of_eventuallyEq ((Ioi_mem_nhds hx : Ioi c ∈ 𝓝 x) |> fun hm => Filter.mem_of_superset hm (fun y hy => he y hy))

theorem glue_lt {h f : ℝ → ℝ} {c d x : ℝ} (hx : x < c) (he : ∀ y, y < c → h y = f y) (hf : HasDerivAt f d x) : HasDerivAt h d x :=
  hf.congr_of_eventuallyEq ((Iio_mem_nhds hx : Iio c ∈ 𝓝 x) |> fun hm => Filter.mem_of_superset hm (fun y hy => he y hy))

theorem glue_right {h f : ℝ → ℝ} {c d : ℝ} (he : ∀ y, c ≤ y → h y = f y) (hf : HasDerivAt f d c) : HasDerivWithinAt h d (Ici c) c :=
  hf.hasDerivWithinAt.congr (fun y hy => he y hy) (he c le_rfl)

theorem glue_left {h f : ℝ → ℝ} {c d : ℝ} (he : ∀ y, y ≤ c → h y = f y) (hf : HasDerivAt f d c) : HasDerivWithinAt h d (Iic c) c :=
  hf.hasDerivWithinAt.congr (fun y hy => he y hy) (he c le_rfl)

/-- For `right` near `c` only: the formula is needed up to some `b > c`. -/
theorem glue_right' {h f : ℝ → ℝ} {c b d : ℝ} (hb : c < b) (he : ∀ y, c ≤ y → y ≤ b → h y = f y) (hf : HasDerivAt f d c) :
    HasDerivWithinAt h d (Ici c) c := by
  refine hf.hasDerivWithinAt.congr_of_eventuallyEq ?_ (he c le_rfl hb.le)
  filter_upwards [self_mem_nhdsWithin, mem_nhdsWithin_of_mem_nhds (Iio_mem_nhds hb)] with y hy hy'
  exact he y hy (le_of_lt hy')

theorem glue_left' {h f : ℝ → ℝ} {c b d : ℝ} (hb : b < c) (he : ∀ y, b ≤ y → y ≤ c → h y = f y) (hf : HasDerivAt f d c) :
    HasDerivWithinAt h d (Iic c) c := by
  refine hf.hasDerivWithinAt.congr_of_eventuallyEq ?_ (he c hb.le le_rfl)
  filter_upwards [self_mem_nhdsWithin, mem_nhdsWithin_of_mem_nhds (Ioi_mem_nhds hb)] with y hy hy'
  exact he y (le_of_lt hy') hy

theorem kink_not_diff {h : ℝ → ℝ} {c d d' : ℝ} (h1 : HasDerivWithinAt h d (Iic c) c) (h2 : HasDerivWithinAt h d' (Ici c) c) (hne : d ≠ d') :
    ¬ DifferentiableAt ℝ h c := by
  intro hd
  have e1 := (uniqueDiffWithinAt_Iic c).eq_deriv _ h1 hd.hasDerivAt.hasDerivWithinAt
  have e2 := (uniqueDiffWithinAt_Ici c).eq_deriv _ h2 hd.hasDerivAt.hasDerivWithinAt
  exact hne (e1.trans e2.symm)

/-! ### Elementary derivatives -/

theorem hasDerivAt_tanh' (x : ℝ) : HasDerivAt Real.tanh (1 / Real.cosh x * (1 / Real.cosh x)) x := by
  have hc := (Real.cosh_pos x).ne'
  have h := (Real.hasDerivAt_sinh x).div (Real.hasDerivAt_cosh x) hc
  have e : Real.tanh = fun y => Real.sinh y / Real.cosh y := funext Real.tanh_eq_sinh_div_cosh
  rw [e]
  refine h.congr_deriv ?_
  have := Real.cosh_sq x
  field_simp
  rw [this]; ring

theorem hasDerivAt_expm1 (x : ℝ) : HasDerivAt Fn.expm1 (Real.exp x) x := (Real.hasDerivAt_exp x).sub_const 1

theorem expm1_zero : Fn.expm1 0 = 0 := by unfold Fn.expm1; simp

theorem hasDerivAt_den (x : ℝ) : HasDerivAt (fun y : ℝ => Real.exp (-y) + 1) (-Real.exp (-x)) x := by
  have := ((Real.hasDerivAt_exp (-x)).comp x (hasDerivAt_neg x)).add_const 1
  exact this.congr_deriv (by ring)

theorem den_ne (x : ℝ) : Real.exp (-x) + 1 ≠ 0 := by positivity

theorem hasDerivAt_softsign (x : ℝ) : HasDerivAt Fn.softsign (Fn.softsignD x) x := by
  unfold Fn.softsignD
  have hpos : HasDerivAt (fun y : ℝ => y / (y + 1)) (1 / (|x| + 1) * (1 / (|x| + 1))) x ∨ x < 0 := by
    by_cases hx : x < 0
    · exact .inr hx
    · refine .inl ?_
      have hx0 : 0 ≤ x := not_lt.1 hx
      have hne : x + 1 ≠ 0 := by positivity
      refine ((hasDerivAt_id x).div ((hasDerivAt_id x).add_const 1) hne).congr_deriv ?_
      rw [abs_of_nonneg hx0]; simp only [id]; field_simp; ring
  have hneg : HasDerivAt (fun y : ℝ => y / (-y + 1)) (1 / (|x| + 1) * (1 / (|x| + 1))) x ∨ 0 < x := by
    by_cases hx : 0 < x
    · exact .inr hx
    · refine .inl ?_
      have hx0 : x ≤ 0 := not_lt.1 hx
      have hne : -x + 1 ≠ 0 := by linarith
      refine ((hasDerivAt_id x).div ((hasDerivAt_neg x).add_const 1) hne).congr_deriv ?_
      rw [abs_of_nonpos hx0]; simp only [id]; field_simp; ring
  have eR : ∀ y : ℝ, 0 ≤ y → Fn.softsign y = y / (y + 1) := fun y hy => by unfold Fn.softsign; rw [abs_of_nonneg hy]
  have eL : ∀ y : ℝ, y ≤ 0 → Fn.softsign y = y / (-y + 1) := fun y hy => by unfold Fn.softsign; rw [abs_of_nonpos hy]
  rcases lt_trichotomy x 0 with hx | hx | hx
  · exact glue_lt hx (fun y hy => eL y hy.le) (hneg.resolve_right (by linarith))
  · subst hx
    have h1 := glue_right eR (hpos.resolve_right (lt_irrefl _))
    have h2 := glue_left eL (hneg.resolve_right (lt_irrefl _))
    have := h2.union h1
    rwa [Iic_union_Ici, hasDerivWithinAt_univ] at this
  · exact glue_gt hx (fun y hy => eR y hy.le) (hpos.resolve_right (by linarith))

theorem hasDerivAt_sigmoid (x : ℝ) : HasDerivAt Fn.sigmoid (Fn.sigmoidD x) x := by
  have h := (hasDerivAt_const x (1 : ℝ)).div (hasDerivAt_den x) (den_ne x)
  refine h.congr_deriv ?_
  unfold Fn.sigmoidD
  have e : Real.exp (-x) * Real.exp x = 1 := by rw [← Real.exp_add]; simp
  rw [Real.cosh_eq]
  have := den_ne x
  have h2 : (Real.exp x + Real.exp (-x)) / 2 + 1 ≠ 0 := by positivity
  rw [div_eq_div_iff (by positivity) h2]
  linear_combination (1 / 2 : ℝ) * e

/-! ### All of them -/

theorem ActKind.hasDerivAt (k : ActKind) (hk : k ≠ .gelu) (x : ℝ) (hx : x ∉ k.kinks) : HasDerivAt k.cf (k.cd x) x := by
  cases k with
  | gelu => exact absurd rfl hk
  | identity => exact hasDerivAt_id x
  | relu =>
    show HasDerivAt Fn.relu (Fn.reluD x) x
    unfold Fn.reluD
    rcases lt_or_gt_of_ne (show x ≠ 0 from hx) with h | h
    · rw [if_neg (by linarith)]
      exact glue_lt h (fun y hy => by unfold Fn.relu; rw [if_neg (by linarith)]) (hasDerivAt_const x 0)
    · rw [if_pos h]
      exact glue_gt h (fun y hy => by unfold Fn.relu; rw [if_pos hy]; rfl) (hasDerivAt_id x)
  | elu =>
    show HasDerivAt Fn.elu (Fn.eluD x) x
    unfold Fn.eluD
    rcases lt_or_gt_of_ne (show x ≠ 0 from hx) with h | h
    · rw [if_neg (by linarith)]
      exact glue_lt h (fun y hy => by unfold Fn.elu; rw [if_neg (by linarith)]) ((hasDerivAt_expm1 x).const_mul 0.2)
    · rw [if_pos h]
      exact glue_gt h (fun y hy => by unfold Fn.elu; rw [if_pos hy]; rfl) (hasDerivAt_id x)
  | lrelu =>
    show HasDerivAt Fn.lrelu (Fn.lreluD x) x
    unfold Fn.lreluD
    rcases lt_or_gt_of_ne (show x ≠ 0 from hx) with h | h
    · rw [if_neg (by linarith)]
      exact glue_lt h (fun y hy => by unfold Fn.lrelu; rw [if_neg (by linarith)]; rfl)
        (((hasDerivAt_id x).const_mul 0.01).congr_deriv (by ring))
    · rw [if_pos h]
      exact glue_gt h (fun y hy => by unfold Fn.lrelu; rw [if_pos hy]; rfl) (hasDerivAt_id x)
  | selu =>
    show HasDerivAt Fn.selu (Fn.seluD x) x
    unfold Fn.seluD
    rcases lt_or_gt_of_ne (show x ≠ 0 from hx) with h | h
    · rw [if_neg (by linarith)]
      exact glue_lt h (fun y hy => by unfold Fn.selu; rw [if_neg (by linarith)]) ((hasDerivAt_expm1 x).const_mul 1.758099)
    · rw [if_pos h]
      exact glue_gt h (fun y hy => by unfold Fn.selu; rw [if_pos hy]; rfl) (((hasDerivAt_id x).const_mul 1.050701).congr_deriv (by ring))
  | sigmoid => exact hasDerivAt_sigmoid x
  | tanh => exact hasDerivAt_tanh' x
  | softsign => exact hasDerivAt_softsign x
  | softplus =>
    show HasDerivAt Fn.softplus (Fn.softplusD x) x
    refine (((Real.hasDerivAt_exp x).add_const 1).log (by positivity)).congr_deriv ?_
    unfold Fn.softplusD
    have e : Real.exp (-x) * Real.exp x = 1 := by rw [← Real.exp_add]; simp
    rw [div_eq_div_iff (by positivity) (by positivity)]
    linear_combination e
  | swish =>
    show HasDerivAt Fn.swish (Fn.swishD x) x
    refine ((hasDerivAt_id x).div (hasDerivAt_den x) (den_ne x)).congr_deriv ?_
    unfold Fn.swishD
    simp only [id]
    congr 1 <;> ring
  | modRelu =>
    show HasDerivAt Fn.modRelu (Fn.modReluD x) x
    have hx' : x ≠ 0 ∧ x ≠ 1 := by
      constructor <;> (intro h; exact hx (by simp [ActKind.kinks, h]))
    unfold Fn.modReluD
    rcases lt_or_gt_of_ne hx'.1 with h | h
    · rw [if_pos (.inl h)]
      exact glue_lt h (fun y hy => by unfold Fn.modRelu; rw [if_pos hy]; rfl) (((hasDerivAt_id x).const_mul 0.01).congr_deriv (by ring))
    · rcases lt_or_gt_of_ne hx'.2 with h1 | h1
      · rw [if_neg (by rintro (a | a) <;> linarith)]
        refine (hasDerivAt_id x).congr_of_eventuallyEq ?_
        filter_upwards [Ioo_mem_nhds h h1] with y hy
        unfold Fn.modRelu; rw [if_neg (by linarith [hy.1]), if_neg (by linarith [hy.2])]; rfl
      · rw [if_pos (.inr h1)]
        exact glue_gt h1 (fun y hy => by unfold Fn.modRelu; rw [if_neg (by linarith), if_pos hy]; rfl)
          ((((hasDerivAt_id x).const_mul 0.01).const_add 0.99).congr_deriv (by ring))
  | modTanh =>
    show HasDerivAt Fn.modTanh (Fn.modTanhD x) x
    unfold Fn.modTanhD
    rcases lt_or_gt_of_ne (show x ≠ 0 from hx) with h | h
    · rw [if_pos h]
      exact glue_lt h (fun y hy => by unfold Fn.modTanh; rw [if_pos hy]) ((hasDerivAt_tanh' x).const_mul 0.01)
    · rw [if_neg (by linarith)]
      exact glue_gt h (fun y hy => by unfold Fn.modTanh; rw [if_neg (by linarith)]) (hasDerivAt_tanh' x)

theorem ActKind.kink (k : ActKind) (x : ℝ) (hx : x ∈ k.kinks) : ¬ DifferentiableAt ℝ k.cf x ∧
    (HasDerivWithinAt k.cf (k.cd x) (Iic x) x ∨ HasDerivWithinAt k.cf (k.cd x) (Ici x) x) := by
  cases k with
  | gelu => exact absurd hx (by simp [ActKind.kinks])
  | identity => exact absurd hx (by simp [ActKind.kinks])
  | sigmoid => exact absurd hx (by simp [ActKind.kinks])
  | tanh => exact absurd hx (by simp [ActKind.kinks])
  | softsign => exact absurd hx (by simp [ActKind.kinks])
  | softplus => exact absurd hx (by simp [ActKind.kinks])
  | swish => exact absurd hx (by simp [ActKind.kinks])
  | relu =>
    obtain rfl : x = 0 := hx
    have h1 : HasDerivWithinAt Fn.relu 0 (Iic 0) 0 :=
      glue_left (f := fun _ => 0) (fun y hy => by unfold Fn.relu; rw [if_neg (by linarith)]) (hasDerivAt_const 0 0)
    have h2 : HasDerivWithinAt Fn.relu 1 (Ici 0) 0 :=
      glue_right (f := fun y => y) (fun y hy => by
        unfold Fn.relu
        split_ifs with h
        · rfl
        · linarith) (hasDerivAt_id 0)
    exact ⟨kink_not_diff h1 h2 (by norm_num), .inl (by show HasDerivWithinAt _ (Fn.reluD 0) _ _; unfold Fn.reluD; rw [if_neg (by norm_num)]; exact h1)⟩
  | elu =>
    obtain rfl : x = 0 := hx
    have h1 : HasDerivWithinAt Fn.elu (0.2 * Real.exp 0) (Iic 0) 0 :=
      glue_left (f := fun y => 0.2 * Fn.expm1 y) (fun y hy => by unfold Fn.elu; rw [if_neg (by linarith)]) ((hasDerivAt_expm1 0).const_mul 0.2)
    have h2 : HasDerivWithinAt Fn.elu 1 (Ici 0) 0 :=
      glue_right (f := fun y => y) (fun y hy => by
        unfold Fn.elu
        split_ifs with h
        · rfl
        · obtain rfl : y = 0 := by linarith
          rw [expm1_zero]; ring) (hasDerivAt_id 0)
    exact ⟨kink_not_diff h1 h2 (by rw [Real.exp_zero]; norm_num), .inl (by show HasDerivWithinAt _ (Fn.eluD 0) _ _; unfold Fn.eluD; rw [if_neg (by norm_num)]; exact h1)⟩
  | lrelu =>
    obtain rfl : x = 0 := hx
    have h1 : HasDerivWithinAt Fn.lrelu 0.01 (Iic 0) 0 :=
      glue_left (f := fun y => 0.01 * y) (fun y hy => by unfold Fn.lrelu; rw [if_neg (by linarith)]) (((hasDerivAt_id (0:ℝ)).const_mul 0.01).congr_deriv (by ring))
    have h2 : HasDerivWithinAt Fn.lrelu 1 (Ici 0) 0 :=
      glue_right (f := fun y => y) (fun y hy => by
        unfold Fn.lrelu
        split_ifs with h
        · rfl
        · obtain rfl : y = 0 := by linarith
          ring) (hasDerivAt_id 0)
    exact ⟨kink_not_diff h1 h2 (by norm_num), .inl (by show HasDerivWithinAt _ (Fn.lreluD 0) _ _; unfold Fn.lreluD; rw [if_neg (by norm_num)]; exact h1)⟩
  | selu =>
    obtain rfl : x = 0 := hx
    have h1 : HasDerivWithinAt Fn.selu (1.758099 * Real.exp 0) (Iic 0) 0 :=
      glue_left (f := fun y => 1.758099 * Fn.expm1 y) (fun y hy => by unfold Fn.selu; rw [if_neg (by linarith)]) ((hasDerivAt_expm1 0).const_mul 1.758099)
    have h2 : HasDerivWithinAt Fn.selu 1.050701 (Ici 0) 0 :=
      glue_right (f := fun y => 1.050701 * y) (fun y hy => by
        unfold Fn.selu
        split_ifs with h
        · rfl
        · obtain rfl : y = 0 := by linarith
          rw [expm1_zero]; ring) (((hasDerivAt_id (0:ℝ)).const_mul 1.050701).congr_deriv (by ring))
    exact ⟨kink_not_diff h1 h2 (by rw [Real.exp_zero]; norm_num), .inl (by show HasDerivWithinAt _ (Fn.seluD 0) _ _; unfold Fn.seluD; rw [if_neg (by norm_num)]; exact h1)⟩
  | modTanh =>
    obtain rfl : x = 0 := hx
    have h1 : HasDerivWithinAt Fn.modTanh (0.01 * (1 / Real.cosh 0 * (1 / Real.cosh 0))) (Iic 0) 0 :=
      glue_left (f := fun y => 0.01 * Real.tanh y) (fun y hy => by
        unfold Fn.modTanh
        split_ifs with h
        · rfl
        · obtain rfl : y = 0 := by linarith
          rw [Real.tanh_zero]; ring) ((hasDerivAt_tanh' 0).const_mul 0.01)
    have h2 : HasDerivWithinAt Fn.modTanh (1 / Real.cosh 0 * (1 / Real.cosh 0)) (Ici 0) 0 :=
      glue_right (f := Real.tanh) (fun y hy => by unfold Fn.modTanh; rw [if_neg (by linarith)]) (hasDerivAt_tanh' 0)
    exact ⟨kink_not_diff h1 h2 (by rw [Real.cosh_zero]; norm_num), .inr (by show HasDerivWithinAt _ (Fn.modTanhD 0) _ _; unfold Fn.modTanhD; rw [if_neg (by norm_num)]; exact h2)⟩
  | modRelu =>
    have hmid : ∀ y : ℝ, 0 ≤ y → y ≤ 1 → Fn.modRelu y = y := fun y h1 h2 => by
      unfold Fn.modRelu; rw [if_neg (by linarith), if_neg (by linarith)]
    rcases hx with rfl | hx
    · have h1 : HasDerivWithinAt Fn.modRelu 0.01 (Iic 0) 0 :=
        glue_left (f := fun y => 0.01 * y) (fun y hy => by
          rcases lt_or_eq_of_le hy with h | rfl
          · unfold Fn.modRelu; rw [if_pos h]
          · rw [hmid 0 le_rfl (by norm_num)]; ring) (((hasDerivAt_id (0:ℝ)).const_mul 0.01).congr_deriv (by ring))
      have h2 : HasDerivWithinAt Fn.modRelu 1 (Ici 0) 0 :=
        glue_right' (f := fun y => y) (b := 1) (by norm_num) hmid (hasDerivAt_id 0)
      exact ⟨kink_not_diff h1 h2 (by norm_num), .inr (by show HasDerivWithinAt _ (Fn.modReluD 0) _ _; unfold Fn.modReluD; rw [if_neg (by norm_num)]; exact h2)⟩
    · obtain rfl : x = 1 := hx
      have h1 : HasDerivWithinAt Fn.modRelu 1 (Iic 1) 1 :=
        glue_left' (f := fun y => y) (b := 0) (by norm_num) hmid (hasDerivAt_id 1)
      have h2 : HasDerivWithinAt Fn.modRelu 0.01 (Ici 1) 1 :=
        glue_right (f := fun y => 0.99 + 0.01 * y) (fun y hy => by
          rcases lt_or_eq_of_le hy with h | rfl
          · unfold Fn.modRelu; rw [if_neg (by linarith), if_pos h]
          · rw [hmid 1 (by norm_num) le_rfl]; norm_num) ((((hasDerivAt_id (1:ℝ)).const_mul 0.01).const_add 0.99).congr_deriv (by ring))
      exact ⟨kink_not_diff h1 h2 (by norm_num), .inl (by show HasDerivWithinAt _ (Fn.modReluD 1) _ _; unfold Fn.modReluD; rw [if_neg (by norm_num)]; exact h1)⟩

/-! ### gelu -/

theorem gelu_deriv (x : ℝ) : HasDerivAt Fn.gelu (0.5 * (Real.tanh (x * 0.797885 + x * x * x * 0.0356774) + 1) +
    0.5 * x * (1 / Real.cosh (x * 0.797885 + x * x * x * 0.0356774) * (1 / Real.cosh (x * 0.797885 + x * x * x * 0.0356774)) *
      (0.797885 + 3 * 0.0356774 * (x * x)))) x := by
  have hi : HasDerivAt (fun x : ℝ => x * 0.797885 + x * x * x * 0.0356774) (0.797885 + 3 * 0.0356774 * (x * x)) x := by
    have h := ((hasDerivAt_id x).mul_const 0.797885).add ((((hasDerivAt_id x).mul (hasDerivAt_id x)).mul (hasDerivAt_id x)).mul_const 0.0356774)
    exact h.congr_deriv (by simp only [id, Pi.mul_apply]; ring)
  have ht := (hasDerivAt_tanh' (x * 0.797885 + x * x * x * 0.0356774)).comp x hi
  have h := ((hasDerivAt_id x).const_mul 0.5).mul (ht.add_const 1)
  exact h.congr_deriv (by simp only [id, Function.comp]; ring)

/-- Derivative at 0 of `x * g x` when `g` is continuous. -/
theorem deriv_mul_zero {g : ℝ → ℝ} (hg : ContinuousAt g 0) : HasDerivAt (fun x => x * g x) (g 0) 0 := by
  rw [hasDerivAt_iff_tendsto_slope]
  refine (hg.tendsto.mono_left nhdsWithin_le_nhds).congr' ?_
  filter_upwards [self_mem_nhdsWithin] with x hx
  rw [slope_def_field]
  have : x ≠ 0 := hx
  field_simp
  ring

theorem gelu_wrong : ∀ᶠ x in 𝓝[≠] (0:ℝ), ¬ HasDerivAt Fn.gelu (Fn.geluD x) x := by
  -- the true derivative minus the code's, as a function with non-zero derivative at 0
  let y : ℝ → ℝ := fun x => x * 0.797885 + x * x * x * 0.0356774
  let z : ℝ → ℝ := fun x => 0.797885 * (x * x * x) + 0.0356774 * x
  have hy : HasDerivAt y 0.797885 0 := by
    have h := ((hasDerivAt_id (0:ℝ)).mul_const 0.797885).add ((((hasDerivAt_id (0:ℝ)).mul (hasDerivAt_id 0)).mul (hasDerivAt_id 0)).mul_const 0.0356774)
    exact h.congr_deriv (by simp)
  have hz : HasDerivAt z 0.0356774 0 := by
    have h := ((((hasDerivAt_id (0:ℝ)).mul (hasDerivAt_id 0)).mul (hasDerivAt_id 0)).const_mul 0.797885).add ((hasDerivAt_id (0:ℝ)).const_mul 0.0356774)
    exact h.congr_deriv (by simp)
  have y0 : y 0 = 0 := by simp [y]
  have z0 : z 0 = 0 := by simp [z]
  have hty : HasDerivAt (fun x => Real.tanh (y x)) 0.797885 0 := by
    have := (hasDerivAt_tanh' (y 0)).comp 0 hy
    exact this.congr_deriv (by rw [y0, Real.cosh_zero]; norm_num)
  have htz : HasDerivAt (fun x => Real.tanh (z x)) 0.0356774 0 := by
    have := (hasDerivAt_tanh' (z 0)).comp 0 hz
    exact this.congr_deriv (by rw [z0, Real.cosh_zero]; norm_num)
  let g : ℝ → ℝ := fun x => 0.5 * (1 / Real.cosh (y x) * (1 / Real.cosh (y x)) * (0.797885 + 3 * 0.0356774 * (x * x))) -
    (0.0535161 * (x * x) + 0.398942) * (1 / Real.cosh (z x)) * (1 / Real.cosh (z x))
  have hcy : ContinuousAt (fun x => 1 / Real.cosh (y x)) 0 :=
    continuousAt_const.div (Real.continuous_cosh.continuousAt.comp hy.continuousAt) (Real.cosh_pos _).ne'
  have hcz : ContinuousAt (fun x => 1 / Real.cosh (z x)) 0 :=
    continuousAt_const.div (Real.continuous_cosh.continuousAt.comp hz.continuousAt) (Real.cosh_pos _).ne'
  have hg : ContinuousAt g 0 := by
    refine ContinuousAt.sub (continuousAt_const.mul ((hcy.mul hcy).mul ?_)) ((ContinuousAt.mul ?_ hcz).mul hcz)
    · exact (by fun_prop : Continuous fun x : ℝ => 0.797885 + 3 * 0.0356774 * (x * x)).continuousAt
    · exact (by fun_prop : Continuous fun x : ℝ => 0.0535161 * (x * x) + 0.398942).continuousAt
  have hD : HasDerivAt (fun x => 0.5 * Real.tanh (y x) - 0.5 * Real.tanh (z x) + x * g x) (0.5 * 0.797885 - 0.5 * 0.0356774 + g 0) 0 :=
    ((hty.const_mul 0.5).sub (htz.const_mul 0.5)).add (deriv_mul_zero hg)
  have hne : (0.5 * 0.797885 - 0.5 * 0.0356774 + g 0 : ℝ) ≠ 0 := by
    have : g 0 = 0.5 * 0.797885 - 0.398942 := by
      simp only [g, y0, z0, Real.cosh_zero]; norm_num
    rw [this]; norm_num
  have hev := hD.eventually_ne (c := 0) hne
  filter_upwards [hev] with x hx hh
  apply hx
  have := (gelu_deriv x).unique hh
  have e : Fn.geluD x = 0.5 * Real.tanh (z x) + (0.0535161 * (x * x * x) + 0.398942 * x) * (1 / Real.cosh (z x)) * (1 / Real.cosh (z x)) + 0.5 := rfl
  rw [e] at this
  have e2 : (0.5 * (Real.tanh (y x) + 1) +
    0.5 * x * (1 / Real.cosh (y x) * (1 / Real.cosh (y x)) * (0.797885 + 3 * 0.0356774 * (x * x)))) = 0.5 * Real.tanh (z x) + (0.0535161 * (x * x * x) + 0.398942 * x) * (1 / Real.cosh (z x)) * (1 / Real.cosh (z x)) + 0.5 := this
  simp only [g]
  linear_combination e2

end Trixy
