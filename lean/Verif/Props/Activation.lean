import Verif.Proof.Scalar
/- C49, C50: element-wise activations. -/
namespace Trixy
open Set Filter Topology

/-! ### C49 -/

/-- Every element-wise activation object computes its textbook function on every element, both into a separate range and in
place. -/
theorem C49_value (k : ActKind) (n : Nat) (r x : Buf ℝ) (v : Nat → ℝ) (hr : r.length = n) (hx : VecIs x n v) :
    Ok (k.obj.f r x) (fun r' => VecIs r' n (fun i => k.fn (v i))) ∧ Ok (k.obj.fSelf x) (fun r' => VecIs r' n (fun i => k.fn (v i))) := by
  rw [← k.cf_fun, k.obj_eq]
  exact ⟨(Act.Is.elementwise k.cf k.cd n).f r x v hr hx, (Act.Is.elementwise k.cf k.cd n).fSelf x v hx⟩

/-- `df` writes the derivative of that function for every class except `GELU`, away from the kinks (into a separate range
and in place). -/
theorem C49_derivative_partial (k : ActKind) (hk : k ≠ .gelu) (n : Nat) (r x : Buf ℝ) (v : Nat → ℝ) (hr : r.length = n) (hx : VecIs x n v)
    (hv : ∀ i, i < n → v i ∉ k.kinks) :
    ∃ D : Nat → ℝ, (∀ i, i < n → HasDerivAt k.fn (D i) (v i)) ∧ Ok (k.obj.df r x) (fun r' => VecIs r' n D) ∧
      Ok (k.obj.dfSelf x) (fun r' => VecIs r' n D) := by
  refine ⟨fun i => k.cd (v i), fun i hi => ?_, ?_, ?_⟩
  · rw [← k.cf_fun]; exact k.hasDerivAt hk (v i) (hv i hi)
  · rw [k.obj_eq]; exact (Act.Is.elementwise k.cf k.cd n).df r x v hr hx
  · rw [k.obj_eq]; exact (Act.Is.elementwise k.cf k.cd n).dfSelf x v hx

/-- At a kink the function has no derivative and `df` writes one of the two one-sided derivatives. -/
theorem C49_kinks (k : ActKind) (n : Nat) (r x : Buf ℝ) (v : Nat → ℝ) (hr : r.length = n) (hx : VecIs x n v) :
    ∃ D : Nat → ℝ, Ok (k.obj.df r x) (fun r' => VecIs r' n D) ∧ ∀ i, i < n → v i ∈ k.kinks →
      ¬ DifferentiableAt ℝ k.fn (v i) ∧ (HasDerivWithinAt k.fn (D i) (Iic (v i)) (v i) ∨ HasDerivWithinAt k.fn (D i) (Ici (v i)) (v i)) := by
  refine ⟨fun i => k.cd (v i), ?_, fun i hi hk => ?_⟩
  · rw [k.obj_eq]; exact (Act.Is.elementwise k.cf k.cd n).df r x v hr hx
  · rw [← k.cf_fun]; exact k.kink (v i) hk

/-- C49 fails for `GELU`: for every argument other than 0 near 0, `df` writes something that is not the derivative. -/
theorem C49_gelu_violated : ∀ᶠ a in 𝓝[≠] (0:ℝ), ∀ r : Buf ℝ, r.length = 1 →
    ∃ D : ℝ, ActKind.gelu.obj.df r (Buf.of [a]) = .ok (Buf.of [D]) ∧ ¬ HasDerivAt ActKind.gelu.fn D a := by
  filter_upwards [gelu_wrong] with a ha r hr
  refine ⟨Fn.geluD a, ?_, fun hD => ?_⟩
  · rw [ActKind.obj_eq]
    obtain ⟨r', e, hr'⟩ := (Act.Is.elementwise ActKind.gelu.cf ActKind.gelu.cd 1).df r (Buf.of [a]) (fun _ => a) hr
      (VecIs_of [a] _ (fun i hi => by simp))
    rw [e]
    congr 1
    exact BufIs.ext hr' (VecIs_of [Fn.geluD a] _ (fun i hi => by simp; rfl))
  · rw [← ActKind.cf_fun] at hD
    exact ha hD

/-- The hypotheses are met: three elements away from the kink of `ReLU`, and one on it. -/
example : VecIs (Buf.of [-1, 2, 5] : Buf ℝ) 3 (fun i => if i = 0 then -1 else if i = 1 then 2 else 5) ∧
    (∀ i, i < 3 → (if i = 0 then -1 else if i = 1 then 2 else 5 : ℝ) ∉ ActKind.relu.kinks) ∧ (0 : ℝ) ∈ ActKind.relu.kinks := by
  refine ⟨VecIs_of _ _ (fun i hi => ?_), fun i hi => ?_, rfl⟩
  · have : i < 3 := hi
    interval_cases i <;> simp
  · show (if i = 0 then -1 else if i = 1 then 2 else 5 : ℝ) ≠ 0
    interval_cases i <;> norm_num

/-! ### C50 -/

/-- The interval the values of each activation lie in. -/
def ActKind.range : ActKind → Set ℝ
  | .relu => Ici 0
  | .sigmoid => Ioo 0 1
  | .tanh | .softsign => Ioo (-1) 1
  | .softplus => Ioi 0
  | .elu => Ioi (-0.2)
  | .selu => Ioi (-1.758099)
  | .modTanh => Ioo (-0.01) 1
  | _ => univ

theorem neg_one_lt_expm1 (x : ℝ) : -1 < Real.exp x - 1 := by linarith [Real.exp_pos x]

theorem ActKind.fn_range (k : ActKind) (x : ℝ) : k.fn x ∈ k.range := by
  have he := Real.exp_pos x
  have he' := Real.exp_pos (-x)
  cases k <;> simp only [ActKind.fn, ActKind.range, mem_Ici, mem_Ioo, mem_Ioi, mem_univ]
  · exact le_max_right _ _
  · have := neg_one_lt_expm1 (min x 0)
    have := le_max_right x 0
    linarith
  · have := neg_one_lt_expm1 (min x 0)
    have := le_max_right x 0
    linarith
  · exact ⟨by positivity, inv_lt_one_of_one_lt₀ (by linarith)⟩
  · exact ⟨Real.neg_one_lt_tanh x, Real.tanh_lt_one x⟩
  · have h := abs_nonneg x
    rw [lt_div_iff₀ (by linarith), div_lt_iff₀ (by linarith)]
    constructor
    · linarith [neg_abs_le x]
    · linarith [le_abs_self x]
  · exact Real.log_pos (by linarith)
  · rcases le_total x 0 with h | h
    · rw [max_eq_right h, min_eq_left h, Real.tanh_zero]
      constructor <;> linarith [Real.neg_one_lt_tanh x, Real.tanh_lt_one x]
    · rw [max_eq_left h, min_eq_right h, Real.tanh_zero]
      have : 0 ≤ Real.tanh x := by
        rw [Real.tanh_eq_sinh_div_cosh]
        exact div_nonneg (Real.sinh_nonneg_iff.2 h) (Real.cosh_pos x).le
      constructor <;> linarith [Real.tanh_lt_one x]

theorem tanh_mono : Monotone Real.tanh :=
  monotone_of_deriv_nonneg (fun x => (hasDerivAt_tanh' x).differentiableAt)
    (fun x => by rw [(hasDerivAt_tanh' x).deriv]; have := Real.cosh_pos x; positivity)

theorem ActKind.fn_mono (k : ActKind) (h1 : k ≠ .gelu) (h2 : k ≠ .swish) : Monotone k.fn := by
  intro x y hxy
  have hmax := max_le_max_right 0 hxy
  have hmin := min_le_min_right 0 hxy
  have hemin := Real.exp_le_exp.2 hmin
  cases k with
  | gelu => exact absurd rfl h1
  | swish => exact absurd rfl h2
  | identity => exact hxy
  | relu => exact hmax
  | elu => simp only [ActKind.fn]; linarith
  | lrelu => exact max_le_max hxy (by linarith)
  | selu => simp only [ActKind.fn]; linarith
  | sigmoid =>
    have := Real.exp_le_exp.2 (neg_le_neg hxy)
    have := Real.exp_pos (-y)
    exact inv_anti₀ (by linarith) (by linarith)
  | tanh => exact tanh_mono hxy
  | softsign =>
    have hx := abs_nonneg x
    have hy := abs_nonneg y
    simp only [ActKind.fn]
    rw [div_le_div_iff₀ (by linarith) (by linarith)]
    rcases le_total x 0 with h | h <;> rcases le_total y 0 with h' | h'
    · rw [abs_of_nonpos h, abs_of_nonpos h']; nlinarith
    · rw [abs_of_nonpos h, abs_of_nonneg h']; nlinarith
    · rw [abs_of_nonneg h, abs_of_nonpos h']; nlinarith
    · rw [abs_of_nonneg h, abs_of_nonneg h']; nlinarith
  | softplus =>
    have := Real.exp_pos x
    exact Real.log_le_log (by linarith) (by have := Real.exp_le_exp.2 hxy; linarith)
  | modRelu =>
    have := min_le_min_right 1 hmax
    simp only [ActKind.fn]; linarith
  | modTanh =>
    have h1 := tanh_mono hmax
    have h2 := tanh_mono hmin
    simp only [ActKind.fn]; linarith

/-- C50: on every input the values written by `f` lie in the range of the activation, and, except for `GELU` and `Swish`,
are ordered like the inputs. -/
theorem C50_range_monotone (k : ActKind) (n : Nat) (r x : Buf ℝ) (v : Nat → ℝ) (hr : r.length = n) (hx : VecIs x n v) :
    ∃ u : Nat → ℝ, Ok (k.obj.f r x) (fun r' => VecIs r' n u) ∧ (∀ i, i < n → u i ∈ k.range) ∧
      (k ≠ .gelu → k ≠ .swish → ∀ i j, i < n → j < n → v i ≤ v j → u i ≤ u j) :=
  ⟨fun i => k.fn (v i), (C49_value k n r x v hr hx).1, fun i _ => k.fn_range (v i), fun h1 h2 _ _ _ _ h => k.fn_mono h1 h2 h⟩

/-- C50: applying `ReLU` a second time changes nothing. -/
theorem C50_relu_idempotent (n : Nat) (r r2 x : Buf ℝ) (v : Nat → ℝ) (hr : r.length = n) (hr2 : r2.length = n) (hx : VecIs x n v) :
    Ok (ActKind.relu.obj.f r x) (fun r' => ActKind.relu.obj.f r2 r' = .ok r') := by
  refine (C49_value .relu n r x v hr hx).1.mono (fun r' h => ?_)
  obtain ⟨r'', e, h'⟩ := (C49_value .relu n r2 r' _ hr2 h).1
  rw [e]
  congr 1
  refine h'.ext (h.congr (fun i _ => ?_))
  simp only [ActKind.fn]
  rw [max_assoc, max_self]

/-- C50: `sigmoid_derived_self(sigmoid(x)) = sigmoid_derived(x)`. -/
theorem C50_sigmoid_self (x : ℝ) : Fn.sigmoidDSelf (Fn.sigmoid x) = Fn.sigmoidD x := by
  have e : Real.exp (-x) * Real.exp x = 1 := by rw [← Real.exp_add]; simp
  have h := den_ne x
  have h2 : (Real.exp x + Real.exp (-x)) / 2 + 1 ≠ 0 := by positivity
  unfold Fn.sigmoidDSelf Fn.sigmoid Fn.sigmoidD
  rw [Real.cosh_eq, eq_div_iff h2]
  field_simp
  linear_combination e

end Trixy
