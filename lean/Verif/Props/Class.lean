import Verif.Spec.Class
import Verif.Props.Checker
import Verif.Props.Library
import Verif.Props.Activation
import Verif.Props.Loss
import Mathlib.Analysis.Complex.ExponentialBounds
/- Property C102 (the activation of the last layer and the predicted class). -/
namespace Trixy
open Finset

theorem tanh_strict : StrictMono Real.tanh :=
  strictMono_of_deriv_pos (fun x => by rw [(hasDerivAt_tanh' x).deriv]; have := Real.cosh_pos x; positivity)

theorem ActKind.fn_strict (k : ActKind) (h1 : k ≠ .relu) (h2 : k ≠ .gelu) (h3 : k ≠ .swish) : StrictMono k.fn := by
  have half : ∀ (f : ℝ → ℝ), (∀ x y, x < y → (y ≤ 0 ∨ 0 ≤ x) → f x < f y) → StrictMono f := by
    intro f h x y hxy
    rcases le_total y 0 with hy | hy
    · exact h x y hxy (Or.inl hy)
    · rcases le_total 0 x with hx | hx
      · exact h x y hxy (Or.inr hx)
      · rcases eq_or_lt_of_le hx with rfl | hx'
        · exact h _ y hxy (Or.inr le_rfl)
        · rcases eq_or_lt_of_le hy with rfl | hy'
          · exact h x _ hxy (Or.inl le_rfl)
          · exact (h x 0 hx' (Or.inl le_rfl)).trans (h 0 y hy' (Or.inr le_rfl))
  cases k with
  | relu => exact absurd rfl h1
  | gelu => exact absurd rfl h2
  | swish => exact absurd rfl h3
  | identity => intro x y h; exact h
  | elu =>
    apply half
    rintro x y h (hc | hc)
    · have := Real.exp_lt_exp.2 h
      simp only [ActKind.fn]
      rw [max_eq_right (by linarith), max_eq_right (by linarith), min_eq_left (by linarith), min_eq_left (by linarith)]; linarith
    · simp only [ActKind.fn]
      rw [max_eq_left (by linarith), max_eq_left (by linarith), min_eq_right (by linarith), min_eq_right (by linarith)]; linarith
  | lrelu =>
    apply half
    rintro x y h (hc | hc)
    · simp only [ActKind.fn]
      rw [max_eq_right (by linarith), max_eq_right (by linarith)]; linarith
    · simp only [ActKind.fn]
      rw [max_eq_left (by linarith), max_eq_left (by linarith)]; linarith
  | selu =>
    apply half
    rintro x y h (hc | hc)
    · have := Real.exp_lt_exp.2 h
      simp only [ActKind.fn]
      rw [max_eq_right (by linarith), max_eq_right (by linarith), min_eq_left (by linarith), min_eq_left (by linarith)]; linarith
    · simp only [ActKind.fn]
      rw [max_eq_left (by linarith), max_eq_left (by linarith), min_eq_right (by linarith), min_eq_right (by linarith)]; linarith
  | sigmoid =>
    intro x y h
    have := Real.exp_lt_exp.2 (neg_lt_neg h)
    have := Real.exp_pos (-y)
    exact inv_strictAnti₀ (by linarith) (by linarith)
  | tanh => exact tanh_strict
  | softsign =>
    apply half
    rintro x y h (hc | hc)
    · simp only [ActKind.fn]
      rw [abs_of_nonpos hc, abs_of_nonpos (by linarith), div_lt_div_iff₀ (by linarith) (by linarith)]; nlinarith
    · simp only [ActKind.fn]
      rw [abs_of_nonneg hc, abs_of_nonneg (by linarith), div_lt_div_iff₀ (by linarith) (by linarith)]; nlinarith
  | softplus =>
    intro x y h
    have := Real.exp_pos x
    exact Real.log_lt_log (by linarith) (by have := Real.exp_lt_exp.2 h; linarith)
  | modRelu =>
    intro x y h
    have := min_le_min_right 1 (max_le_max_right 0 h.le)
    simp only [ActKind.fn]; linarith
  | modTanh =>
    apply half
    rintro x y h (hc | hc)
    · have := tanh_strict h
      simp only [ActKind.fn]
      rw [max_eq_right (by linarith), max_eq_right (by linarith), min_eq_left (by linarith), min_eq_left (by linarith)]; linarith
    · have := tanh_strict h
      simp only [ActKind.fn]
      rw [max_eq_left (by linarith), max_eq_left (by linarith), min_eq_right (by linarith), min_eq_right (by linarith)]; linarith

theorem LibAct.Ordered.lt_iff {a : LibAct} (ha : a.Ordered) {m : Nat} (hm : 0 < m) (v : Nat → ℝ) (i j : Nat) : a.fn m v i < a.fn m v j ↔ v i < v j := by
  cases a with
  | elem k => exact (k.fn_strict ha.1 ha.2.1 ha.2.2).lt_iff_lt
  | softmax =>
    show softmaxFn m v i < softmaxFn m v j ↔ _
    unfold softmaxFn
    rw [div_lt_div_iff_of_pos_right (sum_exp_pos hm v), Real.exp_lt_exp]

theorem firstMax_iff {u v : Nat → ℝ} {m k : Nat} (h : ∀ i j, u i < u j ↔ v i < v j) :
    IsFirstMax (fun a b : ℝ => decide (a < b)) u m k ↔ IsFirstMax (fun a b : ℝ => decide (a < b)) v m k := by
  unfold IsFirstMax
  simp only [h]

/-- Applying an activation (other than `ReLU`, `GELU` and `Swish`) to a vector does not change the position of its maximum, out of place or
in place. -/
theorem C102_argmax (a : LibAct) (ha : a.Ordered) (m : Nat) (hm : 0 < m) (r x : Buf ℝ) (v : Nat → ℝ) (hr : r.length = m) (hx : VecIs x m v) :
    ∃ c, argmax (fun a b => decide (a < b)) x = .ok c ∧
      Ok (a.obj.f r x) (fun y => argmax (fun a b => decide (a < b)) y = .ok c) ∧ Ok (a.obj.fSelf x) (fun y => argmax (fun a b => decide (a < b)) y = .ok c) := by
  have hD := a.obj_Is m hm
  obtain ⟨c, ec, hc⟩ := C12_argmax strictWeak_of_linearOrder x m v hx hm
  have key : ∀ y, VecIs y m (a.fn m v) → argmax (fun a b => decide (a < b)) y = .ok c := by
    intro y hy
    obtain ⟨c', ec', hc'⟩ := C12_argmax strictWeak_of_linearOrder y m _ hy hm
    rw [ec', C12_unique _ _ _ _ ((firstMax_iff (ha.lt_iff hm v)).1 hc') hc]
  exact ⟨c, ec, (hD.f r x v hr hx).mono key, (hD.fSelf x v hx).mono key⟩

theorem Computes_snoc {pre : Net ℝ} {s s' : Nat × Nat × Nat} {G : (Nat → ℝ) → Nat → ℝ} (h : pre.Computes s s' G) {l : Layer ℝ} {s'' : Nat × Nat × Nat}
    {F : (Nat → ℝ) → Nat → ℝ} (hl : l.Computes s' s'' F) : Net.Computes (pre ++ [l]) s s'' (fun v => F (G v)) := by
  induction h with
  | nil => exact Net.Computes.cons (F := F) (G := fun v => v) hl .nil
  | @cons l0 ls0 t0 t1 t2 F0 G0 h1 _ ih => exact Net.Computes.cons (G := fun v => F (G0 v)) h1 (ih hl)

theorem withLast_computes {pre : Net ℝ} {s : Nat × Nat × Nat} {d h w : Nat} {G : (Nat → ℝ) → Nat → ℝ} (hp : pre.Computes s (d, h, w) G) {f : FC ℝ} {m : Nat}
    {b : Nat → ℝ} {W : Nat → Nat → ℝ} (hf : f.Wf (d * h * w) m b W) (hm : 0 < m) (a : LibAct) :
    Net.Computes (withLast pre f a.obj) s (1, 1, m) (fun v => a.fn m (affine (d * h * w) W b (G v))) :=
  Computes_snoc hp (.fc (l := { f with act := a.obj }) { hf with } (a.obj_Is m hm))

/-- Which activation the last dense layer of a network has (any of the library but `ReLU`, `GELU` and `Swish`) makes no difference to the class
the network predicts, on any input; the layers before it may be of any class. -/
theorem C102_network (pre : Net ℝ) (s : Nat × Nat × Nat) (d h w : Nat) (G : (Nat → ℝ) → Nat → ℝ) (hp : pre.Computes s (d, h, w) G) (hw : pre.length + 1 < W64)
    (f : FC ℝ) (m : Nat) (hm : 0 < m) (b : Nat → ℝ) (W : Nat → Nat → ℝ) (hf : f.Wf (d * h * w) m b W) (a a' : LibAct) (ha : a.Ordered) (ha' : a'.Ordered)
    (x : Ten ℝ) (v : Nat → ℝ) (hx : FlatIs x s v) :
    ∃ c, c < m ∧ (withLast pre f a.obj).predict x = .ok c ∧ (withLast pre f a'.obj).predict x = .ok c := by
  have key : ∀ a : LibAct, a.Ordered → ∃ c, (withLast pre f a.obj).predict x = .ok c ∧
      IsFirstMax (fun a b : ℝ => decide (a < b)) (affine (d * h * w) W b (G v)) m c := by
    intro a ha
    obtain ⟨r, e, h1, -, -⟩ := C37_feedforward (withLast pre f a.obj) (by simp [withLast]) (by simpa [withLast] using hw) s (1, 1, m) _ (withLast_computes hp hf hm a)
      x v hx
    have h2 : VecIs r.2.data m (a.fn m (affine (d * h * w) W b (G v))) := by
      have := h1.2.2.2
      simpa using this
    obtain ⟨c, ec, hc⟩ := C12_argmax strictWeak_of_linearOrder r.2.data m _ h2 hm
    refine ⟨c, ?_, (firstMax_iff (ha.lt_iff hm _)).1 hc⟩
    unfold Net.predict
    rw [e, bind_ok]
    exact ec
  obtain ⟨c, e1, h1⟩ := key a ha
  obtain ⟨c', e2, h2⟩ := key a' ha'
  exact ⟨c, h1.1, e1, by rw [e2, C12_unique _ _ _ _ h2 h1]⟩

/-- And so the accuracy is the same. -/
theorem C102_accuracy (pre : Net ℝ) (s : Nat × Nat × Nat) (d h w : Nat) (G : (Nat → ℝ) → Nat → ℝ) (hp : pre.Computes s (d, h, w) G) (hw : pre.length + 1 < W64)
    (f : FC ℝ) (m : Nat) (hm : 0 < m) (b : Nat → ℝ) (W : Nat → Nat → ℝ) (hf : f.Wf (d * h * w) m b W) (a a' : LibAct) (ha : a.Ordered) (ha' : a'.Ordered)
    (idata : List (Ten ℝ)) (odata : List (Buf ℝ)) (N : Nat) (hN : 0 < N) (x : Nat → Ten ℝ) (u : Ten ℝ → Nat → ℝ) (y : Nat → Nat → ℝ)
    (hd : SetIs idata odata (fun t => FlatIs t s (u t)) N m x y) :
    ∃ q : Rat, (do let r ← Accuracy.normal netFF idata odata (withLast pre f a.obj); return r.1) = .ok q ∧
      (do let r ← Accuracy.normal netFF idata odata (withLast pre f a'.obj); return r.1) = .ok q := by
  have key : ∀ a : LibAct, a.Ordered → (do let r ← Accuracy.normal netFF idata odata (withLast pre f a.obj); return r.1) =
      .ok (fractionOf N (fun i => SameArgmax m (y i) (affine (d * h * w) W b (G (u (x i)))))) := by
    intro a ha
    have hff := C57_network s (1, 1, m) (fun v => a.fn m (affine (d * h * w) W b (G v))) ((withLast pre f a.obj).map Layer.params) u
    have e1 : (1, 1, m).1 * (1, 1, m).2.1 * (1, 1, m).2.2 = m := by simp
    rw [e1] at hff
    obtain ⟨r, e, h1, -⟩ := C57_normal hff hd (net := withLast pre f a.obj)
      ⟨by simp [withLast], by simpa [withLast] using hw, withLast_computes hp hf hm a, rfl⟩ hN hm
    rw [e, bind_ok, h1]
    show Except.ok _ = _
    congr 1
    unfold fractionOf
    congr 3
    ext i
    simp only [mem_filter]
    unfold SameArgmax
    simp only [firstMax_iff (ha.lt_iff hm _)]
  exact ⟨_, key a ha, key a' ha'⟩

/-! ### The three others -/

theorem exp_ten : (1024 : ℝ) ≤ Real.exp 10 := by
  have h1 : (2 : ℝ) ≤ Real.exp 1 := by have := Real.add_one_le_exp 1; linarith
  have h2 : Real.exp 10 = Real.exp 1 ^ 10 := by rw [← Real.exp_nat_mul]; norm_num
  rw [h2]
  calc (1024 : ℝ) = 2 ^ 10 := by norm_num
    _ ≤ _ := pow_le_pow_left₀ (by norm_num) h1 10

theorem one_add_tanh (u : ℝ) : 1 + Real.tanh u = 2 / (1 + Real.exp (-(2 * u))) := by
  have e : Real.exp (-(2 * u)) = Real.exp (-u) * Real.exp (-u) := by rw [← Real.exp_add]; ring_nf
  have e2 : Real.exp u * Real.exp (-u) = 1 := by rw [← Real.exp_add]; simp
  have p := Real.exp_pos u
  have q := Real.exp_pos (-u)
  rw [Real.tanh_eq_sinh_div_cosh, Real.sinh_eq, Real.cosh_eq, e]
  have d1 : (Real.exp u + Real.exp (-u)) / 2 ≠ 0 := by positivity
  have d2 : 1 + Real.exp (-u) * Real.exp (-u) ≠ 0 := by positivity
  rw [eq_div_iff d2]
  field_simp
  linear_combination (2 * Real.exp (-u)) * e2

theorem exp_two_lt : Real.exp 2 < 9 := by
  have h2 : Real.exp 2 = Real.exp 1 ^ 2 := by rw [← Real.exp_nat_mul]; norm_num
  have := Real.exp_one_lt_d9
  have := Real.exp_pos 1
  rw [h2]; nlinarith

theorem gelu_dips : ActKind.gelu.fn (-1) < ActKind.gelu.fn (-10) := by
  simp only [ActKind.fn]
  rw [one_add_tanh, one_add_tanh]
  have h1 : Real.exp 10 ≤ Real.exp (-(2 * (0.797885 * (-10) + 0.0356774 * (-10) ^ 3))) := Real.exp_le_exp.2 (by norm_num)
  have h2 : Real.exp (-(2 * (0.797885 * (-1) + 0.0356774 * (-1) ^ 3))) ≤ Real.exp 2 := Real.exp_le_exp.2 (by norm_num)
  have h3 := exp_ten
  have h4 := exp_two_lt
  generalize Real.exp (-(2 * (0.797885 * (-10) + 0.0356774 * (-10) ^ 3))) = A at *
  have hB := Real.exp_pos (-(2 * (0.797885 * (-1) + 0.0356774 * (-1) ^ 3)))
  generalize Real.exp (-(2 * (0.797885 * (-1) + 0.0356774 * (-1) ^ 3))) = B at *
  have k1 : 2 / (1 + A) ≤ 2 / 1025 := div_le_div_of_nonneg_left (by norm_num) (by norm_num) (by linarith)
  have k2 : 2 / 10 ≤ 2 / (1 + B) := div_le_div_of_nonneg_left (by norm_num) (by linarith) (by linarith)
  nlinarith

theorem swish_dips : ActKind.swish.fn (-1) < ActKind.swish.fn (-10) := by
  simp only [ActKind.fn, neg_neg]
  have h3 := exp_ten
  have h4 := exp_two_lt
  have h5 := Real.exp_pos 1
  have h6 : Real.exp 1 ≤ Real.exp 2 := Real.exp_le_exp.2 (by norm_num)
  have k1 : (1 + Real.exp 10)⁻¹ ≤ (1025 : ℝ)⁻¹ := inv_anti₀ (by norm_num) (by linarith)
  have k2 : (10 : ℝ)⁻¹ ≤ (1 + Real.exp 1)⁻¹ := inv_anti₀ (by linarith) (by linarith)
  norm_num at k1 k2 ⊢
  linarith

/-- For `ReLU`, `GELU` and `Swish` it does make a difference: each of them moves the maximum of some vector. -/
theorem C102_others (k : ActKind) (hk : k = .relu ∨ k = .gelu ∨ k = .swish) :
    ∃ x : Buf ℝ, argmax (fun a b => decide (a < b)) x = .ok 1 ∧ Ok (k.obj.fSelf x) (fun y => argmax (fun a b => decide (a < b)) y = .ok 0) := by
  refine ⟨Buf.of [-10, -1], ?_, ?_⟩
  all_goals have hx : VecIs (Buf.of [-10, -1]) 2 (fun i => if i = 0 then (-10 : ℝ) else -1) := ⟨rfl, fun i hi => by
    obtain rfl | rfl : i = 0 ∨ i = 1 := by omega
    · rfl
    · rfl⟩
  · obtain ⟨c, ec, hc⟩ := C12_argmax strictWeak_of_linearOrder _ 2 _ hx (by norm_num)
    rw [ec, C12_unique _ _ _ 1 hc ⟨by norm_num, fun j hj => ?_, fun j hj => ?_⟩]
    · obtain rfl | rfl : j = 0 ∨ j = 1 := by omega
      · norm_num
      · norm_num
    · obtain rfl : j = 0 := by omega
      norm_num
  · have hD := (LibAct.elem k).obj_Is 2 (by norm_num)
    refine (hD.fSelf _ _ hx).mono (fun y hy => ?_)
    obtain ⟨c, ec, hc⟩ := C12_argmax strictWeak_of_linearOrder _ 2 _ hy (by norm_num)
    have hle : k.fn (-1) ≤ k.fn (-10) := by
      rcases hk with rfl | rfl | rfl
      · simp only [ActKind.fn]; norm_num
      · exact gelu_dips.le
      · exact swish_dips.le
    rw [ec, C12_unique _ _ _ 0 hc ⟨by norm_num, fun j hj => ?_, fun j hj => absurd hj (by omega)⟩]
    obtain rfl | rfl : j = 0 ∨ j = 1 := by omega
    · simp [LibAct.fn]
    · simp [LibAct.fn]; exact hle

/-! ### Non-vacuity -/

/-- A single dense layer 2 → 3 is a network the theorems apply to (with nothing before it), and the accuracy has data to be measured on. -/
example : Net.Computes ([] : Net ℝ) (1, 1, 2) (1, 1, 2) (fun v => v) ∧ (FC.make 2 3 softMaxAct 0 1).Wf (1 * 1 * 2) 3 (fun _ => 0) (fun _ _ => 0) ∧
    LibAct.softmax.Ordered ∧ (LibAct.elem .sigmoid).Ordered ∧ FlatIs ⟨1, 1, 2, Buf.of [(1 : ℝ), 2]⟩ (1, 1, 2) (fun i => if i = 0 then 1 else 2) ∧
    SetIs [⟨1, 1, 2, Buf.of [(1 : ℝ), 2]⟩] [Buf.of [(0 : ℝ), 1, 0]] (fun t : Ten ℝ => FlatIs t (1, 1, 2) (fun i => if i = 0 then 1 else 2)) 1 3
      (fun _ => ⟨1, 1, 2, Buf.of [(1 : ℝ), 2]⟩) (fun _ i => if i = 1 then 1 else 0) := by
  have hf : FlatIs ⟨1, 1, 2, Buf.of [(1 : ℝ), 2]⟩ (1, 1, 2) (fun i => if i = 0 then 1 else 2) := ⟨rfl, rfl, rfl, rfl, fun i hi => by
    obtain rfl | rfl : i = 0 ∨ i = 1 := by simp at hi; omega
    · rfl
    · rfl⟩
  refine ⟨.nil, FC.Wf_make 2 3 softMaxAct 0 1, trivial, ⟨by decide, by decide, by decide⟩, hf, rfl, rfl, fun i hi => ?_, fun i hi => ?_⟩
  · obtain rfl : i = 0 := by omega
    exact ⟨rfl, hf⟩
  · obtain rfl : i = 0 := by omega
    refine ⟨_, rfl, rfl, fun j hj => ?_⟩
    obtain rfl | rfl | rfl : j = 0 ∨ j = 1 ∨ j = 2 := by omega
    · rfl
    · rfl
    · rfl

end Trixy
