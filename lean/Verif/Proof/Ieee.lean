import Verif.Spec.Ieee
import Mathlib.Tactic.Linarith
import Mathlib.Tactic.NormNum
import Mathlib.Tactic.Positivity
import Mathlib.Data.Real.Basic
import Mathlib.Algebra.Order.Field.Basic
/- Interval reasoning on floating-point numbers (for Props/Overflow.lean). -/
set_option linter.unusedSectionVars false
namespace Trixy

variable {F : Fmt} {L : Libm}

/-- `c` is a number of the format. -/
def Fmt.Rep (F : Fmt) (c : ℝ) : Prop := F.rnd c = c ∧ |c| ≤ F.M

namespace Fmt

theorem M_ge (F : Fmt) : 128 ≤ F.M := by
  have h1 := F.PM
  have h2 : (64 : ℝ) ≤ F.P := by exact_mod_cast F.P2
  linarith

theorem Rep.neg {c : ℝ} (h : F.Rep c) : F.Rep (-c) := ⟨by rw [F.neg, h.1], by rw [abs_neg]; exact h.2⟩
theorem rep_nat (k : ℕ) (h : k ≤ F.P) : F.Rep k := by
  refine ⟨F.int k h, ?_⟩
  have h1 := F.PM
  have h2 : (k : ℝ) ≤ F.P := by exact_mod_cast h
  have := F.M_ge
  rw [abs_of_nonneg (by positivity)]; linarith
theorem rep0 : F.Rep 0 := by simpa using F.rep_nat 0 (Nat.zero_le _)
theorem rep1 : F.Rep 1 := by simpa using F.rep_nat 1 (by have := F.P2; omega)
theorem rep2 : F.Rep 2 := by simpa using F.rep_nat 2 (by have := F.P2; omega)
theorem repM : F.Rep F.M := ⟨F.max, by rw [abs_of_nonneg (by have := F.M_ge; linarith)]⟩
theorem repH : F.Rep (F.M / 2) := by
  have := F.M_ge
  exact ⟨F.halfMax, by rw [abs_of_nonneg (by linarith)]; linarith⟩
theorem rep_half : F.Rep (1 / 2) := by
  have := F.M_ge
  exact ⟨F.half, by rw [abs_of_nonneg (by norm_num)]; linarith⟩
theorem rep_small : F.Rep (1 / 2 ^ 40) := by
  have := F.M_ge
  exact ⟨F.small, by rw [abs_of_nonneg (by norm_num)]; linarith⟩

end Fmt

namespace Num

/-- `x` is a finite number between `a` and `b`. -/
def In (x : Num F L) (a b : ℝ) : Prop := ∃ r, x.Val r ∧ a ≤ r ∧ r ≤ b

/-- `x` is a finite number of at least 1, or the positive infinity. -/
def Ge1 (x : Num F L) : Prop := (∃ r, x.Val r ∧ 1 ≤ r) ∨ x.ext = .pinf

theorem In.fin {x : Num F L} {a b : ℝ} (h : x.In a b) : x.Finite := ⟨_, h.choose_spec.1⟩
theorem Val.rep {x : Num F L} {r : ℝ} (h : x.Val r) : F.Rep r := h.2
theorem Val.in {x : Num F L} {r : ℝ} (h : x.Val r) : x.In r r := ⟨r, h, le_refl _, le_refl _⟩
theorem In.mono {x : Num F L} {a b a' b' : ℝ} (h : x.In a b) (ha : a' ≤ a) (hb : b ≤ b') : x.In a' b' := by
  obtain ⟨r, hr, h1, h2⟩ := h
  exact ⟨r, hr, by linarith, by linarith⟩
theorem Finite.in {x : Num F L} (h : x.Finite) : x.In (-F.M) F.M := by
  obtain ⟨r, hr⟩ := h
  exact ⟨r, hr, neg_le_of_abs_le hr.2.2, le_of_abs_le hr.2.2⟩

theorem zero_val : (0 : Num F L).Val 0 := ⟨rfl, Fmt.rep0⟩
theorem one_val : (1 : Num F L).Val 1 := ⟨rfl, Fmt.rep1⟩

theorem round_in {z a b : ℝ} (ha : F.Rep a) (hb : F.Rep b) (h1 : a ≤ z) (h2 : z ≤ b) :
    (show Num F L from Ext.round F z).In a b := by
  have e1 : a ≤ F.rnd z := by rw [← ha.1]; exact F.mono _ _ h1
  have e2 : F.rnd z ≤ b := by rw [← hb.1]; exact F.mono _ _ h2
  have e3 : |F.rnd z| ≤ F.M := abs_le.2 ⟨by have := neg_le_of_abs_le ha.2; linarith, by have := le_of_abs_le hb.2; linarith⟩
  exact ⟨F.rnd z, ⟨by show Ext.round F z = _; unfold Ext.round; rw [if_pos e3], F.idem z, e3⟩, e1, e2⟩

theorem lit_in (q : ℚ) {a b : ℝ} (ha : F.Rep a) (hb : F.Rep b) (h1 : a ≤ (q : ℝ)) (h2 : (q : ℝ) ≤ b) :
    (Flt.lit q : Num F L).In a b := round_in ha hb h1 h2

theorem add_in {x y : Num F L} {r s a b : ℝ} (hx : x.Val r) (hy : y.Val s) (ha : F.Rep a) (hb : F.Rep b) (h1 : a ≤ r + s)
    (h2 : r + s ≤ b) : (x + y).In a b := by
  have e : x + y = (show Num F L from Ext.round F (r + s)) := by
    show Ext.add F x y = _
    rw [show (x : Ext) = .fin r from hx.1, show (y : Ext) = .fin s from hy.1]; rfl
  rw [e]; exact round_in ha hb h1 h2

theorem neg_val {x : Num F L} {r : ℝ} (hx : x.Val r) : (-x).Val (-r) := by
  refine ⟨?_, hx.rep.neg⟩
  show Ext.neg x = _
  rw [show (x : Ext) = .fin r from hx.1]; rfl

theorem sub_eq (x y : Num F L) : x - y = x + -y := rfl

theorem mul_in {x y : Num F L} {r s a b : ℝ} (hx : x.Val r) (hy : y.Val s) (ha : F.Rep a) (hb : F.Rep b) (h1 : a ≤ r * s)
    (h2 : r * s ≤ b) : (x * y).In a b := by
  have e : x * y = (show Num F L from Ext.round F (r * s)) := by
    show Ext.mul F x y = _
    rw [show (x : Ext) = .fin r from hx.1, show (y : Ext) = .fin s from hy.1]; rfl
  rw [e]; exact round_in ha hb h1 h2

/-- Scaling by a factor between 0 and 1. -/
theorem mul_unit {x y : Num F L} (hx : x.In 0 1) {s : ℝ} (hy : y.Val s) : (x * y).In (min s 0) (max s 0) := by
  obtain ⟨r, hr, h1, h2⟩ := hx
  rcases le_total 0 s with h | h
  · rw [min_eq_right h, max_eq_left h]
    exact mul_in hr hy Fmt.rep0 hy.rep (mul_nonneg h1 h) (by nlinarith)
  · rw [min_eq_left h, max_eq_right h]
    exact mul_in hr hy hy.rep Fmt.rep0 (by nlinarith) (by nlinarith)

theorem unit_mul {x y : Num F L} {s : ℝ} (hy : y.Val s) (hx : x.In 0 1) : (y * x).In (min s 0) (max s 0) := by
  obtain ⟨r, hr, h1, h2⟩ := hx
  rcases le_total 0 s with h | h
  · rw [min_eq_right h, max_eq_left h]
    exact mul_in hy hr Fmt.rep0 hy.rep (mul_nonneg h h1) (by nlinarith)
  · rw [min_eq_left h, max_eq_right h]
    exact mul_in hy hr hy.rep Fmt.rep0 (by nlinarith) (by nlinarith)

theorem div_ge1 {x d : Num F L} {s : ℝ} (hx : x.Val s) (hd : d.Ge1) : (x / d).In (min s 0) (max s 0) := by
  rcases hd with ⟨t, ht, h1⟩ | hd
  · have e : x / d = (show Num F L from Ext.round F (s / t)) := by
      show Ext.div F x d = _
      rw [show (x : Ext) = .fin s from hx.1, show (d : Ext) = .fin t from ht.1]
      show (if t = 0 then _ else _) = _
      rw [if_neg (by linarith)]
    rw [e]
    rcases le_total 0 s with h | h
    · rw [min_eq_right h, max_eq_left h]
      exact round_in Fmt.rep0 hx.rep (by positivity) (div_le_self h h1)
    · rw [min_eq_left h, max_eq_right h]
      refine round_in hx.rep Fmt.rep0 ?_ (div_nonpos_of_nonpos_of_nonneg h (by linarith))
      rw [le_div_iff₀ (by linarith)]; nlinarith
  · have e : x / d = (show Num F L from Ext.fin 0) := by
      show Ext.div F x d = _
      rw [show (x : Ext) = .fin s from hx.1, show (d : Ext) = .pinf from hd]; rfl
    rw [e]
    exact ⟨0, ⟨rfl, Fmt.rep0⟩, min_le_right _ _, le_max_right _ _⟩

theorem inv_ge1 {d : Num F L} (hd : d.Ge1) : (1 / d : Num F L).In 0 1 := by
  have := div_ge1 (one_val (F := F) (L := L)) hd
  simpa using this

theorem sq_unit {x : Num F L} (hx : x.In 0 1) : (x * x).In 0 1 := by
  obtain ⟨r, hr, h1, h2⟩ := hx
  exact mul_in hr hr Fmt.rep0 Fmt.rep1 (by positivity) (by nlinarith)

theorem Fn.over {z : ℝ} (h : ¬ |F.rnd z| ≤ F.M) (hz : 0 ≤ z) : Ext.round F z = .pinf := by
  unfold Ext.round
  rw [if_neg h]
  rcases lt_or_eq_of_le hz with h' | h'
  · rw [if_pos h']
  · exact absurd (by rw [← h', Fmt.rep0.1, abs_zero]; have := F.M_ge; linarith) h

/-- A non-negative real rounds to a non-negative finite number or to infinity. -/
theorem round_nonneg {z c : ℝ} (hc : F.Rep c) (h0 : 0 ≤ c) (h : c ≤ z) :
    (∃ r, (show Num F L from Ext.round F z).Val r ∧ c ≤ r) ∨ Ext.round F z = .pinf := by
  by_cases hb : |F.rnd z| ≤ F.M
  · exact .inl ⟨F.rnd z, ⟨by show Ext.round F z = _; unfold Ext.round; rw [if_pos hb], F.idem z, hb⟩, by rw [← hc.1]; exact F.mono _ _ h⟩
  · exact .inr (Fn.over hb (by linarith))

/-- `e + 1` for `e` non-negative or infinite. -/
theorem ge1_of {e : Num F L} (h : (∃ r, e.Val r ∧ 0 ≤ r) ∨ e.ext = .pinf) : (e + 1 : Num F L).Ge1 := by
  rcases h with ⟨r, hr, h0⟩ | h
  · have e1 : e + 1 = (show Num F L from Ext.round F (r + 1)) := by
      show Ext.add F e (Ext.fin 1) = _
      rw [show (e : Ext) = .fin r from hr.1]; rfl
    rw [e1]
    exact round_nonneg Fmt.rep1 (by norm_num) (by linarith)
  · right
    show Ext.add F e (Ext.fin 1) = _
    rw [show (e : Ext) = .pinf from h]; rfl

theorem exp_ge {x : Num F L} (hx : x.Finite) : (∃ r, (Flt.exp x : Num F L).Val r ∧ 0 ≤ r) ∨ (Flt.exp x : Num F L).ext = .pinf := by
  obtain ⟨r, hr⟩ := hx
  have e : Flt.exp x = (show Num F L from Ext.round F (L.exp r)) := by
    show Ext.fn F L.exp _ _ x = _
    rw [show (x : Ext) = .fin r from hr.1]; rfl
  rw [e]
  exact round_nonneg Fmt.rep0 (le_refl _) (L.exp_nonneg r)

theorem exp_val {x : Num F L} {r : ℝ} (hr : x.Val r) : Flt.exp x = (show Num F L from Ext.round F (L.exp r)) := by
  show Ext.fn F L.exp _ _ x = _
  rw [show (x : Ext) = .fin r from hr.1]; rfl

theorem exp_nonpos {x : Num F L} {r : ℝ} (hr : x.Val r) (h : r ≤ 0) : (Flt.exp x).In 0 1 := by
  rw [exp_val hr]
  exact round_in Fmt.rep0 Fmt.rep1 (L.exp_nonneg r) (L.exp_le_one r h)

theorem expm1_nonpos {x : Num F L} {r : ℝ} (hr : x.Val r) (h : r ≤ 0) : (Flt.expm1 x).In (-1) 0 := by
  have e : Flt.expm1 x = (show Num F L from Ext.round F (L.expm1 r)) := by
    show Ext.fn F L.expm1 _ _ x = _
    rw [show (x : Ext) = .fin r from hr.1]; rfl
  rw [e]
  exact round_in Fmt.rep1.neg Fmt.rep0 (L.expm1_range r h).1 (L.expm1_range r h).2

/-- The value is not NaN. -/
theorem tanh_in {x : Num F L} (hx : ¬ x.NaN) : (Flt.tanh x).In (-1) 1 := by
  have h : ∀ y : Ext, y ≠ .nan → (show Num F L from Ext.fn F L.tanh (.fin (-1)) (.fin 1) y).In (-1) 1 := by
    intro y hy
    cases y with
    | fin r => exact round_in Fmt.rep1.neg Fmt.rep1 (L.tanh_range r).1 (L.tanh_range r).2
    | pinf => exact ⟨1, ⟨rfl, Fmt.rep1⟩, by norm_num, le_refl _⟩
    | ninf => exact ⟨-1, ⟨rfl, Fmt.rep1.neg⟩, le_refl _, by norm_num⟩
    | nan => exact absurd rfl hy
  exact h x hx

theorem cosh_ge1 {x : Num F L} (hx : ¬ x.NaN) : (Flt.cosh x).Ge1 := by
  have h : ∀ y : Ext, y ≠ .nan → (show Num F L from Ext.fn F L.cosh .pinf .pinf y).Ge1 := by
    intro y hy
    cases y with
    | fin r => exact round_nonneg Fmt.rep1 (by norm_num) (L.cosh_ge r)
    | pinf => exact .inr rfl
    | ninf => exact .inr rfl
    | nan => exact absurd rfl hy
  exact h x hx

theorem Finite.notNaN {x : Num F L} (h : x.Finite) : ¬ x.NaN := by
  obtain ⟨r, hr⟩ := h
  intro e
  cases hr.1.symm.trans e

theorem Ge1.plus {x : Num F L} (h : x.Ge1) : (x + 1 : Num F L).Ge1 :=
  ge1_of (h.imp (fun ⟨r, h1, h2⟩ => ⟨r, h1, by linarith⟩) id)

theorem lt_iff {x y : Num F L} {r s : ℝ} (hx : x.Val r) (hy : y.Val s) : x < y ↔ r < s := by
  show Ext.lt x y ↔ _
  rw [show (x : Ext) = .fin r from hx.1, show (y : Ext) = .fin s from hy.1]; rfl

theorem pos_iff {x : Num F L} {r : ℝ} (hx : x.Val r) : x > 0 ↔ 0 < r := lt_iff zero_val hx
theorem neg_iff {x : Num F L} {r : ℝ} (hx : x.Val r) : x < 0 ↔ r < 0 := lt_iff hx zero_val

/-- Non-negative or the positive infinity. -/
def NN (x : Num F L) : Prop := (∃ r, x.Val r ∧ 0 ≤ r) ∨ x.ext = .pinf
/-- Non-positive or the negative infinity. -/
def NP (x : Num F L) : Prop := (∃ r, x.Val r ∧ r ≤ 0) ∨ x.ext = .ninf

theorem round_nn {z : ℝ} (h : 0 ≤ z) : (show Num F L from Ext.round F z).NN := round_nonneg Fmt.rep0 (le_refl _) h

theorem round_np {z : ℝ} (h : z ≤ 0) : (show Num F L from Ext.round F z).NP := by
  by_cases hb : |F.rnd z| ≤ F.M
  · exact .inl ⟨F.rnd z, ⟨by show Ext.round F z = _; unfold Ext.round; rw [if_pos hb], F.idem z, hb⟩,
      by have := F.mono _ _ h; rwa [Fmt.rep0.1] at this⟩
  · right
    show Ext.round F z = _
    unfold Ext.round
    rw [if_neg hb, if_neg (by linarith)]

theorem NN.notNaN {x : Num F L} (h : x.NN) : ¬ x.NaN := by
  intro e
  rcases h with ⟨r, h, -⟩ | h
  · cases h.1.symm.trans e
  · cases h.symm.trans e
theorem NP.notNaN {x : Num F L} (h : x.NP) : ¬ x.NaN := by
  intro e
  rcases h with ⟨r, h, -⟩ | h
  · cases h.1.symm.trans e
  · cases h.symm.trans e

theorem NN.add {x y : Num F L} (hx : x.NN) (hy : y.NN) : (x + y).NN := by
  rcases hx with ⟨r, hr, h1⟩ | hx <;> rcases hy with ⟨s, hs, h2⟩ | hy
  · have e : x + y = (show Num F L from Ext.round F (r + s)) := by
      show Ext.add F x y = _
      rw [show (x : Ext) = .fin r from hr.1, show (y : Ext) = .fin s from hs.1]; rfl
    rw [e]; exact round_nn (by linarith)
  · right; show Ext.add F x y = _
    rw [show (x : Ext) = .fin r from hr.1, show (y : Ext) = .pinf from hy]; rfl
  · right; show Ext.add F x y = _
    rw [show (x : Ext) = .pinf from hx, show (y : Ext) = .fin s from hs.1]; rfl
  · right; show Ext.add F x y = _
    rw [show (x : Ext) = .pinf from hx, show (y : Ext) = .pinf from hy]; rfl

theorem NP.add {x y : Num F L} (hx : x.NP) (hy : y.NP) : (x + y).NP := by
  rcases hx with ⟨r, hr, h1⟩ | hx <;> rcases hy with ⟨s, hs, h2⟩ | hy
  · have e : x + y = (show Num F L from Ext.round F (r + s)) := by
      show Ext.add F x y = _
      rw [show (x : Ext) = .fin r from hr.1, show (y : Ext) = .fin s from hs.1]; rfl
    rw [e]; exact round_np (by linarith)
  · right; show Ext.add F x y = _
    rw [show (x : Ext) = .fin r from hr.1, show (y : Ext) = .ninf from hy]; rfl
  · right; show Ext.add F x y = _
    rw [show (x : Ext) = .ninf from hx, show (y : Ext) = .fin s from hs.1]; rfl
  · right; show Ext.add F x y = _
    rw [show (x : Ext) = .ninf from hx, show (y : Ext) = .ninf from hy]; rfl

theorem inf_pos {z : ℝ} (h : 0 < z) : Ext.inf z = .pinf := by unfold Ext.inf; rw [if_pos h]
theorem inf_neg {z : ℝ} (h : z < 0) : Ext.inf z = .ninf := by unfold Ext.inf; rw [if_neg (by linarith), if_pos h]

theorem mul_eq {x y : Num F L} {r s : ℝ} (hr : x.Val r) (hs : y.Val s) : x * y = (show Num F L from Ext.round F (r * s)) := by
  show Ext.mul F x y = _
  rw [show (x : Ext) = .fin r from hr.1, show (y : Ext) = .fin s from hs.1]; rfl

theorem NN.mul_pos {x y : Num F L} (hx : x.NN) {s : ℝ} (hy : y.Val s) (hs : 0 < s) : (x * y).NN := by
  rcases hx with ⟨r, hr, h1⟩ | hx
  · rw [mul_eq hr hy]; exact round_nn (by positivity)
  · right; show Ext.mul F x y = _
    rw [show (x : Ext) = .pinf from hx, show (y : Ext) = .fin s from hy.1]; exact inf_pos hs
theorem NN.mul_neg {x y : Num F L} (hx : x.NN) {s : ℝ} (hy : y.Val s) (hs : s < 0) : (x * y).NP := by
  rcases hx with ⟨r, hr, h1⟩ | hx
  · rw [mul_eq hr hy]; exact round_np (by nlinarith)
  · right; show Ext.mul F x y = _
    rw [show (x : Ext) = .pinf from hx, show (y : Ext) = .fin s from hy.1]; exact inf_neg hs
theorem NP.mul_pos {x y : Num F L} (hx : x.NP) {s : ℝ} (hy : y.Val s) (hs : 0 < s) : (x * y).NP := by
  rcases hx with ⟨r, hr, h1⟩ | hx
  · rw [mul_eq hr hy]; exact round_np (by nlinarith)
  · right; show Ext.mul F x y = _
    rw [show (x : Ext) = .ninf from hx, show (y : Ext) = .fin s from hy.1]; exact inf_neg (by linarith)

theorem sq_nn {x : Num F L} (hx : x.Finite) : (x * x).NN := by
  obtain ⟨r, hr⟩ := hx
  rw [mul_eq hr hr]; exact round_nn (mul_self_nonneg r)

theorem max_val (F : Fmt) (L : Libm) : (show Num F L from Ext.fin F.M).Val F.M := ⟨rfl, Fmt.repM⟩

/-- A result of at least twice the largest number is infinite. -/
theorem round_over {z : ℝ} (h : 2 * F.M ≤ z) : Ext.round F z = .pinf := by
  have := F.over z h
  have h0 := F.M_ge
  exact Fn.over (by rw [not_le]; exact lt_of_lt_of_le this (le_abs_self _)) (by linarith)

end Num

end Trixy
