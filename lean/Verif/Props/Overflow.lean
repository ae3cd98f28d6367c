import Verif.Proof.Ieee
import Verif.Props.NaN
/- Property C91 (no overflow on finite arguments). -/
set_option linter.unusedSectionVars false
namespace Trixy
open Num

variable {F : Fmt} {L : Libm}

/-- These numbers are as Spec/NaN.lean assumes. -/
noncomputable instance : NaNs (Num F L) where
  nan := Num.NaN
  add a b h := by
    rcases h with h | h
    · exact show Ext.add F a.ext b.ext = _ by rw [show a.ext = .nan from h]; rfl
    · exact show Ext.add F a.ext b.ext = _ by rw [show b.ext = .nan from h]; cases a.ext <;> rfl
  sub a b h := by
    rcases h with h | h
    · exact show Ext.add F a.ext (Ext.neg b.ext) = _ by rw [show a.ext = .nan from h]; rfl
    · exact show Ext.add F a.ext (Ext.neg b.ext) = _ by rw [show b.ext = .nan from h]; cases a.ext <;> rfl
  mul a b h := by
    rcases h with h | h
    · exact show Ext.mul F a.ext b.ext = _ by rw [show a.ext = .nan from h]; rfl
    · exact show Ext.mul F a.ext b.ext = _ by rw [show b.ext = .nan from h]; cases a.ext <;> rfl
  div a b h := by
    rcases h with h | h
    · exact show Ext.div F a.ext b.ext = _ by rw [show a.ext = .nan from h]; rfl
    · exact show Ext.div F a.ext b.ext = _ by rw [show b.ext = .nan from h]; cases a.ext <;> rfl
  neg a h := show Ext.neg a.ext = _ by rw [show a.ext = .nan from h]; rfl
  exp a h := show Ext.fn F L.exp _ _ a.ext = _ by rw [show a.ext = .nan from h]; rfl
  expm1 a h := show Ext.fn F L.expm1 _ _ a.ext = _ by rw [show a.ext = .nan from h]; rfl
  log a h := show Ext.log F L.log _ a.ext = _ by rw [show a.ext = .nan from h]; rfl
  log1p a h := show Ext.log F L.log1p _ a.ext = _ by rw [show a.ext = .nan from h]; rfl
  tanh a h := show Ext.fn F L.tanh _ _ a.ext = _ by rw [show a.ext = .nan from h]; rfl
  cosh a h := show Ext.fn F L.cosh _ _ a.ext = _ by rw [show a.ext = .nan from h]; rfl
  fabs a h := show Ext.fabs a.ext = _ by rw [show a.ext = .nan from h]; rfl
  zero h := by cases h
  lt a b h := by
    intro (hl : Ext.lt a.ext b.ext)
    rcases h with h | h
    · rw [show a.ext = .nan from h] at hl; exact hl
    · rw [show b.ext = .nan from h] at hl; generalize a.ext = e at hl; cases e <;> exact hl
  irrefl a h := by
    have hl : Ext.lt a.ext a.ext := h
    cases ha : a.ext <;> rw [ha] at hl
    · exact lt_irrefl _ (show _ < _ from hl)
    all_goals exact hl
  trans a b c h1 h2 := by
    have h1 : Ext.lt a.ext b.ext := h1
    have h2 : Ext.lt b.ext c.ext := h2
    show Ext.lt a.ext c.ext
    generalize a.ext = a at *; generalize b.ext = b at *; generalize c.ext = c at *
    cases a <;> cases b <;> cases c <;> first | exact trivial | exact lt_trans h1 h2 | exact h1 | exact h2 | exact False.elim h1 | exact False.elim h2
  incomp a b c ha hb hc h1 h2 h3 := by
    have ha : a.ext ≠ .nan := ha
    have hb : b.ext ≠ .nan := hb
    have hc : c.ext ≠ .nan := hc
    have h1 : ¬ Ext.lt a.ext b.ext := h1
    have h2 : ¬ Ext.lt b.ext c.ext := h2
    have h3 : Ext.lt a.ext c.ext := h3
    generalize a.ext = a at *; generalize b.ext = b at *; generalize c.ext = c at *
    cases a <;> cases b <;> cases c <;>
      first | exact ha rfl | exact hb rfl | exact hc rfl | exact h1 trivial | exact h2 trivial | exact h3 |
        exact absurd h3 (not_lt.2 (le_trans (not_lt.1 h2) (not_lt.1 h1)))

/-! ### The derivatives on the real line -/

/-- The derivative functions of Model/Flt.lean on the real line are those of Model/Scalar.lean. -/
theorem C91_real_derivatives (k : ActKind) :
    k.obj.df = mapInto (@ActKind.fltD ℝ realFlt k) ∧ k.obj.dfSelf = mapSelf (@ActKind.fltD ℝ realFlt k) := by
  have l1 : ((0.2 : ℚ) : ℝ) = 0.2 := by norm_num
  have l2 : ((0.01 : ℚ) : ℝ) = 0.01 := by norm_num
  have l3 : ((1.050701 : ℚ) : ℝ) = 1.050701 := by norm_num
  have l4 : ((1.758099 : ℚ) : ℝ) = 1.758099 := by norm_num
  have l5 : ((0.5 : ℚ) : ℝ) = 0.5 := by norm_num
  have l6 : ((0.797885 : ℚ) : ℝ) = 0.797885 := by norm_num
  have l7 : ((0.0356774 : ℚ) : ℝ) = 0.0356774 := by norm_num
  have l8 : ((0.0535161 : ℚ) : ℝ) = 0.0535161 := by norm_num
  have l9 : ((0.398942 : ℚ) : ℝ) = 0.398942 := by norm_num
  have key : ∃ g, (∀ x, @ActKind.fltD ℝ realFlt k x = g x) ∧ k.obj.df = mapInto g ∧ k.obj.dfSelf = mapSelf g := by
    cases k
    · exact ⟨_, fun x => rfl, rfl, rfl⟩
    · exact ⟨_, fun x => rfl, rfl, rfl⟩
    · exact ⟨Fn.eluD, fun x => by show (if x > 0 then 1 else ((0.2 : ℚ) : ℝ) * _) = _; rw [l1]; rfl, rfl, rfl⟩
    · exact ⟨Fn.lreluD, fun x => by show (if x > 0 then 1 else ((0.01 : ℚ) : ℝ)) = _; rw [l2]; rfl, rfl, rfl⟩
    · exact ⟨Fn.seluD, fun x => by
        show (if x > 0 then ((1.050701 : ℚ) : ℝ) else ((1.758099 : ℚ) : ℝ) * _) = _; rw [l3, l4]; rfl, rfl, rfl⟩
    · exact ⟨Fn.geluD, fun x => by
        show ((0.5 : ℚ) : ℝ) * Real.tanh (((0.797885 : ℚ) : ℝ) * (x * x * x) + ((0.0356774 : ℚ) : ℝ) * x) +
          (((0.0535161 : ℚ) : ℝ) * (x * x * x) + ((0.398942 : ℚ) : ℝ) * x) *
            (1 / Real.cosh (((0.797885 : ℚ) : ℝ) * (x * x * x) + ((0.0356774 : ℚ) : ℝ) * x)) *
            (1 / Real.cosh (((0.797885 : ℚ) : ℝ) * (x * x * x) + ((0.0356774 : ℚ) : ℝ) * x)) + ((0.5 : ℚ) : ℝ) = _
        rw [l5, l6, l7, l8, l9]; rfl, rfl, rfl⟩
    · exact ⟨Fn.sigmoidD, fun x => by show ((0.5 : ℚ) : ℝ) / _ = _; rw [l5]; rfl, rfl, rfl⟩
    · exact ⟨_, fun x => rfl, rfl, rfl⟩
    · exact ⟨_, fun x => rfl, rfl, rfl⟩
    · exact ⟨_, fun x => rfl, rfl, rfl⟩
    · exact ⟨_, fun x => rfl, rfl, rfl⟩
    · exact ⟨Fn.modReluD, fun x => by show (if x < 0 ∨ x > 1 then ((0.01 : ℚ) : ℝ) else 1) = _; rw [l2]; rfl, rfl, rfl⟩
    · exact ⟨Fn.modTanhD, fun x => by
        show (if x < 0 then ((0.01 : ℚ) : ℝ) * _ else _) = _; rw [l2]; rfl, rfl, rfl⟩
  obtain ⟨g, h1, h2, h3⟩ := key
  rw [funext h1]
  exact ⟨h2, h3⟩

/-! ### The scalar functions -/

theorem lit_unit (q : ℚ) (h0 : 0 ≤ q) (h1 : q ≤ 1) : (Flt.lit q : Num F L).In 0 1 :=
  lit_in q Fmt.rep0 Fmt.rep1 (by exact_mod_cast h0) (by exact_mod_cast h1)

theorem fin_minmax {x : Num F L} {r : ℝ} (h : x.In (min r 0) (max r 0)) : x.Finite := h.fin

/-- Every activation other than `SELU` and `SoftPlus`. -/
theorem flt_finite (k : ActKind) (h1 : k ≠ .selu) (h2 : k ≠ .softplus) (x : Num F L) (hx : x.Finite) : (k.flt x).Finite := by
  have hM := F.M_ge
  obtain ⟨r, hr⟩ := id hx
  cases k with
  | selu => exact absurd rfl h1
  | softplus => exact absurd rfl h2
  | identity => exact hx
  | relu =>
    show Num.Finite (F := F) (L := L) (if x > 0 then x else 0)
    split
    · exact hx
    · exact ⟨0, zero_val⟩
  | elu =>
    show Num.Finite (F := F) (L := L) (if x > 0 then x else Flt.lit 0.2 * Flt.expm1 x)
    split
    · exact hx
    · rename_i h
      rw [pos_iff hr] at h
      obtain ⟨s, hs, -⟩ := expm1_nonpos hr (not_lt.1 h)
      exact (mul_unit (lit_unit 0.2 (by norm_num) (by norm_num)) hs).fin
  | lrelu =>
    show Num.Finite (F := F) (L := L) (if x > 0 then x else Flt.lit 0.01 * x)
    split
    · exact hx
    · exact (mul_unit (lit_unit 0.01 (by norm_num) (by norm_num)) hr).fin
  | gelu =>
    show Num.Finite (F := F) (L := L) (Flt.lit 0.5 * x * (Flt.tanh (x * Flt.lit 0.797885 + x * x * x * Flt.lit 0.0356774) + 1))
    have nn : ¬ (x * Flt.lit 0.797885 + x * x * x * Flt.lit 0.0356774 : Num F L).NaN := by
      obtain ⟨a, ha, ha0, -⟩ := lit_in (F := F) (L := L) 0.797885 Fmt.rep_half Fmt.rep1 (by norm_num) (by norm_num)
      obtain ⟨b, hb, hb0, -⟩ := lit_in (F := F) (L := L) 0.0356774 Fmt.rep_small Fmt.rep1 (by norm_num) (by norm_num)
      have a0 : 0 < a := by linarith
      have b0 : 0 < b := lt_of_lt_of_le (by norm_num) hb0
      rcases lt_trichotomy r 0 with h | h | h
      · exact (NP.add (show Num.NP _ from by
          have : x.NP := .inl ⟨r, hr, le_of_lt h⟩
          exact this.mul_pos ha a0) (((sq_nn hx).mul_neg hr h).mul_pos hb b0)).notNaN
      · subst h
        have z : ∀ y : Num F L, (x * y = (show Num F L from Ext.round F 0)) ∨ ¬ y.Finite := by
          intro y
          by_cases hy : y.Finite
          · obtain ⟨s, hs⟩ := hy
            left; rw [mul_eq hr hs, zero_mul]
          · exact .inr hy
        have r0 : (show Num F L from Ext.round F 0).Val 0 := by
          have h := round_in (F := F) (L := L) (z := 0) Fmt.rep0 Fmt.rep0 (le_refl _) (le_refl _)
          obtain ⟨s, hs, h1, h2⟩ := h
          cases le_antisymm h2 h1
          exact hs
        have e1 : (x * x).Val 0 := by rw [mul_eq hr hr, zero_mul]; exact r0
        have e2 : (x * x * x).Val 0 := by rw [mul_eq e1 hr, zero_mul]; exact r0
        have e3 : (x * x * x * Flt.lit 0.0356774).Val 0 := by rw [mul_eq e2 hb, zero_mul]; exact r0
        have e4 : (x * Flt.lit 0.797885).Val 0 := by rw [mul_eq hr ha, zero_mul]; exact r0
        exact (NN.add (.inl ⟨0, e4, le_refl _⟩) (.inl ⟨0, e3, le_refl _⟩)).notNaN
      · exact (NN.add (show Num.NN _ from by
          have : x.NN := .inl ⟨r, hr, le_of_lt h⟩
          exact this.mul_pos ha a0) (((sq_nn hx).mul_pos hr h).mul_pos hb b0)).notNaN
    obtain ⟨t, ht, t1, t2⟩ := tanh_in nn
    obtain ⟨c, hc, c1, c2⟩ := add_in ht (one_val (F := F) (L := L)) Fmt.rep0 Fmt.rep2 (by linarith) (by linarith)
    obtain ⟨l, hl, l1, l2⟩ := lit_in (F := F) (L := L) 0.5 Fmt.rep0 Fmt.rep_half (by norm_num) (by norm_num)
    have hb := abs_le.1 hr.2.2
    obtain ⟨d, hd, d1, d2⟩ := mul_in hl hr Fmt.repH.neg Fmt.repH (by nlinarith) (by nlinarith)
    exact (mul_in hd hc Fmt.repM.neg Fmt.repM (by nlinarith) (by nlinarith)).fin
  | sigmoid =>
    show Num.Finite (F := F) (L := L) (1 / (Flt.exp (-x) + 1))
    exact (inv_ge1 (ge1_of (exp_ge ⟨_, neg_val hr⟩))).fin
  | tanh => exact (tanh_in hx.notNaN).fin
  | softsign =>
    show Num.Finite (F := F) (L := L) (x / (Flt.fabs x + 1))
    refine (div_ge1 hr (ge1_of (.inl ⟨|r|, ⟨?_, ?_, ?_⟩, abs_nonneg r⟩))).fin
    · show Ext.fabs x = _
      rw [show (x : Ext) = .fin r from hr.1]; rfl
    · rcases abs_choice r with h | h
      · rw [h]; exact hr.2.1
      · rw [h]; exact hr.rep.neg.1
    · rw [abs_abs]; exact hr.2.2
  | swish =>
    show Num.Finite (F := F) (L := L) (x / (Flt.exp (-x) + 1))
    exact (div_ge1 hr (ge1_of (exp_ge ⟨_, neg_val hr⟩))).fin
  | modRelu =>
    show Num.Finite (F := F) (L := L) (if x < 0 then Flt.lit 0.01 * x else if x > 1 then Flt.lit 0.99 + Flt.lit 0.01 * x else x)
    split
    · exact (mul_unit (lit_unit 0.01 (by norm_num) (by norm_num)) hr).fin
    · split
      · obtain ⟨l, hl, l1, l2⟩ := lit_in (F := F) (L := L) 0.01 Fmt.rep0 Fmt.rep_half (by norm_num) (by norm_num)
        obtain ⟨c, hc, c1, c2⟩ := lit_unit (F := F) (L := L) 0.99 (by norm_num) (by norm_num)
        have hb := abs_le.1 hr.2.2
        obtain ⟨d, hd, d1, d2⟩ := mul_in hl hr Fmt.repH.neg Fmt.repH (by nlinarith) (by nlinarith)
        exact (add_in hc hd Fmt.repM.neg Fmt.repM (by linarith) (by linarith)).fin
      · exact hx
  | modTanh =>
    show Num.Finite (F := F) (L := L) (if x < 0 then Flt.lit 0.01 * Flt.tanh x else Flt.tanh x)
    obtain ⟨t, ht, -⟩ := tanh_in hx.notNaN
    split
    · exact (mul_unit (lit_unit 0.01 (by norm_num) (by norm_num)) ht).fin
    · exact ⟨t, ht⟩

/-- Every derivative other than those of `GELU` and `Swish`. -/
theorem fltD_finite (k : ActKind) (h1 : k ≠ .gelu) (h2 : k ≠ .swish) (x : Num F L) (hx : x.Finite) : (k.fltD x).Finite := by
  have hM := F.M_ge
  obtain ⟨r, hr⟩ := id hx
  cases k with
  | gelu => exact absurd rfl h1
  | swish => exact absurd rfl h2
  | identity => exact ⟨1, one_val⟩
  | relu =>
    show Num.Finite (F := F) (L := L) (if x > 0 then 1 else 0)
    split
    · exact ⟨1, one_val⟩
    · exact ⟨0, zero_val⟩
  | elu =>
    show Num.Finite (F := F) (L := L) (if x > 0 then 1 else Flt.lit 0.2 * Flt.exp x)
    split
    · exact ⟨1, one_val⟩
    · rename_i h
      rw [pos_iff hr] at h
      obtain ⟨s, hs, -⟩ := exp_nonpos hr (not_lt.1 h)
      exact (mul_unit (lit_unit 0.2 (by norm_num) (by norm_num)) hs).fin
  | lrelu =>
    show Num.Finite (F := F) (L := L) (if x > 0 then 1 else Flt.lit 0.01)
    split
    · exact ⟨1, one_val⟩
    · exact (lit_unit 0.01 (by norm_num) (by norm_num)).fin
  | selu =>
    show Num.Finite (F := F) (L := L) (if x > 0 then Flt.lit 1.050701 else Flt.lit 1.758099 * Flt.exp x)
    split
    · exact (lit_in 1.050701 Fmt.rep0 Fmt.rep2 (by norm_num) (by norm_num)).fin
    · rename_i h
      rw [pos_iff hr] at h
      obtain ⟨l, hl, -⟩ := lit_in (F := F) (L := L) 1.758099 Fmt.rep0 Fmt.rep2 (by norm_num) (by norm_num)
      exact (unit_mul hl (exp_nonpos hr (not_lt.1 h))).fin
  | sigmoid =>
    show Num.Finite (F := F) (L := L) (Flt.lit 0.5 / (Flt.cosh x + 1))
    obtain ⟨l, hl, -⟩ := lit_unit (F := F) (L := L) 0.5 (by norm_num) (by norm_num)
    exact (div_ge1 hl (cosh_ge1 hx.notNaN).plus).fin
  | tanh =>
    show Num.Finite (F := F) (L := L) (1 / Flt.cosh x * (1 / Flt.cosh x))
    exact (sq_unit (inv_ge1 (cosh_ge1 hx.notNaN))).fin
  | softsign =>
    show Num.Finite (F := F) (L := L) (1 / (Flt.fabs x + 1) * (1 / (Flt.fabs x + 1)))
    refine (sq_unit (inv_ge1 (ge1_of (.inl ⟨|r|, ⟨?_, ?_, ?_⟩, abs_nonneg r⟩)))).fin
    · show Ext.fabs x = _
      rw [show (x : Ext) = .fin r from hr.1]; rfl
    · rcases abs_choice r with h | h
      · rw [h]; exact hr.2.1
      · rw [h]; exact hr.rep.neg.1
    · rw [abs_abs]; exact hr.2.2
  | softplus =>
    show Num.Finite (F := F) (L := L) (1 / (Flt.exp (-x) + 1))
    exact (inv_ge1 (ge1_of (exp_ge ⟨_, neg_val hr⟩))).fin
  | modRelu =>
    show Num.Finite (F := F) (L := L) (if x < 0 ∨ x > 1 then Flt.lit 0.01 else 1)
    split
    · exact (lit_unit 0.01 (by norm_num) (by norm_num)).fin
    · exact ⟨1, one_val⟩
  | modTanh =>
    show Num.Finite (F := F) (L := L) (if x < 0 then Flt.lit 0.01 * (1 / Flt.cosh x * (1 / Flt.cosh x)) else 1 / Flt.cosh x * (1 / Flt.cosh x))
    obtain ⟨t, ht, -⟩ := sq_unit (inv_ge1 (cosh_ge1 hx.notNaN))
    split
    · exact (mul_unit (lit_unit 0.01 (by norm_num) (by norm_num)) ht).fin
    · exact ⟨t, ht⟩

/-! ### C91 -/

/-- All numbers of the first `n` cells are finite. -/
def FiniteVec (n : Nat) (v : Nat → Num F L) : Prop := ∀ i, i < n → (v i).Finite

/-- The computation gives `n` finite numbers. -/
def GivesFinite (n : Nat) (r : Res (Buf (Num F L))) : Prop := Ok r (fun b => ∃ o, VecIs b n o ∧ FiniteVec n o)

/-- Every activation object other than `SELU` and `SoftPlus`, in any floating-point format and with any mathematical library of
the right ranges: finite numbers in, finite numbers out, also in place. -/
theorem C91_activations_partial (k : ActKind) (h1 : k ≠ .selu) (h2 : k ≠ .softplus) (r x : Buf (Num F L)) (n : Nat) (v : Nat → Num F L)
    (hr : r.length = n) (hx : VecIs x n v) (hf : FiniteVec n v) :
    GivesFinite n (k.fltObj.f r x) ∧ GivesFinite n (k.fltObj.fSelf x) :=
  ⟨(mapInto_spec hr hx (le_refl _)).mono (fun _ h => ⟨_, h, fun i hi => flt_finite k h1 h2 _ (hf i hi)⟩),
   (mapSelf_spec hx).mono (fun _ h => ⟨_, h, fun i hi => flt_finite k h1 h2 _ (hf i hi)⟩)⟩

/-- Every derivative other than those of `GELU` and `Swish`. -/
theorem C91_derivatives_partial (k : ActKind) (h1 : k ≠ .gelu) (h2 : k ≠ .swish) (r x : Buf (Num F L)) (n : Nat) (v : Nat → Num F L)
    (hr : r.length = n) (hx : VecIs x n v) (hf : FiniteVec n v) :
    GivesFinite n (k.fltObj.df r x) ∧ GivesFinite n (k.fltObj.dfSelf x) :=
  ⟨(mapInto_spec hr hx (le_refl _)).mono (fun _ h => ⟨_, h, fun i hi => fltD_finite k h1 h2 _ (hf i hi)⟩),
   (mapSelf_spec hx).mono (fun _ h => ⟨_, h, fun i hi => fltD_finite k h1 h2 _ (hf i hi)⟩)⟩

/-- `SELU`: finite up to half of the largest number (its values exceed the argument by 5%). -/
theorem C91_selu_partial (x : Num F L) (r : ℝ) (hr : x.Val r) (h : r ≤ F.M / 2) : (ActKind.selu.flt x).Finite := by
  have hM := F.M_ge
  show Num.Finite (F := F) (L := L) (if x > 0 then Flt.lit 1.050701 * x else Flt.lit 1.758099 * Flt.expm1 x)
  split
  · rename_i h0
    rw [pos_iff hr] at h0
    obtain ⟨l, hl, l1, l2⟩ := lit_in (F := F) (L := L) 1.050701 Fmt.rep0 Fmt.rep2 (by norm_num) (by norm_num)
    exact (mul_in hl hr Fmt.rep0 Fmt.repM (by positivity) (by nlinarith)).fin
  · rename_i h0
    rw [pos_iff hr] at h0
    obtain ⟨l, hl, l1, l2⟩ := lit_in (F := F) (L := L) 1.758099 Fmt.rep0 Fmt.rep2 (by norm_num) (by norm_num)
    obtain ⟨e, he, e1, e2⟩ := expm1_nonpos hr (not_lt.1 h0)
    exact (mul_in hl he Fmt.rep2.neg Fmt.rep0 (by nlinarith) (by nlinarith)).fin

/-- `SoftPlus`: finite as long as the exponential is at most half of the largest number. -/
theorem C91_softplus_partial (x : Num F L) (r : ℝ) (hr : x.Val r) (h : L.exp r ≤ F.M / 2) : (ActKind.softplus.flt x).Finite := by
  have hM := F.M_ge
  show Num.Finite (F := F) (L := L) (Flt.log (Flt.exp x + 1))
  have e : (Flt.exp x : Num F L).In 0 (F.M / 2) := by
    rw [exp_val hr]
    exact round_in Fmt.rep0 Fmt.repH (L.exp_nonneg r) h
  obtain ⟨c, hc, c1, c2⟩ := e
  obtain ⟨d, hd, d1, d2⟩ := add_in hc (one_val (F := F) (L := L)) Fmt.rep1 Fmt.repM (by linarith) (by linarith)
  have e2 : Flt.log (Flt.exp x + 1) = (show Num F L from Ext.round F (L.log d)) := by
    show Ext.log F L.log 0 _ = _
    rw [show ((Flt.exp x + 1 : Num F L) : Ext) = .fin d from hd.1]
    show (if d < 0 then _ else if d = 0 then _ else _) = _
    rw [if_neg (by linarith), if_neg (by linarith)]
  rw [e2]
  exact (round_in Fmt.rep0 Fmt.repM (L.log_range d d1).1 (by linarith [(L.log_range d d1).2])).fin

/-- … and infinite at the largest number, in every format whose exponential overflows there (the true value is hardly larger
than the argument). -/
theorem C91_softplus_violated (h : 2 * F.M ≤ L.exp F.M) :
    ∃ x : Num F L, x.Finite ∧ (ActKind.softplus.flt x).Inf := by
  refine ⟨_, ⟨_, max_val F L⟩, .inl ?_⟩
  show Ext.log F L.log 0 (Ext.add F (Ext.round F (L.exp F.M)) (.fin 1)) = _
  rw [round_over h]; rfl

/-- The derivative of `Swish` is NaN for large negative arguments. -/
theorem C91_swish_derivative_violated (h : 2 * F.M ≤ L.exp F.M) :
    ∃ x : Num F L, x.Finite ∧ (ActKind.swish.fltD x).NaN := by
  have hM := F.M_ge
  refine ⟨_, ⟨_, neg_val (max_val F L)⟩, ?_⟩
  show Ext.div F (Ext.add F (Ext.mul F (Ext.round F (L.exp (- -F.M))) (.fin (-F.M))) (Ext.add F (Ext.round F (L.exp (- -F.M))) (.fin 1)))
    (Ext.mul F (Ext.add F (Ext.round F (L.exp (- -F.M))) (.fin 1)) (Ext.add F (Ext.round F (L.exp (- -F.M))) (.fin 1))) = _
  rw [neg_neg, round_over h]
  show Ext.div F (Ext.add F (Ext.inf (-F.M)) .pinf) .pinf = _
  rw [Num.inf_neg (by linarith)]; rfl

/-- The derivative of `GELU` is NaN for large arguments: an infinite cube times a vanished `1 / cosh`. -/
theorem C91_gelu_derivative_violated : ∃ x : Num F L, x.Finite ∧ (ActKind.gelu.fltD x).NaN := by
  have hM := F.M_ge
  refine ⟨_, ⟨_, max_val F L⟩, ?_⟩
  have hx := max_val F L
  obtain ⟨a, ha, a1, -⟩ := lit_in (F := F) (L := L) 0.797885 Fmt.rep_half Fmt.rep1 (by norm_num) (by norm_num)
  obtain ⟨b, hb, b1, b2⟩ := lit_in (F := F) (L := L) 0.0356774 Fmt.rep0 Fmt.rep1 (by norm_num) (by norm_num)
  obtain ⟨c, hc, c1, -⟩ := lit_in (F := F) (L := L) 0.0535161 Fmt.rep_small Fmt.rep1 (by norm_num) (by norm_num)
  obtain ⟨d, hd, d1, d2⟩ := lit_in (F := F) (L := L) 0.398942 Fmt.rep0 Fmt.rep1 (by norm_num) (by norm_num)
  have c0 : 0 < c := lt_of_lt_of_le (by norm_num) c1
  generalize hxe : (show Num F L from Ext.fin F.M) = x at hx ⊢
  have x2 : (x * x : Num F L) = (show Num F L from .pinf) := by
    rw [mul_eq hx hx]
    exact round_over (by nlinarith)
  have x3 : (x * x * x : Num F L) = (show Num F L from .pinf) := by
    rw [x2]
    show Ext.mul F .pinf x = _
    rw [show (x : Ext) = .fin F.M from hx.1]
    exact Num.inf_pos (by linarith)
  have sc : ∀ (l : Num F L) (q : ℝ), l.Val q → 0 < q → l * (show Num F L from .pinf) = (show Num F L from .pinf) := by
    intro l q hl hq
    show Ext.mul F l .pinf = _
    rw [show (l : Ext) = .fin q from hl.1]
    exact Num.inf_pos hq
  have sm : ∀ (l y : Num F L), l.In 0 1 → (show Num F L from .pinf) + l * x = (show Num F L from .pinf) := by
    intro l y hl
    obtain ⟨s, hs⟩ := (mul_unit hl hx).fin
    show Ext.add F .pinf (l * x : Num F L) = _
    rw [show ((l * x : Num F L) : Ext) = .fin s from hs.1]; rfl
  have y1 : (Flt.lit 0.797885 * (x * x * x) + Flt.lit 0.0356774 * x : Num F L) = (show Num F L from .pinf) := by
    rw [x3, sc _ a ha (by linarith), sm _ x ⟨b, hb, b1, b2⟩]
  have y2 : (Flt.lit 0.0535161 * (x * x * x) + Flt.lit 0.398942 * x : Num F L) = (show Num F L from .pinf) := by
    rw [x3, sc _ c hc c0, sm _ x ⟨d, hd, d1, d2⟩]
  show (Flt.lit 0.5 * Flt.tanh (Flt.lit 0.797885 * (x * x * x) + Flt.lit 0.0356774 * x) +
    (Flt.lit 0.0535161 * (x * x * x) + Flt.lit 0.398942 * x) *
      (1 / Flt.cosh (Flt.lit 0.797885 * (x * x * x) + Flt.lit 0.0356774 * x)) *
      (1 / Flt.cosh (Flt.lit 0.797885 * (x * x * x) + Flt.lit 0.0356774 * x)) + Flt.lit 0.5 : Num F L).ext = .nan
  rw [y1, y2]
  have z : ((show Num F L from .pinf) * (1 / Flt.cosh (show Num F L from .pinf)) : Num F L) = (show Num F L from .nan) := by
    show Ext.inf 0 = .nan
    unfold Ext.inf
    rw [if_neg (lt_irrefl _), if_neg (lt_irrefl _)]
  rw [z]
  have an : ∀ e : Ext, Ext.add F e .nan = .nan := fun e => by cases e <;> rfl
  have nn : ∀ a b : Ext, Ext.add F (Ext.add F a .nan) b = .nan := fun a b => by rw [an]; rfl
  exact nn _ _

/-- `GELU`: its derivative is finite for arguments up to `N`, when `2·N³ + 2` is a representable integer. -/
theorem C91_gelu_derivative_partial (x : Num F L) (r : ℝ) (N : Nat) (hr : x.Val r) (h : |r| ≤ N) (hN : 2 * N ^ 3 + 2 ≤ F.P) :
    (ActKind.gelu.fltD x).Finite := by
  have hM := F.M_ge
  have hN1 : (N : ℝ) ≤ (N : ℝ) ^ 3 ∧ (0 : ℝ) ≤ N := by
    refine ⟨?_, Nat.cast_nonneg _⟩
    have : N ≤ N ^ 3 := by
      rcases Nat.eq_zero_or_pos N with h | h
      · simp [h]
      · exact Nat.le_self_pow (by norm_num) N
    exact_mod_cast this
  have q2 : N ^ 2 ≤ F.P := by
    have : N ^ 2 ≤ N ^ 3 + 1 := by
      rcases Nat.eq_zero_or_pos N with h | h
      · simp [h]
      · exact le_trans (Nat.pow_le_pow_right h (by norm_num)) (Nat.le_succ _)
    omega
  have R1 : F.Rep N := Fmt.rep_nat N (by
    have : N ≤ N ^ 3 := by exact_mod_cast hN1.1
    omega)
  have R2 : F.Rep ((N : ℝ) ^ 2) := by have := F.rep_nat (N ^ 2) q2; push_cast at this; exact this
  have R3 : F.Rep ((N : ℝ) ^ 3) := by have := F.rep_nat (N ^ 3) (by omega); push_cast at this; exact this
  have R4 : F.Rep (2 * (N : ℝ) ^ 3) := by have := F.rep_nat (2 * N ^ 3) (by omega); push_cast at this; exact this
  have R5 : F.Rep (2 * (N : ℝ) ^ 3 + 1) := by have := F.rep_nat (2 * N ^ 3 + 1) (by omega); push_cast at this; exact this
  have R6 : F.Rep (2 * (N : ℝ) ^ 3 + 2) := by have := F.rep_nat (2 * N ^ 3 + 2) (by omega); push_cast at this; exact this
  obtain ⟨n1, n0⟩ := hN1
  generalize (N : ℝ) = n at *
  have hb := abs_le.1 h
  obtain ⟨p, hp, p1, p2⟩ := mul_in hr hr Fmt.rep0 R2 (mul_self_nonneg r) (by nlinarith)
  obtain ⟨q, hq, q1, q3⟩ := mul_in hp hr R3.neg R3 (by nlinarith [mul_nonneg n0 n0]) (by nlinarith [mul_nonneg n0 n0])
  have lin : ∀ l m : ℚ, 0 ≤ l → l ≤ 1 → 0 ≤ m → m ≤ 1 → (Flt.lit l * (x * x * x) + Flt.lit m * x : Num F L).In (-(2 * n ^ 3)) (2 * n ^ 3) := by
    intro l m l0 l1 m0 m1
    obtain ⟨u, hu, u1, u2⟩ := mul_unit (lit_unit (F := F) (L := L) l l0 l1) hq
    obtain ⟨w, hw, w1, w2⟩ := mul_unit (lit_unit (F := F) (L := L) m m0 m1) hr
    have b1 : -(n ^ 3) ≤ min q 0 := le_min q1 (by nlinarith)
    have b2 : max q 0 ≤ n ^ 3 := max_le q3 (by nlinarith)
    have b3 : -n ≤ min r 0 := le_min hb.1 (by linarith)
    have b4 : max r 0 ≤ n := max_le hb.2 n0
    exact add_in hu hw R4.neg R4 (by linarith) (by linarith)
  obtain ⟨y, hy, -⟩ := lin 0.797885 0.0356774 (by norm_num) (by norm_num) (by norm_num) (by norm_num)
  obtain ⟨z, hz, z1, z2⟩ := lin 0.0535161 0.398942 (by norm_num) (by norm_num) (by norm_num) (by norm_num)
  obtain ⟨t, ht, t1, t2⟩ := tanh_in (F := F) (L := L) (Finite.notNaN ⟨y, hy⟩)
  have hs := inv_ge1 (cosh_ge1 (F := F) (L := L) (Finite.notNaN ⟨y, hy⟩))
  obtain ⟨a, ha, a1, a2⟩ := unit_mul hz hs
  obtain ⟨b, hb', b1, b2⟩ := unit_mul ha hs
  obtain ⟨c, hc, c1, c2⟩ := mul_unit (lit_unit (F := F) (L := L) 0.5 (by norm_num) (by norm_num)) ht
  obtain ⟨e, he, e1, e2⟩ := lit_unit (F := F) (L := L) 0.5 (by norm_num) (by norm_num)
  have m1 : -(2 * n ^ 3) ≤ min z 0 := le_min z1 (by nlinarith)
  have m2 : max z 0 ≤ 2 * n ^ 3 := max_le z2 (by nlinarith)
  have m3 : -(2 * n ^ 3) ≤ min a 0 := le_min (by linarith) (by nlinarith)
  have m4 : max a 0 ≤ 2 * n ^ 3 := max_le (by linarith) (by nlinarith)
  have m5 : -1 ≤ min t 0 := le_min t1 (by norm_num)
  have m6 : max t 0 ≤ 1 := max_le t2 (by norm_num)
  obtain ⟨f, hf, f1, f2⟩ := add_in hc hb' R5.neg R5 (by linarith) (by linarith)
  exact (add_in hf he R6.neg R6 (by linarith) (by linarith)).fin

/-- `Swish`: its derivative is finite for arguments up to `N` whose exponential is at most `E`, when `E·(N+1) + 1` is a
representable integer. -/
theorem C91_swish_derivative_partial (x : Num F L) (r : ℝ) (N E : Nat) (hr : x.Val r) (h : |r| ≤ N) (hE : L.exp (-r) ≤ E) (h1 : 1 ≤ E)
    (hN : E * (N + 1) + 1 ≤ F.P) : (ActKind.swish.fltD x).Finite := by
  have hM := F.M_ge
  have q1 : E * N ≤ F.P := le_trans (show E * N ≤ E * (N + 1) from Nat.mul_le_mul_left E (Nat.le_succ N)) (by omega)
  have q2 : E ≤ E * (N + 1) := Nat.le_mul_of_pos_right E (Nat.succ_pos N)
  have R1 : F.Rep ((E : ℝ) * N) := by have := F.rep_nat (E * N) q1; push_cast at this; exact this
  have R2 : F.Rep ((E : ℝ)) := F.rep_nat E (by omega)
  have R3 : F.Rep ((E : ℝ) + 1) := by have := F.rep_nat (E + 1) (by omega); push_cast at this; exact this
  have R4 : F.Rep ((E : ℝ) * (N + 1) + 1) := by have := F.rep_nat _ hN; push_cast at this; exact this
  have e1 : (1 : ℝ) ≤ E := by exact_mod_cast h1
  have n0 : (0 : ℝ) ≤ N := Nat.cast_nonneg _
  generalize (N : ℝ) = n at *
  generalize (E : ℝ) = e at *
  have hb := abs_le.1 h
  have ex : (Flt.exp (-x) : Num F L).In 0 e := by
    rw [exp_val (neg_val hr)]
    exact round_in Fmt.rep0 R2 (L.exp_nonneg _) hE
  obtain ⟨a, ha, a1, a2⟩ := ex
  obtain ⟨b, hb', b1, b2⟩ := add_in ha (one_val (F := F) (L := L)) Fmt.rep1 R3 (by linarith) (by linarith)
  obtain ⟨c, hc, c1, c2⟩ := mul_in ha hr R1.neg R1 (by nlinarith) (by nlinarith)
  obtain ⟨d, hd, d1, d2⟩ := add_in hc hb' R4.neg R4 (by nlinarith) (by nlinarith)
  have ge : (((Flt.exp (-x) + 1) * (Flt.exp (-x) + 1) : Num F L)).Ge1 := by
    rw [mul_eq hb' hb']
    exact round_nonneg Fmt.rep1 (by norm_num) (by nlinarith)
  exact (div_ge1 hd ge).fin

/-- `SoftMax`: up to `P` finite numbers give finite probabilities; no exponential overflows, no division is by zero. -/
theorem C91_softmax (n : Nat) (hn : 0 < n) (hP : n ≤ F.P) (r x : Buf (Num F L)) (v : Nat → Num F L)
    (hr : r.length = n) (hx : VecIs x n v) (hf : FiniteVec n v) :
    Ok ((fltSoftMax : Act (Num F L)).f r x) (fun b => ∃ o, VecIs b n o ∧ ∀ i, i < n → ∃ p, (o i).Val p ∧ 0 ≤ p ∧ p ≤ 1) ∧
    Ok ((fltSoftMax : Act (Num F L)).fSelf x) (fun b => ∃ o, VecIs b n o ∧ ∀ i, i < n → ∃ p, (o i).Val p ∧ 0 ≤ p ∧ p ≤ 1) := by
  have key : ∀ i, i < n → ∃ p, (fltSm n v i).Val p ∧ 0 ≤ p ∧ p ≤ 1 := by
    -- the maximum
    have mx : ∃ k, k < n ∧ fltMax v n = v k ∧ ∀ i, i < n → ∀ a b, (v k).Val a → (v i).Val b → b ≤ a := by
      have : ∀ m, m < n → ∃ k, k ≤ m ∧ iter m (v 0) (fun i m => if m < v (1 + i) then v (1 + i) else m) = v k ∧
          ∀ i, i ≤ m → ∀ a b, (v k).Val a → (v i).Val b → b ≤ a := by
        intro m
        induction m with
        | zero =>
          intro _
          refine ⟨0, le_refl _, rfl, fun i hi a b ha hb => ?_⟩
          cases Nat.le_zero.1 hi
          cases ha.1.symm.trans hb.1
          exact le_refl _
        | succ m ih =>
          intro hm
          obtain ⟨k, hk, e, hk'⟩ := ih (by omega)
          rw [iter_succ, e]
          obtain ⟨a, ha⟩ := hf k (by omega)
          obtain ⟨b, hb⟩ := hf (1 + m) (by omega)
          by_cases hlt : v k < v (1 + m)
          · rw [if_pos hlt]
            refine ⟨1 + m, by omega, rfl, fun i hi a' b' ha' hb' => ?_⟩
            cases ha'.1.symm.trans hb.1
            rw [lt_iff ha ha'] at hlt
            rcases Nat.lt_or_ge m i with h | h
            · have : i = 1 + m := by omega
              subst this
              cases ha'.1.symm.trans hb'.1
              exact le_refl _
            · have := hk' i h a b' ha hb'
              linarith
          · rw [if_neg hlt]
            rw [lt_iff ha hb, not_lt] at hlt
            refine ⟨k, by omega, rfl, fun i hi a' b' ha' hb' => ?_⟩
            cases ha'.1.symm.trans ha.1
            rcases Nat.lt_or_ge m i with h | h
            · have : i = 1 + m := by omega
              subst this
              cases hb'.1.symm.trans hb.1
              exact hlt
            · exact hk' i h _ b' ha hb'
      obtain ⟨k, hk, e, h⟩ := this (n - 1) (by omega)
      exact ⟨k, by omega, e, fun i hi => h i (by omega)⟩
    obtain ⟨k, hk, ek, hmax⟩ := mx
    obtain ⟨m, hm⟩ := hf k hk
    -- the exponentials
    have ex : ∀ i, i < n → (Flt.exp (v i - fltMax v n) : Num F L).In 0 1 := by
      intro i hi
      obtain ⟨b, hb⟩ := hf i hi
      have hle := hmax i hi m b hm hb
      rw [ek, sub_eq]
      have e : v i + -v k = (show Num F L from Ext.round F (b + -m)) := by
        show Ext.add F (v i) (Ext.neg (v k)) = _
        rw [show (v i : Ext) = .fin b from hb.1, show (v k : Ext) = .fin m from hm.1]; rfl
      rw [e]
      rcases round_np (F := F) (L := L) (show b + -m ≤ 0 by linarith) with ⟨q, hq, q0⟩ | hq
      · exact exp_nonpos hq q0
      · refine ⟨0, ⟨?_, Fmt.rep0⟩, le_refl _, by norm_num⟩
        show Ext.fn F L.exp (.fin 0) .pinf (Ext.round F (b + -m)) = _
        rw [show Ext.round F (b + -m) = .ninf from hq]; rfl
    have ex1 : (Flt.exp (v k - fltMax v n) : Num F L).Val 1 := by
      rw [ek, sub_eq]
      have e : v k + -v k = (show Num F L from Ext.round F 0) := by
        show Ext.add F (v k) (Ext.neg (v k)) = _
        rw [show (v k : Ext) = .fin m from hm.1]
        show Ext.round F (m + -m) = _
        rw [add_neg_cancel]
      obtain ⟨q, hq, q1, q2⟩ := round_in (F := F) (L := L) (z := 0) Fmt.rep0 Fmt.rep0 (le_refl _) (le_refl _)
      cases le_antisymm q2 q1
      rw [e, exp_val hq, L.exp_zero]
      obtain ⟨q, hq, q1, q2⟩ := round_in (F := F) (L := L) (z := 1) Fmt.rep1 Fmt.rep1 (le_refl _) (le_refl _)
      cases le_antisymm q2 q1
      exact hq
    -- their sum
    have sm : ∀ j, j ≤ n → (foldSum 0 j (fun i => Flt.exp (v i - fltMax v n)) : Num F L).In (if k < j then 1 else 0) j := by
      intro j
      induction j with
      | zero =>
        intro _
        exact ⟨0, zero_val, by simp, by simp⟩
      | succ j ih =>
        intro hj
        obtain ⟨a, ha, a1, a2⟩ := ih (by omega)
        obtain ⟨b, hb, b1, b2⟩ := ex j (by omega)
        rw [foldSum_succ]
        have R : F.Rep ((j + 1 : Nat) : ℝ) := F.rep_nat (j + 1) (by omega)
        have a0 : 0 ≤ a := le_trans (by split <;> norm_num) a1
        by_cases h : k < j + 1
        · rw [if_pos h]
          refine add_in ha hb Fmt.rep1 R ?_ (by push_cast; linarith)
          rcases Nat.lt_or_ge k j with h' | h'
          · rw [if_pos h'] at a1; linarith
          · have : j = k := by omega
            subst this
            cases hb.1.symm.trans ex1.1
            linarith
        · rw [if_neg h]
          exact add_in ha hb Fmt.rep0 R (by linarith) (by push_cast; linarith)
    obtain ⟨s, hs, s1, -⟩ := sm n (le_refl _)
    rw [if_pos hk] at s1
    have iv := inv_ge1 (F := F) (L := L) (.inl ⟨s, hs, s1⟩)
    intro i hi
    obtain ⟨p, hp, p1, p2⟩ := iv
    obtain ⟨c, hc, c1, c2⟩ := mul_unit (ex i hi) hp
    rw [min_eq_right p1] at c1
    rw [max_eq_left p1] at c2
    exact ⟨c, hc, c1, by linarith⟩
  have h := fltSoftMax_Is (α := Num F L) n hn
  exact ⟨(h.f r x v hr hx).mono (fun b hb => ⟨_, hb, key⟩), (h.fSelf x v hx).mono (fun b hb => ⟨_, hb, key⟩)⟩

/-- `unstable_softmax` of finite numbers can be NaN. -/
theorem C91_unstable_softmax_violated (h : 2 * F.M ≤ L.exp F.M) :
    ∃ x : Num F L, x.Finite ∧ ∃ y : Num F L, unstableSoftmax fltExp fltRecip (Buf.of [0]) (Buf.of [x]) = .ok (Buf.of [y]) ∧ y.NaN := by
  refine ⟨_, ⟨_, max_val F L⟩, _, rfl, ?_⟩
  have e : (Flt.exp (show Num F L from Ext.fin F.M)) = (show Num F L from .pinf) := round_over h
  rw [e]
  show Ext.inf 0 = .nan
  unfold Ext.inf
  rw [if_neg (lt_irrefl _), if_neg (lt_irrefl _)]

/-! #### Losses -/

/-- `LogCosh`: infinite for finite predictions (the true value is less than the difference of target and prediction). -/
theorem C91_logcosh_violated (h : 2 * F.M ≤ L.cosh F.M) :
    ∃ t p : Num F L, t.Finite ∧ p.Finite ∧ ∃ y : Num F L, FltLoss.logcosh (Buf.of [t]) (Buf.of [p]) = .ok y ∧ y.Inf := by
  refine ⟨0, _, ⟨0, zero_val⟩, ⟨_, max_val F L⟩, _, rfl, .inl ?_⟩
  have e : ((show Num F L from Ext.fin F.M) - 0 : Num F L) = (show Num F L from Ext.fin F.M) := by
    show Ext.round F (F.M + -0) = _
    rw [neg_zero, add_zero]
    unfold Ext.round
    rw [F.max, if_pos (by rw [abs_of_nonneg (by have := F.M_ge; linarith)])]
  have e2 : Flt.cosh ((show Num F L from Ext.fin F.M) - 0 : Num F L) = (show Num F L from .pinf) := by
    rw [e]; exact round_over h
  show ((0 : Num F L) + Flt.log (Flt.cosh ((show Num F L from Ext.fin F.M) - 0))).ext = _
  rw [e2]; rfl

/-- `BCE` of the perfect prediction 1 for the target 1 is NaN, in every format in which `1e-9 - 1` rounds to `-1` (such as
`float`). -/
theorem C91_bce_violated (h : F.rnd (F.rnd 1e-9 - 1) = -1) :
    ∃ y : Num F L, FltLoss.bce (Buf.of [1]) (Buf.of [1]) = .ok y ∧ y.NaN := by
  have l9 : ((1e-9 : ℚ) : ℝ) = 1e-9 := by norm_num
  refine ⟨_, rfl, ?_⟩
  obtain ⟨s, hs, s1, s2⟩ := lit_in (F := F) (L := L) 1e-9 Fmt.rep0 Fmt.rep1 (by norm_num) (by norm_num)
  have es : s = F.rnd 1e-9 := by
    have h1 : (Ext.round F ((1e-9 : ℚ) : ℝ)) = Ext.fin s := hs.1
    rw [l9] at h1
    unfold Ext.round at h1
    have hb : |F.rnd 1e-9| ≤ F.M := by
      have a := F.mono 0 1e-9 (by norm_num)
      have b := F.mono 1e-9 1 (by norm_num)
      rw [Fmt.rep0.1] at a
      rw [Fmt.rep1.1] at b
      rw [abs_of_nonneg a]
      have := F.M_ge
      linarith
    rw [if_pos hb] at h1
    exact (Ext.fin.inj h1).symm
  have d1 : (FltLoss.eps - 1 : Num F L) = (show Num F L from .fin (-1)) := by
    show Ext.add F (Flt.lit 1e-9 : Num F L) (.fin (-1)) = _
    rw [show ((Flt.lit 1e-9 : Num F L) : Ext) = .fin s from hs.1]
    show Ext.round F (s + -1) = _
    rw [es, ← sub_eq_add_neg]
    unfold Ext.round
    rw [h, if_pos (Fmt.rep1.neg.2)]
  have d2 : (Flt.log1p (FltLoss.eps - 1) : Num F L) = (show Num F L from .ninf) := by
    rw [d1]
    show (if (-1 : ℝ) < -1 then Ext.nan else if (-1 : ℝ) = -1 then Ext.ninf else _) = _
    rw [if_neg (lt_irrefl _), if_pos rfl]
  have d3 : ((1 - 1 : Num F L)) = (show Num F L from .fin 0) := by
    show Ext.round F (1 + -1) = _
    rw [add_neg_cancel]
    unfold Ext.round
    rw [Fmt.rep0.1, if_pos Fmt.rep0.2]
  have d4 : ((1 - 1 : Num F L)) * Flt.log1p (FltLoss.eps - 1) = (show Num F L from .nan) := by
    rw [d2, d3]
    show Ext.inf (-0) = .nan
    unfold Ext.inf
    rw [neg_zero, if_neg (lt_irrefl _), if_neg (lt_irrefl _)]
  show (0 - (1 * Flt.log (1 + FltLoss.eps) + (1 - 1) * Flt.log1p (FltLoss.eps - 1)) : Num F L).ext = .nan
  rw [d4]
  have an : ∀ e : Ext, Ext.sub F (.fin 0) (Ext.add F e .nan) = .nan := fun e => by cases e <;> rfl
  exact an _

/-- `NLL` is infinite when the target class has probability 0 (which `SoftMax` returns once an exponential underflows). -/
theorem C91_nll_violated : ∃ y : Num F L, FltLoss.nll (Buf.of [1, 0]) (Buf.of [0, 1]) = .ok y ∧ y.Inf := by
  refine ⟨_, rfl, .inl ?_⟩
  have r0 : Ext.round F 0 = .fin 0 := by
    unfold Ext.round
    rw [Fmt.rep0.1, if_pos Fmt.rep0.2]
  show Ext.neg (Ext.log F L.log 0 (Ext.add F (Ext.add F (.fin 0) (Ext.round F (1 * 0))) (Ext.round F (0 * 1)))) = _
  rw [mul_zero, zero_mul, r0]
  show Ext.neg (Ext.log F L.log 0 (Ext.add F (Ext.round F (0 + 0)) (.fin 0))) = _
  rw [add_zero, r0]
  show Ext.neg (Ext.log F L.log 0 (Ext.round F (0 + 0))) = _
  rw [add_zero, r0]
  show Ext.neg (if (0 : ℝ) < 0 then Ext.nan else if (0 : ℝ) = 0 then Ext.ninf else _) = _
  rw [if_neg (lt_irrefl _), if_pos rfl]; rfl

/-- `n` probabilities. -/
def ProbVec (n : Nat) (v : Nat → Num F L) : Prop := ∀ i, i < n → ∃ p, (v i).Val p ∧ 0 ≤ p ∧ p ≤ 1

theorem eps_val : (FltLoss.eps : Num F L).Val (F.rnd 1e-9) ∧ 1 / 2 ^ 40 ≤ F.rnd 1e-9 ∧ F.rnd 1e-9 ≤ 1 := by
  have l9 : ((1e-9 : ℚ) : ℝ) = 1e-9 := by norm_num
  have a := F.mono (1 / 2 ^ 40) 1e-9 (by norm_num)
  have b := F.mono 1e-9 1 (by norm_num)
  rw [F.small] at a
  rw [Fmt.rep1.1] at b
  have hb : |F.rnd 1e-9| ≤ F.M := by
    rw [abs_of_nonneg (le_trans (by positivity) a)]
    have := F.M_ge
    linarith
  refine ⟨⟨?_, F.idem _, hb⟩, a, b⟩
  show Ext.round F ((1e-9 : ℚ) : ℝ) = _
  rw [l9]
  unfold Ext.round
  rw [if_pos hb]

theorem log_in {x : Num F L} {d : ℝ} (hd : x.Val d) (h1 : 1 / 2 ^ 40 ≤ d) (h2 : d ≤ 2) : (Flt.log x : Num F L).In (-64) 64 := by
  have d0 : 0 < d := lt_of_lt_of_le (by positivity) h1
  have e2 : Flt.log x = (show Num F L from Ext.round F (L.log d)) := by
    show Ext.log F L.log 0 x = _
    rw [show (x : Ext) = .fin d from hd.1]
    show (if d < 0 then _ else if d = 0 then _ else _) = _
    rw [if_neg (by linarith), if_neg (by linarith)]
  rw [e2]
  have R : F.Rep (64 : ℝ) := by simpa using F.rep_nat 64 F.P2
  have := abs_le.1 (L.log_small d h1 h2)
  exact round_in R.neg R this.1 this.2

theorem log1p_in {x : Num F L} {d : ℝ} (hd : x.Val d) (h1 : -1 + 1 / 2 ^ 40 ≤ d) (h2 : d ≤ 1) : (Flt.log1p x : Num F L).In (-64) 64 := by
  have d0 : -1 < d := lt_of_lt_of_le (by norm_num) h1
  have e2 : Flt.log1p x = (show Num F L from Ext.round F (L.log1p d)) := by
    show Ext.log F L.log1p (-1) x = _
    rw [show (x : Ext) = .fin d from hd.1]
    show (if d < -1 then _ else if d = -1 then _ else _) = _
    rw [if_neg (by linarith), if_neg (by linarith)]
  rw [e2]
  have R : F.Rep (64 : ℝ) := by simpa using F.rep_nat 64 F.P2
  have := abs_le.1 (L.log1p_small d h1 h2)
  exact round_in R.neg R this.1 this.2

theorem mul_unit64 {x y : Num F L} (hx : x.In 0 1) (hy : y.In (-64) 64) : (x * y).In (-64) 64 := by
  obtain ⟨s, hs, s1, s2⟩ := hy
  exact (mul_unit hx hs).mono (le_min s1 (by norm_num)) (max_le s2 (by norm_num))

/-- `CCE` of probabilities is finite, whatever the prediction. -/
theorem C91_cce (n : Nat) (hn : 64 * n ≤ F.P) (t p : Buf (Num F L)) (a b : Nat → Num F L) (ht : VecIs t n a) (hp : VecIs p n b)
    (ha : ProbVec n a) (hb : ProbVec n b) : Ok (FltLoss.cce t p) (fun y => y.Finite) := by
  unfold FltLoss.cce
  rw [ht.length]
  refine (forN_spec (fun i (s : Num F L) => s.In (-(64 * i : Nat)) (64 * i : Nat)) ⟨0, zero_val, by simp, by simp⟩ (fun i hi s hs => ?_)).mono
    (fun s hs => hs.fin)
  rw [ht.get hi, bind_ok, hp.get hi, bind_ok]
  refine Ok_ok.2 ?_
  obtain ⟨s, hs, s1, s2⟩ := hs
  obtain ⟨q, hq, q1, q2⟩ := hb i hi
  obtain ⟨ev, e1, e2⟩ := eps_val (F := F) (L := L)
  obtain ⟨d, hd, d1, d2⟩ := add_in hq ev Fmt.rep_small Fmt.rep2 (by linarith) (by linarith)
  obtain ⟨w, hw, w1, w2⟩ := mul_unit64 (ha i hi) (log_in hd d1 d2)
  have R : F.Rep ((64 * (i + 1) : Nat) : ℝ) := F.rep_nat _ (by omega)
  rw [sub_eq]
  push_cast at *
  exact add_in hs (neg_val hw) R.neg R (by linarith) (by linarith)

/-- `BCE` of probabilities is finite in formats in which `1e-9 - 1` stays clear of `-1` (such as `double`). -/
theorem C91_bce_partial (hF : -1 + 1 / 2 ^ 40 ≤ F.rnd (F.rnd 1e-9 - 1)) (n : Nat) (hn : 128 * n ≤ F.P) (t p : Buf (Num F L)) (a b : Nat → Num F L)
    (ht : VecIs t n a) (hp : VecIs p n b) (ha : ProbVec n a) (hb : ProbVec n b) : Ok (FltLoss.bce t p) (fun y => y.Finite) := by
  unfold FltLoss.bce
  rw [ht.length]
  refine (forN_spec (fun i (s : Num F L) => s.In (-(128 * i : Nat)) (128 * i : Nat)) ⟨0, zero_val, by simp, by simp⟩ (fun i hi s hs => ?_)).mono
    (fun s hs => hs.fin)
  rw [ht.get hi, bind_ok, hp.get hi, bind_ok]
  refine Ok_ok.2 ?_
  obtain ⟨s, hs, s1, s2⟩ := hs
  obtain ⟨q, hq, q1, q2⟩ := hb i hi
  obtain ⟨c, hc, c1, c2⟩ := id (ha i hi)
  obtain ⟨ev, e1, e2⟩ := eps_val (F := F) (L := L)
  obtain ⟨d, hd, d1, d2⟩ := add_in hq ev Fmt.rep_small Fmt.rep2 (by linarith) (by linarith)
  obtain ⟨w, hw, w1, w2⟩ := mul_unit64 (ha i hi) (log_in hd d1 d2)
  have om : (1 - a i : Num F L).In 0 1 := by
    rw [sub_eq]
    exact add_in one_val (neg_val hc) Fmt.rep0 Fmt.rep1 (by linarith) (by linarith)
  have lb := F.mono (F.rnd 1e-9 - 1) (F.rnd 1e-9 + -q) (by linarith)
  have ed : (FltLoss.eps - b i : Num F L).In (F.rnd (F.rnd 1e-9 - 1)) 1 := by
    rw [sub_eq]
    have R0 : F.Rep (F.rnd (F.rnd 1e-9 - 1)) := by
      refine ⟨F.idem _, abs_le.2 ⟨?_, ?_⟩⟩
      · have := F.M_ge
        have : (0 : ℝ) ≤ 1 / 2 ^ 40 := by positivity
        linarith
      · have h := F.mono (F.rnd 1e-9 - 1) 1 (by linarith)
        rw [Fmt.rep1.1] at h
        have := F.M_ge
        linarith
    have e : (FltLoss.eps + -b i : Num F L) = (show Num F L from Ext.round F (F.rnd 1e-9 + -q)) := by
      show Ext.add F (FltLoss.eps : Num F L) (-b i : Num F L) = _
      rw [show ((FltLoss.eps : Num F L) : Ext) = .fin _ from ev.1, show ((-b i : Num F L) : Ext) = .fin _ from (neg_val hq).1]; rfl
    have ub := F.mono (F.rnd 1e-9 + -q) 1 (by linarith)
    rw [Fmt.rep1.1] at ub
    have hbd : |F.rnd (F.rnd 1e-9 + -q)| ≤ F.M := abs_le.2 ⟨by have := neg_le_of_abs_le R0.2; linarith, by have := F.M_ge; linarith⟩
    rw [e]
    exact ⟨_, ⟨by show Ext.round F _ = _; unfold Ext.round; rw [if_pos hbd], F.idem _, hbd⟩, lb, ub⟩
  obtain ⟨g, hg, g1, g2⟩ := ed
  obtain ⟨z, hz, z1, z2⟩ := mul_unit64 om (log1p_in hg (by linarith) g2)
  have R1 : F.Rep ((128 : Nat) : ℝ) := F.rep_nat 128 (by omega)
  have R : F.Rep ((128 * (i + 1) : Nat) : ℝ) := F.rep_nat _ (by omega)
  push_cast at *
  obtain ⟨y, hy, y1, y2⟩ := add_in hw hz R1.neg R1 (by linarith) (by linarith)
  rw [sub_eq]
  exact add_in hs (neg_val hy) R.neg R (by linarith) (by linarith)

/-! #### Concrete formats -/

/-- A format in which only overflow happens. -/
noncomputable def wideFmt : Fmt where
  rnd r := r
  M := 2 ^ 30
  P := 2 ^ 20
  mono _ _ h := h
  idem _ := rfl
  neg _ := rfl
  int _ _ := rfl
  P2 := by norm_num
  PM := by norm_num
  half := rfl
  small := rfl
  max := rfl
  halfMax := rfl
  over r h := by norm_num at h ⊢; linarith

/-- Rounding to a multiple of `2^-20`, upwards. -/
noncomputable def upTo (r : ℝ) : ℝ := (⌈r * 2 ^ 20⌉ : ℝ) / 2 ^ 20

theorem upTo_ge (r : ℝ) : r ≤ upTo r := by
  unfold upTo
  rw [le_div_iff₀ (by positivity)]
  exact Int.le_ceil _
theorem upTo_mono {a b : ℝ} (h : a ≤ b) : upTo a ≤ upTo b := by
  unfold upTo
  have : ⌈a * 2 ^ 20⌉ ≤ ⌈b * 2 ^ 20⌉ := Int.ceil_le_ceil (by nlinarith)
  have : (⌈a * 2 ^ 20⌉ : ℝ) ≤ ⌈b * 2 ^ 20⌉ := by exact_mod_cast this
  exact div_le_div_of_nonneg_right this (by positivity)
theorem upTo_int (z : ℤ) : upTo ((z : ℝ) / 2 ^ 20) = z / 2 ^ 20 := by
  unfold upTo
  rw [div_mul_cancel₀ _ (by positivity), Int.ceil_intCast]
theorem upTo_idem (r : ℝ) : upTo (upTo r) = upTo r := upTo_int _

/-- A coarse format: away from zero, numbers are multiples of `2^-20`. As in `float`, `1e-9 - 1` is rounded to `-1`. -/
noncomputable def coarseRnd (r : ℝ) : ℝ := if 1 / 2 ≤ r then upTo r else if r ≤ -(1 / 2) then -upTo (-r) else r

theorem coarse_big {r : ℝ} (h : 1 / 2 ≤ r) : coarseRnd r = upTo r := if_pos h
theorem coarse_int {z : ℤ} (h : 2 ^ 19 ≤ z) : coarseRnd ((z : ℝ) / 2 ^ 20) = z / 2 ^ 20 := by
  rw [coarse_big, upTo_int]
  rw [le_div_iff₀ (by positivity)]
  have : ((2 ^ 19 : ℤ) : ℝ) ≤ z := by exact_mod_cast h
  norm_num at this ⊢
  exact this

noncomputable def coarseFmt : Fmt where
  rnd := coarseRnd
  M := 2 ^ 30
  P := 2 ^ 20
  mono a b h := by
    have half : upTo (1 / 2) = 1 / 2 := by
      have := upTo_int (2 ^ 19)
      norm_num at this ⊢
      exact this
    unfold coarseRnd
    by_cases ha : 1 / 2 ≤ a
    · rw [if_pos ha, if_pos (by linarith)]
      exact upTo_mono h
    · rw [if_neg ha]
      by_cases ha' : a ≤ -(1 / 2)
      · rw [if_pos ha']
        have l1 : -upTo (-a) ≤ a := by have := upTo_ge (-a); linarith
        by_cases hb : 1 / 2 ≤ b
        · rw [if_pos hb]; have := upTo_ge b; linarith
        · rw [if_neg hb]
          by_cases hb' : b ≤ -(1 / 2)
          · rw [if_pos hb']
            have := upTo_mono (show -b ≤ -a by linarith)
            linarith
          · rw [if_neg hb']; linarith
      · rw [if_neg ha']
        by_cases hb : 1 / 2 ≤ b
        · rw [if_pos hb]; have := upTo_ge b; linarith
        · rw [if_neg hb, if_neg (by linarith)]; exact h
  idem r := by
    unfold coarseRnd
    by_cases ha : 1 / 2 ≤ r
    · have := upTo_ge r
      rw [if_pos ha, if_pos (by linarith), upTo_idem]
    · rw [if_neg ha]
      by_cases ha' : r ≤ -(1 / 2)
      · have := upTo_ge (-r)
        rw [if_pos ha', if_neg (by linarith), if_pos (by linarith), neg_neg, upTo_idem]
      · rw [if_neg ha', if_neg ha, if_neg ha']
  neg r := by
    unfold coarseRnd
    by_cases ha : 1 / 2 ≤ r
    · rw [if_pos ha, if_neg (by linarith), if_pos (by linarith), neg_neg]
    · rw [if_neg ha]
      by_cases ha' : r ≤ -(1 / 2)
      · rw [if_pos ha', if_pos (by linarith), neg_neg]
      · rw [if_neg ha', if_neg (by linarith), if_neg (by linarith)]
  int k _ := by
    rcases Nat.eq_zero_or_pos k with h | h
    · subst h
      unfold coarseRnd
      rw [if_neg (by norm_num), if_neg (by norm_num)]
    · have := coarse_int (z := (k * 2 ^ 20 : Nat)) (by push_cast; nlinarith [show (1 : ℤ) ≤ k by exact_mod_cast h])
      have e : (((k * 2 ^ 20 : Nat) : ℤ) : ℝ) / 2 ^ 20 = k := by push_cast; norm_num
      rw [e] at this
      exact this
  P2 := by norm_num
  PM := by norm_num
  half := by
    have := coarse_int (z := 2 ^ 19) (le_refl _)
    norm_num at this ⊢
    exact this
  small := by
    unfold coarseRnd
    rw [if_neg (by norm_num), if_neg (by norm_num)]
  max := by
    have := coarse_int (z := 2 ^ 50) (by norm_num)
    norm_num at this ⊢
    exact this
  halfMax := by
    have := coarse_int (z := 2 ^ 49) (by norm_num)
    norm_num at this ⊢
    exact this
  over r h := by
    have h1 : (1 / 2 : ℝ) ≤ r := by norm_num at h; linarith
    rw [coarse_big h1]
    have := upTo_ge r
    norm_num at h ⊢
    linarith

/-- The exact mathematical functions. -/
noncomputable def exactLibm : Libm where
  exp := Real.exp
  expm1 := Fn.expm1
  log := Real.log
  log1p r := Real.log (1 + r)
  tanh := Real.tanh
  cosh := Real.cosh
  exp_nonneg r := (Real.exp_pos r).le
  exp_le_one r h := Real.exp_le_one_iff.2 h
  exp_zero := Real.exp_zero
  expm1_range r h := by
    unfold Fn.expm1
    have h1 := Real.exp_pos r
    have h2 := Real.exp_le_one_iff.2 h
    constructor <;> linarith
  log_range r h := ⟨Real.log_nonneg h, by have := Real.log_le_sub_one_of_pos (show 0 < r by linarith); linarith⟩
  log_small r h1 h2 := logBound r h1 h2
  log1p_small r h1 h2 := logBound (1 + r) (by linarith) (by linarith)
  tanh_range r := ⟨(Real.neg_one_lt_tanh r).le, (Real.tanh_lt_one r).le⟩
  cosh_ge r := Real.one_le_cosh r
where
  logBound (r : ℝ) (h1 : 1 / 2 ^ 40 ≤ r) (h2 : r ≤ 2) : |Real.log r| ≤ 64 := by
    have r0 : 0 < r := lt_of_lt_of_le (by positivity) h1
    rw [abs_le]
    constructor
    · have := Real.log_le_log (by positivity) h1
      rw [one_div, Real.log_inv, Real.log_pow] at this
      have h3 := Real.log_le_sub_one_of_pos (show (0 : ℝ) < 2 by norm_num)
      push_cast at this
      linarith
    · have := Real.log_le_sub_one_of_pos r0
      linarith

theorem exp_over : 2 * (2 : ℝ) ^ 30 ≤ Real.exp (2 ^ 30) := by
  have h := Real.add_one_le_exp ((2 : ℝ) ^ 29)
  have e : Real.exp (2 ^ 30) = Real.exp (2 ^ 29) * Real.exp (2 ^ 29) := by
    rw [← Real.exp_add]; norm_num
  rw [e]
  have : (0 : ℝ) < 2 ^ 29 := by positivity
  nlinarith

/-- The hypotheses of the violated statements hold there. -/
example : ∃ x : Num coarseFmt exactLibm, x.Finite ∧ (ActKind.softplus.flt x).Inf := C91_softplus_violated exp_over
example : ∃ x : Num coarseFmt exactLibm, x.Finite ∧ (ActKind.swish.fltD x).NaN := C91_swish_derivative_violated exp_over
example : ∃ y : Num coarseFmt exactLibm, FltLoss.bce (Buf.of [1]) (Buf.of [1]) = .ok y ∧ y.NaN := by
  apply C91_bce_violated
  show coarseRnd (coarseRnd 1e-9 - 1) = -1
  have e : coarseRnd 1e-9 = 1e-9 := by
    unfold coarseRnd
    rw [if_neg (by norm_num), if_neg (by norm_num)]
  rw [e]
  unfold coarseRnd
  rw [if_neg (by norm_num), if_pos (by norm_num)]
  unfold upTo
  have : ⌈(-((1e-9 : ℝ) - 1)) * 2 ^ 20⌉ = 2 ^ 20 := by
    rw [Int.ceil_eq_iff]
    constructor <;> norm_num
  rw [this]
  norm_num
example : ∃ t p : Num coarseFmt exactLibm, t.Finite ∧ p.Finite ∧ ∃ y : Num coarseFmt exactLibm, FltLoss.logcosh (Buf.of [t]) (Buf.of [p]) = .ok y ∧ y.Inf := by
  apply C91_logcosh_violated
  show 2 * (2 : ℝ) ^ 30 ≤ Real.cosh (2 ^ 30)
  rw [Real.cosh_eq]
  have h := Real.add_one_le_exp ((2 : ℝ) ^ 29)
  have e : Real.exp (2 ^ 30) = Real.exp (2 ^ 29) * Real.exp (2 ^ 29) := by
    rw [← Real.exp_add]; norm_num
  have h2 := Real.exp_pos (-(2 : ℝ) ^ 30)
  have h3 : ((2 : ℝ) ^ 29) * 2 ^ 29 ≤ Real.exp (2 ^ 29) * Real.exp (2 ^ 29) := mul_le_mul (by linarith) (by linarith) (by positivity) (by positivity)
  rw [e]
  norm_num at h2 h3 ⊢
  linarith
/-- A finite vector with a huge component: the activations and softmax apply. -/
noncomputable def bigVec : Nat → Num coarseFmt exactLibm := fun i => if i = 0 then (show Num coarseFmt exactLibm from Ext.fin (2 ^ 30)) else 1
theorem bigVec_fin : FiniteVec 2 bigVec := by
  intro i _
  unfold bigVec
  by_cases h : i = 0
  · rw [if_pos h]; exact ⟨_, max_val coarseFmt exactLibm⟩
  · rw [if_neg h]; exact ⟨1, one_val⟩
theorem bigVec_is : VecIs (Buf.of [bigVec 0, bigVec 1]) 2 bigVec := VecIs_of _ _ (fun i hi => by
    match i, hi with
    | 0, _ => rfl
    | 1, _ => rfl)
example : GivesFinite 2 (ActKind.gelu.fltObj.f (Buf.alloc 2) (Buf.of [bigVec 0, bigVec 1])) :=
  (C91_activations_partial .gelu (by decide) (by decide) _ _ 2 bigVec (by simp [Buf.alloc]) bigVec_is bigVec_fin).1
example : Ok ((fltSoftMax : Act (Num coarseFmt exactLibm)).f (Buf.alloc 2) (Buf.of [bigVec 0, bigVec 1]))
    (fun b => ∃ o, VecIs b 2 o ∧ ∀ i, i < 2 → ∃ p, (o i).Val p ∧ 0 ≤ p ∧ p ≤ 1) :=
  (C91_softmax 2 (by decide) (by show 2 ≤ 2 ^ 20; norm_num) _ _ bigVec (by simp [Buf.alloc]) bigVec_is bigVec_fin).1
example : Ok (FltLoss.bce (Buf.of [1]) (Buf.of [(1 : Num wideFmt exactLibm)])) (fun y => y.Finite) :=
  C91_bce_partial (by show (-1 : ℝ) + 1 / 2 ^ 40 ≤ 1e-9 - 1; norm_num) 1 (by show 128 * 1 ≤ 2 ^ 20; norm_num) _ _ (fun _ => 1) (fun _ => 1)
    (VecIs_of _ _ (fun i hi => by match i, hi with | 0, _ => rfl)) (VecIs_of _ _ (fun i hi => by match i, hi with | 0, _ => rfl))
    (fun _ _ => ⟨1, one_val, by norm_num, le_refl _⟩) (fun _ _ => ⟨1, one_val, by norm_num, le_refl _⟩)
example : Ok (FltLoss.cce (Buf.of [1]) (Buf.of [(0 : Num coarseFmt exactLibm)])) (fun y => y.Finite) :=
  C91_cce 1 (by show 64 * 1 ≤ 2 ^ 20; norm_num) _ _ (fun _ => 1) (fun _ => 0)
    (VecIs_of _ _ (fun i hi => by match i, hi with | 0, _ => rfl)) (VecIs_of _ _ (fun i hi => by match i, hi with | 0, _ => rfl))
    (fun _ _ => ⟨1, one_val, by norm_num, le_refl _⟩) (fun _ _ => ⟨0, zero_val, le_refl _, by norm_num⟩)
/-- The argument 50 is inside the safe range of the derivative of `GELU`. -/
example : (ActKind.gelu.fltD (show Num coarseFmt exactLibm from Ext.fin ((50 : Nat) : ℝ))).Finite :=
  C91_gelu_derivative_partial _ _ 50 ⟨rfl, Fmt.rep_nat (F := coarseFmt) 50 (by show 50 ≤ 2 ^ 20; norm_num)⟩ (by rw [abs_of_nonneg (by positivity)])
    (by show 2 * 50 ^ 3 + 2 ≤ 2 ^ 20; norm_num)

end Trixy
