import Verif.Model.Flt
import Mathlib.Data.Real.Basic
/-
Floating-point numbers with infinities and NaN. A format is given by its rounding function, its largest number and the range in
which all integers are representable; `float` and `double` with round-to-nearest are such formats. The functions of `<cmath>` are
only assumed to stay in the range of the functions they approximate. Simplifications: the two zeros are not distinguished (a
division by zero behaves as a division by +0), NaN has no payload.
-/
namespace Trixy

/-- A floating-point format. `rnd` rounds a real number, as if there were no largest number; a result beyond the largest number
`M` is an infinity. -/
structure Fmt where
  rnd : ℝ → ℝ
  M : ℝ
  P : ℕ
  mono : ∀ a b, a ≤ b → rnd a ≤ rnd b
  idem : ∀ r, rnd (rnd r) = rnd r
  neg : ∀ r, rnd (-r) = -rnd r
  /-- Integers up to `P` are representable (`P = 2^24` for `float`). -/
  int : ∀ k : ℕ, k ≤ P → rnd k = k
  P2 : 64 ≤ P
  PM : (P : ℝ) ≤ M / 2
  half : rnd (1 / 2) = 1 / 2
  small : rnd (1 / 2 ^ 40) = 1 / 2 ^ 40
  max : rnd M = M
  halfMax : rnd (M / 2) = M / 2
  over : ∀ r, 2 * M ≤ r → M < rnd r

/-- The functions of `<cmath>` before rounding: only their ranges are assumed. -/
structure Libm where
  exp : ℝ → ℝ
  expm1 : ℝ → ℝ
  log : ℝ → ℝ
  log1p : ℝ → ℝ
  tanh : ℝ → ℝ
  cosh : ℝ → ℝ
  exp_nonneg : ∀ r, 0 ≤ exp r
  exp_le_one : ∀ r, r ≤ 0 → exp r ≤ 1
  exp_zero : exp 0 = 1
  expm1_range : ∀ r, r ≤ 0 → -1 ≤ expm1 r ∧ expm1 r ≤ 0
  log_range : ∀ r, 1 ≤ r → 0 ≤ log r ∧ log r ≤ r
  log_small : ∀ r, 1 / 2 ^ 40 ≤ r → r ≤ 2 → |log r| ≤ 64
  log1p_small : ∀ r, -1 + 1 / 2 ^ 40 ≤ r → r ≤ 1 → |log1p r| ≤ 64
  tanh_range : ∀ r, -1 ≤ tanh r ∧ tanh r ≤ 1
  cosh_ge : ∀ r, 1 ≤ cosh r

/-- A floating-point number: a finite one, an infinity, or NaN. -/
inductive Ext
  | fin (r : ℝ)
  | pinf
  | ninf
  | nan

/-- The numbers of the format `F`, with the mathematical functions `L`. -/
def Num (_F : Fmt) (_L : Libm) : Type := Ext

namespace Ext

/-- The number an operation with the exact result `z` gives. -/
noncomputable def round (F : Fmt) (z : ℝ) : Ext :=
  if |F.rnd z| ≤ F.M then fin (F.rnd z) else if 0 < z then pinf else ninf

/-- The infinity with the sign of `z`; NaN for zero. -/
noncomputable def inf (z : ℝ) : Ext := if 0 < z then pinf else if z < 0 then ninf else nan

noncomputable def add (F : Fmt) : Ext → Ext → Ext
  | fin a, fin b => round F (a + b)
  | pinf, fin _ | fin _, pinf | pinf, pinf => pinf
  | ninf, fin _ | fin _, ninf | ninf, ninf => ninf
  | _, _ => nan

def neg : Ext → Ext
  | fin a => fin (-a)
  | pinf => ninf
  | ninf => pinf
  | nan => nan

noncomputable def sub (F : Fmt) (a b : Ext) : Ext := add F a (neg b)

noncomputable def mul (F : Fmt) : Ext → Ext → Ext
  | fin a, fin b => round F (a * b)
  | pinf, fin a | fin a, pinf => inf a
  | ninf, fin a | fin a, ninf => inf (-a)
  | pinf, pinf | ninf, ninf => pinf
  | pinf, ninf | ninf, pinf => ninf
  | _, _ => nan

noncomputable def div (F : Fmt) : Ext → Ext → Ext
  | fin a, fin b => if b = 0 then inf a else round F (a / b)
  | fin _, pinf | fin _, ninf => fin 0
  | pinf, fin b => if b < 0 then ninf else pinf
  | ninf, fin b => if b < 0 then pinf else ninf
  | _, _ => nan

def lt : Ext → Ext → Prop
  | fin a, fin b => a < b
  | fin _, pinf | ninf, fin _ | ninf, pinf => True
  | _, _ => False

/-- A function on finite numbers with its values at the infinities. -/
noncomputable def fn (F : Fmt) (f : ℝ → ℝ) (atN atP : Ext) : Ext → Ext
  | fin a => round F (f a)
  | ninf => atN
  | pinf => atP
  | nan => nan

noncomputable def log (F : Fmt) (f : ℝ → ℝ) (pole : ℝ) : Ext → Ext
  | fin a => if a < pole then nan else if a = pole then ninf else round F (f a)
  | pinf => pinf
  | _ => nan

def fabs : Ext → Ext
  | fin a => fin |a|
  | ninf => pinf
  | x => x

end Ext

variable {F : Fmt} {L : Libm}

open Classical in
noncomputable instance : Flt (Num F L) where
  zero := Ext.fin 0
  one := Ext.fin 1
  add := Ext.add F
  sub := Ext.sub F
  mul := Ext.mul F
  div := Ext.div F
  neg := Ext.neg
  lt := Ext.lt
  lit q := Ext.round F q
  exp := Ext.fn F L.exp (.fin 0) .pinf
  expm1 := Ext.fn F L.expm1 (.fin (-1)) .pinf
  log := Ext.log F L.log 0
  log1p := Ext.log F L.log1p (-1)
  tanh := Ext.fn F L.tanh (.fin (-1)) (.fin 1)
  cosh := Ext.fn F L.cosh .pinf .pinf
  fabs := Ext.fabs
  decLT a b := Classical.propDecidable _

/-- The number itself. -/
abbrev Num.ext (x : Num F L) : Ext := x

/-- `x` is a finite number of the format with value `r`. -/
def Num.Val (x : Num F L) (r : ℝ) : Prop := x.ext = .fin r ∧ F.rnd r = r ∧ |r| ≤ F.M
/-- `x` is a finite number. -/
def Num.Finite (x : Num F L) : Prop := ∃ r, x.Val r
/-- `x` is not a number. -/
def Num.NaN (x : Num F L) : Prop := x.ext = .nan
/-- `x` is an infinity. -/
def Num.Inf (x : Num F L) : Prop := x.ext = .pinf ∨ x.ext = .ninf

end Trixy
