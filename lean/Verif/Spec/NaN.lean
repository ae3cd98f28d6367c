import Verif.Model.Flt
import Mathlib.Algebra.Order.Ring.Rat
/-
What is assumed of floating-point numbers with NaN. `float` and `double` (IEEE 754) satisfy all of it: every operation with a NaN
operand gives a NaN, comparisons with NaN are false, and `<` on the other values (infinities and both zeros included) is a
strict weak order.
-/
namespace Trixy

class NaNs (α : Type) [Flt α] where
  nan : α → Prop
  add : ∀ a b : α, nan a ∨ nan b → nan (a + b)
  sub : ∀ a b : α, nan a ∨ nan b → nan (a - b)
  mul : ∀ a b : α, nan a ∨ nan b → nan (a * b)
  div : ∀ a b : α, nan a ∨ nan b → nan (a / b)
  neg : ∀ a : α, nan a → nan (-a)
  exp : ∀ a : α, nan a → nan (Flt.exp a)
  expm1 : ∀ a : α, nan a → nan (Flt.expm1 a)
  log : ∀ a : α, nan a → nan (Flt.log a)
  log1p : ∀ a : α, nan a → nan (Flt.log1p a)
  tanh : ∀ a : α, nan a → nan (Flt.tanh a)
  cosh : ∀ a : α, nan a → nan (Flt.cosh a)
  fabs : ∀ a : α, nan a → nan (Flt.fabs a)
  zero : ¬ nan (0 : α)
  lt : ∀ a b : α, nan a ∨ nan b → ¬ a < b
  irrefl : ∀ a : α, ¬ a < a
  trans : ∀ a b c : α, a < b → b < c → a < c
  incomp : ∀ a b c : α, ¬ nan a → ¬ nan b → ¬ nan c → ¬ a < b → ¬ b < c → ¬ a < c

/-- A witness: the rationals with one more value, NaN (the functions of `<cmath>` are represented by the identity; only their
behaviour on NaN matters here). -/
inductive RatNaN
  | num (q : Rat)
  | nan
  deriving DecidableEq

namespace RatNaN

def map (f : Rat → Rat) : RatNaN → RatNaN
  | num x => num (f x)
  | nan => nan

def two (f : Rat → Rat → Rat) : RatNaN → RatNaN → RatNaN
  | num x, num y => num (f x y)
  | _, _ => nan

def below : RatNaN → RatNaN → Bool
  | num x, num y => decide (x < y)
  | _, _ => false

instance : Flt RatNaN where
  zero := num 0
  one := num 1
  add := two (· + ·)
  sub := two (· - ·)
  mul := two (· * ·)
  div := two (· / ·)
  neg := map (- ·)
  lt a b := below a b = true
  lit := num
  exp a := a
  expm1 a := a
  log a := a
  log1p a := a
  tanh a := a
  cosh a := a
  fabs a := map (fun x => if x < 0 then -x else x) a
  decLT a b := inferInstanceAs (Decidable (below a b = true))

theorem two_nan (f : Rat → Rat → Rat) (a b : RatNaN) (h : a = nan ∨ b = nan) : two f a b = nan := by
  rcases h with h | h <;> subst h
  · rfl
  · cases a <;> rfl

instance : NaNs RatNaN where
  nan a := a = nan
  add a b h := two_nan _ a b h
  sub a b h := two_nan _ a b h
  mul a b h := two_nan _ a b h
  div a b h := two_nan _ a b h
  neg a h := by subst h; rfl
  exp a h := h
  expm1 a h := h
  log a h := h
  log1p a h := h
  tanh a h := h
  cosh a h := h
  fabs a h := by subst h; rfl
  zero h := by cases h
  lt a b h := by
    rcases h with h | h <;> subst h
    · exact fun h => by cases h
    · cases a <;> exact fun h => by cases h
  irrefl a h := by
    cases a with
    | num x => exact absurd (of_decide_eq_true h) (lt_irrefl x)
    | nan => cases h
  trans a b c h1 h2 := by
    cases a with
    | nan => cases h1
    | num x =>
      cases b with
      | nan => cases h1
      | num y =>
        cases c with
        | nan => cases h2
        | num z => exact decide_eq_true (lt_trans (of_decide_eq_true h1) (of_decide_eq_true h2))
  incomp a b c ha hb hc h1 h2 h3 := by
    cases a with
    | nan => exact ha rfl
    | num x =>
      cases b with
      | nan => exact hb rfl
      | num y =>
        cases c with
        | nan => exact hc rfl
        | num z =>
          have h1 : ¬ x < y := fun h => h1 (decide_eq_true h)
          have h2 : ¬ y < z := fun h => h2 (decide_eq_true h)
          exact absurd (of_decide_eq_true h3) (not_lt.2 (le_trans (not_lt.1 h2) (not_lt.1 h1)))

end RatNaN

end Trixy
