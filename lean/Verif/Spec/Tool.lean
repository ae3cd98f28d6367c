import Verif.Model.Tool
import Verif.Spec.Mat
/- Specification vocabulary for the search and sampling tools. -/
namespace Trixy

variable {α : Type _}

/-- `lt` is a strict weak order (what `<` on numbers without NaN is). -/
structure StrictWeak (lt : α → α → Bool) : Prop where
  irrefl : ∀ a, lt a a = false
  trans : ∀ a b c, lt a b = true → lt b c = true → lt a c = true
  incomp : ∀ a b c, lt a b = false → lt b c = false → lt a c = false

/-- `i` is the least index of a maximal element among `f 0 … f (n-1)`: in range, no element is above it, and
every earlier element is strictly below it. -/
def IsFirstMax (lt : α → α → Bool) (f : Nat → α) (n i : Nat) : Prop :=
  i < n ∧ (∀ j, j < n → lt (f i) (f j) = false) ∧ ∀ j, j < i → lt (f j) (f i) = true

/-- The same for minimal elements. -/
def IsFirstMin (lt : α → α → Bool) (f : Nat → α) (n i : Nat) : Prop :=
  i < n ∧ (∀ j, j < n → lt (f j) (f i) = false) ∧ ∀ j, j < i → lt (f i) (f j) = true

/-- Positions of a `rows × w` block whose first cell is at position `A` in a row-major array of row width
`W`, in row-major order. -/
def blockCells (A rows w W : Nat) : List Nat :=
  (List.range rows).flatMap (fun r => (List.range w).map (fun j => A + r * W + j))

end Trixy
