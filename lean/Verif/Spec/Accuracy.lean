import Verif.Spec.Checker
import Verif.Spec.Fit
/- Predictions that are probabilities. -/
namespace Trixy
open Finset

/-- The predictions for the inputs `D` are `m` non-negative numbers with sum 1. -/
def Probabilities {ι : Type} (D : ι → Prop) (m : Nat) (F : ι → Nat → ℝ) : Prop := ∀ x, D x → (∀ j, j < m → 0 ≤ F x j) ∧ ∑ j ∈ range m, F x j = 1

/-- Every target of the `N` samples is a class. -/
def HotTargets (N m : Nat) (y : Nat → Nat → ℝ) : Prop := ∀ i, i < N → ∃ c, Hot m (y i) c

end Trixy
