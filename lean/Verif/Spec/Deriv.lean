import Mathlib.Analysis.Calculus.Deriv.Basic
import Mathlib.Algebra.BigOperators.Intervals
/- Real-valued layer functions used to state the gradient properties. -/
namespace Trixy
open Finset

/-- Pre-activation of output `k`: Σᵢ xᵢ Wᵢₖ + bₖ. -/
noncomputable def pre (n : Nat) (W : Nat → Nat → ℝ) (b x : Nat → ℝ) (k : Nat) : ℝ := ∑ i ∈ range n, x i * W i k + b k

/-- The matrix `W` with entry (i,j) replaced by `t`. -/
def setEntry (W : Nat → Nat → ℝ) (i j : Nat) (t : ℝ) : Nat → Nat → ℝ :=
  fun i' j' => if i' = i ∧ j' = j then t else W i' j'

/-- The vector `v` with entry `i` replaced by `t`. -/
def setAt (v : Nat → ℝ) (i : Nat) (t : ℝ) : Nat → ℝ := fun i' => if i' = i then t else v i'

end Trixy
