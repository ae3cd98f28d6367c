import Verif.Model.Regression
import Verif.Spec.Mat
import Mathlib.Algebra.BigOperators.Intervals
/- What the regressions predict, and sums of squared residuals. -/
namespace Trixy
universe u
open Finset

variable {α : Type u}

/-- A regression with the weights `w 0 … w k`. -/
def Reg.Is (r : Reg α) (k : Nat) (w : Nat → α) : Prop := r.N = k + 1 ∧ VecIs r.W (k + 1) w

/-- A regression with `k + 1` weight cells (not necessarily initialised). -/
def Reg.Sized (r : Reg α) (k : Nat) : Prop := r.N = k + 1 ∧ r.W.length = k + 1

/-- Linear prediction for a sample of `k` features: w₀ + Σⱼ xⱼ w_{j+1}. -/
def linPred [Semiring α] (k : Nat) (w x : Nat → α) : α := w 0 + ∑ j ∈ range k, x j * w (j + 1)

/-- Polynomial prediction of degree `k`: Σⱼ wⱼ xʲ. -/
def polyPred [Semiring α] (k : Nat) (w : Nat → α) (x : α) : α := ∑ j ∈ range (k + 1), x ^ j * w j

/-- Sum of squared residuals of the predictions `p` on `h` samples. -/
def rss [Ring α] (h : Nat) (y p : Nat → α) : α := ∑ i ∈ range h, (y i - p i) ^ 2

end Trixy
