import Verif.Spec.Net
import Verif.Spec.Deriv
/- Differentiability of dense networks and losses. -/
namespace Trixy
open Finset

/-- Every activation of the stack is element-wise, `F v i = g (v i)`, and its companion computes `g'`, the derivative of `g`
at the pre-activations that occur for input `v`. -/
def DiffAt : List (Dense ℝ) → (Nat → ℝ) → Prop
  | [], _ => True
  | p :: ps, v => (∃ g g' : ℝ → ℝ, p.F = (fun v i => g (v i)) ∧ p.D = (fun v i => g' (v i)) ∧
      ∀ k, k < p.m → HasDerivAt g (g' (pre p.n p.W p.b v k)) (pre p.n p.W p.b v k)) ∧ DiffAt ps (p.out v)

/-- `dL w y` is the gradient of `L w` at `y` (chain-rule form: along every differentiable curve through `y`). -/
def LossDiffAt (L : (Nat → ℝ) → (Nat → ℝ) → ℝ) (dL : (Nat → ℝ) → (Nat → ℝ) → Nat → ℝ) (m : Nat) (w y : Nat → ℝ) : Prop :=
  ∀ (yc : ℝ → Nat → ℝ) (y' : Nat → ℝ) (t0 : ℝ), (∀ k, k < m → yc t0 k = y k) → (∀ k, k < m → HasDerivAt (fun t => yc t k) (y' k) t0) →
    HasDerivAt (fun t => L w (yc t)) (∑ k ∈ range m, dL w y k * y' k) t0

end Trixy
