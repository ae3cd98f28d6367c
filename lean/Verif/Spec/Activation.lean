import Verif.Model.Scalar
import Verif.Spec.Layer
import Mathlib.Analysis.Calculus.Deriv.Basic
/- Textbook definitions of the activation functions, and where they have kinks. -/
namespace Trixy

/-- The mathematical function of each activation class. -/
noncomputable def ActKind.fn : ActKind → ℝ → ℝ
  | .identity, x => x
  | .relu, x => max x 0
  | .elu, x => max x 0 + 0.2 * (Real.exp (min x 0) - 1)
  | .lrelu, x => max x (0.01 * x)
  | .selu, x => 1.050701 * max x 0 + 1.758099 * (Real.exp (min x 0) - 1)
  | .gelu, x => x / 2 * (1 + Real.tanh (0.797885 * x + 0.0356774 * x ^ 3))
  | .sigmoid, x => (1 + Real.exp (-x))⁻¹
  | .tanh, x => Real.tanh x
  | .softsign, x => x / (1 + |x|)
  | .softplus, x => Real.log (1 + Real.exp x)
  | .swish, x => x * (1 + Real.exp (-x))⁻¹
  | .modRelu, x => 0.01 * x + 0.99 * min (max x 0) 1
  | .modTanh, x => Real.tanh (max x 0) + 0.01 * Real.tanh (min x 0)

/-- The points where the function has different one-sided derivatives. -/
def ActKind.kinks : ActKind → Set ℝ
  | .relu | .elu | .lrelu | .selu | .modTanh => {0}
  | .modRelu => {0, 1}
  | _ => ∅

end Trixy
