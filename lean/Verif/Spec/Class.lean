import Verif.Spec.Library
import Verif.Spec.Net
/- Which of the library's activations keep the order of the components of a vector. -/
namespace Trixy

/-- All of them but `ReLU`, `GELU` and `Swish`. -/
def LibAct.Ordered : LibAct → Prop
  | .elem k => k ≠ .relu ∧ k ≠ .gelu ∧ k ≠ .swish
  | .softmax => True

/-- The index `argmax` finds in the output of `net.feedforward(x)`: the predicted class. -/
noncomputable def Net.predict (net : Net ℝ) (x : Ten ℝ) : Res Nat := do
  let (_, y) ← Net.feedforward x net
  argmax (fun a b => decide (a < b)) y.data

/-- The network `pre` followed by a dense layer, and the same with another activation in the dense layer. -/
def withLast (pre : Net ℝ) (f : FC ℝ) (a : Act ℝ) : Net ℝ := pre ++ [.fc { f with act := a }]

end Trixy
