import Verif.Spec.Fit
import Verif.Model.Checker
/- Online learning: predict, compare, learn. A client program of one layer. -/
namespace Trixy
open Finset

/-- Client: one round. `forward(x)`; the prediction is compared with the target as `Accuracy::normal` does (Accuracy.hpp:85-104); then one step of training with this
sample. The counter is increased when the comparison fails. -/
noncomputable def FC.onlineRound (loss : Loss ℝ) (lr : ℝ) (x y : Ten ℝ) (s : FC ℝ × Nat) : Res (FC ℝ × Nat) := do
  let l ← s.1.forward x
  let right ← Guide.normal y.data l.value.data
  let l ← l.fitBatch loss lr [(x, y)]
  return (l, if right then s.2 else s.2 + 1)

/-- Client: the first `N` samples of a stream; the layer and the number of wrong predictions. -/
noncomputable def FC.online (loss : Loss ℝ) (lr : ℝ) (x y : Nat → Ten ℝ) (N : Nat) (l : FC ℝ) : Res (FC ℝ × Nat) :=
  forN N (l, 0) (fun t s => FC.onlineRound loss lr (x t) (y t) s)

/-- The loss of the parameters `θ` on the sample (v, w). -/
noncomputable def fitLoss (k : FitKind) (n m : Nat) (v w : Nat → ℝ) (θ : Theta) : ℝ := k.fn m w (k.act.fn m (θ.sums n v))

/-- The parameters `η` give the class of (v, w) a weighted sum larger by `γ` than any other. -/
def Margin (n m : Nat) (γ : ℝ) (η : Theta) (v w : Nat → ℝ) : Prop :=
  ∀ c, Hot m w c → ∀ j, j < m → j ≠ c → η.sums n v j + γ ≤ η.sums n v c

end Trixy
