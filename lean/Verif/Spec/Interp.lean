import Verif.Spec.Fit
/- Parameters that fit a data set exactly. -/
namespace Trixy

/-- The predictions of the model with parameters `η` are the targets of all samples. -/
def ExactFit (k : FitKind) (n m : Nat) (data : List ((Nat → ℝ) × (Nat → ℝ))) (η : Theta) : Prop :=
  ∀ vw ∈ data, ∀ j, j < m → k.act.fn m (η.sums n vw.1) j = vw.2 j

end Trixy
