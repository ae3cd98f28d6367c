import Verif.Spec.Fit
/- Training with a learning rate that changes from epoch to epoch. -/
namespace Trixy
open Finset

/-- Client: `E` epochs of `K` batches; before epoch `e` the client sets the learning rate of the optimizer to `rate e` (GradDescent.hpp:51-52). -/
noncomputable def FC.fitEpochs (loss : Loss ℝ) (rate : Nat → ℝ) (batch : Nat → Nat → List (Ten ℝ × Ten ℝ)) (K E : Nat) (l : FC ℝ) : Res (FC ℝ) :=
  forN E l (fun e l => l.fit loss (rate e) (batch e) K)

/-- Sum of the mean losses of the batches of one epoch. -/
noncomputable def epochLoss (k : FitKind) (n m K : Nat) (vs : Fin K → List ((Nat → ℝ) × (Nat → ℝ))) (θ : Theta) : ℝ := ∑ q : Fin K, fitMean k n m (vs q) θ

end Trixy
