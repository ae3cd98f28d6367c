import Verif.Spec.Schedule
/- The client programs of `Spec/Fit` and `Spec/Schedule` with one optimizer object that lives during the whole run; its state is threaded through the updates. -/
namespace Trixy

/-- Client: as `FC.fitBatch`, with an optimizer object that exists already (FullyConnected.hpp:217-238). -/
noncomputable def FC.fitBatchWith (loss : Loss ℝ) (B : List (Ten ℝ × Ten ℝ)) (s : ℝ × FC ℝ) : Res (ℝ × FC ℝ) := do
  let l ← s.2.reset
  let l ← l.fitSamples loss B
  l.update gdUpdate s.1 (1 / (B.length : ℝ))

/-- Client: `N` batches with the same optimizer object. -/
noncomputable def FC.fitWith (loss : Loss ℝ) (batch : Nat → List (Ten ℝ × Ten ℝ)) (N : Nat) (s : ℝ × FC ℝ) : Res (ℝ × FC ℝ) :=
  forN N s (fun i s => FC.fitBatchWith loss (batch i) s)

/-- Client: `E` epochs with the same optimizer object; `optimizer.learning_rate(rate e)` before each (GradDescent.hpp:52). -/
noncomputable def FC.fitEpochsWith (loss : Loss ℝ) (rate : Nat → ℝ) (batch : Nat → Nat → List (Ten ℝ × Ten ℝ)) (K E : Nat) (s : ℝ × FC ℝ) : Res (ℝ × FC ℝ) :=
  forN E s (fun e s => FC.fitWith loss (batch e) K (rate e, s.2))

/-- A constructed object with this learning rate, and the layer a program leaves behind. -/
def withRate (lr : ℝ) (r : Res (FC ℝ)) : Res (ℝ × FC ℝ) := r.bind (fun l => .ok (lr, l))

end Trixy
