import Verif.Spec.Fit
/-
A single fully connected layer trained through its own interface with `StoGradDescent(lr, decay)`. The programs are client programs, as in Spec/Fit.lean.
-/
namespace Trixy
open Finset

/-- Client: `reset()`, the samples, `update(StoGradDescent(lr, decay), 1 / size)` (FullyConnected.hpp:217-238). -/
noncomputable def FC.decayBatch (loss : Loss ℝ) (opt : Sgd ℝ) (B : List (Ten ℝ × Ten ℝ)) (l : FC ℝ) : Res (FC ℝ) := do
  let l ← l.reset
  let l ← l.fitSamples loss B
  let (_, l) ← l.update sgdUpdate opt (1 / (B.length : ℝ))
  return l

/-- Client: the first `N` batches of a sequence. -/
noncomputable def FC.decayFit (loss : Loss ℝ) (opt : Sgd ℝ) (batch : Nat → List (Ten ℝ × Ten ℝ)) (N : Nat) (l : FC ℝ) : Res (FC ℝ) :=
  forN N l (fun i l => l.decayBatch loss opt (batch i))

/-- Sum of the squares of the parameters. -/
noncomputable def Theta.norm2 (n m : Nat) (θ : Theta) : ℝ := ∑ j ∈ range m, θ.1 j ^ 2 + ∑ i ∈ range n, ∑ j ∈ range m, θ.2 i j ^ 2

/-- The regularised loss: mean loss + decay / 2 · |θ|². -/
noncomputable def ridge (k : FitKind) (n m : Nat) (decay : ℝ) (vs : List ((Nat → ℝ) × (Nat → ℝ))) (θ : Theta) : ℝ :=
  fitMean k n m vs θ + decay / 2 * θ.norm2 n m

/-- The losses with bounded gradients. -/
inductive Steep : FitKind → Nat → ℝ → Prop
  | lc (m : Nat) : Steep .lc m m
  | nll (m : Nat) : Steep .nll m 2

end Trixy
