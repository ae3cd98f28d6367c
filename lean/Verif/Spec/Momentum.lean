import Verif.Spec.Fit
/-
A single fully connected layer trained through its own interface with `Momentum` or `Nestorov` (client programs, as in Spec/Fit.lean).
-/
namespace Trixy
open Finset

/-- Client: `reset()`, the samples, `update(optimizer, 1 / size)` (FullyConnected.hpp:217-238); the optimizer keeps its state. -/
noncomputable def FC.optBatch {σ : Type} (upd : Upd σ ℝ) (loss : Loss ℝ) (B : List (Ten ℝ × Ten ℝ)) (s : σ × FC ℝ) : Res (σ × FC ℝ) := do
  let l ← s.2.reset
  let l ← l.fitSamples loss B
  l.update upd s.1 (1 / (B.length : ℝ))

/-- Client: `N` steps with the same data set, from the optimizer `opt`. -/
noncomputable def FC.optFit {σ : Type} (upd : Upd σ ℝ) (opt : σ) (loss : Loss ℝ) (B : List (Ten ℝ × Ten ℝ)) (N : Nat) (l : FC ℝ) : Res (σ × FC ℝ) :=
  forN N (opt, l) (fun _ s => FC.optBatch upd loss B s)

/-- The two optimizer classes with momentum. -/
inductive MomKind
  | momentum | nestorov

/-- Their `update` (Momentum.hpp:81-94, Nestorov.hpp:79-94). -/
noncomputable def MomKind.upd : MomKind → Upd (Mom ℝ) ℝ
  | .momentum => momUpdate
  | .nestorov => nesUpdate

/-- Learning rates for which the theorems hold: `lr · mean(1 + |x|²)` below `1 - momentum` for `Momentum`, at most 1 for `Nestorov`. -/
def MomKind.Rate (lr mu s : ℝ) : MomKind → Prop
  | .momentum => lr * s < 1 - mu
  | .nestorov => lr * s ≤ 1

end Trixy
