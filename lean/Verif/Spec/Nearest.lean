import Verif.Spec.Fit
/- Optimal parameters of a linear model. -/
namespace Trixy
open Finset

/-- No parameters have a smaller mean loss on the samples. -/
def IsBest (k : FitKind) (n m : Nat) (vs : List ((Nat → ℝ) × (Nat → ℝ))) (η : Theta) : Prop := ∀ θ : Theta, fitMean k n m vs η ≤ fitMean k n m vs θ

/-- Sum of the products of the parameters, entry by entry. -/
noncomputable def Theta.inner (n m : Nat) (θ η : Theta) : ℝ := ∑ j ∈ range m, θ.1 j * η.1 j + ∑ i ∈ range n, ∑ j ∈ range m, θ.2 i j * η.2 i j

/-- Sum of the squares of the parameters. -/
noncomputable def Theta.size2 (n m : Nat) (θ : Theta) : ℝ := ∑ j ∈ range m, θ.1 j ^ 2 + ∑ i ∈ range n, ∑ j ∈ range m, θ.2 i j ^ 2

open Filter Topology in
/-- Every parameter converges. -/
def ThetaTendsto (n m : Nat) (P : Nat → Theta) (p : Theta) : Prop :=
  (∀ j, j < m → Tendsto (fun N => (P N).1 j) atTop (𝓝 (p.1 j))) ∧ ∀ i j, i < n → j < m → Tendsto (fun N => (P N).2 i j) atTop (𝓝 (p.2 i j))

end Trixy
