import Verif.Spec.Symmetry
/- Vocabulary for what networks can and cannot represent. -/
namespace Trixy

/-- The network `FullyConnected(n, k, ReLU)`, `FullyConnected(k, m, act)`: hidden weights `A` and biases `b`, output weights `C` and biases `c`. -/
def reluNet (n k m : Nat) (act : LibAct) (A : Nat → Nat → ℝ) (b : Nat → ℝ) (C : Nat → Nat → ℝ) (c : Nat → ℝ) : List LibLayer :=
  [⟨n, k, b, A, .elem .relu⟩, ⟨k, m, c, C, act⟩]

/-- For every input of components `v` the network returns the components `y`. -/
def Net.Returns (net : Net ℝ) (n m : Nat) (v y : Nat → ℝ) : Prop :=
  ∀ x : Ten ℝ, VecIs x.data n v → Ok (Net.feedforward x net) (fun r => RowIs r.2 m y)

/-- For every input of components `v` the network returns components that satisfy `Q`. -/
def Net.ReturnsWith (net : Net ℝ) (n m : Nat) (v : Nat → ℝ) (Q : (Nat → ℝ) → Prop) : Prop :=
  ∀ x : Ten ℝ, VecIs x.data n v → Ok (Net.feedforward x net) (fun r => ∃ y, RowIs r.2 m y ∧ Q y)

/-- No two of the first `N` points of `n` components are the same. -/
def DistinctInputs (n N : Nat) (v : Nat → Nat → ℝ) : Prop := ∀ i j, i < N → j < N → (∀ q, q < n → v i q = v j q) → i = j

/-- Every layer has the activation `Identity`. -/
def AllIdentity (ls : List LibLayer) : Prop := ∀ l ∈ ls, l.act = .elem .identity

/-- The two components (a, b). -/
def pairIn (a b : ℝ) : Nat → ℝ := fun i => if i = 0 then a else b

end Trixy
