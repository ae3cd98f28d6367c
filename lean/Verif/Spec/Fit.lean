import Verif.Spec.Library
import Verif.Spec.Layer
/-
A single fully connected layer trained through its own interface. (`Training` needs two layers: with one it leaves the container, C38_single_layer.)
The programs below are client programs: they use `forward`, `backward`, `reset`, `accumulate`, `update` of the layer, `df` of the loss and `GradDescent`.
-/
namespace Trixy
open Finset

/-- The combinations of loss class and activation class that give a linear model. -/
inductive FitKind
  | mse | lc | nll | cce

/-- The activation class: `Identity` or `SoftMax`. -/
def FitKind.act : FitKind → LibAct
  | .mse => .elem .identity
  | .lc => .elem .identity
  | .nll => .softmax
  | .cce => .softmax

/-- The object of the loss class. -/
noncomputable def FitKind.loss : FitKind → Loss ℝ
  | .mse => Losses.MSE
  | .lc => Losses.LC
  | .nll => Losses.NLL
  | .cce => Losses.CCE

/-- The textbook loss of `m` components (target, prediction). -/
noncomputable def FitKind.fn (m : Nat) : FitKind → (Nat → ℝ) → (Nat → ℝ) → ℝ
  | .mse => mseFn m
  | .lc => lcFn m
  | .nll => nllFn m
  | .cce => cceFn 0 m

/-- The target has a single 1, at the class `c`. -/
def Hot (m : Nat) (w : Nat → ℝ) (c : Nat) : Prop := c < m ∧ w c = 1 ∧ ∀ j, j < m → j ≠ c → w j = 0

/-- Targets: anything for regression; exactly one class for `NLL`, weights summing to 1 for `CCE`. -/
def FitKind.Target (m : Nat) : FitKind → (Nat → ℝ) → Prop
  | .mse => fun _ => True
  | .lc => fun _ => True
  | .nll => fun w => ∃ c, Hot m w c
  | .cce => fun w => ∑ j ∈ range m, w j = 1

/-- Parameters of a layer. -/
abbrev Theta := (Nat → ℝ) × (Nat → Nat → ℝ)

/-- Σ vᵢ Wᵢⱼ + bⱼ. -/
noncomputable def Theta.sums (n : Nat) (θ : Theta) (v : Nat → ℝ) (j : Nat) : ℝ := ∑ i ∈ range n, v i * θ.2 i j + θ.1 j

/-- Mean loss over the samples (input, target). -/
noncomputable def fitMean (k : FitKind) (n m : Nat) (vs : List ((Nat → ℝ) × (Nat → ℝ))) (θ : Theta) : ℝ :=
  1 / (vs.length : ℝ) * (vs.map (fun vw => k.fn m vw.2 (k.act.fn m (θ.sums n vw.1)))).sum

/-- Squared distance of two sets of parameters. -/
noncomputable def Theta.dist2 (n m : Nat) (θ η : Theta) : ℝ :=
  ∑ j ∈ range m, (θ.1 j - η.1 j) ^ 2 + ∑ i ∈ range n, ∑ j ∈ range m, (θ.2 i j - η.2 i j) ^ 2

/-- Mean of 1 + |x|² over the samples. -/
noncomputable def meanSq (n : Nat) (vs : List ((Nat → ℝ) × (Nat → ℝ))) : ℝ :=
  1 / (vs.length : ℝ) * (vs.map (fun vw => 1 + ∑ i ∈ range n, vw.1 i ^ 2)).sum

/-- Client: the gradients of one sample are added to the sums (`forward`, `df`, `backward`, `accumulate`, FullyConnected.hpp:182-215, 240-246). -/
noncomputable def FC.fitSample (loss : Loss ℝ) (l : FC ℝ) (x y : Ten ℝ) : Res (FC ℝ) := do
  let l ← l.forward x
  let d ← loss.df (Buf.alloc l.osize) y.data l.value.data
  let l ← l.backward x ⟨1, 1, l.osize, d⟩ false
  l.accumulate

/-- Client: the samples of a batch one after the other. -/
noncomputable def FC.fitSamples (loss : Loss ℝ) : FC ℝ → List (Ten ℝ × Ten ℝ) → Res (FC ℝ)
  | l, [] => .ok l
  | l, (x, y) :: B => do
    let l ← l.fitSample loss x y
    l.fitSamples loss B

/-- Client: `reset()`, the samples, `update(GradDescent(lr), 1 / size)` (FullyConnected.hpp:217-238). -/
noncomputable def FC.fitBatch (loss : Loss ℝ) (lr : ℝ) (B : List (Ten ℝ × Ten ℝ)) (l : FC ℝ) : Res (FC ℝ) := do
  let l ← l.reset
  let l ← l.fitSamples loss B
  let (_, l) ← l.update gdUpdate lr (1 / (B.length : ℝ))
  return l

/-- Client: the first `N` batches of a sequence. -/
noncomputable def FC.fit (loss : Loss ℝ) (lr : ℝ) (batch : Nat → List (Ten ℝ × Ten ℝ)) (N : Nat) (l : FC ℝ) : Res (FC ℝ) :=
  forN N l (fun i l => l.fitBatch loss lr (batch i))

/-- The tensors of a batch hold these numbers. -/
def BatchIs (B : List (Ten ℝ × Ten ℝ)) (n m : Nat) (vs : List ((Nat → ℝ) × (Nat → ℝ))) : Prop :=
  List.Forall₂ (fun xy vw => VecIs xy.1.data n vw.1 ∧ VecIs xy.2.data m vw.2) B vs

/-- Some linear model gives, for every sample, the largest weighted sum to the class of the sample. -/
def Separable (n m : Nat) (vs : List ((Nat → ℝ) × (Nat → ℝ))) : Prop :=
  ∃ η : Theta, ∀ vw ∈ vs, ∀ c, Hot m vw.2 c → ∀ j, j < m → j ≠ c → η.sums n vw.1 j < η.sums n vw.1 c

/-- The layer `n → m` has these parameters and the activation of the class `k`. -/
def FC.IsFit (l : FC ℝ) (k : FitKind) (n m : Nat) (θ : Theta) : Prop := l.Wf n m θ.1 θ.2 ∧ l.act = k.act.obj

end Trixy
