import Verif.Model.Softmax
import Verif.Model.Loss
import Verif.Spec.NetDeriv
/- Textbook loss functions of `m` components and the softmax distribution. Argument order: target, prediction. -/
namespace Trixy
open Finset

/-- e^{vᵢ} / Σⱼ e^{vⱼ}. -/
noncomputable def softmaxFn (n : Nat) (v : Nat → ℝ) (i : Nat) : ℝ := Real.exp (v i) / ∑ j ∈ range n, Real.exp (v j)

noncomputable def mseFn (m : Nat) (t p : Nat → ℝ) : ℝ := (1 / 2) * ∑ i ∈ range m, (p i - t i) ^ 2
noncomputable def maeFn (m : Nat) (t p : Nat → ℝ) : ℝ := ∑ i ∈ range m, |p i - t i|
noncomputable def msleFn (m : Nat) (t p : Nat → ℝ) : ℝ := (1 / 2) * ∑ i ∈ range m, (Real.log (p i + 1) - Real.log (t i + 1)) ^ 2
noncomputable def lcFn (m : Nat) (t p : Nat → ℝ) : ℝ := ∑ i ∈ range m, Real.log (Real.cosh (p i - t i))
/-- -Σ tᵢ log (pᵢ + ε); the code uses ε = 10⁻⁹. -/
noncomputable def cceFn (ε : ℝ) (m : Nat) (t p : Nat → ℝ) : ℝ := -∑ i ∈ range m, t i * Real.log (p i + ε)
/-- -Σ (tᵢ log (pᵢ + ε) + (1 - tᵢ) log (1 - pᵢ + ε)). -/
noncomputable def bceFn (ε : ℝ) (m : Nat) (t p : Nat → ℝ) : ℝ :=
  -∑ i ∈ range m, (t i * Real.log (p i + ε) + (1 - t i) * Real.log (1 - p i + ε))
/-- -log Σ tᵢ pᵢ. -/
noncomputable def nllFn (m : Nat) (t p : Nat → ℝ) : ℝ := -Real.log (∑ i ∈ range m, t i * p i)

/-- The loss's value function on buffers of `m` cells is `L`. -/
def ValueIs (f : Buf ℝ → Buf ℝ → Res ℝ) (m : Nat) (L : (Nat → ℝ) → (Nat → ℝ) → ℝ) (dom : (Nat → ℝ) → (Nat → ℝ) → Prop) : Prop :=
  ∀ (t p : Buf ℝ) (vt vp : Nat → ℝ), VecIs t m vt → VecIs p m vp → dom vt vp → f t p = .ok (L vt vp)

/-- The derivative function writes the vector `g` of partial derivatives of `L` with respect to the prediction: for every
component, and for every prediction in the domain. -/
def GradientIs (df : Buf ℝ → Buf ℝ → Buf ℝ → Res (Buf ℝ)) (m : Nat) (L : (Nat → ℝ) → (Nat → ℝ) → ℝ) (dom : (Nat → ℝ) → (Nat → ℝ) → Prop) : Prop :=
  ∀ (r t p : Buf ℝ) (vt vp : Nat → ℝ), r.length = m → VecIs t m vt → VecIs p m vp → dom vt vp →
    ∃ g : Nat → ℝ, Ok (df r t p) (fun r' => VecIs r' m g) ∧
      (∀ i, i < m → HasDerivAt (fun z => L vt (setAt vp i z)) (g i) (vp i)) ∧ LossDiffAt L (fun _ _ => g) m vt vp

end Trixy
