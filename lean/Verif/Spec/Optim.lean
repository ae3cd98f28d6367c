import Verif.Model.Optim
import Verif.Spec.Basic
import Mathlib.Algebra.BigOperators.Group.Finset.Basic
import Mathlib.Analysis.SpecialFunctions.Pow.Real
/- Closed forms of optimizer trajectories. `g t i` is component `i` of the `t`-th gradient, counted from 0. -/
namespace Trixy
open Finset

/-- The buffers `gs` hold the gradients `g 0, g 1, …`, each of `n` components. -/
def Grads {α : Type _} (gs : List (Buf α)) (n : Nat) (g : Nat → Nat → α) : Prop :=
  ∀ t (h : t < gs.length), VecIs gs[t] n (g t)

/-- Velocity after `t` updates: `-lr * Σ_{τ<t} μ^(t-1-τ) g_τ`. -/
def velocity {K : Type _} [CommRing K] (lr mu : K) (g : Nat → Nat → K) (t i : Nat) : K :=
  -(lr * ∑ τ ∈ range t, mu ^ (t - 1 - τ) * g τ i)

/-- Sum of squares of the first `t` gradients. -/
def sumSq (g : Nat → Nat → ℝ) (t i : Nat) : ℝ := ∑ τ ∈ range t, g τ i ^ 2

/-- Exponentially weighted average `(1-β) Σ_{τ<t} β^(t-1-τ) x_τ`. -/
def ewma (beta : ℝ) (x : Nat → ℝ) (t : Nat) : ℝ := (1 - beta) * ∑ τ ∈ range t, beta ^ (t - 1 - τ) * x τ

/-- `detail::invert_sqrt`: Detail/FunctionDetail.hpp:52-56 over the reals. -/
noncomputable def invertSqrt (x : ℝ) : ℝ := 1 / Real.sqrt (1e-9 + x)

end Trixy
