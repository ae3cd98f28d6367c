import Verif.Spec.Symmetry
import Verif.Spec.Class
/- How much a change of the input can change the output. -/
namespace Trixy
open Finset

/-- A bound on the slope of each activation function. -/
noncomputable def ActKind.gain : ActKind → ℝ
  | .selu => 1.758099
  | .gelu => 7 / 4
  | .swish => 5 / 4
  | .sigmoid => 1 / 4
  | _ => 1

/-- The same for all activation classes. -/
noncomputable def LibAct.gain : LibAct → ℝ
  | .elem k => k.gain
  | .softmax => 1 / 2

/-- `K` bounds the sum of the absolute weights that lead to a unit of the layer. -/
def LibLayer.Weighs (l : LibLayer) (K : ℝ) : Prop := 0 ≤ K ∧ ∀ j, j < l.m → ∑ i ∈ range l.n, |l.W i j| ≤ K

/-- The product of the slopes and weight bounds along the network. -/
noncomputable def libGain : List LibLayer → List ℝ → ℝ
  | l :: ls, K :: Ks => l.act.gain * K * libGain ls Ks
  | _, _ => 1

/-- Bounds for a layer whose parameters have been changed: `K` on the absolute weights into a unit after the change, `δ` on the changes of these weights,
`β` on the change of its bias, `M` on the values that enter the layer before the change. -/
structure NearBound where
  K : ℝ
  δ : ℝ
  β : ℝ
  M : ℝ

/-- The layer `l'` is `l` with parameters changed within those bounds. -/
structure LibLayer.Near (l l' : LibLayer) (B : NearBound) : Prop where
  n : l'.n = l.n
  m : l'.m = l.m
  act : l'.act = l.act
  K : l'.Weighs B.K
  M : 0 ≤ B.M
  W : ∀ j, j < l.m → ∑ i ∈ range l.n, |l'.W i j - l.W i j| ≤ B.δ
  b : ∀ j, j < l.m → |l'.b j - l.b j| ≤ B.β

/-- The networks are the same up to changes of the parameters within the bounds, and on the input `v` the values that enter a layer of the first are
bounded by `M`. -/
def libNear : List LibLayer → List LibLayer → List NearBound → (Nat → ℝ) → Prop
  | [], [], [], _ => True
  | l :: ls, l' :: ls', B :: Bs, v => l.Near l' B ∧ (∀ i, i < l.n → |v i| ≤ B.M) ∧ libNear ls ls' Bs (l.act.fn l.m (l.pre v))
  | _, _, _, _ => False

/-- How a deviation `e` of the input grows along the network. -/
noncomputable def libDrift : List LibLayer → List NearBound → ℝ → ℝ
  | l :: ls, B :: Bs, e => libDrift ls Bs (l.act.gain * (B.K * e + B.δ * B.M + B.β))
  | _, _, e => e

end Trixy
