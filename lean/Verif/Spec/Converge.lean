import Verif.Spec.Library
import Verif.Spec.Deriv
import Mathlib.Topology.Algebra.Order.Field
/- Sequences of networks that converge, and stationary points of the mean loss. -/
namespace Trixy
open Finset Filter Topology

/-- The layers of the network have the sizes and parameters of `ls`. -/
def Net.Params (net : Net ℝ) (ls : List LibLayer) : Prop :=
  List.Forall₂ (fun (l : Layer ℝ) a => ∃ f, l = .fc f ∧ f.Wf a.n a.m a.b a.W) net ls

/-- Layer by layer: sizes and activation of `P N` are those of `qs`, and every bias and weight of `P N` tends to that of `qs`. -/
def libLimit : (Nat → List LibLayer) → List LibLayer → Prop
  | P, [] => ∀ N, P N = []
  | P, q :: qs => ∃ (p : Nat → LibLayer) (P' : Nat → List LibLayer), (∀ N, P N = p N :: P' N) ∧
      (∀ N, (p N).n = q.n ∧ (p N).m = q.m ∧ (p N).act = q.act) ∧
      (∀ j, j < q.m → Tendsto (fun N => (p N).b j) atTop (𝓝 (q.b j))) ∧
      (∀ i j, i < q.n → j < q.m → Tendsto (fun N => (p N).W i j) atTop (𝓝 (q.W i j))) ∧ libLimit P' qs

/-- All partial derivatives of the mean loss exist at `qs` and are zero. -/
def libStationary (m : Nat) (k : LibLoss) (vs : List ((Nat → ℝ) × (Nat → ℝ))) (qs : List LibLayer) : Prop :=
  ∀ (pre post : List LibLayer) (p : LibLayer), qs = pre ++ p :: post →
    (∀ j, j < p.m → HasDerivAt (fun z => libMean m k vs (pre ++ { p with b := setAt p.b j z } :: post)) 0 (p.b j)) ∧
    (∀ i j, i < p.n → j < p.m → HasDerivAt (fun z => libMean m k vs (pre ++ { p with W := setEntry p.W i j z } :: post)) 0 (p.W i j))

end Trixy
