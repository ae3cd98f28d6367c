import Verif.Spec.Rule
import Verif.Spec.Converge
/- Optimizers whose training can only settle at stationary points. -/
namespace Trixy
open Filter Topology

/-- All partial derivatives of the mean loss plus `decay/2` times the sum of the squared parameters exist at `qs` and are zero (only the summand that
depends on the parameter is written). -/
def libStationaryDecay (decay : ℝ) (m : Nat) (k : LibLoss) (vs : List ((Nat → ℝ) × (Nat → ℝ))) (qs : List LibLayer) : Prop :=
  ∀ (pre post : List LibLayer) (p : LibLayer), qs = pre ++ p :: post →
    (∀ j, j < p.m → HasDerivAt (fun z => libMean m k vs (pre ++ { p with b := setAt p.b j z } :: post) + decay / 2 * z ^ 2) 0 (p.b j)) ∧
    (∀ i j, i < p.n → j < p.m → HasDerivAt (fun z => libMean m k vs (pre ++ { p with W := setEntry p.W i j z } :: post) + decay / 2 * z ^ 2) 0 (p.W i j))

/-- Training with `batch()` and the new optimizer object `s0` of the class `upd`: for every network of library layers (at least two, with separate parameter
arrays), loss `MSE` or `LC`, and every non-empty data set there is a sequence `P` of parameters such that `N` epochs give `P N`; and if `P` converges to a point where the network is
differentiable at all samples, then `Q` holds there. -/
def SettlesOnlyAt {σ : Type} (Q : Nat → LibLoss → List ((Nat → ℝ) × (Nat → ℝ)) → List LibLayer → Prop) (upd : Upd σ ℝ) (s0 : σ) : Prop :=
  ∀ (t : Train ℝ) (ls : List LibLayer) (n m : Nat) (k : LibLoss), t.IsLib ls n m k.obj → t.net.Apart →
    ∀ (idata odata : List (Ten ℝ)) (vs : List ((Nat → ℝ) × (Nat → ℝ))), DataIs idata odata n m vs → vs ≠ [] →
      ∃ P : Nat → List LibLayer, (∀ N, List.Forall₂ (fun a l => a.n = l.n ∧ a.m = l.m ∧ a.act = l.act) (P N) ls) ∧
        (∀ N, Ok (Train.batch upd idata odata N (s0, t)) (fun r => r.2.net.Params (P N))) ∧
        ∀ qs, libLimit P qs → (∀ vw ∈ vs, libSmooth qs vw.1) → Q m k vs qs

end Trixy
