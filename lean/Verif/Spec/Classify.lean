import Verif.Spec.RuleLimit
import Verif.Spec.Fit
/- Classifiers: networks that end in a `SoftMax` layer, trained with `NLL` or `CCE`. -/
namespace Trixy
open Finset

/-- The loss classes for classifiers. -/
inductive ClassLoss
  | nll
  | cce

/-- The object of that class. -/
noncomputable def ClassLoss.obj : ClassLoss → Loss ℝ
  | .nll => Losses.NLL
  | .cce => Losses.CCE

/-- The textbook loss of `m` components (target, prediction): negative log-likelihood, cross entropy. -/
noncomputable def ClassLoss.fn (m : Nat) : ClassLoss → (Nat → ℝ) → (Nat → ℝ) → ℝ
  | .nll => nllFn m
  | .cce => cceFn 0 m

/-- Targets: exactly one class for `NLL`, weights summing to 1 for `CCE`. -/
def ClassLoss.Target (m : Nat) : ClassLoss → (Nat → ℝ) → Prop
  | .nll => fun w => ∃ c, Hot m w c
  | .cce => fun w => ∑ j ∈ range m, w j = 1

/-- Mean loss of the network over the samples (input, target). -/
noncomputable def classMean (m : Nat) (k : ClassLoss) (vs : List ((Nat → ℝ) × (Nat → ℝ))) (ls : List LibLayer) : ℝ :=
  1 / (vs.length : ℝ) * (vs.map (fun vw => k.fn m vw.2 (libOut ls vw.1))).sum

/-- The last layer has the activation `SoftMax`. -/
def Classifies (ls : List LibLayer) : Prop := ∃ hid q, ls = hid ++ [q] ∧ q.act = .softmax

/-- All partial derivatives of the mean loss exist at `qs` and are zero. -/
def classStationary (m : Nat) (k : ClassLoss) (vs : List ((Nat → ℝ) × (Nat → ℝ))) (qs : List LibLayer) : Prop :=
  ∀ (pre post : List LibLayer) (p : LibLayer), qs = pre ++ p :: post →
    (∀ j, j < p.m → HasDerivAt (fun z => classMean m k vs (pre ++ { p with b := setAt p.b j z } :: post)) 0 (p.b j)) ∧
    (∀ i j, i < p.n → j < p.m → HasDerivAt (fun z => classMean m k vs (pre ++ { p with W := setEntry p.W i j z } :: post)) 0 (p.W i j))

/-- The same for the mean loss plus `decay/2` times the sum of the squared parameters (only the summand that depends on the parameter is written). -/
def classStationaryDecay (decay : ℝ) (m : Nat) (k : ClassLoss) (vs : List ((Nat → ℝ) × (Nat → ℝ))) (qs : List LibLayer) : Prop :=
  ∀ (pre post : List LibLayer) (p : LibLayer), qs = pre ++ p :: post →
    (∀ j, j < p.m → HasDerivAt (fun z => classMean m k vs (pre ++ { p with b := setAt p.b j z } :: post) + decay / 2 * z ^ 2) 0 (p.b j)) ∧
    (∀ i j, i < p.n → j < p.m → HasDerivAt (fun z => classMean m k vs (pre ++ { p with W := setEntry p.W i j z } :: post) + decay / 2 * z ^ 2) 0 (p.W i j))

/-- Some partial derivative of the mean loss is not zero. -/
def classMoves (m : Nat) (k : ClassLoss) (vs : List ((Nat → ℝ) × (Nat → ℝ))) (ls : List LibLayer) : Prop :=
  ∃ pre p post G, ls = pre ++ p :: post ∧ G ≠ 0 ∧
    ((∃ j, j < p.m ∧ HasDerivAt (fun z => classMean m k vs (pre ++ { p with b := setAt p.b j z } :: post)) G (p.b j)) ∨
     (∃ i j, i < p.n ∧ j < p.m ∧ HasDerivAt (fun z => classMean m k vs (pre ++ { p with W := setEntry p.W i j z } :: post)) G (p.W i j)))

/-- Training with `batch()` and the new optimizer object `s0` of the class `upd`: for every classifier of library layers (at least two, with separate
parameter arrays), loss `NLL` or `CCE`, and every non-empty data set with proper targets there is a sequence `P` of parameters such that `N` epochs give `P N`;
and if `P` converges to a point where the hidden layers are differentiable at all samples, then `Q` holds there. -/
def ClassSettlesOnlyAt {σ : Type} (Q : Nat → ClassLoss → List ((Nat → ℝ) × (Nat → ℝ)) → List LibLayer → Prop) (upd : Upd σ ℝ) (s0 : σ) : Prop :=
  ∀ (t : Train ℝ) (ls : List LibLayer) (n m : Nat) (k : ClassLoss), t.IsLib ls n m k.obj → Classifies ls → t.net.Apart →
    ∀ (idata odata : List (Ten ℝ)) (vs : List ((Nat → ℝ) × (Nat → ℝ))), DataIs idata odata n m vs → vs ≠ [] → (∀ vw ∈ vs, k.Target m vw.2) →
      ∃ P : Nat → List LibLayer, (∀ N, List.Forall₂ (fun a l => a.n = l.n ∧ a.m = l.m ∧ a.act = l.act) (P N) ls) ∧
        (∀ N, Ok (Train.batch upd idata odata N (s0, t)) (fun r => r.2.net.Params (P N))) ∧
        ∀ qs, libLimit P qs → (∀ vw ∈ vs, libSmooth qs.dropLast vw.1) → Q m k vs qs

end Trixy
