import Verif.Spec.StackTrain
import Verif.Spec.Rule
/- Training a stack of convolution and dense layers by an optimizer rule: what the rule prescribes, and what the program does with it. -/
namespace Trixy

variable {α μ σ : Type}

section
variable [Field α]

/-- As `RuleOpt`, and the update leaves `keep g` where the gradient array held `g`. -/
def KeepOpt (upd : Upd σ α) (R : Rule α μ) (keep : α → α) (size : Nat → Nat) (J : σ → Nat → (Nat → Nat → μ) → Prop) : Prop :=
  ∀ (s : σ) (T : Nat) (M : Nat → Nat → μ) (k : Nat) (P G : Buf α) (p g : Nat → α), J s T M → VecIs P (size k) p → VecIs G (size k) g →
    Ok (upd s k P G) (fun r => VecIs r.2.1 (size k) (fun i => (R.step T (M k i) (p i) (g i)).2) ∧ VecIs r.2.2 (size k) (fun i => keep (g i)) ∧
      J r.1 (T + 1) (fun k' => if k' = k then fun i => (R.step T (M k i) (p i) (g i)).1 else M k'))

/-- The optimizer object `s0`, new, follows the rule and leaves `keep g` in the gradient arrays, whatever the sizes of the arrays. -/
def FollowsKeeping (upd : Upd σ α) (s0 : σ) (R : Rule α μ) (keep : α → α) : Prop :=
  ∀ size, ∃ J, KeepOpt upd R keep size J ∧ J s0 0 (fun _ _ => R.start)

/-- How many arrays of the layer are updated before the one with the parameter (dense: biases, weights; convolution: filter by filter, biases). -/
def Stage.before : Stage α → PRef → Nat
  | .dense _, .bias _ => 0
  | .dense _, _ => 1
  | .conv _, .filter f _ _ _ => f
  | .conv p, _ => p.fc
/-- The number of parameter arrays of a layer. -/
def Stage.arrays : Stage α → Nat
  | .dense _ => 2
  | .conv p => p.fc + 1

/-- A layer in training: its parameters, what its gradient members carry over into the next step, what the optimizer remembers about its parameters. -/
structure RSt (α μ : Type) where
  s : Stage α
  c : PRef → α
  m : PRef → μ

/-- What a step with the gradients `H` leaves in the gradient members (those of a dense layer are overwritten by the next step). -/
def Stage.left (keep : α → α) (alpha : α) : Stage α → (PRef → α) → PRef → α
  | .dense _, _ => fun _ => 0
  | .conv _, H => fun r => keep (H r * alpha)

/-- The rule applied to every parameter of a layer with the gradients `alpha · H`; `T` arrays were updated before. -/
def Rule.move (R : Rule α μ) (keep : α → α) (alpha : α) (T : Nat) (x : RSt α μ) (H : PRef → α) : RSt α μ where
  s := x.s.put (fun r => (R.step (T + x.s.before r) (x.m r) (x.s.get r) (H r * alpha)).2)
  c := x.s.left keep alpha H
  m := fun r => (R.step (T + x.s.before r) (x.m r) (x.s.get r) (H r * alpha)).1

/-- What the program hands to the optimizer: a dense layer its gradients `G` of this step, a convolution what it carries plus `G`. -/
def piled (x : RSt α μ) (G : PRef → α) : PRef → α := x.s.newGrad x.c G
/-- What the rule asks for: the gradients of this step. -/
def published (_ : RSt α μ) (G : PRef → α) : PRef → α := G

/-- One step on all layers, from the first to the last; `hand` says which gradients reach the optimizer. -/
def Rule.stages (R : Rule α μ) (hand : RSt α μ → (PRef → α) → PRef → α) (keep : α → α) (alpha : α) : Nat → List (RSt α μ) → List (PRef → α) → List (RSt α μ)
  | T, x :: xs, G :: Gs => R.move keep alpha T x (hand x G) :: R.stages hand keep alpha (T + x.s.arrays) xs Gs
  | _, _, _ => []

/-- One training step: `X.1` counts the array updates, `grads` are the gradients at the present parameters. -/
def Rule.stackStep (R : Rule α μ) (hand : RSt α μ → (PRef → α) → PRef → α) (keep : α → α) (alpha : α) (grads : List (Stage α) → List (PRef → α))
    (X : Nat × List (RSt α μ)) : Nat × List (RSt α μ) :=
  (X.1 + (X.2.map (·.s.arrays)).sum, R.stages hand keep alpha X.1 X.2 (grads (X.2.map (·.s))))

/-- Before the first step. -/
def Rule.stackInit (R : Rule α μ) (cs : List (Carried α)) : Nat × List (RSt α μ) := (0, cs.map (fun c => ⟨c.1, c.2, fun _ => R.start⟩))

/-- Parameters and carried gradients of the state. -/
def RSt.carry (x : RSt α μ) : Carried α := (x.s, x.c)

end

end Trixy
