import Verif.Spec.Net
import Verif.Spec.Checkpoint
import Mathlib.Algebra.Field.Defs
/- Optimizers as rules for single numbers, and training of a dense network by such a rule. -/
namespace Trixy

variable {α μ σ : Type}

/-- How an optimizer moves one number: what it remembers about the number at first, and how memory and number change (arguments of `step`: the number of
arrays updated before, the memory, the number, its gradient). -/
structure Rule (α μ : Type) where
  start : μ
  step : Nat → μ → α → α → μ × α

section
variable [Field α]

/-- Gradient descent. -/
def Rule.gd (lr : α) : Rule α Unit := ⟨(), fun _ _ p g => ((), p - lr * g)⟩
/-- Gradient descent with weight decay. -/
def Rule.sgd (lr decay : α) : Rule α Unit := ⟨(), fun _ _ p g => ((), (1 - lr * decay) * p - lr * g)⟩
/-- Heavy ball: the memory is the velocity. -/
def Rule.momentum (lr mu : α) : Rule α α := ⟨0, fun _ v p g => (mu * v - lr * g, p + (mu * v - lr * g))⟩
/-- Nesterov's method: the memory is the velocity. -/
def Rule.nestorov (lr mu : α) : Rule α α := ⟨0, fun _ v p g => (mu * v - lr * g, p - lr * g + mu * (mu * v - lr * g))⟩
/-- AdaGrad: the memory is the sum of the squared gradients (`isq` stands for the inverse square root). -/
def Rule.adagrad (isq : α → α) (lr : α) : Rule α α := ⟨0, fun _ c p g => (c + g ^ 2, p - lr * (isq (c + g ^ 2) * g))⟩
/-- RMSProp: the memory is the moving average of the squared gradients. -/
def Rule.rmsprop (isq : α → α) (lr beta : α) : Rule α α :=
  ⟨0, fun _ c p g => (beta * c + (1 - beta) * g ^ 2, p - lr * (isq (beta * c + (1 - beta) * g ^ 2) * g))⟩
/-- Adam: the memory is the moving averages of gradients and squared gradients. The exponent of the bias correction is the number of array updates made
so far (not the number of updates of this array, which is the defect C48 is about). -/
def Rule.adam (isq : α → α) (lr beta1 beta2 : α) : Rule α (α × α) :=
  ⟨(0, 0), fun T c p g =>
    let m := beta1 * c.1 + (1 - beta1) * g
    let s := beta2 * c.2 + (1 - beta2) * g ^ 2
    ((m, s), p - lr / (1 - beta1 ^ (T + 1)) * (isq (s / (1 - beta2 ^ (T + 1))) * m))⟩

/-- What the optimizer remembers about the numbers of a layer. -/
abbrev LMem (μ : Type) := (Nat → μ) × (Nat → Nat → μ)

/-- The rule applied to every bias (first) and every weight of a layer, with the gradients multiplied by `alpha`. -/
def Rule.layer (R : Rule α μ) (alpha : α) (T : Nat) (x : Dense α × LMem μ) (g : Grad α) : Dense α × LMem μ :=
  (Dense.mk x.1.n x.1.m (fun j => (R.step T (x.2.1 j) (x.1.b j) (g.1 j * alpha)).2)
     (fun i j => (R.step (T + 1) (x.2.2 i j) (x.1.W i j) (g.2 i j * alpha)).2) x.1.F x.1.D,
   (fun j => (R.step T (x.2.1 j) (x.1.b j) (g.1 j * alpha)).1, fun i j => (R.step (T + 1) (x.2.2 i j) (x.1.W i j) (g.2 i j * alpha)).1))

/-- The same for all layers, from the first to the last. -/
def Rule.layers (R : Rule α μ) (alpha : α) : Nat → List (Dense α × LMem μ) → List (Grad α) → List (Dense α × LMem μ)
  | T, x :: xs, g :: gs => R.layer alpha T x g :: R.layers alpha (T + 2) xs gs
  | _, _, _ => []

/-- One training step: `x.1` counts the array updates, `grads` are the gradients at the present parameters. -/
def Rule.update (R : Rule α μ) (alpha : α) (grads : List (Dense α) → List (Grad α)) (x : Nat × List (Dense α × LMem μ)) : Nat × List (Dense α × LMem μ) :=
  (x.1 + 2 * x.2.length, R.layers alpha x.1 x.2 (grads (x.2.map (·.1))))

/-- Before the first step. -/
def Rule.init (R : Rule α μ) (ps : List (Dense α)) : Nat × List (Dense α × LMem μ) := (0, ps.map (fun p => (p, (fun _ => R.start, fun _ _ => R.start))))

/-- An update of the array at address `k` (of `size k` numbers) applies the rule to every number of the array. `J s T M`: the optimizer object in the state
`s` has updated `T` arrays and remembers `M k i` about the `i`-th number of the array at `k`. -/
def RuleOpt (upd : Upd σ α) (R : Rule α μ) (size : Nat → Nat) (J : σ → Nat → (Nat → Nat → μ) → Prop) : Prop :=
  ∀ (s : σ) (T : Nat) (M : Nat → Nat → μ) (k : Nat) (P G : Buf α) (p g : Nat → α), J s T M → VecIs P (size k) p → VecIs G (size k) g →
    Ok (upd s k P G) (fun r => VecIs r.2.1 (size k) (fun i => (R.step T (M k i) (p i) (g i)).2) ∧ Full r.2.2 (size k) ∧
      J r.1 (T + 1) (fun k' => if k' = k then fun i => (R.step T (M k i) (p i) (g i)).1 else M k'))

/-- The optimizer object `s0`, new, follows the rule, whatever the sizes of the arrays. -/
def FollowsRule (upd : Upd σ α) (s0 : σ) (R : Rule α μ) : Prop :=
  ∀ size, ∃ J, RuleOpt upd R size J ∧ J s0 0 (fun _ _ => R.start)

end

end Trixy
