import Verif.Model.Optim
/-
Model of `learning_rate()` / `learning_rate(value)` of Functional/Optimizer/*.hpp and of programs that change the learning rate
between updates. The calls may be made on the optimizer or through `IOptimizer` (Interface.hpp:52-66), which forwards them; the
const getter of `IOptimizer` cannot be instantiated (it passes a pointer to const as `void*`) and is not modelled.
-/
namespace Trixy

variable {α : Type}

/-- An optimizer class: `update`, `learning_rate()` and `learning_rate(value)`. -/
structure RateOpt (σ α : Type) where
  upd : Upd σ α
  rate : σ → α
  setRate : α → σ → σ

/-- GradDescent.hpp:51-59. -/
def gdOpt [Mul α] [Sub α] : RateOpt α α := ⟨gdUpdate, fun lr => lr, fun v _ => v⟩
/-- StoGradDescent.hpp:55-65; `alpha_` is not recomputed. -/
def sgdOpt [Mul α] [Sub α] : RateOpt (Sgd α) α := ⟨sgdUpdate, Sgd.lr, fun v s => { s with lr := v }⟩
/-- Momentum.hpp:78-94. -/
def momOpt [Zero α] [Add α] [Mul α] [Sub α] : RateOpt (Mom α) α := ⟨momUpdate, Mom.lr, fun v s => { s with lr := v }⟩
/-- Nestorov.hpp:76-94. -/
def nesOpt [Zero α] [Add α] [Mul α] [Sub α] : RateOpt (Mom α) α := ⟨nesUpdate, Mom.lr, fun v s => { s with lr := v }⟩
/-- AdaGrad.hpp:74-93. -/
def adagradOpt [Zero α] [Add α] [Mul α] [Sub α] (isq : α → α) : RateOpt (Ada α) α :=
  ⟨adagradUpdate isq, Ada.lr, fun v s => { s with lr := v }⟩
/-- RMSProp.hpp:79-100. -/
def rmspropOpt [Zero α] [Add α] [Mul α] [Sub α] (isq : α → α) : RateOpt (Ada α) α :=
  ⟨rmspropUpdate isq, Ada.lr, fun v s => { s with lr := v }⟩
/-- Adam.hpp:100-138. -/
def adamOpt [Field α] [DecidableEq α] (isq : α → α) : RateOpt (AdamS α) α :=
  ⟨adamUpdate isq, AdamS.lr, fun v s => { s with lr := v }⟩

/-- The calls of a program: `learning_rate(v)`, and `update` of the tensor at an address with a gradient. -/
inductive OptCall (α : Type)
  | setRate (v : α)
  | update (key : Nat) (grad : Buf α)

/-- A sequence of calls on the optimizer state and the tensors. -/
def runCalls {σ : Type} (o : RateOpt σ α) : σ → (Nat → Buf α) → List (OptCall α) → Res (σ × (Nat → Buf α))
  | s, P, [] => .ok (s, P)
  | s, P, .setRate v :: cs => runCalls o (o.setRate v s) P cs
  | s, P, .update k g :: cs => do
    let (s, p, _) ← o.upd s k (P k) g
    runCalls o s (fun k' => if k' = k then p else P k') cs

end Trixy
