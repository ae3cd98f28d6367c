import Verif.Model.Elem
import Verif.Model.Tool
import Mathlib.Algebra.Field.Defs
/-
Model of Functional/Optimizer/*.hpp. `update(param, grad)` gets two views; it changes the parameter, possibly the
gradient, and the optimizer's own state. State tables are keyed by the address of the parameter data.
-/
namespace Trixy

variable {α : Type _}

/-- `IOptimizer::update(Range param, Range grad)` (Interface.hpp:69-72): state, address of the parameter,
parameter and gradient cells to the new state, parameter and gradient. -/
abbrev Upd (σ α : Type _) := σ → Nat → Buf α → Buf α → Res (σ × Buf α × Buf α)

/-- `std::unordered_map<uintptr_t, RangeUnified>`. -/
abbrev Table (α : Type _) := Nat → Option (Buf α)

/-- Interface.hpp:75-85 `get(table, range)`: the entry for the address, created with `size` zeros on first use. -/
def Table.get [Zero α] (t : Table α) (key size : Nat) : Buf α :=
  match t key with
  | some b => b
  | none => filled size 0

/-- The entry is a reference into the table: writing it back. -/
def Table.put (t : Table α) (key : Nat) (b : Buf α) : Table α := fun k => if k = key then some b else t k

/-- GradDescent.hpp:54-59; the state is `learning_rate_`. -/
def gdUpdate [Mul α] [Sub α] : Upd α α := fun lr _ param grad => do
  let grad ← scaleInto grad lr
  let param ← zipInto (· - ·) param grad
  return (lr, param, grad)

/-- StoGradDescent.hpp:38-41. -/
structure Sgd (α : Type _) where
  lr : α
  alpha : α

/-- StoGradDescent.hpp:44-53. -/
def Sgd.make [One α] [Mul α] [Sub α] (lr decay : α) : Sgd α := ⟨lr, 1 - lr * decay⟩

/-- StoGradDescent.hpp:58-65. -/
def sgdUpdate [Mul α] [Sub α] : Upd (Sgd α) α := fun s _ param grad => do
  let grad ← scaleInto grad s.lr
  let param ← scaleInto param s.alpha
  let param ← zipInto (· - ·) param grad
  return (s, param, grad)

/-- Momentum.hpp:42-48, Nestorov.hpp:40-46. -/
structure Mom (α : Type _) where
  buff : Table α
  opt : Table α
  lr : α
  mu : α

/-- Momentum.hpp:51-62, Nestorov.hpp:49-60: empty tables. -/
def Mom.make (lr mu : α) : Mom α := ⟨fun _ => none, fun _ => none, lr, mu⟩

/-- Momentum.hpp:81-94. -/
def momUpdate [Zero α] [Add α] [Mul α] [Sub α] : Upd (Mom α) α := fun s key param grad => do
  let buff := s.buff.get key param.length
  let opt := s.opt.get key param.length
  let opt ← scaleInto opt s.mu
  let buff ← scaleTo buff s.lr grad
  let opt ← zipInto (· - ·) opt buff
  let param ← zipInto (· + ·) param opt
  return ({ s with buff := s.buff.put key buff, opt := s.opt.put key opt }, param, grad)

/-- Nestorov.hpp:79-94. -/
def nesUpdate [Zero α] [Add α] [Mul α] [Sub α] : Upd (Mom α) α := fun s key param grad => do
  let buff := s.buff.get key param.length
  let opt := s.opt.get key param.length
  let opt ← scaleInto opt s.mu
  let buff ← scaleTo buff s.lr grad
  let opt ← zipInto (· - ·) opt buff
  let param ← zipInto (· - ·) param buff
  let buff ← scaleTo buff s.mu opt
  let param ← zipInto (· + ·) param buff
  return ({ s with buff := s.buff.put key buff, opt := s.opt.put key opt }, param, grad)

/-- AdaGrad.hpp:40-46, RMSProp.hpp:40-47 (`beta`, `rbeta` unused by AdaGrad). -/
structure Ada (α : Type _) where
  buff : Table α
  opt : Table α
  lr : α
  beta : α
  rbeta : α

/-- AdaGrad.hpp:49-58 / RMSProp.hpp:50-63 (`rbeta = 1. - beta`). -/
def Ada.make [One α] [Sub α] (lr beta : α) : Ada α := ⟨fun _ => none, fun _ => none, lr, beta, 1 - beta⟩

/-- AdaGrad.hpp:77-93; `isq` is `detail::invert_sqrt` (Detail/FunctionDetail.hpp:52-56). -/
def adagradUpdate [Zero α] [Add α] [Mul α] [Sub α] (isq : α → α) : Upd (Ada α) α := fun s key param grad => do
  let buff := s.buff.get key param.length
  let opt := s.opt.get key param.length
  let buff ← zip2Into (· * ·) buff grad grad
  let opt ← zipInto (· + ·) opt buff
  let buff ← mapInto isq buff opt
  let buff ← zipInto (· * ·) buff grad
  let buff ← scaleInto buff s.lr
  let param ← zipInto (· - ·) param buff
  return ({ s with buff := s.buff.put key buff, opt := s.opt.put key opt }, param, grad)

/-- RMSProp.hpp:82-100. -/
def rmspropUpdate [Zero α] [Add α] [Mul α] [Sub α] (isq : α → α) : Upd (Ada α) α := fun s key param grad => do
  let buff := s.buff.get key param.length
  let opt := s.opt.get key param.length
  let opt ← scaleInto opt s.beta
  let buff ← zip2Into (· * ·) buff grad grad
  let buff ← scaleInto buff s.rbeta
  let opt ← zipInto (· + ·) opt buff
  let buff ← mapInto isq buff opt
  let buff ← zipInto (· * ·) buff grad
  let buff ← scaleInto buff s.lr
  let param ← zipInto (· - ·) param buff
  return ({ s with buff := s.buff.put key buff, opt := s.opt.put key opt }, param, grad)

/-- Adam.hpp:40-52. -/
structure AdamS (α : Type _) where
  buff : Table α
  m : Table α
  s : Table α
  lr : α
  beta1 : α
  beta2 : α
  rbeta1 : α
  rbeta2 : α
  tbeta1 : α
  tbeta2 : α

/-- Adam.hpp:55-75. -/
def AdamS.make [One α] [Sub α] (lr beta1 beta2 : α) : AdamS α :=
  ⟨fun _ => none, fun _ => none, fun _ => none, lr, beta1, beta2, 1 - beta1, 1 - beta2, 1, 1⟩

/-- Adam.hpp:103-138. -/
def adamUpdate [Field α] [DecidableEq α] (isq : α → α) : Upd (AdamS α) α := fun st key param grad => do
  let buff := st.buff.get key param.length
  let m := st.m.get key param.length
  let s := st.s.get key param.length
  let tbeta1 := st.tbeta1 * st.beta1
  let tbeta2 := st.tbeta2 * st.beta2
  let m ← scaleInto m st.beta1
  let buff ← scaleTo buff st.rbeta1 grad
  let m ← zipInto (· + ·) m buff
  let s ← scaleInto s st.beta2
  let buff ← zip2Into (· * ·) buff grad grad
  let buff ← scaleInto buff st.rbeta2
  let s ← zipInto (· + ·) s buff
  let c2 ← fdiv 1 (1 - tbeta2)
  let buff ← scaleTo buff c2 s
  let buff ← mapSelf isq buff
  let buff ← zipInto (· * ·) buff m
  let c1 ← fdiv st.lr (1 - tbeta1)
  let buff ← scaleInto buff c1
  let param ← zipInto (· - ·) param buff
  return (⟨st.buff.put key buff, st.m.put key m, st.s.put key s, st.lr, st.beta1, st.beta2, st.rbeta1, st.rbeta2,
    tbeta1, tbeta2⟩, param, grad)

/-! ### Sequences of updates -/

/-- A program that performs updates of named parameter tensors (`address`, gradient), as
`Training::updating` does through the layers. -/
def runUpd {σ : Type _} (upd : Upd σ α) : σ → (Nat → Buf α) → List (Nat × Buf α) → Res (σ × (Nat → Buf α))
  | s, P, [] => .ok (s, P)
  | s, P, (k, g) :: ops => do
    let (s, p, _) ← upd s k (P k) g
    runUpd upd s (fun k' => if k' = k then p else P k') ops

end Trixy
