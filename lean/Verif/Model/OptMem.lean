import Verif.Model.Heap
/-
Storage of the optimizers with per-parameter state (Momentum, Nestorov, AdaGrad, RMSProp, Adam): their tables
`std::unordered_map<std::uintptr_t, RangeUnified>` own arrays allocated with `new[]`.
-/
namespace Trixy.OptMem

variable {α : Type _}

/-- `Range<T, RangeType::Unified>`: Range/Unified.hpp:26-27. It has a destructor (43-46) but neither a copy constructor nor
a copy assignment of its own, so the compiler generates the member-wise ones. -/
structure Rng where
  first : Ptr
  size : Nat
  deriving DecidableEq, Repr

/-- Range/Unified.hpp:30. -/
def Rng.default : Rng := ⟨.null, 0⟩

/-- Range/Unified.hpp:56-62 and 64-68 `resize(size, value)`. -/
def Rng.resize (H : Heap α) (r : Rng) (n : Nat) (v : α) : Res (Heap α × Rng) := do
  let H ← H.delete r.first
  let H1 ← fillLoop (H.new n).1 (H.new n).2 n v
  return (H1, ⟨(H.new n).2, n⟩)

/-- The generated copy constructor of `Range<T, RangeType::Unified>`. -/
def Rng.copy (r : Rng) : Rng := ⟨r.first, r.size⟩

/-- The state tables of one optimizer (Momentum.hpp:44-45, Adam.hpp:43-45, …) as one association list; a key is the member
table together with the address of the parameter data. -/
abbrev Tables := List ((Nat × Nat) × Rng)

/-- Interface.hpp:75-85 `get(table, range)`: `table[key]` inserts a default constructed `Range` if there is none, and a
`Range` without storage is resized to the size of the parameter and filled with zeros. Returns heap, table and entry. -/
def get (H : Heap α) (zero : α) (t : Tables) (key : Nat × Nat) (size : Nat) : Res (Heap α × Tables × Rng) :=
  match t.find? (fun e => e.1 == key) with
  | some e => .ok (H, t, e.2)
  | none => do
    let (H, r) ← Rng.default.resize H size zero
    return (H, t ++ [(key, r)], r)

/-- Destruction of the tables: `delete[] first_` for every entry (Range/Unified.hpp:43-46). -/
def release (H : Heap α) : Tables → Res (Heap α)
  | [] => .ok H
  | e :: t => do
    let H ← H.delete e.2.first
    release H t

/-- The generated copy constructor of an optimizer copies its tables entry by entry. -/
def copyTables (t : Tables) : Tables := t.map (fun e => (e.1, e.2.copy))

/-- Optimizer objects by name over one free store. -/
structure OWorld (α : Type _) where
  heap : Heap α
  opts : Nat → Option Tables

/-- Before the program starts. -/
def OWorld.init : OWorld α := ⟨Heap.empty, fun _ => none⟩

/-- What a program can do with optimizers as far as their storage is concerned (copy assignment does not exist: the classes
have a reference member, Momentum.hpp:42). -/
inductive OOp
  /-- constructor, Momentum.hpp:51-62 -/
  | make (x : Nat)
  /-- access to the entry of a parameter during `update`, Momentum.hpp:83-84 -/
  | touch (x : Nat) (key : Nat × Nat) (size : Nat)
  /-- generated copy constructor -/
  | copy (x y : Nat)
  /-- generated move constructor (used when a factory function returns, Momentum.hpp:97-101) -/
  | move (x y : Nat)
  /-- destructor -/
  | destroy (x : Nat)
  deriving Repr

/-- Change one entry. -/
def oset (m : Nat → Option Tables) (x : Nat) (t : Option Tables) : Nat → Option Tables := fun y => if y = x then t else m y

/-- Use of a named object. -/
def OWorld.find (w : OWorld α) (x : Nat) : Res Tables :=
  match w.opts x with
  | none => .error .useAfterFree
  | some t => .ok t

/-- One operation. -/
def OWorld.step (zero : α) (w : OWorld α) : OOp → Res (OWorld α)
  | .make x => .ok { w with opts := oset w.opts x (some []) }
  | .touch x key size => do
    let t ← w.find x
    let (H, t, _) ← get w.heap zero t key size
    return ⟨H, oset w.opts x (some t)⟩
  | .copy x y => do
    let t ← w.find y
    return { w with opts := oset w.opts x (some (copyTables t)) }
  | .move x y => do
    let t ← w.find y
    return { w with opts := oset (oset w.opts y (some [])) x (some t) }
  | .destroy x => do
    let t ← w.find x
    let H ← release w.heap t
    return ⟨H, oset w.opts x none⟩

/-- A history. -/
def OWorld.run (zero : α) (w : OWorld α) : List OOp → Res (OWorld α)
  | [] => .ok w
  | op :: ops => do
    let w ← w.step zero op
    w.run zero ops

end Trixy.OptMem
