import Verif.Model.HeapOpt
/-
The optimizers with state tables when memory runs out: the first update of a parameter allocates its table entries, and this `new[]` throws
when the system grants no more allocations.
-/
namespace Trixy

variable {α τ : Type}

/-- How a call ends: it returns, `std::bad_alloc` leaves it, or `std::terminate` ends the program. -/
inductive Ending (A : Type)
  | returns (a : A)
  | throws
  | terminates

/-- An exception that leaves a function declared `noexcept` ends the program. -/
def Ending.noexcept {A : Type} : Ending A → Ending A
  | .throws => .terminates
  | e => e

/-- Interface.hpp:75-85 `get(table, range)` in a system that grants `limit` allocations altogether: `new[]` in `resize` (Range/Unified.hpp:56-62)
throws when they are used up. (The nodes of the `std::unordered_map` itself are not counted.) -/
def OptMem.getIn (limit : Nat) (H : Heap α) (zero : α) (t : OptMem.Tables) (key : Nat × Nat) (size : Nat) :
    Res (Ending (Heap α × OptMem.Tables × OptMem.Rng)) :=
  if (t.find? (fun e => e.1 == key)).isNone ∧ limit ≤ H.next then .ok .throws
  else do
    let r ← OptMem.get H zero t key size
    return .returns r

/-- The accesses to the tables `k, …, k + n - 1` at the beginning of `update` (Momentum.hpp:83-84, Nestorov.hpp:81-82, AdaGrad.hpp:79-80,
RMSProp.hpp:84-85, Adam.hpp:105-108). -/
def OptMem.entriesIn (limit : Nat) (zero : α) (key size : Nat) : Nat → Nat → Heap α → OptMem.Tables → Res (Ending (Heap α × OptMem.Tables))
  | 0, _, H, t => .ok (.returns (H, t))
  | n + 1, k, H, t => do
    match ← OptMem.getIn limit H zero t (k, key) size with
    | .returns r => OptMem.entriesIn limit zero key size n (k + 1) r.1 r.2.1
    | _ => return .throws

/-- `update` of an optimizer with `n` tables in such a system: what follows the accesses to the tables does not allocate. The function is
`noexcept`: Momentum.hpp:81, Nestorov.hpp:79, AdaGrad.hpp:77, RMSProp.hpp:82, Adam.hpp:103 (and Interface.hpp:69-72, through which it is called). -/
def updateIn [Zero α] (limit n : Nat) (tabs : τ → OptMem.Tables) (addr : Ptr → Nat) (upd : HUpd τ α) (H : Heap α) (s : τ) (param grad : Obj) :
    Res (Ending (Heap α × τ)) := do
  match ← OptMem.entriesIn limit 0 (addr param.data) param.shape.size n 0 H (tabs s) with
  | .returns _ => do
    let r ← upd H s param grad
    return Ending.noexcept (.returns r)
  | _ => return Ending.noexcept .throws

end Trixy
