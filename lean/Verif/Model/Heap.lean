import Verif.Model.Shape
/-
The C++ free store as used by `new T[n]` / `delete[]`, and the element loops of
Lique/Detail/FunctionDetail.hpp over raw pointers.
-/
namespace Trixy

/-- A pointer value: null, or cell `off` of allocation `blk`. -/
inductive Ptr
  | null
  | at (blk off : Nat)
  deriving DecidableEq, Repr

/-- Free store: live allocations, and the next fresh allocation name (addresses are never reused, so
that a dangling pointer can always be told from a live one). -/
structure Heap (α : Type _) where
  blocks : Nat → Option (Buf α)
  next : Nat

variable {α : Type _}

/-- No allocation at all. -/
def Heap.empty : Heap α := ⟨fun _ => none, 0⟩

/-- `new T[n]` (cells indeterminate). -/
def Heap.new (h : Heap α) (n : Nat) : Heap α × Ptr :=
  (⟨fun b => if b = h.next then some (Buf.alloc n) else h.blocks b, h.next + 1⟩, .at h.next 0)

/-- `delete[] p`. -/
def Heap.delete (h : Heap α) : Ptr → Res (Heap α)
  | .null => .ok h
  | .at b o =>
    if o = 0 ∧ (h.blocks b).isSome then
      .ok ⟨fun b' => if b' = b then none else h.blocks b', h.next⟩
    else .error .badFree

/-- State of the cell `p[i]` (no use of its value). -/
def Heap.cell (h : Heap α) (p : Ptr) (i : Nat) : Res (Option α) :=
  match p with
  | .null => .error .nullDeref
  | .at b o =>
    match h.blocks b with
    | none => .error .useAfterFree
    | some buf =>
      match buf[o + i]? with
      | none => .error .oob
      | some c => .ok c

/-- Read of `p[i]` whose value is used. -/
def Heap.load (h : Heap α) (p : Ptr) (i : Nat) : Res α := do
  match ← h.cell p i with
  | none => .error .uninit
  | some a => .ok a

/-- Write of the cell state `c` to `p[i]` (`c = none` only when copying an indeterminate cell). -/
def Heap.put (h : Heap α) (p : Ptr) (i : Nat) (c : Option α) : Res (Heap α) :=
  match p with
  | .null => .error .nullDeref
  | .at b o =>
    match h.blocks b with
    | none => .error .useAfterFree
    | some buf =>
      if o + i < buf.length then
        .ok ⟨fun b' => if b' = b then some (List.set buf (o + i) c) else h.blocks b', h.next⟩
      else .error .oob

/-- `p[i] = a`. -/
def Heap.store (h : Heap α) (p : Ptr) (i : Nat) (a : α) : Res (Heap α) := h.put p i (some a)

/-! ### Element loops (Lique/Detail/FunctionDetail.hpp) -/

/-- FunctionDetail.hpp:55-59 `copy(first, last, src)` with `last = first + n`. -/
def copyLoop (h : Heap α) (dst : Ptr) (n : Nat) (src : Ptr) : Res (Heap α) :=
  forN n h (fun i h => do
    let c ← h.cell src i
    h.put dst i c)

/-- FunctionDetail.hpp:55-59 `copy` from an initialiser list (a range of initialised values outside the
modelled free store). -/
def copyList (h : Heap α) (dst : Ptr) (n : Nat) (src : List α) : Res (Heap α) :=
  forN n h (fun i h =>
    match src[i]? with
    | none => .error .oob
    | some a => h.store dst i a)

/-- FunctionDetail.hpp:61-65 `fill(first, last, gen)`; `gen` is a state machine `γ → α × γ` (the functor
is taken by value, so its final state is dropped by the caller). -/
def fillGen {γ : Type _} (h : Heap α) (dst : Ptr) (n : Nat) (gen : γ → α × γ) (g : γ) : Res (Heap α × γ) :=
  forN n (h, g) (fun i (h, g) => do
    let (a, g) := gen g
    let h ← h.store dst i a
    return (h, g))

/-- FunctionDetail.hpp:67-75 with `cpy` (19-23): `*first = value`. -/
def fillLoop (h : Heap α) (dst : Ptr) (n : Nat) (v : α) : Res (Heap α) :=
  forN n h (fun i h => h.store dst i v)

/-- FunctionDetail.hpp:67-75 with a compound operation (`add`/`sub`/`mul`, 136-161): `*first = op(*first, value)`. -/
def assignConst (op : α → α → α) (h : Heap α) (dst : Ptr) (n : Nat) (v : α) : Res (Heap α) :=
  forN n h (fun i h => do
    let x ← h.load dst i
    h.store dst i (op x v))

/-- FunctionDetail.hpp:77-87: `*first = op(*first, *src)`. -/
def assignPtr (op : α → α → α) (h : Heap α) (dst : Ptr) (n : Nat) (src : Ptr) : Res (Heap α) :=
  forN n h (fun i h => do
    let x ← h.load dst i
    let y ← h.load src i
    h.store dst i (op x y))

/-- FunctionDetail.hpp:89-99: `*first = op(value, *rhs)`. -/
def assignValPtr (op : α → α → α) (h : Heap α) (dst : Ptr) (n : Nat) (v : α) (rhs : Ptr) : Res (Heap α) :=
  forN n h (fun i h => do
    let y ← h.load rhs i
    h.store dst i (op v y))

/-- FunctionDetail.hpp:101-112: `*first = op(*lhs, *rhs)`. -/
def assignPtrPtr (op : α → α → α) (h : Heap α) (dst : Ptr) (n : Nat) (lhs rhs : Ptr) : Res (Heap α) :=
  forN n h (fun i h => do
    let x ← h.load lhs i
    let y ← h.load rhs i
    h.store dst i (op x y))

/-- FunctionDetail.hpp:114-122: `*first = f(*first)`. -/
def applyLoop (f : α → α) (h : Heap α) (dst : Ptr) (n : Nat) : Res (Heap α) :=
  forN n h (fun i h => do
    let x ← h.load dst i
    h.store dst i (f x))

/-- FunctionDetail.hpp:124-134: `*first = f(*src)`. -/
def applyPtr (f : α → α) (h : Heap α) (dst : Ptr) (n : Nat) (src : Ptr) : Res (Heap α) :=
  forN n h (fun i h => do
    let x ← h.load src i
    h.store dst i (f x))

end Trixy
