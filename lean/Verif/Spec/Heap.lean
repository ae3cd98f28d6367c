import Verif.Model.TensorMem
/- Specification vocabulary for the free store. -/
namespace Trixy

variable {α : Type _}

/-- Allocation `b` is live. -/
def Heap.live (h : Heap α) (b : Nat) : Prop := (h.blocks b).isSome = true

/-- State of cell `o` of allocation `b`: `none` if there is no such cell, `some none` if it is
indeterminate, `some (some a)` if it holds `a`. -/
def Heap.cellAt (h : Heap α) (b o : Nat) : Option (Option α) := (h.blocks b).bind (fun buf => buf[o]?)

/-- Number of cells of allocation `b` (0 if not live). -/
def Heap.len (h : Heap α) (b : Nat) : Nat := ((h.blocks b).getD []).length

/-- The `n` cells starting at `p` exist and hold the (initialised) values `f 0 … f (n-1)`. -/
def Heap.Holds (h : Heap α) (p : Ptr) (n : Nat) (f : Nat → α) : Prop :=
  n = 0 ∨ ∃ b o, p = .at b o ∧ ∀ i, i < n → h.cellAt b (o + i) = some (some (f i))

/-- The `n` cells starting at `p` exist (initialised or not). -/
def Heap.Room (h : Heap α) (p : Ptr) (n : Nat) : Prop :=
  n = 0 ∨ ∃ b o, p = .at b o ∧ ∀ i, i < n → (h.cellAt b (o + i)).isSome = true

/-- `h'` differs from `h` at most in the `n` cells from `p` on; the same allocations are live. -/
def Heap.SameExcept (h h' : Heap α) (p : Ptr) (n : Nat) : Prop :=
  h'.next = h.next ∧ (∀ b, h'.live b ↔ h.live b) ∧
  ∀ b o, (∀ pb po, p = .at pb po → ¬ (b = pb ∧ po ≤ o ∧ o < po + n)) → h'.cellAt b o = h.cellAt b o

/-- Reading `n` cells from `q` while writing `n` cells from `p` front to back never reads an already
written cell (true in particular if `p = q`, or if the ranges are disjoint). -/
def NoClobber (p q : Ptr) (n : Nat) : Prop :=
  ∀ pb po qb qo, p = .at pb po → q = .at qb qo → pb = qb → po ≤ qo ∨ qo + n ≤ po

end Trixy
