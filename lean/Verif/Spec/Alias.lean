import Verif.Spec.Heap
import Verif.Spec.Mat
/- Specification vocabulary for objects that do or do not share storage. -/
namespace Trixy

variable {α : Type _}

/-- The `n` cells from `p` on and the `m` cells from `q` on have no cell in common. -/
def Apart (p : Ptr) (n : Nat) (q : Ptr) (m : Nat) : Prop :=
  ∀ pb po qb qo i j, p = .at pb po → q = .at qb qo → i < n → j < m → ¬ (pb = qb ∧ po + i = qo + j)

/-- The storage that starts at `p` has the contents `b` (some cells may be indeterminate). -/
def Heap.Stores (H : Heap α) (p : Ptr) (b : Buf α) : Prop :=
  b = [] ∨ ∃ pb po, p = .at pb po ∧ ∀ i, i < b.length → H.cellAt pb (po + i) = b[i]?

/-- The object `o` is a vector (or any object used as a flat range) of `n` elements with the values `a 0 … a (n-1)`. -/
def Heap.Vec (H : Heap α) (o : Obj) (n : Nat) (a : Nat → α) : Prop := o.shape.size = n ∧ H.Holds o.data n a

/-- The object `o` is an `h × w` matrix with the entries `f i j`, stored row after row. -/
def Heap.Matrix (H : Heap α) (o : Obj) (h w : Nat) (f : Nat → Nat → α) : Prop :=
  o.shape.h = h ∧ o.shape.w = w ∧
    (h * w = 0 ∨ ∃ b p, o.data = .at b p ∧ ∀ i j, i < h → j < w → H.cellAt b (p + (i * w + j)) = some (some (f i j)))

/-- The object `o` is an `h × w` matrix (contents arbitrary, possibly indeterminate). -/
def Heap.MatRoom (H : Heap α) (o : Obj) (h w : Nat) : Prop := o.shape.h = h ∧ o.shape.w = w ∧ H.Room o.data (h * w)

/-- `H'` differs from `H` at most in the `n` cells from `p` on and the `m` cells from `q` on. -/
def Heap.SameExcept2 (H H' : Heap α) (p : Ptr) (n : Nat) (q : Ptr) (m : Nat) : Prop :=
  H'.next = H.next ∧ (∀ b, H'.live b ↔ H.live b) ∧
  ∀ b o, (∀ pb po, p = .at pb po → ¬ (b = pb ∧ po ≤ o ∧ o < po + n)) → (∀ pb po, q = .at pb po → ¬ (b = pb ∧ po ≤ o ∧ o < po + m)) →
    H'.cellAt b o = H.cellAt b o

end Trixy
