import Verif.Spec.Alias
/- Specification vocabulary for functions that return new objects. -/
namespace Trixy

variable {α : Type _}

/-- The free store never hands out an allocation that is still live. -/
def Heap.Proper (H : Heap α) : Prop := ∀ b, H.live b → b < H.next

/-- The object `o` owns an allocation of `n` cells that did not exist in `H`; everything that existed in `H` still exists and is unchanged. -/
def Heap.NewObj (H H' : Heap α) (o : Obj) (n : Nat) : Prop :=
  ∃ b, o.data = .at b 0 ∧ ¬ H.live b ∧ H'.len b = n ∧ H'.Proper ∧ (∀ b', H'.live b' ↔ b' = b ∨ H.live b') ∧
    ∀ b' k, b' ≠ b → H'.cellAt b' k = H.cellAt b' k

/-- As `NewObj`, but the `m` cells from `p` on may have changed. -/
def Heap.FreshExcept (H H' : Heap α) (o : Obj) (n : Nat) (p : Ptr) (m : Nat) : Prop :=
  ∃ b, o.data = .at b 0 ∧ ¬ H.live b ∧ H'.len b = n ∧ H'.Proper ∧ (∀ b', H'.live b' ↔ b' = b ∨ H.live b') ∧
    ∀ b' k, b' ≠ b → (∀ pb po, p = .at pb po → ¬ (b' = pb ∧ po ≤ k ∧ k < po + m)) → H'.cellAt b' k = H.cellAt b' k

/-- `H'` has the same allocations with the same contents as `H`. -/
def Heap.SameStore (H H' : Heap α) : Prop := (∀ b, H'.live b ↔ H.live b) ∧ ∀ b k, H'.cellAt b k = H.cellAt b k

end Trixy
