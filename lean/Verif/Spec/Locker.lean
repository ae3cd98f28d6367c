import Verif.Model.Locker
import Verif.Spec.TensorMem
/- Use of lockers (C75). -/
namespace Trixy

variable {α : Type _}

/-- All elements of the named object are initialised, and there are at least `n` of them. -/
def World.Ready (w : World α) (y n : Nat) : Prop := ∃ t f, w.own y = some t ∧ w.heap.Holds t.data n f

/-- The object exists and is not moved-from; `n` is its size. -/
def World.Target (w : World α) (x n : Nat) : Prop := ∃ a, w.own x = some a ∧ a.Usable ∧ a.shape.size = n

/-- Preconditions of the element-wise members: the receiver has storage, the operands have at least as many initialised
elements. -/
def EValid (w : World α) : EOp α → Prop
  | .copyList x l => ∃ n, w.Target x n ∧ n ≤ l.length
  | .copy x y => ∃ n, w.Target x n ∧ w.Ready y n
  | .fillGen x _ _ => ∃ n, w.Target x n
  | .apply x _ => ∃ n, w.Target x n ∧ w.Ready x n
  | .apply2 x _ y => ∃ n, w.Target x n ∧ w.Ready y n
  | .add x y => ∃ n, w.Target x n ∧ w.Ready x n ∧ w.Ready y n
  | .add2 x y z => ∃ n, w.Target x n ∧ w.Ready y n ∧ w.Ready z n
  | .sub x y => ∃ n, w.Target x n ∧ w.Ready x n ∧ w.Ready y n
  | .sub2 x y z => ∃ n, w.Target x n ∧ w.Ready y n ∧ w.Ready z n
  | .mul x y => ∃ n, w.Target x n ∧ w.Ready x n ∧ w.Ready y n
  | .mul2 x y z => ∃ n, w.Target x n ∧ w.Ready y n ∧ w.Ready z n
  | .join x _ => ∃ n, w.Target x n ∧ w.Ready x n
  | .join2 x _ y => ∃ n, w.Target x n ∧ w.Ready y n

/-- A client that does not assign or swap through the returned references. -/
def LValid (w : World α) : LEv α → Prop
  | .op o => Valid w o
  | .elem e => EValid w e
  | _ => False

def LValidHist [Add α] [Sub α] [Mul α] (w : World α) : List (LEv α) → Prop
  | [] => True
  | e :: es => LValid w e ∧ ∀ w', w.lstep e = .ok w' → LValidHist w' es

/-- Operations a locked object `x` does not offer (assignment, `swap`, `resize`, `reshape`), its destruction and being moved from. All
other operations, and every operation on other objects, are allowed. -/
def KeepsLocked (x : Nat) : LEv α → Prop
  | .op (.copyAssign z _) => z ≠ x
  | .op (.moveAssign z y) => z ≠ x ∧ y ≠ x
  | .op (.moveCtor _ y) => y ≠ x
  | .op (.resize z _ _ _) => z ≠ x
  | .op (.reshape z _ _ _) => z ≠ x
  | .op (.destroy z) => z ≠ x
  | .op (.swap z y) => z ≠ x ∧ y ≠ x
  | _ => True

/-- Operations a locked container `x` does not offer (assignment, `resize`, `reserve`, `emplace_back`, `pop_back`), its
construction and destruction, being moved from, and serialisation. -/
def KeepsCont (x : Nat) : COp α → Prop
  | .default z => z ≠ x
  | .sized z _ => z ≠ x
  | .ofList z _ => z ≠ x
  | .copyCtor z _ => z ≠ x
  | .moveCtor z y => z ≠ x ∧ y ≠ x
  | .copyAssign z _ => z ≠ x
  | .moveAssign z y => z ≠ x ∧ y ≠ x
  | .resize z _ _ => z ≠ x
  | .reserve z _ => z ≠ x
  | .emplaceBack z _ => z ≠ x
  | .popBack z => z ≠ x
  | .write _ _ _ => True
  | .save z => z ≠ x
  | .destroy z => z ≠ x

end Trixy
