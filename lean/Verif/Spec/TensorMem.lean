import Verif.Spec.Heap
/- What a well-behaved client program of the tensor classes is (C02, C10). -/
namespace Trixy

variable {α : Type _}

/-- Not a moved-from object: it has storage, or it is empty. -/
def Obj.Usable (o : Obj) : Prop := o.data ≠ .null ∨ o.shape.size = 0

/-- Preconditions a client has to respect for one operation. Constructors need a new name, other
operations a live object; a moved-from object may only be destroyed, resized, moved or assigned to;
`reshape` of a matrix keeps the element count; copy assignment of a matrix or tensor goes to a
destination that is not larger (C05); `swap` exchanges two owners of the same class, or two views; element writes are in range; a view is only written while some
object still owns the storage it points to. -/
def Valid (w : World α) : Op α → Prop
  | .defaultCtor x _ => w.own x = none
  | .sizedCtor x _ _ _ _ => w.own x = none
  | .valueCtor x _ _ _ _ _ => w.own x = none
  | .listCtor x _ _ => w.own x = none
  | .copyCtor x y => w.own x = none ∧ ∃ t, w.own y = some t ∧ t.Usable
  | .moveCtor x y => w.own x = none ∧ ∃ t, w.own y = some t
  | .copyAssign x y => ∃ a t, w.own x = some a ∧ w.own y = some t ∧ a.kind = t.kind ∧
      (x ≠ y → t.Usable ∧ (a.kind ≠ .vec → a.shape.size ≤ t.shape.size))
  | .moveAssign x y => ∃ a t, w.own x = some a ∧ w.own y = some t ∧ a.kind = t.kind
  | .resize x _ _ _ => ∃ a, w.own x = some a
  | .reshape x _ h wd => ∃ a, w.own x = some a ∧ (a.kind = .mat → wmul h wd = a.shape.size)
  | .fill x _ => ∃ a, w.own x = some a ∧ a.Usable
  | .write x i _ => ∃ a, w.own x = some a ∧ a.Usable ∧ i < a.shape.size
  | .destroy x => ∃ a, w.own x = some a
  | .viewMake _ x => ∃ a, w.own x = some a
  | .viewCopy _ u => ∃ a, w.view u = some a
  | .viewAssign v u => ∃ a t, w.view v = some a ∧ w.view u = some t
  | .viewWrite v i _ => ∃ a x o, w.view v = some a ∧ w.own x = some o ∧ o.data = a.data ∧ o.Usable ∧
      i < o.shape.size
  | .viewDestroy v => ∃ a, w.view v = some a
  | .swap x y => ∃ a t, w.own x = some a ∧ w.own y = some t ∧ a.kind = t.kind
  | .viewSwap v u => ∃ a t, w.view v = some a ∧ w.view u = some t

/-- Every operation of the history meets its preconditions at the moment it is executed. -/
def ValidHist (w : World α) : List (Op α) → Prop
  | [] => True
  | op :: ops => Valid w op ∧ ∀ w', w.step op = .ok w' → ValidHist w' ops

end Trixy
