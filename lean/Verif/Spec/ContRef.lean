import Verif.Spec.Container
import Verif.Model.ContRef
/- References into containers (C94). -/
namespace Trixy

variable {α : Type _}

/-- The operation does not give container `x` new storage, as far as its interface tells: appending within `capacity()`, resizing and reserving up to `capacity()`,
removing, writing and saving; and anything that happens to other containers. -/
def StaysPut (w : CWorld α) (x : Nat) : COp α → Prop
  | .default y | .sized y _ | .ofList y _ => y ≠ x
  | .copyCtor y _ => y ≠ x
  | .moveCtor y z => y ≠ x ∧ z ≠ x
  | .copyAssign y z => y ≠ x ∨ y = z
  | .moveAssign y z => (y ≠ x ∧ z ≠ x) ∨ y = z
  | .resize y n _ => y = x → ∀ c, w.conts x = some c → n ≤ c.cap
  | .reserve y n => y = x → ∀ c, w.conts x = some c → n ≤ c.cap
  | .emplaceBack y _ => y = x → ∀ c, w.conts x = some c → c.size < c.cap
  | .popBack _ | .write _ _ _ | .save _ => True
  | .destroy y => y ≠ x

/-- Every operation of the history, when it is executed. -/
def StaysPutHist (dflt : α) (moved : α → α) (w : CWorld α) (x : Nat) : List (COp α) → Prop
  | [] => True
  | op :: ops => StaysPut w x op ∧ ∀ w', w.step dflt moved op = .ok w' → StaysPutHist dflt moved w' x ops

end Trixy
