import Verif.Model.AllocFail
import Verif.Spec.TensorMem
/- Histories with allocation failures (C72). -/
namespace Trixy

variable {α : Type _}

/-- The allocation fails in a place where nothing has been deleted before: in a constructor, or in `resize` / copy
assignment of an object that owns no storage (self assignment does not allocate). -/
def FailsHarmlessly (w : World α) : Op α → Prop
  | .resize x _ _ _ => ∀ a, w.own x = some a → a.data = .null
  | .copyAssign x y => x ≠ y → ∀ a, w.own x = some a → a.data = .null
  | _ => True

/-- A client history with allocation failures that only happen harmlessly. -/
def ValidEvs (w : World α) : List (MemEv α) → Prop
  | [] => True
  | .done op :: es => Valid w op ∧ ∀ w', w.step op = .ok w' → ValidEvs w' es
  | .threw op :: es => Valid w op ∧ FailsHarmlessly w op ∧ ∀ w', w.stepThrow op = .ok w' → ValidEvs w' es

/-- The only thing asked of a continuation in the negative results: a constructor creates an object under a new name. -/
def FreshName (w : World α) : Op α → Prop
  | .defaultCtor x _ => w.own x = none
  | .sizedCtor x _ _ _ _ => w.own x = none
  | .valueCtor x _ _ _ _ _ => w.own x = none
  | .listCtor x _ _ => w.own x = none
  | .copyCtor x _ => w.own x = none
  | .moveCtor x _ => w.own x = none
  | _ => True

def FreshNames (w : World α) : List (MemEv α) → Prop
  | [] => True
  | .done op :: es => FreshName w op ∧ ∀ w', w.step op = .ok w' → FreshNames w' es
  | .threw op :: es => FreshName w op ∧ ∀ w', w.stepThrow op = .ok w' → FreshNames w' es

end Trixy
