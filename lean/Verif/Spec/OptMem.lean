import Verif.Model.OptMem
import Verif.Spec.Heap
/- Well-behaved use of optimizers (C74). -/
namespace Trixy.OptMem

variable {α : Type _}

/-- Constructors create a new object; other operations use an existing one; only an optimizer without state is copied. -/
def OValid (w : OWorld α) : OOp → Prop
  | .make x => w.opts x = none
  | .touch x _ _ => w.opts x ≠ none
  | .copy x y => w.opts x = none ∧ w.opts y = some []
  | .move x y => w.opts x = none ∧ w.opts y ≠ none
  | .destroy x => w.opts x ≠ none

def OValidHist (zero : α) (w : OWorld α) : List OOp → Prop
  | [] => True
  | op :: ops => OValid w op ∧ ∀ w', w.step zero op = .ok w' → OValidHist zero w' ops

end Trixy.OptMem
