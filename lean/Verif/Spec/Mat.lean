import Verif.Model.Mat
import Verif.Spec.Basic
/- Specification vocabulary for matrices and tensors. -/
namespace Trixy

variable {α : Type _}

/-- `m` is an `h × w` matrix whose cell (i,j) is in state `f i j`. -/
def MatB (m : Mat α) (h w : Nat) (f : Nat → Nat → Option α) : Prop :=
  m.h = h ∧ m.w = w ∧ m.data.length = h * w ∧ ∀ i j, i < h → j < w → m.data[i * w + j]? = some (f i j)

/-- `m` is an `h × w` matrix, fully initialised, with entries `f i j`. -/
def MatIs (m : Mat α) (h w : Nat) (f : Nat → Nat → α) : Prop := MatB m h w (fun i j => some (f i j))

/-- `t` is a `d × h × w` tensor whose cell (i,j,k) is in state `f i j k`. -/
def TenB (t : Ten α) (d h w : Nat) (f : Nat → Nat → Nat → Option α) : Prop :=
  t.d = d ∧ t.h = h ∧ t.w = w ∧ t.data.length = d * h * w ∧
  ∀ i j k, i < d → j < h → k < w → t.data[(i * h + j) * w + k]? = some (f i j k)

/-- `t` is a `d × h × w` tensor, fully initialised, with entries `f i j k`. -/
def TenIs (t : Ten α) (d h w : Nat) (f : Nat → Nat → Nat → α) : Prop :=
  TenB t d h w (fun i j k => some (f i j k))

end Trixy
