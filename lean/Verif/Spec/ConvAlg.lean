import Verif.Spec.Conv
/- Vocabulary for how convolution layers treat related inputs. -/
namespace Trixy

variable {α : Type}

/-- The image `v'` is the `h × w` image `v` moved down by `a` rows and right by `b` columns: what leaves the frame is lost, zeros come in. -/
def Moved [Zero α] (h w a b : Nat) (v v' : Nat → Nat → Nat → α) : Prop :=
  ∀ c y z, y < h → z < w → v' c y z = if a ≤ y ∧ b ≤ z then v c (y - a) (z - b) else 0

/-- The image `v'` is the `h × w` image `v` with a border of `p` zeros on every side. -/
def Bordered [Zero α] (h w p : Nat) (v v' : Nat → Nat → Nat → α) : Prop :=
  ∀ c y z, y < h + 2 * p → z < w + 2 * p → v' c y z = if (p ≤ y ∧ y < h + p) ∧ p ≤ z ∧ z < w + p then v c (y - p) (z - p) else 0

/-- The cell `(y, z)` of the input lies in the window of the output cell `(oy, ox)`. -/
def InWindow (fh fw pad sv sh oy ox y z : Nat) : Prop :=
  (sv * oy ≤ y + pad ∧ y + pad < sv * oy + fh) ∧ sh * ox ≤ z + pad ∧ z + pad < sh * ox + fw

/-- `forward(x)` ends normally with `value()` equal to `y`. -/
def ConvGives [Add α] [Mul α] (l : Conv α) (x : Ten α) (fc OH OW : Nat) (y : Nat → Nat → Nat → α) : Prop :=
  ∃ l', l.forward x = .ok l' ∧ TenIs l'.value fc OH OW y

end Trixy
