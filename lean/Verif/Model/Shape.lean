import Verif.Model.Base
/- Model of Lique/Shape.hpp and of the index arithmetic of `at`. -/
namespace Trixy

/-- Lique/Shape.hpp:15-44. Four `size_t` fields; the fields are independent data members, nothing
enforces `size = depth*height*width` afterwards.  (Field names abbreviated.) -/
structure Shape where
  d : Nat
  h : Nat
  w : Nat
  size : Nat
  deriving DecidableEq, Repr

/-- Lique/Shape.hpp:36-37: `Shape(d,h,w)`, `size(d * h * w)` in `size_t` arithmetic. -/
def Shape.mk3 (d h w : Nat) : Shape := ⟨d, h, w, wmul (wmul d h) w⟩

/-- Lique/Shape.hpp:39-40: `Shape(h,w)`. -/
def Shape.mk2 (h w : Nat) : Shape := ⟨1, h, w, wmul h w⟩

/-- Lique/Shape.hpp:42-43: `Shape(w)`. -/
def Shape.mk1 (w : Nat) : Shape := ⟨1, 1, w, w⟩

/-- Lique/Tensor.hpp:126-134: offset computed by `at(i,j,k)` (here in unbounded arithmetic, valid
when the true product of the dimensions fits `size_t`; `Shape.at3w` is the wrapped version). -/
def Shape.at3 (s : Shape) (i j k : Nat) : Nat := (i * s.h + j) * s.w + k

/-- Lique/Tensor.hpp:126-134 in `size_t` arithmetic. -/
def Shape.at3w (s : Shape) (i j k : Nat) : Nat := wadd (wmul (wadd (wmul i s.h) j) s.w) k

/-- Lique/Matrix.hpp:127-135: offset computed by `at(i,j)`. -/
def Shape.at2 (s : Shape) (i j : Nat) : Nat := i * s.w + j

/-- Lique/Matrix.hpp:127-135 in `size_t` arithmetic. -/
def Shape.at2w (s : Shape) (i j : Nat) : Nat := wadd (wmul i s.w) j

end Trixy
