import Verif.Model.Shape
import Verif.Model.Pool
/-
Model of Neuro/Network/Layer/Volume.hpp and of the layer constructors that take these named arguments. `set::Input`,
`set::Output` and `set::Filter` are `Shape` itself (Volume.hpp:31-33), so their constructors are `Shape.mk3/mk2/mk1`.
Not modelled: the default constructor `Shape()` (it leaves `size` uninitialised) and the private `depth` of `Volume2D`.
-/
namespace Trixy

variable {α : Type}

/-- Volume.hpp:27: `Volume2D(h, w)` (`set::Padding`, `set::Stride`). -/
def Shape.plane (h w : Nat) : Shape := Shape.mk3 1 h w

/-- Volume.hpp:28: `Volume2D(s)` passes `s` twice to the two-argument `Shape`. -/
def Shape.square (s : Nat) : Shape := Shape.mk2 s s

/-- Convolutional.hpp:174-181 (53-60): the constructor from named arguments delegates to the positional one; the
defaults are `Padding(0)` and `Stride(1)`. -/
def Conv.named [Zero α] (input filter : Shape) (padding stride : Shape) (keyB : Nat) (keyW : Nat → Nat) : Res (Conv α) :=
  Conv.make input.d input.h input.w filter.d filter.h filter.w padding.h stride.h stride.w keyB keyW

/-- MaxPooling.hpp:155-161 (53-59); the default stride is `Stride(1)`, the default activation the identity. -/
def Pool.named [Zero α] (input stride : Shape) (act : Act α) : Res (Pool α) :=
  Pool.make input.d input.h input.w stride.h stride.w act

/-- FullyConnected.hpp:137-140: the `size` members of the two volumes. -/
def FC.named [Zero α] (input output : Shape) (act : Act α) (keyB keyW : Nat) : FC α :=
  FC.make input.size output.size act keyB keyW

end Trixy
