import Verif.Model.OptFail
import Verif.Spec.HeapOpt
/- How much memory training asks for. -/
namespace Trixy

variable {α : Type}

/-- The number of parameter arrays of a layer: the bias and the weight matrix of a dense layer, the bias and the filters of a convolution,
none for a pooling layer. -/
def LayerSpec.arrays : LayerSpec α → Nat
  | .fc _ _ _ => 2
  | .conv _ _ _ c _ _ _ _ _ => 1 + c
  | .pool _ _ _ _ _ _ => 0

/-- The number of parameter arrays of a network. -/
def arraysOf (ss : List (LayerSpec α)) : Nat := (ss.map LayerSpec.arrays).sum

end Trixy
