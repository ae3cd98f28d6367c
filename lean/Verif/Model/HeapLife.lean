import Verif.Model.HeapBuild
/-
The destructors of the layers, of a network and of a training object on the tensor free store. (Which objects `delete` runs on, and how often,
is Model/Own.lean; here it is the storage of the tensor members.)
-/
namespace Trixy

variable {α σ : Type}

/-- The destructors of these objects, one after the other. -/
def Obj.destroyAll (H : Heap α) : List Obj → Res (Heap α)
  | [] => .ok H
  | o :: os => do
    let H ← o.destroy H
    Obj.destroyAll H os

/-- FullyConnected.hpp:105-126, 168: the members are destroyed in the reverse order of their declarations. -/
def HFC.destroy (H : Heap α) (l : HFC α) : Res (Heap α) := do
  let H ← l.delta.destroy H
  let H ← l.gradWs.destroy H
  let H ← l.gradBs.destroy H
  let H ← l.gradW.destroy H
  let H ← l.gradB.destroy H
  let H ← l.buff.destroy H
  let H ← l.value.destroy H
  let H ← l.W.destroy H
  l.B.destroy H

/-- FullyConnected.hpp:31-43, 74. -/
def HRawFC.destroy (H : Heap α) (l : HRawFC α) : Res (Heap α) := do
  let H ← l.value.destroy H
  let H ← l.W.destroy H
  l.B.destroy H

/-- Convolutional.hpp:144-166: the containers destroy their elements from the first to the last (Container.hpp:57-61, 233-242). -/
def HConv.destroy (H : Heap α) (l : HConv) : Res (Heap α) := do
  let H ← l.buff.destroy H
  let H ← l.delta.destroy H
  let H ← l.gradB.destroy H
  let H ← Obj.destroyAll H l.gradWs
  let H ← l.value.destroy H
  let H ← Obj.destroyAll H l.Ws
  l.B.destroy H

/-- Convolutional.hpp:31-48. -/
def HConv.destroyRaw (H : Heap α) (l : HConv) : Res (Heap α) := do
  let H ← l.value.destroy H
  let H ← Obj.destroyAll H l.Ws
  l.B.destroy H

/-- MaxPooling.hpp:131-147, 191. -/
def HPool.destroy (H : Heap α) (l : HPool α) : Res (Heap α) := do
  let H ← l.delta.destroy H
  let H ← l.mask.destroy H
  let H ← l.buff.destroy H
  l.value.destroy H

/-- `delete layer` (ILayer has a virtual destructor, Layer/Base.hpp:51). The inference version of MaxPooling has `value_` only
(MaxPooling.hpp:31-46). -/
def HLayer.destroy (H : Heap α) : HLayer α → Res (Heap α)
  | .fc l => l.destroy H
  | .conv l => l.destroy H
  | .pool l => l.destroy H
  | .rawFC l => l.destroy H
  | .rawConv l => l.destroyRaw H
  | .rawPool l => l.value.destroy H

/-- UnifiedNet.hpp:70-74. -/
def HNet.destroy (H : Heap α) : HNet α → Res (Heap α)
  | [] => .ok H
  | l :: net => do
    let H ← l.destroy H
    HNet.destroy H net

/-- `~Training` (Training/UnifiedNet.hpp:54, 64-67), the member `delta`. -/
def HTrain.destroy (H : Heap α) (t : HTrain α σ) : Res (Heap α) := t.delta.destroy H

end Trixy
