import Verif.Spec.HeapNet
import Verif.Model.HeapBuild
/- Specification vocabulary for the construction of networks in the free store. -/
namespace Trixy

variable {α : Type}

/-- `H'` differs from `H` only by allocations after `H`: everything `H` had allocated is unchanged. -/
def Heap.Extends (H H' : Heap α) : Prop :=
  H.next ≤ H'.next ∧ ∀ b, b < H.next → (H'.live b ↔ H.live b) ∧ ∀ o, H'.cellAt b o = H.cellAt b o

/-- The objects have storage of their own, allocated between `H` and `H'`. -/
def Heap.Fresh (H H' : Heap α) (os : List Obj) : Prop := ∀ o ∈ os, ∃ b, o.data = .at b 0 ∧ H.next ≤ b ∧ b < H'.next

/-- The arguments of a layer constructor, with the activation as a function on values. -/
inductive LayerSpec (α : Type) where
  | fc (isize osize : Nat) (act : Act α)
  | conv (d h w fc fh fw pad sv sh : Nat)
  | pool (d h w sv sh : Nat) (act : Act α)

/-- The layer value these arguments describe (`kB`, `kW`: the addresses of the bias and of the weights). -/
def LayerSpec.make [Zero α] (kB : Nat) (kW : Nat → Nat) : LayerSpec α → Res (Layer α)
  | .fc i o a => .ok (.fc (FC.make i o a kB (kW 0)))
  | .conv d h w c fh fw p sv sh => do let l ← Conv.make d h w c fh fw p sv sh kB kW; return .conv l
  | .pool d h w sv sh a => do let l ← Pool.make d h w sv sh a; return .pool l

/-- The same arguments, the activation object computing the activation function. -/
inductive LayerArgs.Same : LayerArgs α → LayerSpec α → Prop
  | fc {i o : Nat} {h : HAct α} {a : Act α} (ha : h.Follows a) : LayerArgs.Same (.fc i o h) (.fc i o a)
  | conv {d h w c fh fw p sv sh : Nat} : LayerArgs.Same (.conv d h w c fh fw p sv sh) (.conv d h w c fh fw p sv sh)
  | pool {d h w sv sh : Nat} {g : HAct α} {a : Act α} (ha : g.Follows a) : LayerArgs.Same (.pool d h w sv sh g) (.pool d h w sv sh a)

/-- The numbers of cells of the members fit `size_t`; the strides and the number of filters are not zero. -/
def LayerSpec.Room : LayerSpec α → Prop
  | .fc i o _ => i < W64 ∧ o < W64 ∧ i * o < W64
  | .conv d h w c fh fw p sv sh => 0 < c ∧ c < W64 ∧ d * fh * fw < W64 ∧ d * h * w < W64 ∧
      ∃ oh ow, convExtent h fh p sv = .ok oh ∧ convExtent w fw p sh = .ok ow ∧ c * oh * ow < W64 ∧
        c * (wadd (wmul sv (wsub oh 1)) 1) * (wadd (wmul sh (wsub ow 1)) 1) < W64
  | .pool d h w sv sh _ => 0 < sv ∧ 0 < sh ∧ d * h * w < W64

/-- Address of the bias of a layer. -/
def HLayer.biasAddr (addr : Ptr → Nat) : HLayer α → Nat
  | .fc l => addr l.B.data
  | .conv l => addr l.B.data
  | _ => 0

/-- Address of the weights (of filter `i`). -/
def HLayer.weightAddr (addr : Ptr → Nat) : HLayer α → Nat → Nat
  | .fc l, _ => addr l.W.data
  | .conv l, i => ((l.Ws[i]?).map (fun o => addr o.data)).getD 0
  | _, _ => 0

/-- The network value made by the constructor arguments, with the addresses of the layers in memory. -/
inductive HNet.Made [Zero α] (addr : Ptr → Nat) : HNet α → List (LayerSpec α) → Net α → Prop
  | nil : HNet.Made addr [] [] []
  | cons {h : HLayer α} {net : HNet α} {s : LayerSpec α} {ss : List (LayerSpec α)} {L : Layer α} {v : Net α}
      (h1 : s.make (h.biasAddr addr) (h.weightAddr addr) = .ok L) (h2 : HNet.Made addr net ss v) :
      HNet.Made addr (h :: net) (s :: ss) (L :: v)

end Trixy
