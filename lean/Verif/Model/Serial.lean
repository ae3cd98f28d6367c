import Verif.Model.Container
import Verif.Model.Net
import Verif.Model.Regression
import Verif.Model.Shape
/-
Model of the `saveload` definitions of the library (macros CONDITIONAL_SERIALIZABLE / TEMPLATE_SERIALIZABLE): every operand of
`archive & …` is written, or read, in order. The SF library itself (how a number becomes bytes) is not part of /repo; it is the
parameter `Codec`. Facts about SF that are used here: `sf::span(p, n)` writes `n` and then `p[0] … p[n-1]`; when reading it reads
`n`, obtains an array of `n` elements, stores its address in `p` (whatever `p` was) and reads the elements; a pointer to a
polymorphic object writes the key of the registered class and then the object; the key of an unregistered class makes SF throw.
-/
namespace Trixy

variable {α β : Type}

/-- SF: encoding of `size_t` and of the element type as sequences of bytes `β`. -/
structure Codec (α β : Type) where
  putNat : Nat → List β
  putVal : α → List β
  getNat : List β → Res (Nat × List β)
  getVal : List β → Res (α × List β)

/-- Write the elements of a list one after the other. -/
def putMany {X : Type} (put : X → Res (List β)) : List X → Res (List β)
  | [] => .ok []
  | x :: xs => do
    let b ← put x
    let bs ← putMany put xs
    return b ++ bs

/-- Read `n` elements one after the other; `k` is the index of the first. -/
def getMany {X : Type} (get : Nat → List β → Res (X × List β)) : Nat → Nat → List β → Res (List X × List β)
  | 0, _, bs => .ok ([], bs)
  | n + 1, k, bs => do
    let (x, bs) ← get k bs
    let (xs, bs) ← getMany get n (k + 1) bs
    return (x :: xs, bs)

/-- Lique/Shape.hpp:53-57, saving. -/
def Codec.putShape (c : Codec α β) (s : Shape) : List β := c.putNat s.d ++ c.putNat s.h ++ c.putNat s.w ++ c.putNat s.size

/-- Lique/Shape.hpp:53-57, loading. -/
def Codec.getShape (c : Codec α β) (bs : List β) : Res (Shape × List β) := do
  let (d, bs) ← c.getNat bs
  let (h, bs) ← c.getNat bs
  let (w, bs) ← c.getNat bs
  let (n, bs) ← c.getNat bs
  return (⟨d, h, w, n⟩, bs)

/-- One cell: writing an indeterminate value is undefined. -/
def Codec.putCell (c : Codec α β) : Option α → Res (List β)
  | none => .error .uninit
  | some a => .ok (c.putVal a)

/-- One cell of a fresh array. -/
def Codec.getCell (c : Codec α β) (bs : List β) : Res (Option α × List β) := do
  let (a, bs) ← c.getVal bs
  return (some a, bs)

/-- TensorBase.hpp:311-317, saving an object with shape `s` and cells `b`: shape, then `sf::span(data_, shape_.size)`
(`shape_.size` elements are read from the allocation). -/
def Codec.putTensor (c : Codec α β) (s : Shape) (b : Buf α) : Res (List β) :=
  if b.length < s.size then .error .oob else do
  let cells ← putMany c.putCell (b.take s.size)
  return c.putShape s ++ c.putNat s.size ++ cells

/-- TensorBase.hpp:311-317, loading: the count in the stream is stored into `shape_.size`. -/
def Codec.getTensor (c : Codec α β) (bs : List β) : Res ((Shape × Buf α) × List β) := do
  let (s, bs) ← c.getShape bs
  let (n, bs) ← c.getNat bs
  let (cells, bs) ← getMany (fun _ => c.getCell) n 0 bs
  return (({ s with size := n }, cells), bs)

/-- Shape of a vector after `resize(n)` (Vector.hpp:141-149: `shape_type(1, width, 1)`). -/
def vecShape (n : Nat) : Shape := Shape.mk3 1 n 1

/-- A vector member at value level (all vectors of the library objects below are made by `resize`). -/
def Codec.putVec (c : Codec α β) (b : Buf α) : Res (List β) := c.putTensor (vecShape b.length) b
/-- A matrix member at value level: default constructed and resized, which leaves `shape_.depth` 0 (Matrix.hpp:153-163, property
C06). -/
def Codec.putMat (c : Codec α β) (m : Mat α) : Res (List β) := c.putTensor ⟨0, m.h, m.w, wmul m.h m.w⟩ m.data
/-- A tensor at value level. -/
def Codec.putTen (c : Codec α β) (t : Ten α) : Res (List β) := c.putTensor (Shape.mk3 t.d t.h t.w) t.data

/-- Loading into a vector member. -/
def Codec.getVec (c : Codec α β) (bs : List β) : Res (Buf α × List β) := do
  let (t, bs) ← c.getTensor bs
  return (t.2, bs)
/-- Loading into a matrix member. -/
def Codec.getMat (c : Codec α β) (bs : List β) : Res (Mat α × List β) := do
  let (t, bs) ← c.getTensor bs
  return (⟨t.1.h, t.1.w, t.2⟩, bs)
/-- Loading into a tensor member. -/
def Codec.getTen (c : Codec α β) (bs : List β) : Res (Ten α × List β) := do
  let (t, bs) ← c.getTensor bs
  return (⟨t.1.d, t.1.h, t.1.w, t.2⟩, bs)

/-- Container.hpp:308-314, saving a container of values: the bytes and the object afterwards (`capacity_ = size_`). -/
def Codec.putCont (c : Codec α β) (s : Store α) (k : Cont) : Res (List β × Cont) := do
  let (l, k) ← k.save s
  let bs ← putMany (fun a => .ok (c.putVal a)) l
  return (c.putNat l.length ++ bs, k)

/-- Container.hpp:308-314, loading into a container that owns nothing: a new array of `n` elements, `capacity_ = size_`. -/
def Codec.getCont (c : Codec α β) (s : Store α) (bs : List β) : Res ((Store α × Cont) × List β) := do
  let (n, bs) ← c.getNat bs
  let (l, bs) ← getMany (fun _ => c.getVal) n 0 bs
  let r ← Cont.ofList s l
  return (r, bs)

/-- Regression/Linear.hpp:104-108, Polynomial.hpp:115-119, saving. -/
def Codec.putReg (c : Codec α β) (r : Reg α) : Res (List β) := do
  let w ← c.putVec r.W
  return w ++ c.putNat r.N

/-- Regression/Linear.hpp:104-108, Polynomial.hpp:115-119, loading. -/
def Codec.getReg (c : Codec α β) (bs : List β) : Res (Reg α × List β) := do
  let (w, bs) ← c.getVec bs
  let (n, bs) ← c.getNat bs
  return (⟨w, n⟩, bs)

/-- The registered activation classes (Functional/Function/Base.hpp:70-75, the object itself has no data): `key` is the class key
SF writes for an object, `create` makes an object from a key. -/
structure Registry (α : Type) where
  key : Act α → Nat
  create : Nat → Option (Act α)

/-- `archive & layer.activation_`, saving. -/
def Codec.putAct (c : Codec α β) (R : Registry α) (a : Act α) : List β := c.putNat (R.key a)

/-- `archive & layer.activation_`, loading (unregistered key: SF throws, nothing is modelled after that). -/
def Codec.getAct (c : Codec α β) (R : Registry α) (bs : List β) : Res (Act α × List β) := do
  let (k, bs) ← c.getNat bs
  match R.create k with
  | none => .error .badCast
  | some a => return (a, bs)

/-- FullyConnected.hpp:271-280, saving (the members are the same in both modes). -/
def Codec.putDense (c : Codec α β) (R : Registry α) (isize osize : Nat) (B : Buf α) (W : Mat α) (a : Act α) : Res (List β) := do
  let b ← c.putVec B
  let w ← c.putMat W
  return c.putShape (Shape.mk3 1 1 isize) ++ c.putShape (Shape.mk3 1 1 osize) ++ b ++ w ++ c.putAct R a

/-- FullyConnected.hpp:274-276, loading the members: input shape, output shape, biases, weights, activation. -/
def Codec.getDense (c : Codec α β) (R : Registry α) (bs : List β) : Res ((Shape × Shape × Buf α × Mat α × Act α) × List β) := do
  let (i, bs) ← c.getShape bs
  let (o, bs) ← c.getShape bs
  let (b, bs) ← c.getVec bs
  let (w, bs) ← c.getMat bs
  let (a, bs) ← c.getAct R bs
  return ((i, o, b, w, a), bs)

/-- `T.resize(shape).fill(0)` of a tensor. -/
def tenOf [Zero α] (s : Shape) : Ten α := ⟨s.d, s.h, s.w, filled s.size 0⟩

/-- FullyConnected.hpp:155-165 `prepare()` of the training layer on the loaded members; `kB`, `kW` are the addresses of the new
parameter arrays. -/
def FC.prepare [Zero α] (kB kW : Nat) (i o : Shape) (B : Buf α) (W : Mat α) (a : Act α) : FC α where
  isize := i.w
  osize := o.w
  B := B
  W := W
  act := a
  value := tenOf o
  buff := filled o.w 0
  gradB := filled o.w 0
  gradW := Mat.fill i.w o.w 0
  gradBs := filled o.w 0
  gradWs := Mat.fill i.w o.w 0
  delta := tenOf i
  accumulated := false
  keyB := kB
  keyW := kW

/-- FullyConnected.hpp:68-71 `prepare()` of the inference layer. -/
def RawFC.prepare [Zero α] (i o : Shape) (B : Buf α) (W : Mat α) (a : Act α) : RawFC α where
  isize := i.w
  osize := o.w
  B := B
  W := W
  act := a
  value := tenOf o

/-- Convolutional.hpp:369-379, saving. `Ws_` is a Container of tensors. -/
def Codec.putConv (c : Codec α β) (l : Conv α) : Res (List β) := do
  let b ← c.putVec l.B
  let ws ← putMany c.putTen l.Ws
  return c.putShape (Shape.mk3 l.id l.ih l.iw) ++ c.putShape (Shape.mk3 l.od l.oh l.ow) ++ c.putNat l.pad ++ c.putNat l.sv ++
    c.putNat l.sh ++ b ++ (c.putNat l.Ws.length ++ ws)

/-- Convolutional.hpp:205-226 `prepare()` (83-89 in the inference layer: the members up to `value`) on the loaded members;
`Ws_.front()` of an empty container is a null dereference. -/
def Conv.prepare [Zero α] (kB : Nat) (kW : Nat → Nat) (i o : Shape) (pad sv sh : Nat) (B : Buf α) (Ws : List (Ten α)) : Res (Conv α) :=
  match Ws with
  | [] => .error .nullDeref
  | W :: _ => .ok {
      id := i.d, ih := i.h, iw := i.w, od := o.d, oh := o.h, ow := o.w, pad := pad, sv := sv, sh := sh,
      B := B, Ws := Ws, fc := Ws.length, fd := W.d, fh := W.h, fw := W.w,
      value := tenOf o,
      gradWs := List.replicate Ws.length ⟨W.d, W.h, W.w, filled W.data.length 0⟩, gradB := filled Ws.length 0,
      delta := tenOf i,
      buff := tenOf (Shape.mk3 o.d (wadd (wmul sv (wsub o.h 1)) 1) (wadd (wmul sh (wsub o.w 1)) 1)),
      keyB := kB, keyW := kW }

/-- Convolutional.hpp:369-379, loading. -/
def Codec.getConv [Zero α] (c : Codec α β) (kB : Nat) (kW : Nat → Nat) (bs : List β) : Res (Conv α × List β) := do
  let (i, bs) ← c.getShape bs
  let (o, bs) ← c.getShape bs
  let (pad, bs) ← c.getNat bs
  let (sv, bs) ← c.getNat bs
  let (sh, bs) ← c.getNat bs
  let (b, bs) ← c.getVec bs
  let (n, bs) ← c.getNat bs
  let (ws, bs) ← getMany (fun _ => c.getTen) n 0 bs
  let l ← Conv.prepare kB kW i o pad sv sh b ws
  return (l, bs)

/-- MaxPooling.hpp:275-284, saving. -/
def Codec.putPool (c : Codec α β) (R : Registry α) (l : Pool α) : List β :=
  c.putShape (Shape.mk3 l.id l.ih l.iw) ++ c.putShape (Shape.mk3 l.od l.oh l.ow) ++ c.putNat l.sv ++ c.putNat l.sh ++
    c.putAct R l.act

/-- MaxPooling.hpp:275-284, loading; `prepare()` (183-188) sets up `delta_`, `mask_`, `buff_` of the training layer and nothing in
the inference layer (81): `value_` stays the empty tensor of the default constructor in both. -/
def Codec.getPool [Zero α] (c : Codec α β) (R : Registry α) (bs : List β) : Res (Pool α × List β) := do
  let (i, bs) ← c.getShape bs
  let (o, bs) ← c.getShape bs
  let (sv, bs) ← c.getNat bs
  let (sh, bs) ← c.getNat bs
  let (a, bs) ← c.getAct R bs
  return ({ id := i.d, ih := i.h, iw := i.w, od := o.d, oh := o.h, ow := o.w, sv := sv, sh := sh, act := a,
            value := ⟨0, 0, 0, []⟩, buff := tenOf o, mask := tenOf i, delta := tenOf i }, bs)

/-- Saving through an `ILayer*` (Layer/Base.hpp:119-131, UnifiedNet.hpp:130-135): class key, then the object. The keys of the six
classes are 0 … 5. -/
def Codec.putLayer (c : Codec α β) (R : Registry α) : Layer α → Res (List β)
  | .fc l => do let b ← c.putDense R l.isize l.osize l.B l.W l.act; return c.putNat 0 ++ b
  | .conv l => do let b ← c.putConv l; return c.putNat 1 ++ b
  | .pool l => .ok (c.putNat 2 ++ c.putPool R l)
  | .rawFC l => do let b ← c.putDense R l.isize l.osize l.B l.W l.act; return c.putNat 3 ++ b
  | .rawConv l => do let b ← c.putConv l; return c.putNat 4 ++ b
  | .rawPool l => .ok (c.putNat 5 ++ c.putPool R l)

/-- The object of the class with key `k`. -/
def Codec.getObject [Zero α] (c : Codec α β) (R : Registry α) (kB : Nat) (kW : Nat → Nat) (k : Nat) (bs : List β) : Res (Layer α × List β) :=
  match k with
  | 0 => do let (p, bs) ← c.getDense R bs; return (.fc (FC.prepare kB (kW 0) p.1 p.2.1 p.2.2.1 p.2.2.2.1 p.2.2.2.2), bs)
  | 1 => do let (l, bs) ← c.getConv kB kW bs; return (.conv l, bs)
  | 2 => do let (l, bs) ← c.getPool R bs; return (.pool l, bs)
  | 3 => do let (p, bs) ← c.getDense R bs; return (.rawFC (RawFC.prepare p.1 p.2.1 p.2.2.1 p.2.2.2.1 p.2.2.2.2), bs)
  | 4 => do let (l, bs) ← c.getConv kB kW bs; return (.rawConv l, bs)
  | 5 => do let (l, bs) ← c.getPool R bs; return (.rawPool l, bs)
  | _ => .error .badCast

/-- Loading through an `ILayer*`: class key, then the object made from it. -/
def Codec.getLayer [Zero α] (c : Codec α β) (R : Registry α) (kB : Nat) (kW : Nat → Nat) (bs : List β) : Res (Layer α × List β) := do
  let (k, bs) ← c.getNat bs
  c.getObject R kB kW k bs

/-- UnifiedNet.hpp:130-135, saving: the container of layer pointers. -/
def Codec.putNet (c : Codec α β) (R : Registry α) (net : Net α) : Res (List β) := do
  let bs ← putMany (c.putLayer R) net
  return c.putNat net.length ++ bs

/-- UnifiedNet.hpp:130-135, loading; `addr i` are the addresses of the parameter arrays of layer `i`. -/
def Codec.getNet [Zero α] (c : Codec α β) (R : Registry α) (addr : Nat → Nat × (Nat → Nat)) (bs : List β) : Res (Net α × List β) := do
  let (n, bs) ← c.getNat bs
  getMany (fun i => c.getLayer R (addr i).1 (addr i).2) n 0 bs

/-- Neuro/Serializer/Core.hpp:16-29 `serialize`: the object is written to a byte vector, and the vector (length, bytes) to the
stream. `out` is what the stream already contains. -/
def Codec.serialize (c : Codec α β) {X : Type} (put : X → Res (List β)) (out : List β) (x : X) : Res (List β) := do
  let storage ← put x
  return out ++ (c.putNat storage.length ++ storage)

/-- Neuro/Serializer/Core.hpp:31-44 `deserialize`: a byte vector is read from the stream and the object from the vector (bytes left
in the vector are dropped with it). -/
def Codec.deserialize (c : Codec α β) {X : Type} (get : List β → Res (X × List β)) (bs : List β) : Res (X × List β) := do
  let (n, bs) ← c.getNat bs
  if bs.length < n then .error .oob else do
  let (x, _) ← get (bs.take n)
  return (x, bs.drop n)

end Trixy
