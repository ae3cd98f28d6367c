import Verif.Model.HeapLinear
import Verif.Model.Train
import Verif.Model.Softmax
/-
The layers, the network and the training loops on the free store: the same code as in Model/FC, Conv, Pool, Net, Train, but
every Vector, Matrix and Tensor member is an object with a pointer into the free store, so that the tensors passed by
reference (`input`, `idelta`, samples, targets) may be members of the network itself. Positions are computed without
`size_t` wrap-around (`Shape.at2`, `Shape.at3`), the loop index arithmetic of the convolution is `size_t` arithmetic.
A layer record is the C++ object: the only non-tensor member that changes after construction is `accumulated`.
-/
namespace Trixy

variable {α γ ρ σ : Type}

/-! ### Functions and optimizers -/

/-- `IActivation` (Function/Base.hpp:21-33) on ranges that are pointers into the free store: `f(result, input)` and
`df(result, input)`. -/
structure HAct (α : Type) where
  f : Heap α → Obj → Obj → Res (Heap α)
  df : Heap α → Obj → Obj → Res (Heap α)

/-- Function/Detail/MacroScope.hpp:6-13 (`while (first != last) *first++ = name(*it++);`), Activation.hpp:24-40. -/
def HAct.elementwise (g g' : α → α) : HAct α where
  f H r x := applyPtr g H r.data r.shape.size x.data
  df H r x := applyPtr g' H r.data r.shape.size x.data

/-- Activation.hpp:82-95. -/
def Obj.rangeMax [LT α] [DecidableLT α] (H : Heap α) (x : Obj) : Res α := do
  let m ← x.get1 H 0
  forLoop 1 x.shape.size m (fun i m => do
    let a ← x.get1 H i
    return if m < a then a else m)

/-- Activation.hpp:112-130. -/
def Obj.normalise [Zero α] [Add α] [Mul α] (recip : α → Res α) (H : Heap α) (r : Obj) : Res (Heap α) := do
  let den ← forN r.shape.size (0 : α) (fun i s => do
    let a ← r.get1 H i
    return s + a)
  let den ← recip den
  r.join H den

/-- Activation.hpp:97-107. -/
def Obj.expInto [Sub α] (exp : α → Res α) (max : α) (H : Heap α) (r x : Obj) : Res (Heap α) :=
  forN r.shape.size H (fun i H => do
    let a ← x.get1 H i
    let e ← exp (a - max)
    r.set1 H i e)

/-- Activation.hpp:77-141, 162: an object of class `SoftMax`. -/
def HAct.softmax [Zero α] [One α] [Add α] [Sub α] [Mul α] [LT α] [DecidableLT α] (exp recip : α → Res α) : HAct α where
  f H r x := do
    let max ← x.rangeMax H
    let H ← r.expInto exp max H x
    r.normalise recip H
  df H r _ := r.fill H 1

/-- `ILoss` (Function/Base.hpp:42-54): `f(result, y_true, y_pred)` and `df(result, y_true, y_pred)`. -/
structure HLoss (α : Type) where
  f : Heap α → Obj → Obj → Res α
  df : Heap α → Obj → Obj → Obj → Res (Heap α)

/-- A loss whose value is `post` of the sum of a term per element and whose derivative is computed element by element, the
loops of Loss.hpp:21-310. -/
def HLoss.elementwise [Zero α] (acc : α → α → α → Res α) (post : α → α) (d : α → α → Res α) : HLoss α where
  f H t p := do
    let s ← forN t.shape.size (0 : α) (fun i s => do
      let a ← t.get1 H i
      let b ← p.get1 H i
      acc s a b)
    return post s
  df H r t p := forN r.shape.size H (fun i H => do
    let a ← t.get1 H i
    let b ← p.get1 H i
    let q ← d a b
    r.set1 H i q)

/-- `IOptimizer::update(Range param, Range grad)` (Interface.hpp:69-72). The state of the optimizer is a value: its tables
are objects of its own (Model/OptMem.lean treats them). -/
abbrev HUpd (σ α : Type) := Heap α → σ → Obj → Obj → Res (Heap α × σ)

/-- GradDescent.hpp:54-59. -/
def hgdUpdate [Mul α] [Sub α] : HUpd α α := fun H lr p g => do
  let H ← g.join H lr
  let H ← p.sub H g
  return (H, lr)

/-- StoGradDescent.hpp:58-65. -/
def hsgdUpdate [Mul α] [Sub α] : HUpd (Sgd α) α := fun H s p g => do
  let H ← g.join H s.lr
  let H ← p.join H s.alpha
  let H ← p.sub H g
  return (H, s)

/-! ### Fully connected layers -/

/-- FullyConnected.hpp:101-132 (training). -/
structure HFC (α : Type) where
  isize : Nat
  osize : Nat
  B : Obj
  W : Obj
  act : HAct α
  value : Obj
  buff : Obj
  gradB : Obj
  gradW : Obj
  gradBs : Obj
  gradWs : Obj
  delta : Obj
  accumulated : Bool

/-- FullyConnected.hpp:182-194. -/
def HFC.forward [Zero α] [Add α] [Mul α] (H : Heap α) (input : Obj) (l : HFC α) : Res (Heap α) := do
  let H ← Obj.dotRow H l.buff input l.W
  let H ← l.buff.add H l.B
  l.act.f H l.value l.buff

/-- FullyConnected.hpp:214. -/
def HFC.backDelta [Zero α] [Add α] [Mul α] (full : Bool) (H : Heap α) (l : HFC α) : Res (Heap α) :=
  if full then Obj.dotCol H l.delta l.W l.gradB else .ok H

/-- FullyConnected.hpp:196-215. -/
def HFC.backward [Zero α] [Add α] [Mul α] (H : Heap α) (input idelta : Obj) (full : Bool) (l : HFC α) : Res (Heap α) := do
  let H ← l.act.df H l.gradB l.buff
  let H ← l.gradB.mul H idelta
  let H ← Obj.tensordot H l.gradW input l.gradB
  HFC.backDelta full H l

/-- FullyConnected.hpp:222-226. -/
def Obj.scaleUnlessOne [Mul α] [One α] [DecidableEq α] (alpha : α) (H : Heap α) (g : Obj) : Res (Heap α) :=
  if alpha ≠ 1 then g.join H alpha else .ok H

/-- FullyConnected.hpp:217-230, after the choice of the gradients. -/
def HFC.updateWith [Mul α] [One α] [DecidableEq α] (upd : HUpd σ α) (H : Heap α) (s : σ) (alpha : α) (l : HFC α) (gB gW : Obj) :
    Res (Heap α × σ) := do
  let H ← Obj.scaleUnlessOne alpha H gB
  let H ← Obj.scaleUnlessOne alpha H gW
  let (H, s) ← upd H s l.B gB
  upd H s l.W gW

/-- FullyConnected.hpp:217-230. -/
def HFC.update [Mul α] [One α] [DecidableEq α] (upd : HUpd σ α) (H : Heap α) (s : σ) (alpha : α) (l : HFC α) : Res (Heap α × σ) :=
  if l.accumulated then l.updateWith upd H s alpha l.gradBs l.gradWs else l.updateWith upd H s alpha l.gradB l.gradW

/-- FullyConnected.hpp:232-238. -/
def HFC.reset [Zero α] (H : Heap α) (l : HFC α) : Res (Heap α × HFC α) := do
  let H ← l.gradBs.fill H 0
  let H ← l.gradWs.fill H 0
  return (H, { l with accumulated := false })

/-- FullyConnected.hpp:240-246. -/
def HFC.accumulate [Add α] (H : Heap α) (l : HFC α) : Res (Heap α × HFC α) := do
  let H ← l.gradBs.add H l.gradB
  let H ← l.gradWs.add H l.gradW
  return (H, { l with accumulated := true })

/-- FullyConnected.hpp:26-46 (inference). -/
structure HRawFC (α : Type) where
  isize : Nat
  osize : Nat
  B : Obj
  W : Obj
  act : HAct α
  value : Obj

/-- FullyConnected.hpp:82-93. -/
def HRawFC.forward [Zero α] [Add α] [Mul α] (H : Heap α) (input : Obj) (l : HRawFC α) : Res (Heap α) := do
  let H ← Obj.dotRow H l.value input l.W
  let H ← l.value.add H l.B
  l.act.f H l.value l.value

/-! ### Convolution -/

/-- Convolutional.hpp:138-168; the elements of the containers `Ws_` and `gradWs_` are Tensor objects. -/
structure HConv where
  id : Nat
  ih : Nat
  iw : Nat
  od : Nat
  oh : Nat
  ow : Nat
  pad : Nat
  sv : Nat
  sh : Nat
  B : Obj
  Ws : List Obj
  fc : Nat
  fd : Nat
  fh : Nat
  fw : Nat
  value : Obj
  gradWs : List Obj
  gradB : Obj
  delta : Obj
  buff : Obj

/-- Convolutional.hpp:258-259. -/
def hconvAccum [Add α] [Mul α] (fd : Nat) (H : Heap α) (input W : Obj) (i0 j0 i j : Nat) (sum : α) : Res α :=
  forN fd sum (fun c sum => do
    let a ← input.get3 H c i0 j0
    let b ← W.get3 H c i j
    return sum + a * b)

/-- Convolutional.hpp:245-260. -/
def HConv.cell [Add α] [Mul α] (l : HConv) (H : Heap α) (input W : Obj) (b : α) (y x : Nat) : Res α :=
  forN l.fh b (fun i sum => forN l.fw sum (fun j sum =>
    let i0 := wsub (wadd (wmul l.sv y) i) l.pad
    let j0 := wsub (wadd (wmul l.sh x) j) l.pad
    if l.ih ≤ i0 ∨ l.iw ≤ j0 then .ok sum
    else hconvAccum l.fd H input W i0 j0 i j sum))

/-- Convolutional.hpp:237-267 (99-129 is identical). -/
def HConv.forward [Add α] [Mul α] (H : Heap α) (input : Obj) (l : HConv) : Res (Heap α) :=
  forN l.fc H (fun f H => forN l.oh H (fun y H => forN l.ow H (fun x H => do
    let b ← l.B.get1 H f
    let W ← lget l.Ws f
    let sum ← l.cell H input W b y x
    l.value.set3 H f y x sum)))

/-- Convolutional.hpp:271-276. -/
def HConv.spread (l : HConv) (H : Heap α) (idelta : Obj) : Res (Heap α) :=
  forN l.buff.shape.d H (fun d H => forN l.oh H (fun i H => forN l.ow H (fun j H => do
    let a ← idelta.get3 H d i j
    l.buff.set3 H d (wmul i l.sv) (wmul j l.sh) a)))

/-- Convolutional.hpp:296-297. -/
def hconvGradChan [Add α] [Mul α] (fd : Nat) (input : Obj) (dv : α) (i0 j0 i j : Nat) (G : Obj) (H : Heap α) : Res (Heap α) :=
  forN fd H (fun c H => do
    let g ← G.get3 H c i j
    let a ← input.get3 H c i0 j0
    G.set3 H c i j (g + dv * a))

/-- Convolutional.hpp:284-298. -/
def HConv.gradCell [Add α] [Mul α] (l : HConv) (input : Obj) (dv : α) (y x : Nat) (G : Obj) (H : Heap α) : Res (Heap α) :=
  forN l.fh H (fun i H => forN l.fw H (fun j H =>
    let i0 := wsub (wadd i y) l.pad
    let j0 := wsub (wadd j x) l.pad
    if l.ih ≤ i0 ∨ l.iw ≤ j0 then .ok H
    else hconvGradChan l.fd input dv i0 j0 i j G H))

/-- Convolutional.hpp:278-303. -/
def HConv.grads [Add α] [Mul α] (l : HConv) (H : Heap α) (input : Obj) : Res (Heap α) :=
  forN l.fc H (fun f H => do
    let G ← lget l.gradWs f
    forN l.buff.shape.h H (fun y H => forN l.buff.shape.w H (fun x H => do
      let dv ← l.buff.get3 H f y x
      let H ← l.gradCell input dv y x G H
      let gb ← l.gradB.get1 H f
      l.gradB.set1 H f (gb + dv))))

/-- Convolutional.hpp:326-327. -/
def HConv.deltaFilters [Add α] [Mul α] (l : HConv) (H : Heap α) (c i j i0 j0 : Nat) (sum : α) : Res α :=
  forN l.fc sum (fun f sum => do
    let W ← lget l.Ws f
    let w ← W.get3 H c (wsub (wsub l.fh 1) i) (wsub (wsub l.fw 1) j)
    let b ← l.buff.get3 H f i0 j0
    return sum + w * b)

/-- Convolutional.hpp:314-329. -/
def HConv.deltaCell [Zero α] [Add α] [Mul α] (l : HConv) (H : Heap α) (c y x : Nat) : Res α :=
  forN l.fh (0 : α) (fun i sum => forN l.fw sum (fun j sum =>
    let i0 := wsub (wadd y i) (wsub (wsub l.fh 1) l.pad)
    let j0 := wsub (wadd x j) (wsub (wsub l.fw 1) l.pad)
    if l.buff.shape.h ≤ i0 ∨ l.buff.shape.w ≤ j0 then .ok sum
    else l.deltaFilters H c i j i0 j0 sum))

/-- Convolutional.hpp:305-334. -/
def HConv.deltas [Zero α] [Add α] [Mul α] (l : HConv) (H : Heap α) : Res (Heap α) :=
  forN l.ih H (fun y H => forN l.iw H (fun x H => forN l.fd H (fun c H => do
    let sum ← l.deltaCell H c y x
    l.delta.set3 H c y x sum)))

/-- Convolutional.hpp:269-335. -/
def HConv.backward [Zero α] [Add α] [Mul α] (H : Heap α) (input idelta : Obj) (_full : Bool) (l : HConv) : Res (Heap α) := do
  let H ← l.spread H idelta
  let H ← l.grads H input
  l.deltas H

/-- Convolutional.hpp:339. -/
def hconvScale [Mul α] (alpha : α) (H : Heap α) (Gs : List Obj) : Res (Heap α) :=
  forN Gs.length H (fun f H => do
    let G ← lget Gs f
    G.join H alpha)

/-- Convolutional.hpp:342. -/
def hconvUpdW (upd : HUpd σ α) (n : Nat) (H : Heap α) (s : σ) (Ws Gs : List Obj) : Res (Heap α × σ) :=
  forN n (H, s) (fun f st => do
    let W ← lget Ws f
    let G ← lget Gs f
    upd st.1 st.2 W G)

/-- Convolutional.hpp:337-344. -/
def HConv.update [Mul α] (upd : HUpd σ α) (H : Heap α) (s : σ) (alpha : α) (l : HConv) : Res (Heap α × σ) := do
  let H ← hconvScale alpha H l.gradWs
  let H ← l.gradB.join H alpha
  let (H, s) ← hconvUpdW upd l.Ws.length H s l.Ws l.gradWs
  upd H s l.B l.gradB

/-! ### Pooling -/

/-- MaxPooling.hpp:126-147. -/
structure HPool (α : Type) where
  id : Nat
  ih : Nat
  iw : Nat
  od : Nat
  oh : Nat
  ow : Nat
  sv : Nat
  sh : Nat
  act : HAct α
  value : Obj
  buff : Obj
  mask : Obj
  delta : Obj

/-- MaxPooling.hpp:100-109. -/
def hpoolScan [LT α] [DecidableLT α] (H : Heap α) (input : Obj) (sv sh d i j : Nat) : Res α := do
  let m ← input.get3 H d i j
  forN sv m (fun a m => forN sh m (fun b m => do
    let v ← input.get3 H d (i + a) (j + b)
    return if m < v then v else m))

/-- MaxPooling.hpp:92-117. -/
def HPool.forwardRaw [LT α] [DecidableLT α] (H : Heap α) (input : Obj) (l : HPool α) : Res (Heap α) := do
  let H ← forN l.id H (fun d H => forN (rounds l.ih l.sv) H (fun p H => forN (rounds l.iw l.sh) H (fun q H => do
    let m ← hpoolScan H input l.sv l.sh d (p * l.sv) (q * l.sh)
    l.value.set3 H d (p * l.sv / l.sv) (q * l.sh / l.sh) m)))
  l.act.f H l.value l.value

/-- State of the scan in the training layer: free store, maximum, its position. -/
structure HScan (α : Type) where
  heap : Heap α
  max : α
  imax : Nat
  jmax : Nat

/-- MaxPooling.hpp:223-228. -/
def HScan.better [LT α] [DecidableLT α] (s : HScan α) (H : Heap α) (v : α) (y x : Nat) : HScan α :=
  if s.max < v then ⟨H, v, y, x⟩ else { s with heap := H }

/-- MaxPooling.hpp:211-230. -/
def hpoolScanT [Zero α] [LT α] [DecidableLT α] (H : Heap α) (input mask : Obj) (sv sh d i j : Nat) : Res (HScan α) := do
  let m ← input.get3 H d i j
  forN sv ⟨H, m, i, j⟩ (fun a s => forN sh s (fun b s => do
    let v ← input.get3 s.heap d (i + a) (j + b)
    let H ← mask.set3 s.heap d (i + a) (j + b) 0
    return s.better H v (i + a) (j + b)))

/-- MaxPooling.hpp:201-236. -/
def HPool.scanAll [Zero α] [One α] [LT α] [DecidableLT α] (H : Heap α) (input : Obj) (l : HPool α) : Res (Heap α) :=
  forN l.id H (fun d H => forN (rounds l.ih l.sv) H (fun p H => forN (rounds l.iw l.sh) H (fun q H => do
    let r ← hpoolScanT H input l.mask l.sv l.sh d (p * l.sv) (q * l.sh)
    let H ← l.value.set3 r.heap d (p * l.sv / l.sv) (q * l.sh / l.sh) r.max
    l.mask.set3 H d r.imax r.jmax 1)))

/-- MaxPooling.hpp:201-239. -/
def HPool.forward [Zero α] [One α] [LT α] [DecidableLT α] (H : Heap α) (input : Obj) (l : HPool α) : Res (Heap α) := do
  let H ← l.mask.fill H 0
  let H ← l.scanAll H input
  l.act.f H l.value l.buff

/-- MaxPooling.hpp:241-250. -/
def HPool.backward [Mul α] (H : Heap α) (_input idelta : Obj) (_full : Bool) (l : HPool α) : Res (Heap α) := do
  let H ← l.act.df H l.buff l.buff
  let H ← l.buff.mul H idelta
  forN l.id H (fun d H => forN l.ih H (fun i H => forN l.iw H (fun j H => do
    let a ← l.buff.get3 H d (i / l.sv) (j / l.sh)
    let m ← l.mask.get3 H d i j
    l.delta.set3 H d i j (a * m))))

/-! ### Networks -/

/-- The dynamic types behind an `ILayer*` (Layer/Base.hpp:24-102). -/
inductive HLayer (α : Type) where
  | fc (l : HFC α)
  | conv (l : HConv)
  | pool (l : HPool α)
  | rawFC (l : HRawFC α)
  | rawConv (l : HConv)
  | rawPool (l : HPool α)

/-- `value()` (Layer/Base.hpp:57): a reference to the member. -/
def HLayer.value : HLayer α → Obj
  | .fc l => l.value
  | .conv l => l.value
  | .pool l => l.value
  | .rawFC l => l.value
  | .rawConv l => l.value
  | .rawPool l => l.value

/-- `delta()` (Layer/Base.hpp:96): a reference to the member. -/
def HLayer.delta : HLayer α → Res Obj
  | .fc l => .ok l.delta
  | .conv l => .ok l.delta
  | .pool l => .ok l.delta
  | _ => .error .badCast

/-- `forward(input)` (Layer/Base.hpp:56). -/
def HLayer.forward [Zero α] [One α] [Add α] [Mul α] [LT α] [DecidableLT α] (H : Heap α) (x : Obj) : HLayer α → Res (Heap α)
  | .fc l => l.forward H x
  | .conv l => l.forward H x
  | .pool l => l.forward H x
  | .rawFC l => l.forward H x
  | .rawConv l => l.forward H x
  | .rawPool l => l.forwardRaw H x

/-- `backward(input, idelta, full)` (Layer/Base.hpp:95). -/
def HLayer.backward [Zero α] [Add α] [Mul α] (H : Heap α) (x d : Obj) (full : Bool) : HLayer α → Res (Heap α)
  | .fc l => l.backward H x d full
  | .conv l => l.backward H x d full
  | .pool l => l.backward H x d full
  | _ => .error .badCast

/-- `update(optimizer, alpha)` (Layer/Base.hpp:98). -/
def HLayer.update [Mul α] [One α] [DecidableEq α] (upd : HUpd σ α) (H : Heap α) (s : σ) (alpha : α) : HLayer α → Res (Heap α × σ)
  | .fc l => l.update upd H s alpha
  | .conv l => l.update upd H s alpha
  | .pool _ => .ok (H, s)
  | _ => .error .badCast

/-- `accumulate()` (Layer/Base.hpp:100). -/
def HLayer.accumulate [Add α] (H : Heap α) : HLayer α → Res (Heap α × HLayer α)
  | .fc l => do let (H, l) ← l.accumulate H; return (H, .fc l)
  | .conv l => .ok (H, .conv l)
  | .pool l => .ok (H, .pool l)
  | _ => .error .badCast

/-- `reset()` (Layer/Base.hpp:101). -/
def HLayer.reset [Zero α] (H : Heap α) : HLayer α → Res (Heap α × HLayer α)
  | .fc l => do let (H, l) ← l.reset H; return (H, .fc l)
  | .conv l => .ok (H, .conv l)
  | .pool l => .ok (H, .pool l)
  | _ => .error .badCast

/-- The layers of a network (UnifiedNet.hpp:54). -/
abbrev HNet (α : Type) := List (HLayer α)

/-- UnifiedNet.hpp:104-105. -/
def HNet.step [Zero α] [One α] [Add α] [Mul α] [LT α] [DecidableLT α] (net : HNet α) (i : Nat) (H : Heap α) : Res (Heap α) := do
  let p ← lget net (i - 1)
  let l ← lget net i
  l.forward H p.value

/-- UnifiedNet.hpp:100-108; the result is the reference `inner_.back()->value()`. -/
def HNet.feedforward [Zero α] [One α] [Add α] [Mul α] [LT α] [DecidableLT α] (net : HNet α) (H : Heap α) (x : Obj) :
    Res (Heap α × Obj) := do
  let l ← lget net 0
  let H ← l.forward H x
  let H ← forLoop 1 net.length H (fun i H => net.step i H)
  let l ← lget net (wsub net.length 1)
  return (H, l.value)

/-! ### Training -/

/-- Training/UnifiedNet.hpp:170-171. -/
def HNet.backStep [Zero α] [Add α] [Mul α] (net : HNet α) (i : Nat) (H : Heap α) : Res (Heap α) := do
  let p ← lget net (i - 1)
  let n ← lget net (i + 1)
  let d ← n.delta
  let l ← lget net i
  l.backward H p.value d true

/-- Training/UnifiedNet.hpp:161-174 after the loss derivative. -/
def HNet.backprop [Zero α] [Add α] [Mul α] (net : HNet α) (H : Heap α) (x d : Obj) : Res (Heap α) := do
  let N := net.length
  let l ← lget net (wsub N 1)
  let p ← lget net (wsub N 2)
  let H ← l.backward H p.value d true
  let H ← forN (wsub N 2) H (fun k H => net.backStep (wsub N 2 - k) H)
  let l ← lget net 0
  let n ← lget net 1
  let d ← n.delta
  l.backward H x d false

/-- Training/UnifiedNet.hpp:218-221. -/
def HNet.updating [Mul α] [One α] [DecidableEq α] (upd : HUpd σ α) (alpha : α) (net : HNet α) (H : Heap α) (s : σ) :
    Res (Heap α × σ) :=
  forN net.length (H, s) (fun i st => do
    let l ← lget net i
    l.update upd st.1 st.2 alpha)

/-- Training/UnifiedNet.hpp:223-226. -/
def HNet.reseting [Zero α] (net : HNet α) (H : Heap α) : Res (Heap α × HNet α) :=
  forN net.length (H, net) (fun i st => do
    let l ← lget st.2 i
    let (H, l) ← l.reset st.1
    let net ← lset st.2 i l
    return (H, net))

/-- Training/UnifiedNet.hpp:228-231. -/
def HNet.accumulating [Add α] (net : HNet α) (H : Heap α) : Res (Heap α × HNet α) :=
  forN net.length (H, net) (fun i st => do
    let l ← lget st.2 i
    let (H, l) ← l.accumulate st.1
    let net ← lset st.2 i l
    return (H, net))

/-- A program state with a Training object (Training/UnifiedNet.hpp:52-57): free store, network, `delta`, `loss_`, and the
optimizer. -/
structure HTrain (α σ : Type) where
  heap : Heap α
  net : HNet α
  delta : Obj
  loss : Option (HLoss α)
  opt : σ

/-- Dereferencing `loss_`. -/
def derefHLoss (l : Option (HLoss α)) : Res (HLoss α) :=
  match l with
  | none => .error .nullDeref
  | some l => .ok l

/-- Training/UnifiedNet.hpp:156-159. -/
def HTrain.feedforward [Zero α] [One α] [Add α] [Mul α] [LT α] [DecidableLT α] (x : Obj) (t : HTrain α σ) : Res (HTrain α σ) := do
  let (H, _) ← t.net.feedforward t.heap x
  return { t with heap := H }

/-- Training/UnifiedNet.hpp:161-174. -/
def HTrain.backprop [Zero α] [Add α] [Mul α] (x target : Obj) (t : HTrain α σ) : Res (HTrain α σ) := do
  let l ← lget t.net (wsub t.net.length 1)
  let loss ← derefHLoss t.loss
  let H ← loss.df t.heap t.delta target l.value
  let H ← t.net.backprop H x t.delta
  return { t with heap := H }

/-- Training/UnifiedNet.hpp:218-221. -/
def HTrain.updating [Mul α] [One α] [DecidableEq α] (upd : HUpd σ α) (alpha : α) (t : HTrain α σ) : Res (HTrain α σ) := do
  let (H, s) ← t.net.updating upd alpha t.heap t.opt
  return { t with heap := H, opt := s }

/-- Training/UnifiedNet.hpp:223-226. -/
def HTrain.reseting [Zero α] (t : HTrain α σ) : Res (HTrain α σ) := do
  let (H, net) ← t.net.reseting t.heap
  return { t with heap := H, net := net }

/-- Training/UnifiedNet.hpp:228-231. -/
def HTrain.accumulating [Add α] (t : HTrain α σ) : Res (HTrain α σ) := do
  let (H, net) ← t.net.accumulating t.heap
  return { t with heap := H, net := net }

/-- Training/UnifiedNet.hpp:84-85, 105-106, 144-145; the data sets are containers of Tensor objects. -/
def HTrain.sample [Zero α] [One α] [Add α] [Mul α] [LT α] [DecidableLT α] (idata odata : List Obj) (i : Nat) (t : HTrain α σ) :
    Res (HTrain α σ) := do
  let x ← lget idata i
  let t ← t.feedforward x
  let y ← lget odata i
  t.backprop x y

/-- Training/UnifiedNet.hpp:73-90. -/
def HTrain.stochastic [Zero α] [One α] [Add α] [Mul α] [LT α] [DecidableLT α] [DecidableEq α] (upd : HUpd σ α)
    (idata odata : List Obj) (iterations : Nat) (gen : Gen γ ρ Nat) (c : γ) (g : ρ) (t : HTrain α σ) : Res (HTrain α σ × ρ) := do
  let (t, _, g) ← forN iterations (t, c, g) (fun _ s => do
    let r := gen s.2.1 s.2.2
    let i ← rem r.1 idata.length
    let t ← s.1.sample idata odata i
    let t ← t.updating upd 1
    return (t, r.2.1, r.2.2))
  return (t, g)

/-- Training/UnifiedNet.hpp:103-109 and 142-150, body. -/
def HTrain.sampleAcc [Zero α] [One α] [Add α] [Mul α] [LT α] [DecidableLT α] (idata odata : List Obj) (i : Nat) (t : HTrain α σ) :
    Res (HTrain α σ) := do
  let t ← t.sample idata odata i
  t.accumulating

/-- Training/UnifiedNet.hpp:99-112. -/
def HTrain.epoch [Zero α] [One α] [Add α] [Mul α] [LT α] [DecidableLT α] [DecidableEq α] (upd : HUpd σ α)
    (idata odata : List Obj) (alpha : α) (t : HTrain α σ) : Res (HTrain α σ) := do
  let t ← t.reseting
  let t ← forN idata.length t (fun i t => t.sampleAcc idata odata i)
  t.updating upd alpha

/-- Training/UnifiedNet.hpp:92-113. -/
def HTrain.batch [Zero α] [One α] [Add α] [Mul α] [Div α] [NatCast α] [LT α] [DecidableLT α] [DecidableEq α] (upd : HUpd σ α)
    (idata odata : List Obj) (epochs : Nat) (t : HTrain α σ) : Res (HTrain α σ) := do
  let alpha ← invCount idata.length
  forN epochs t (fun _ t => t.epoch upd idata odata alpha)

/-- Training/UnifiedNet.hpp:141-149. -/
def HTrain.fill [Zero α] [One α] [Add α] [Mul α] [LT α] [DecidableLT α] (idata odata : List Obj) (limit : Nat)
    (t : HTrain α σ) (sample : Nat) : Res (HTrain α σ × Nat) :=
  forN (limit - sample) (t, sample) (fun _ s => do
    let t ← s.1.sampleAcc idata odata s.2
    return (t, s.2 + 1))

/-- Training/UnifiedNet.hpp:135-153. -/
def HTrain.miniStep [Zero α] [One α] [Add α] [Mul α] [LT α] [DecidableLT α] [DecidableEq α] (upd : HUpd σ α)
    (idata odata : List Obj) (m : Nat) (alpha : α) (s : HTrain α σ × Nat × Nat) : Res (HTrain α σ × Nat × Nat) := do
  let limit := s.2.2 + m
  let t ← s.1.reseting
  let (t, sample) ← t.fill idata odata limit s.2.1
  let t ← t.updating upd alpha
  return (t, sample, limit)

/-- Training/UnifiedNet.hpp:130-154. -/
def HTrain.miniEpoch [Zero α] [One α] [Add α] [Mul α] [LT α] [DecidableLT α] [DecidableEq α] (upd : HUpd σ α)
    (idata odata : List Obj) (m scale : Nat) (alpha : α) (t : HTrain α σ) : Res (HTrain α σ) := do
  let s ← forN scale (t, 0, 0) (fun _ s => HTrain.miniStep upd idata odata m alpha s)
  return s.1

/-- Training/UnifiedNet.hpp:115-154. -/
def HTrain.miniBatch [Zero α] [One α] [Add α] [Mul α] [Div α] [NatCast α] [LT α] [DecidableLT α] [DecidableEq α] (upd : HUpd σ α)
    (idata odata : List Obj) (epochs m : Nat) (t : HTrain α σ) : Res (HTrain α σ) := do
  let alpha ← invCount m
  let scale ← quot idata.length m
  forN epochs t (fun _ t => t.miniEpoch upd idata odata m scale alpha)

/-- Training/UnifiedNet.hpp:194-207. -/
def HTrain.lossMean [Zero α] [One α] [Add α] [Mul α] [Div α] [NatCast α] [LT α] [DecidableLT α] (idata odata : List Obj)
    (t : HTrain α σ) : Res (α × HTrain α σ) := do
  let (r, H) ← forN odata.length ((0 : α), t.heap) (fun i s => do
    let loss ← derefHLoss t.loss
    let y ← lget odata i
    let x ← lget idata i
    let (H, v) ← t.net.feedforward s.2 x
    let e ← loss.f H y v
    return (s.1 + e, H))
  if odata.length = 0 then .error .divByZero else
  return (r / (odata.length : α), { t with heap := H })

end Trixy
