import Verif.Model.HeapBuild
/-
The layers, the network and the training loops as programs that access the memory cell by cell, so that several of them can run
at the same time. A program is the sequence of its element accesses (`operator()`, `operator*` on tensors); between two accesses a
thread only computes with values of its own. The scalar members of the layers (sizes, `accumulated`) and the optimizer object belong
to the thread that runs the program and are part of its own state. The code is the code of Model/HeapNet.lean; Proof/Thread.lean
shows that running a program alone is the function there.

Simplification: memory is sequentially consistent. (Under the C++ memory model this loses nothing for executions without data races,
and C96 shows that there are none.)
-/
namespace Trixy

variable {α β γ ρ σ τ : Type}

/-- A program: its next access, or its result, or undefined behaviour outside of memory accesses. -/
inductive Prog (α β : Type) where
  | ret (b : β)
  | ub (u : UB)
  | load (p : Ptr) (i : Nat) (k : α → Prog α β)
  | store (p : Ptr) (i : Nat) (a : α) (k : Prog α β)

namespace Prog

/-- `p;` then `k`. -/
def bind : Prog α β → (β → Prog α τ) → Prog α τ
  | ret b, k => k b
  | ub u, _ => ub u
  | load p i c, k => load p i (fun a => bind (c a) k)
  | store p i a c, k => store p i a (bind c k)

instance : Monad (Prog α) where
  pure := ret
  bind := bind

/-- A computation without memory accesses. -/
def lift : Res β → Prog α β
  | .ok b => ret b
  | .error u => ub u

/-- `for (i = 0; i < n; ++i)` on a state of the thread. -/
def forN (n : Nat) (s : σ) (body : Nat → σ → Prog α σ) : Prog α σ :=
  match n with
  | 0 => ret s
  | n + 1 => do
    let s ← forN n s body
    body n s

/-- `for (i = 0; i < n; ++i)` without a state. -/
def forU (n : Nat) (body : Nat → Prog α Unit) : Prog α Unit := forN n () (fun i _ => body i)

/-- One access: the memory and the rest of the program after it. -/
def step (H : Heap α) : Prog α β → Res (Heap α × Prog α β)
  | ret b => .ok (H, ret b)
  | ub u => .error u
  | load p i k => do
    let a ← H.load p i
    return (H, k a)
  | store p i a k => do
    let H ← H.store p i a
    return (H, k)

/-- The program running alone until its end. -/
def run (H : Heap α) : Prog α β → Res (Heap α × β)
  | ret b => .ok (H, b)
  | ub u => .error u
  | load p i k => do
    let a ← H.load p i
    run H (k a)
  | store p i a k => do
    let H ← H.store p i a
    run H k

/-! ### Elements and element-wise members (Lique/TensorBase.hpp, Lique/Detail/FunctionDetail.hpp) -/

/-- `operator()(i)`: TensorBase.hpp:288-301. -/
def get1 (a : Obj) (i : Nat) : Prog α α := load a.data i ret
/-- `operator()(i,j)`: Matrix.hpp:127-145. -/
def get2 (a : Obj) (i j : Nat) : Prog α α := load a.data (a.shape.at2 i j) ret
/-- `operator()(i,j,k)`: Tensor.hpp:126-144. -/
def get3 (a : Obj) (i j k : Nat) : Prog α α := load a.data (a.shape.at3 i j k) ret
/-- `operator()(i) = v`: TensorBase.hpp:283-296. -/
def set1 (a : Obj) (i : Nat) (v : α) : Prog α Unit := store a.data i v (ret ())
/-- `operator()(i,j,k) = v`: Tensor.hpp:126-144. -/
def set3 (a : Obj) (i j k : Nat) (v : α) : Prog α Unit := store a.data (a.shape.at3 i j k) v (ret ())

/-- `fill(value)`: TensorBase.hpp:156-160, FunctionDetail.hpp:67-75. -/
def fill (a : Obj) (v : α) : Prog α Unit := forU a.shape.size (fun i => set1 a i v)
/-- FunctionDetail.hpp:77-87 `*first = op(*first, *src)`. -/
def assign (op : α → α → α) (a r : Obj) : Prog α Unit := forU a.shape.size (fun i => do
  let x ← get1 a i
  let y ← get1 r i
  set1 a i (op x y))
/-- `join(value)`: TensorBase.hpp:254-258, FunctionDetail.hpp:67-75. -/
def join [Mul α] (a : Obj) (v : α) : Prog α Unit := forU a.shape.size (fun i => do
  let x ← get1 a i
  set1 a i (x * v))
/-- FunctionDetail.hpp:124-134 `*first = f(*src)`. -/
def apply (f : α → α) (a r : Obj) : Prog α Unit := forU a.shape.size (fun i => do
  let x ← get1 r i
  set1 a i (f x))

/-! ### Linear.hpp -/

/-- Linear.hpp:45-64. -/
def dotRow [Zero α] [Add α] [Mul α] (r x m : Obj) : Prog α Unit := do
  fill r 0
  forU x.shape.size (fun i => do
    let temp ← get1 x i
    forU r.shape.size (fun j => do
      let u ← get1 r j
      let y ← get2 m i j
      set1 r j (u + temp * y)))

/-- Linear.hpp:66-80. -/
def dotCol [Zero α] [Add α] [Mul α] (r m x : Obj) : Prog α Unit := do
  fill r 0
  forU r.shape.size (fun i => forU x.shape.size (fun j => do
    let u ← get1 r i
    let a ← get2 m i j
    let b ← get1 x j
    set1 r i (u + a * b)))

/-- Linear.hpp:104-139. -/
def tensordot [Mul α] (r c x : Obj) : Prog α Unit :=
  forU c.shape.size (fun i => do
    let v ← get1 c i
    forU x.shape.size (fun j => do
      let y ← get1 x j
      set1 r (i * x.shape.size + j) (v * y)))

end Prog

/-! ### Function objects and optimizers -/

/-- `IActivation` (Function/Base.hpp:21-33): `f(result, input)` and `df(result, input)` as programs. -/
structure PAct (α : Type) where
  f : Obj → Obj → Prog α Unit
  df : Obj → Obj → Prog α Unit

/-- Function/Detail/MacroScope.hpp:6-13, Activation.hpp:24-40. -/
def PAct.elementwise (g g' : α → α) : PAct α := ⟨Prog.apply g, Prog.apply g'⟩

/-- Activation.hpp:82-95. -/
def Prog.rangeMax [LT α] [DecidableLT α] (x : Obj) : Prog α α := do
  let m ← get1 x 0
  forN (x.shape.size - 1) m (fun i m => do
    let a ← get1 x (1 + i)
    return if m < a then a else m)

/-- Activation.hpp:97-107. -/
def Prog.expInto [Sub α] (exp : α → Res α) (max : α) (r x : Obj) : Prog α Unit :=
  forU r.shape.size (fun i => do
    let a ← get1 x i
    let e ← lift (exp (a - max))
    set1 r i e)

/-- Activation.hpp:112-130. -/
def Prog.normalise [Zero α] [Add α] [Mul α] (recip : α → Res α) (r : Obj) : Prog α Unit := do
  let den ← forN r.shape.size (0 : α) (fun i s => do
    let a ← get1 r i
    return s + a)
  let den ← lift (recip den)
  join r den

/-- Activation.hpp:77-141, 162: an object of class `SoftMax`. -/
def PAct.softmax [Zero α] [One α] [Add α] [Sub α] [Mul α] [LT α] [DecidableLT α] (exp recip : α → Res α) : PAct α where
  f r x := do
    let max ← Prog.rangeMax x
    Prog.expInto exp max r x
    Prog.normalise recip r
  df r _ := Prog.fill r 1

/-- `ILoss` (Function/Base.hpp:42-54). Training calls only `df(result, y_true, y_pred)`, a program here; `f` is not run by the threads of
this file (it is the subject of Model/LossRace.lean). -/
structure PLoss (α : Type) where
  f : Heap α → Obj → Obj → Res α
  df : Obj → Obj → Obj → Prog α Unit

/-- The derivative loops of Loss.hpp:21-318 that compute element by element. -/
def PLoss.elementwise (f : Heap α → Obj → Obj → Res α) (d : α → α → Res α) : PLoss α where
  f := f
  df r t p := Prog.forU r.shape.size (fun i => do
    let a ← Prog.get1 t i
    let b ← Prog.get1 p i
    let q ← Prog.lift (d a b)
    Prog.set1 r i q)

/-- `IOptimizer::update(Range param, Range grad)` (Interface.hpp:69-72). -/
abbrev PUpd (σ α : Type) := σ → Obj → Obj → Prog α σ

/-- GradDescent.hpp:54-59. -/
def pgdUpdate [Mul α] [Sub α] : PUpd α α := fun lr p g => do
  Prog.join g lr
  Prog.assign (· - ·) p g
  return lr

/-- StoGradDescent.hpp:58-65. -/
def psgdUpdate [Mul α] [Sub α] : PUpd (Sgd α) α := fun s p g => do
  Prog.join g s.lr
  Prog.join p s.alpha
  Prog.assign (· - ·) p g
  return s

/-! ### Fully connected layers -/

section FC
variable [Zero α] [One α] [Add α] [Mul α] [DecidableEq α]

/-- FullyConnected.hpp:182-194. -/
def HFC.forwardP (l : HFC α) (act : PAct α) (input : Obj) : Prog α Unit := do
  Prog.dotRow l.buff input l.W
  Prog.assign (· + ·) l.buff l.B
  act.f l.value l.buff

/-- FullyConnected.hpp:214. -/
def HFC.backDeltaP (full : Bool) (l : HFC α) : Prog α Unit :=
  if full then Prog.dotCol l.delta l.W l.gradB else .ret ()

/-- FullyConnected.hpp:196-215. -/
def HFC.backwardP (l : HFC α) (act : PAct α) (input idelta : Obj) (full : Bool) : Prog α Unit := do
  act.df l.gradB l.buff
  Prog.assign (· * ·) l.gradB idelta
  Prog.tensordot l.gradW input l.gradB
  l.backDeltaP full

/-- FullyConnected.hpp:222-226. -/
def Prog.scaleUnlessOne (alpha : α) (g : Obj) : Prog α Unit := if alpha ≠ 1 then Prog.join g alpha else .ret ()

/-- FullyConnected.hpp:217-230, after the choice of the gradients. -/
def HFC.updateWithP (upd : PUpd σ α) (s : σ) (alpha : α) (l : HFC α) (gB gW : Obj) : Prog α σ := do
  Prog.scaleUnlessOne alpha gB
  Prog.scaleUnlessOne alpha gW
  let s ← upd s l.B gB
  upd s l.W gW

/-- FullyConnected.hpp:217-230. -/
def HFC.updateP (upd : PUpd σ α) (s : σ) (alpha : α) (l : HFC α) : Prog α σ :=
  if l.accumulated then l.updateWithP upd s alpha l.gradBs l.gradWs else l.updateWithP upd s alpha l.gradB l.gradW

/-- FullyConnected.hpp:232-238. -/
def HFC.resetP (l : HFC α) : Prog α (HFC α) := do
  Prog.fill l.gradBs 0
  Prog.fill l.gradWs 0
  return { l with accumulated := false }

/-- FullyConnected.hpp:240-246. -/
def HFC.accumulateP (l : HFC α) : Prog α (HFC α) := do
  Prog.assign (· + ·) l.gradBs l.gradB
  Prog.assign (· + ·) l.gradWs l.gradW
  return { l with accumulated := true }

/-- FullyConnected.hpp:82-93. -/
def HRawFC.forwardP (l : HRawFC α) (act : PAct α) (input : Obj) : Prog α Unit := do
  Prog.dotRow l.value input l.W
  Prog.assign (· + ·) l.value l.B
  act.f l.value l.value

/-! ### Convolution -/

/-- Convolutional.hpp:258-259. -/
def hconvAccumP (fd : Nat) (input W : Obj) (i0 j0 i j : Nat) (sum : α) : Prog α α :=
  Prog.forN fd sum (fun c sum => do
    let a ← Prog.get3 input c i0 j0
    let b ← Prog.get3 W c i j
    return sum + a * b)

/-- Convolutional.hpp:245-260. -/
def HConv.cellP (l : HConv) (input W : Obj) (b : α) (y x : Nat) : Prog α α :=
  Prog.forN l.fh b (fun i sum => Prog.forN l.fw sum (fun j sum =>
    let i0 := wsub (wadd (wmul l.sv y) i) l.pad
    let j0 := wsub (wadd (wmul l.sh x) j) l.pad
    if l.ih ≤ i0 ∨ l.iw ≤ j0 then .ret sum
    else hconvAccumP l.fd input W i0 j0 i j sum))

/-- Convolutional.hpp:237-267 (99-129 is identical). -/
def HConv.forwardP (l : HConv) (input : Obj) : Prog α Unit :=
  Prog.forU l.fc (fun f => Prog.forU l.oh (fun y => Prog.forU l.ow (fun x => do
    let b ← Prog.get1 l.B f
    let W ← Prog.lift (lget l.Ws f)
    let sum ← l.cellP input W b y x
    Prog.set3 l.value f y x sum)))

/-- Convolutional.hpp:271-276. -/
def HConv.spreadP (l : HConv) (idelta : Obj) : Prog α Unit :=
  Prog.forU l.buff.shape.d (fun d => Prog.forU l.oh (fun i => Prog.forU l.ow (fun j => do
    let a ← Prog.get3 idelta d i j
    Prog.set3 l.buff d (wmul i l.sv) (wmul j l.sh) a)))

/-- Convolutional.hpp:296-297. -/
def hconvGradChanP (fd : Nat) (input : Obj) (dv : α) (i0 j0 i j : Nat) (G : Obj) : Prog α Unit :=
  Prog.forU fd (fun c => do
    let g ← Prog.get3 G c i j
    let a ← Prog.get3 input c i0 j0
    Prog.set3 G c i j (g + dv * a))

/-- Convolutional.hpp:284-298. -/
def HConv.gradCellP (l : HConv) (input : Obj) (dv : α) (y x : Nat) (G : Obj) : Prog α Unit :=
  Prog.forU l.fh (fun i => Prog.forU l.fw (fun j =>
    let i0 := wsub (wadd i y) l.pad
    let j0 := wsub (wadd j x) l.pad
    if l.ih ≤ i0 ∨ l.iw ≤ j0 then .ret ()
    else hconvGradChanP l.fd input dv i0 j0 i j G))

/-- Convolutional.hpp:278-303. -/
def HConv.gradsP (l : HConv) (input : Obj) : Prog α Unit :=
  Prog.forU l.fc (fun f => do
    let G ← Prog.lift (lget l.gradWs f)
    Prog.forU l.buff.shape.h (fun y => Prog.forU l.buff.shape.w (fun x => do
      let dv ← Prog.get3 l.buff f y x
      l.gradCellP input dv y x G
      let gb ← Prog.get1 l.gradB f
      Prog.set1 l.gradB f (gb + dv))))

/-- Convolutional.hpp:326-327. -/
def HConv.deltaFiltersP (l : HConv) (c i j i0 j0 : Nat) (sum : α) : Prog α α :=
  Prog.forN l.fc sum (fun f sum => do
    let W ← Prog.lift (lget l.Ws f)
    let w ← Prog.get3 W c (wsub (wsub l.fh 1) i) (wsub (wsub l.fw 1) j)
    let b ← Prog.get3 l.buff f i0 j0
    return sum + w * b)

/-- Convolutional.hpp:314-329. -/
def HConv.deltaCellP (l : HConv) (c y x : Nat) : Prog α α :=
  Prog.forN l.fh (0 : α) (fun i sum => Prog.forN l.fw sum (fun j sum =>
    let i0 := wsub (wadd y i) (wsub (wsub l.fh 1) l.pad)
    let j0 := wsub (wadd x j) (wsub (wsub l.fw 1) l.pad)
    if l.buff.shape.h ≤ i0 ∨ l.buff.shape.w ≤ j0 then .ret sum
    else l.deltaFiltersP c i j i0 j0 sum))

/-- Convolutional.hpp:305-334. -/
def HConv.deltasP (l : HConv) : Prog α Unit :=
  Prog.forU l.ih (fun y => Prog.forU l.iw (fun x => Prog.forU l.fd (fun c => do
    let sum ← l.deltaCellP c y x
    Prog.set3 l.delta c y x sum)))

/-- Convolutional.hpp:269-335. -/
def HConv.backwardP (l : HConv) (input idelta : Obj) (_full : Bool) : Prog α Unit := do
  l.spreadP idelta
  l.gradsP input
  l.deltasP

/-- Convolutional.hpp:339. -/
def hconvScaleP (alpha : α) (Gs : List Obj) : Prog α Unit :=
  Prog.forU Gs.length (fun f => do
    let G ← Prog.lift (lget Gs f)
    Prog.join G alpha)

/-- Convolutional.hpp:342. -/
def hconvUpdWP (upd : PUpd σ α) (n : Nat) (s : σ) (Ws Gs : List Obj) : Prog α σ :=
  Prog.forN n s (fun f s => do
    let W ← Prog.lift (lget Ws f)
    let G ← Prog.lift (lget Gs f)
    upd s W G)

/-- Convolutional.hpp:337-344. -/
def HConv.updateP (upd : PUpd σ α) (s : σ) (alpha : α) (l : HConv) : Prog α σ := do
  hconvScaleP alpha l.gradWs
  Prog.join l.gradB alpha
  let s ← hconvUpdWP upd l.Ws.length s l.Ws l.gradWs
  upd s l.B l.gradB

/-! ### Pooling -/

/-- MaxPooling.hpp:241-250. -/
def HPool.backwardP (l : HPool α) (act : PAct α) (_input idelta : Obj) (_full : Bool) : Prog α Unit := do
  act.df l.buff l.buff
  Prog.assign (· * ·) l.buff idelta
  Prog.forU l.id (fun d => Prog.forU l.ih (fun i => Prog.forU l.iw (fun j => do
    let a ← Prog.get3 l.buff d (i / l.sv) (j / l.sh)
    let m ← Prog.get3 l.mask d i j
    Prog.set3 l.delta d i j (a * m))))

variable [LT α] [DecidableLT α]

/-- MaxPooling.hpp:100-109. -/
def hpoolScanP (input : Obj) (sv sh d i j : Nat) : Prog α α := do
  let m ← Prog.get3 input d i j
  Prog.forN sv m (fun a m => Prog.forN sh m (fun b m => do
    let v ← Prog.get3 input d (i + a) (j + b)
    return if m < v then v else m))

/-- MaxPooling.hpp:92-117. -/
def HPool.forwardRawP (l : HPool α) (act : PAct α) (input : Obj) : Prog α Unit := do
  Prog.forU l.id (fun d => Prog.forU (rounds l.ih l.sv) (fun p => Prog.forU (rounds l.iw l.sh) (fun q => do
    let m ← hpoolScanP input l.sv l.sh d (p * l.sv) (q * l.sh)
    Prog.set3 l.value d (p * l.sv / l.sv) (q * l.sh / l.sh) m)))
  act.f l.value l.value

/-- State of the scan in the training layer: maximum and its position. -/
structure PScan (α : Type) where
  max : α
  imax : Nat
  jmax : Nat

/-- MaxPooling.hpp:223-228. -/
def PScan.better (s : PScan α) (v : α) (y x : Nat) : PScan α := if s.max < v then ⟨v, y, x⟩ else s

/-- MaxPooling.hpp:211-230. -/
def hpoolScanTP (input mask : Obj) (sv sh d i j : Nat) : Prog α (PScan α) := do
  let m ← Prog.get3 input d i j
  Prog.forN sv ⟨m, i, j⟩ (fun a s => Prog.forN sh s (fun b s => do
    let v ← Prog.get3 input d (i + a) (j + b)
    Prog.set3 mask d (i + a) (j + b) 0
    return s.better v (i + a) (j + b)))

/-- MaxPooling.hpp:201-236. -/
def HPool.scanAllP (l : HPool α) (input : Obj) : Prog α Unit :=
  Prog.forU l.id (fun d => Prog.forU (rounds l.ih l.sv) (fun p => Prog.forU (rounds l.iw l.sh) (fun q => do
    let r ← hpoolScanTP input l.mask l.sv l.sh d (p * l.sv) (q * l.sh)
    Prog.set3 l.value d (p * l.sv / l.sv) (q * l.sh / l.sh) r.max
    Prog.set3 l.mask d r.imax r.jmax 1)))

/-- MaxPooling.hpp:201-239. -/
def HPool.forwardP (l : HPool α) (act : PAct α) (input : Obj) : Prog α Unit := do
  Prog.fill l.mask 0
  l.scanAllP input
  act.f l.value l.buff

/-! ### Networks -/

/-- The dynamic types behind an `ILayer*` (Layer/Base.hpp:24-102). The activation object is the second component; the field `act` of
the first is not used. -/
inductive PLayer (α : Type) where
  | fc (l : HFC α) (act : PAct α)
  | conv (l : HConv)
  | pool (l : HPool α) (act : PAct α)
  | rawFC (l : HRawFC α) (act : PAct α)
  | rawConv (l : HConv)
  | rawPool (l : HPool α) (act : PAct α)

/-- `value()` (Layer/Base.hpp:57). -/
def PLayer.value : PLayer α → Obj
  | .fc l _ => l.value
  | .conv l => l.value
  | .pool l _ => l.value
  | .rawFC l _ => l.value
  | .rawConv l => l.value
  | .rawPool l _ => l.value

/-- `delta()` (Layer/Base.hpp:96). -/
def PLayer.delta : PLayer α → Res Obj
  | .fc l _ => .ok l.delta
  | .conv l => .ok l.delta
  | .pool l _ => .ok l.delta
  | _ => .error .badCast

/-- `forward(input)` (Layer/Base.hpp:56). -/
def PLayer.forward (x : Obj) : PLayer α → Prog α Unit
  | .fc l a => l.forwardP a x
  | .conv l => l.forwardP x
  | .pool l a => l.forwardP a x
  | .rawFC l a => l.forwardP a x
  | .rawConv l => l.forwardP x
  | .rawPool l a => l.forwardRawP a x

/-- `backward(input, idelta, full)` (Layer/Base.hpp:95). -/
def PLayer.backward (x d : Obj) (full : Bool) : PLayer α → Prog α Unit
  | .fc l a => l.backwardP a x d full
  | .conv l => l.backwardP x d full
  | .pool l a => l.backwardP a x d full
  | _ => .ub .badCast

/-- `update(optimizer, alpha)` (Layer/Base.hpp:98). -/
def PLayer.update (upd : PUpd σ α) (s : σ) (alpha : α) : PLayer α → Prog α σ
  | .fc l _ => l.updateP upd s alpha
  | .conv l => l.updateP upd s alpha
  | .pool _ _ => .ret s
  | _ => .ub .badCast

/-- `accumulate()` (Layer/Base.hpp:100). -/
def PLayer.accumulate : PLayer α → Prog α (PLayer α)
  | .fc l a => do let l ← l.accumulateP; return .fc l a
  | .conv l => .ret (.conv l)
  | .pool l a => .ret (.pool l a)
  | _ => .ub .badCast

/-- `reset()` (Layer/Base.hpp:101). -/
def PLayer.reset : PLayer α → Prog α (PLayer α)
  | .fc l a => do let l ← l.resetP; return .fc l a
  | .conv l => .ret (.conv l)
  | .pool l a => .ret (.pool l a)
  | _ => .ub .badCast

/-- The layers of a network (UnifiedNet.hpp:54). -/
abbrev PNet (α : Type) := List (PLayer α)

/-- UnifiedNet.hpp:104-105. -/
def PNet.step (net : PNet α) (i : Nat) : Prog α Unit := do
  let p ← Prog.lift (lget net (i - 1))
  let l ← Prog.lift (lget net i)
  l.forward p.value

/-- UnifiedNet.hpp:100-108; the result is the reference `inner_.back()->value()`. -/
def PNet.feedforward (net : PNet α) (x : Obj) : Prog α Obj := do
  let l ← Prog.lift (lget net 0)
  l.forward x
  Prog.forU (net.length - 1) (fun i => net.step (1 + i))
  let l ← Prog.lift (lget net (wsub net.length 1))
  return l.value

/-! ### Training -/

/-- Training/UnifiedNet.hpp:170-171. -/
def PNet.backStep (net : PNet α) (i : Nat) : Prog α Unit := do
  let p ← Prog.lift (lget net (i - 1))
  let n ← Prog.lift (lget net (i + 1))
  let d ← Prog.lift n.delta
  let l ← Prog.lift (lget net i)
  l.backward p.value d true

/-- Training/UnifiedNet.hpp:161-174 after the loss derivative. -/
def PNet.backprop (net : PNet α) (x d : Obj) : Prog α Unit := do
  let l ← Prog.lift (lget net (wsub net.length 1))
  let p ← Prog.lift (lget net (wsub net.length 2))
  l.backward p.value d true
  Prog.forU (wsub net.length 2) (fun k => net.backStep (wsub net.length 2 - k))
  let l ← Prog.lift (lget net 0)
  let n ← Prog.lift (lget net 1)
  let d ← Prog.lift n.delta
  l.backward x d false

/-- Training/UnifiedNet.hpp:218-221. -/
def PNet.updating (upd : PUpd σ α) (alpha : α) (net : PNet α) (s : σ) : Prog α σ :=
  Prog.forN net.length s (fun i s => do
    let l ← Prog.lift (lget net i)
    l.update upd s alpha)

/-- Training/UnifiedNet.hpp:223-226. -/
def PNet.reseting (net : PNet α) : Prog α (PNet α) :=
  Prog.forN net.length net (fun i net => do
    let l ← Prog.lift (lget net i)
    let l ← l.reset
    Prog.lift (lset net i l))

/-- Training/UnifiedNet.hpp:228-231. -/
def PNet.accumulating (net : PNet α) : Prog α (PNet α) :=
  Prog.forN net.length net (fun i net => do
    let l ← Prog.lift (lget net i)
    let l ← l.accumulate
    Prog.lift (lset net i l))

/-- A Training object with its network and optimizer (Training/UnifiedNet.hpp:52-57). -/
structure PTrain (α σ : Type) where
  net : PNet α
  delta : Obj
  loss : Option (PLoss α)
  opt : σ

/-- Dereferencing `loss_`. -/
def derefPLoss (l : Option (PLoss α)) : Res (PLoss α) :=
  match l with
  | none => .error .nullDeref
  | some l => .ok l

/-- Training/UnifiedNet.hpp:156-159. -/
def PTrain.feedforward (x : Obj) (t : PTrain α σ) : Prog α (PTrain α σ) := do
  let _ ← t.net.feedforward x
  return t

/-- Training/UnifiedNet.hpp:161-174. -/
def PTrain.backprop (x target : Obj) (t : PTrain α σ) : Prog α (PTrain α σ) := do
  let l ← Prog.lift (lget t.net (wsub t.net.length 1))
  let loss ← Prog.lift (derefPLoss t.loss)
  loss.df t.delta target l.value
  t.net.backprop x t.delta
  return t

/-- Training/UnifiedNet.hpp:218-221. -/
def PTrain.updating (upd : PUpd σ α) (alpha : α) (t : PTrain α σ) : Prog α (PTrain α σ) := do
  let s ← t.net.updating upd alpha t.opt
  return { t with opt := s }

/-- Training/UnifiedNet.hpp:223-226. -/
def PTrain.reseting (t : PTrain α σ) : Prog α (PTrain α σ) := do
  let net ← t.net.reseting
  return { t with net := net }

/-- Training/UnifiedNet.hpp:228-231. -/
def PTrain.accumulating (t : PTrain α σ) : Prog α (PTrain α σ) := do
  let net ← t.net.accumulating
  return { t with net := net }

/-- Training/UnifiedNet.hpp:84-85, 105-106, 144-145. -/
def PTrain.sample (idata odata : List Obj) (i : Nat) (t : PTrain α σ) : Prog α (PTrain α σ) := do
  let x ← Prog.lift (lget idata i)
  let t ← t.feedforward x
  let y ← Prog.lift (lget odata i)
  t.backprop x y

/-- Training/UnifiedNet.hpp:73-90. -/
def PTrain.stochastic (upd : PUpd σ α) (idata odata : List Obj) (iterations : Nat) (gen : Gen γ ρ Nat) (c : γ) (g : ρ) (t : PTrain α σ) :
    Prog α (PTrain α σ × ρ) := do
  let (t, _, g) ← Prog.forN iterations (t, c, g) (fun _ s => do
    let r := gen s.2.1 s.2.2
    let i ← Prog.lift (rem r.1 idata.length)
    let t ← s.1.sample idata odata i
    let t ← t.updating upd 1
    return (t, r.2.1, r.2.2))
  return (t, g)

/-- Training/UnifiedNet.hpp:103-109 and 142-150, body. -/
def PTrain.sampleAcc (idata odata : List Obj) (i : Nat) (t : PTrain α σ) : Prog α (PTrain α σ) := do
  let t ← t.sample idata odata i
  t.accumulating

/-- Training/UnifiedNet.hpp:99-112. -/
def PTrain.epoch (upd : PUpd σ α) (idata odata : List Obj) (alpha : α) (t : PTrain α σ) : Prog α (PTrain α σ) := do
  let t ← t.reseting
  let t ← Prog.forN idata.length t (fun i t => t.sampleAcc idata odata i)
  t.updating upd alpha

/-- Training/UnifiedNet.hpp:92-113. -/
def PTrain.batch [Div α] [NatCast α] (upd : PUpd σ α) (idata odata : List Obj) (epochs : Nat) (t : PTrain α σ) : Prog α (PTrain α σ) := do
  let alpha ← Prog.lift (invCount idata.length)
  Prog.forN epochs t (fun _ t => t.epoch upd idata odata alpha)

/-- Training/UnifiedNet.hpp:141-149. -/
def PTrain.fill (idata odata : List Obj) (limit : Nat) (t : PTrain α σ) (sample : Nat) : Prog α (PTrain α σ × Nat) :=
  Prog.forN (limit - sample) (t, sample) (fun _ s => do
    let t ← s.1.sampleAcc idata odata s.2
    return (t, s.2 + 1))

/-- Training/UnifiedNet.hpp:135-153. -/
def PTrain.miniStep (upd : PUpd σ α) (idata odata : List Obj) (m : Nat) (alpha : α) (s : PTrain α σ × Nat × Nat) :
    Prog α (PTrain α σ × Nat × Nat) := do
  let t ← s.1.reseting
  let r ← t.fill idata odata (s.2.2 + m) s.2.1
  let t ← r.1.updating upd alpha
  return (t, r.2, s.2.2 + m)

/-- Training/UnifiedNet.hpp:130-154. -/
def PTrain.miniEpoch (upd : PUpd σ α) (idata odata : List Obj) (m scale : Nat) (alpha : α) (t : PTrain α σ) : Prog α (PTrain α σ) := do
  let s ← Prog.forN scale (t, 0, 0) (fun _ s => PTrain.miniStep upd idata odata m alpha s)
  return s.1

/-- Training/UnifiedNet.hpp:115-154. -/
def PTrain.miniBatch [Div α] [NatCast α] (upd : PUpd σ α) (idata odata : List Obj) (epochs m : Nat) (t : PTrain α σ) : Prog α (PTrain α σ) := do
  let alpha ← Prog.lift (invCount m)
  let scale ← Prog.lift (quot idata.length m)
  Prog.forN epochs t (fun _ t => t.miniEpoch upd idata odata m scale alpha)

/-- A call on a training object (Training/UnifiedNet.hpp:73-154) or `network.feedforward(x)` (UnifiedNet.hpp:100-108). -/
inductive PTrainOp (γ : Type) where
  | batch (idata odata : List Obj) (epochs : Nat)
  | mini (idata odata : List Obj) (epochs m : Nat)
  | sto (idata odata : List Obj) (iterations : Nat) (c : γ)
  | eval (x : Obj)

/-- Executing a call (Training/UnifiedNet.hpp:73-159). -/
def PTrainOp.exec [Div α] [NatCast α] (upd : PUpd σ α) (gen : Gen γ ρ Nat) (st : PTrain α σ × ρ) : PTrainOp γ → Prog α (PTrain α σ × ρ)
  | .batch X Y epochs => do let t ← st.1.batch upd X Y epochs; return (t, st.2)
  | .mini X Y epochs m => do let t ← st.1.miniBatch upd X Y epochs m; return (t, st.2)
  | .sto X Y iterations c => st.1.stochastic upd X Y iterations gen c st.2
  | .eval x => do let t ← st.1.feedforward x; return (t, st.2)

/-- A thread that makes one call after the other (Training/UnifiedNet.hpp:73-159). -/
def PTrainOp.run [Div α] [NatCast α] (upd : PUpd σ α) (gen : Gen γ ρ Nat) : PTrain α σ × ρ → List (PTrainOp γ) → Prog α (PTrain α σ × ρ)
  | st, [] => .ret st
  | st, op :: ops => do
    let st ← PTrainOp.exec upd gen st op
    PTrainOp.run upd gen st ops

end FC

/-! ### The library's classes -/

/-- Activation.hpp:143-160 (class, `f`, `df`) with Activation.hpp:24-40. -/
noncomputable def ActKind.pobj : ActKind → PAct ℝ
  | .identity => PAct.elementwise Fn.identity Fn.identityD
  | .relu => PAct.elementwise Fn.relu Fn.reluD
  | .elu => PAct.elementwise Fn.elu Fn.eluD
  | .lrelu => PAct.elementwise Fn.lrelu Fn.lreluD
  | .selu => PAct.elementwise Fn.selu Fn.seluD
  | .gelu => PAct.elementwise Fn.gelu Fn.geluD
  | .sigmoid => PAct.elementwise Fn.sigmoid Fn.sigmoidD
  | .tanh => PAct.elementwise Fn.tanh Fn.tanhD
  | .softsign => PAct.elementwise Fn.softsign Fn.softsignD
  | .softplus => PAct.elementwise Fn.softplus Fn.softplusD
  | .swish => PAct.elementwise Fn.swish Fn.swishD
  | .modRelu => PAct.elementwise Fn.modRelu Fn.modReluD
  | .modTanh => PAct.elementwise Fn.modTanh Fn.modTanhD

/-- Activation.hpp:162 (`SoftMax`). -/
noncomputable def softMaxPAct : PAct ℝ := PAct.softmax realExp realRecip

namespace PLosses

/-- Loss.hpp:84-100, 320. -/
noncomputable def MSE : PLoss ℝ := PLoss.elementwise HLosses.MSE.f (fun a b => .ok (b - a))
/-- Loss.hpp:120-140, 321: the difference is stored in `*first` and read back. -/
noncomputable def MAE : PLoss ℝ where
  f := HLosses.MAE.f
  df r t p := Prog.forU r.shape.size (fun i => do
    let a ← Prog.get1 t i
    let b ← Prog.get1 p i
    Prog.set1 r i (a - b)
    let d ← Prog.get1 r i
    Prog.set1 r i (if d < 0 then -1 else if d > 0 then 1 else 0))
/-- Loss.hpp:84-100, 322. -/
noncomputable def CCE : PLoss ℝ := PLoss.elementwise HLosses.CCE.f (fun a b => .ok (b - a))
/-- Loss.hpp:228-244, 323. -/
noncomputable def BCE : PLoss ℝ := PLoss.elementwise HLosses.BCE.f (fun a b => .ok (a * (b - 1) + b * (1 - a)))
/-- Loss.hpp:167-185, 324: `*pred + 1` is stored in `*first` and read back twice. -/
noncomputable def MSLE : PLoss ℝ where
  f := HLosses.MSLE.f
  df r t p := Prog.forU r.shape.size (fun i => do
    let b ← Prog.get1 p i
    Prog.set1 r i (b + 1)
    let d ← Prog.get1 r i
    let a ← Prog.get1 t i
    let q ← Prog.lift (fdiv d (a + 1))
    let d ← Prog.get1 r i
    let q ← Prog.lift (fdiv (Real.log q) d)
    Prog.set1 r i q)
/-- Loss.hpp:264-282, 325. -/
noncomputable def NLL : PLoss ℝ := PLoss.elementwise HLosses.NLL.f (fun a b => .ok (b - a))
/-- Loss.hpp:302-318, 326. -/
noncomputable def LC : PLoss ℝ := PLoss.elementwise HLosses.LC.f (fun a b => .ok (Real.tanh (b - a)))

end PLosses

/-! ### Threads -/

/-- Memory and the programs the threads have still to run. -/
structure Threads (α β : Type) where
  heap : Heap α
  progs : List (Prog α β)

/-- The next access of thread `k`. -/
def Threads.step (k : Nat) (s : Threads α β) : Res (Threads α β) := do
  let p ← lget s.progs k
  let r ← p.step s.heap
  let ps ← lset s.progs k r.2
  return ⟨r.1, ps⟩

/-- The threads make one access each time it is their turn, in the order given by the schedule. -/
def Threads.run : List Nat → Threads α β → Res (Threads α β)
  | [], s => .ok s
  | k :: ks, s => do
    let s ← s.step k
    Threads.run ks s

end Trixy
