import Verif.Spec.HeapProg
import Verif.Model.Thread
/- Specification vocabulary for networks that are used by several threads at the same time. -/
namespace Trixy

variable {α β γ ρ σ τ : Type}

/-- The next access of the program: whether it writes, and the cell (allocation, position). -/
def Prog.access : Prog α β → Option (Bool × Nat × Nat)
  | .load (.at b o) i _ => some (false, b, o + i)
  | .store (.at b o) i _ _ => some (true, b, o + i)
  | _ => none

/-- A data race: two threads are about to access the same cell, one of them writing. -/
def Threads.Race (s : Threads α β) : Prop :=
  ∃ (j k : Nat) (p q : Prog α β) (c : Nat × Nat) (w : Bool), j ≠ k ∧ s.progs[j]? = some p ∧ s.progs[k]? = some q ∧
    p.access = some (true, c) ∧ q.access = some (w, c)

/-- The two objects lie in different allocations. -/
def Obj.Elsewhere (a b : Obj) : Prop := ∀ pb po qb qo, a.data = .at pb po → b.data = .at qb qo → pb ≠ qb

/-! ### The objects behind the programs -/

/-- The memory after the program has run alone. -/
def Prog.exec (H : Heap α) (p : Prog α Unit) : Res (Heap α) := do
  let r ← p.run H
  return r.1

/-- The activation object whose members are these programs. -/
def PAct.obj (a : PAct α) : HAct α := ⟨fun H r x => (a.f r x).exec H, fun H r x => (a.df r x).exec H⟩

/-- The loss object whose derivative is this program. -/
def PLoss.obj (l : PLoss α) : HLoss α := ⟨l.f, fun H r t p => (l.df r t p).exec H⟩

/-- The optimizer whose update is this program. -/
def PUpd.obj (u : PUpd σ α) : HUpd σ α := fun H s p g => (u s p g).run H

/-- The layer object. -/
def PLayer.obj : PLayer α → HLayer α
  | .fc l a => .fc { l with act := a.obj }
  | .conv l => .conv l
  | .pool l a => .pool { l with act := a.obj }
  | .rawFC l a => .rawFC { l with act := a.obj }
  | .rawConv l => .rawConv l
  | .rawPool l a => .rawPool { l with act := a.obj }

/-- The network object. -/
def PNet.obj (net : PNet α) : HNet α := net.map PLayer.obj

/-- The training object, with the memory `H`. -/
def PTrain.at (t : PTrain α σ) (H : Heap α) : HTrain α σ := ⟨H, t.net.obj, t.delta, t.loss.map PLoss.obj, t.opt⟩

/-- The call. -/
def PTrainOp.op : PTrainOp γ → HTrainOp α γ
  | .batch X Y n => .batch X Y n
  | .mini X Y n m => .mini X Y n m
  | .sto X Y n c => .sto X Y n c
  | .eval x => .eval x

/-- The data the call reads. -/
def PTrainOp.data : PTrainOp γ → List Obj
  | .batch X Y _ => X ++ Y
  | .mini X Y _ _ => X ++ Y
  | .sto X Y _ _ => X ++ Y
  | .eval x => [x]

/-! ### Function objects touch only their arguments -/

/-- The object lies in allocation `b`. -/
def Obj.Blk (o : Obj) (b : Nat) : Prop := ∃ i, o.data = .at b i

/-- Whatever it reads, the program reads only in the allocations `R` and `W` and writes only in the allocations `W`. -/
def Prog.Within (R W : Nat → Prop) : Prog α β → Prop
  | .ret _ => True
  | .ub _ => True
  | .load p _ k => (∀ b o, p = .at b o → R b ∨ W b) ∧ ∀ a, (k a).Within R W
  | .store p _ _ k => (∀ b o, p = .at b o → W b) ∧ k.Within R W

/-- The activation reads its argument and writes its result. -/
def PAct.Local (a : PAct α) : Prop := ∀ r x, (a.f r x).Within x.Blk r.Blk ∧ (a.df r x).Within x.Blk r.Blk

/-- The derivative of the loss reads target and prediction and writes its result. -/
def PLoss.Local (l : PLoss α) : Prop := ∀ r t p, (l.df r t p).Within (fun b => t.Blk b ∨ p.Blk b) r.Blk

/-- The optimizer reads and writes parameter and gradient. -/
def PUpd.Local (u : PUpd σ α) : Prop := ∀ s p g, (u s p g).Within (fun _ => False) (fun b => p.Blk b ∨ g.Blk b)

/-- The activation of the layer, if it has one, is local. -/
def PLayer.Local : PLayer α → Prop
  | .fc _ a => a.Local
  | .pool _ a => a.Local
  | .rawFC _ a => a.Local
  | .rawPool _ a => a.Local
  | _ => True

/-! ### What the threads do -/

/-- A thread that calls `net.feedforward(x)`. -/
structure EvalJob (α : Type) where
  net : PNet α
  x : Obj

/-- The tensors of the network. -/
def EvalJob.owned (j : EvalJob α) : List Obj := HNet.objs j.net.obj

/-- Evaluated alone, on values, the network `v` gives `y` and becomes `v'`. -/
structure EvalValue (α : Type) where
  v : Net α
  v' : Net α
  y : Ten α

/-- The call is a sensible call of C86: the network in memory has the value `v`, its tensors have no cells in common, the input is in memory and
not overwritten while it is read, and the call on values is defined. -/
structure EvalJob.Ready [Zero α] [One α] [Add α] [Mul α] [LT α] [DecidableLT α] (addr : Ptr → Nat) (H : Heap α) (j : EvalJob α) (r : EvalValue α) :
    Prop where
  net : HNet.Is addr H j.net.obj r.v
  apart : AllApart j.owned
  input : ∃ t, H.KeepsT j.x t ∧ Net.feedforward t r.v = .ok (r.v', r.y)
  free : ∀ l, j.net.obj[0]? = some l → ∀ o ∈ l.scratch, Obj.Apart o j.x
  acts : ∀ l ∈ j.net, l.Local

/-- A thread that makes a sequence of training calls on its own training object, with its own network, optimizer and generator. -/
structure TrainJob (α γ ρ σ : Type) where
  t : PTrain α σ
  upd : PUpd σ α
  gen : Gen γ ρ Nat
  g : ρ
  ops : List (PTrainOp γ)

/-- The tensors of the network and of the training object. -/
def TrainJob.owned (j : TrainJob α γ ρ σ) : List Obj := HNet.objs j.t.net.obj ++ [j.t.delta]

/-- The same calls on values, executed alone: optimizer, training object and generator at the end. -/
structure TrainValue (α γ ρ σ : Type) where
  upd : Upd σ α
  st : σ × Train α
  ops : List (TrainOp α γ)
  st' : σ × Train α
  g' : ρ

/-- The calls are sensible calls of C86 on data that was in the memory `H0` before the networks were built. -/
structure TrainJob.Ready [Zero α] [One α] [Add α] [Mul α] [Div α] [NatCast α] [LT α] [DecidableLT α] [DecidableEq α] (addr : Ptr → Nat) (H0 H : Heap α)
    (j : TrainJob α γ ρ σ) (r : TrainValue α γ ρ σ) : Prop where
  train : (j.t.at H).Is addr r.st
  apart : AllApart j.owned
  fresh : ∀ o ∈ j.owned, ∃ b, o.data = .at b 0 ∧ H0.next ≤ b
  opt : HUpd.Follows addr j.upd.obj r.upd
  calls : List.Forall₂ (HTrainOp.Same H0) (j.ops.map PTrainOp.op) r.ops
  value : TrainOp.run r.upd j.gen (r.st, j.g) r.ops = .ok (r.st', r.g')
  acts : ∀ l ∈ j.t.net, l.Local
  loss : ∀ l, j.t.loss = some l → l.Local
  upd : j.upd.Local

/-! ### Programs with threads: the networks are built one after the other, then the threads start -/

/-- The arguments of one `net.add(new Layer(...))`, with the activation as a program. -/
inductive PLayerArgs (α : Type) where
  | fc (isize osize : Nat) (act : PAct α)
  | conv (d h w fc fh fw pad sv sh : Nat)
  | pool (d h w sv sh : Nat) (act : PAct α)

/-- The same arguments with the activation object. -/
def PLayerArgs.args : PLayerArgs α → LayerArgs α
  | .fc i o a => .fc i o a.obj
  | .conv d h w c fh fw p sv sh => .conv d h w c fh fw p sv sh
  | .pool d h w sv sh a => .pool d h w sv sh a.obj

/-- The activation is local. -/
def PLayerArgs.Local : PLayerArgs α → Prop
  | .fc _ _ a => a.Local
  | .conv .. => True
  | .pool _ _ _ _ _ a => a.Local

/-- `new Layer(...)` (the constructors of Model/HeapBuild.lean). -/
def PLayerArgs.build [Zero α] (H : Heap α) : PLayerArgs α → Res (Heap α × PLayer α)
  | .fc i o a => do let (H, l) ← HFC.make i o a.obj H; return (H, .fc l a)
  | .conv d h w c fh fw p sv sh => do let (H, l) ← HConv.make d h w c fh fw p sv sh H; return (H, .conv l)
  | .pool d h w sv sh a => do let (H, l) ← HPool.make d h w sv sh a.obj H; return (H, .pool l a)

/-- `net.add(new Layer(...)); …` -/
def PNet.build [Zero α] : List (PLayerArgs α) → Heap α → Res (Heap α × PNet α)
  | [], H => .ok (H, [])
  | a :: as, H => do
    let (H, l) ← a.build H
    let (H, net) ← PNet.build as H
    return (H, l :: net)

/-- What the main thread needs for one of its worker threads: layers, initialisation, loss, optimizer, generator, calls. -/
structure Worker (α γ ρ σ γ' ρ' : Type) where
  layers : List (PLayerArgs α)
  gi : Gen γ' ρ' α
  ci : γ'
  ri : ρ'
  loss : PLoss α
  opt : σ
  upd : PUpd σ α
  gen : Gen γ ρ Nat
  g : ρ
  ops : List (PTrainOp γ)

/-- The main thread builds and initialises the network of the worker and makes its training object. -/
def Worker.prepare {γ' ρ' : Type} [Zero α] (p : Worker α γ ρ σ γ' ρ') (H : Heap α) : Res (Heap α × TrainJob α γ ρ σ) := do
  let (H, net) ← PNet.build p.layers H
  let (H, _) ← HNet.init p.gi p.ci p.ri H net.obj
  let t ← HTrain.make H net.obj none p.opt
  return (t.heap, ⟨⟨net, t.delta, some p.loss, p.opt⟩, p.upd, p.gen, p.g, p.ops⟩)

/-- … of all workers, one after the other. -/
def Worker.prepareAll {γ' ρ' : Type} [Zero α] : List (Worker α γ ρ σ γ' ρ') → Heap α → Res (Heap α × List (TrainJob α γ ρ σ))
  | [], H => .ok (H, [])
  | p :: ps, H => do
    let (H, j) ← p.prepare H
    let (H, js) ← Worker.prepareAll ps H
    return (H, j :: js)

/-- The same worker on values. -/
structure WorkerValue (α γ σ : Type) where
  layers : List (LayerSpec α)
  loss : Loss α
  upd : Upd σ α
  ops : List (TrainOp α γ)

/-- The program of the worker is sensible in the sense of C86, for data in the memory `H0`. -/
structure Worker.Sensible {γ' ρ' : Type} (addr : Ptr → Nat) (H0 : Heap α) (p : Worker α γ ρ σ γ' ρ') (v : WorkerValue α γ σ) : Prop where
  layers : List.Forall₂ LayerArgs.Same (p.layers.map PLayerArgs.args) v.layers
  room : ∀ s ∈ v.layers, s.Room
  sensible : ∀ s ∈ v.layers, s.Sensible
  two : 2 ≤ v.layers.length
  few : v.layers.length < W64
  fits : ∃ s o, Fits s (v.layers.map (LayerSpec.kind 0 (fun _ => 0))) o ∧ (∃ L dL, v.loss.Is o.vol L dL) ∧ ∀ op ∈ v.ops, op.Good s o
  loss : p.loss.obj.Follows v.loss
  opt : HUpd.Follows addr p.upd.obj v.upd
  optOk : ∃ I : σ → Prop, I p.opt ∧ ∀ size, UpdOk v.upd size I
  calls : List.Forall₂ (HTrainOp.Same H0) (p.ops.map PTrainOp.op) v.ops
  localActs : ∀ a ∈ p.layers, a.Local
  localLoss : p.loss.Local
  localUpd : p.upd.Local

/-- The worker's program on values, executed alone, gives `st` and `g`. -/
def Worker.Alone {γ' ρ' : Type} [Zero α] [One α] [Add α] [Mul α] [Div α] [NatCast α] [LT α] [DecidableLT α] [DecidableEq α] (p : Worker α γ ρ σ γ' ρ') (v : WorkerValue α γ σ) (st : σ × Train α) (g : ρ) : Prop :=
  ∃ ks : List (LayerKind α), List.Forall₂ (fun k s => ∃ kB kW, k = LayerSpec.kind kB kW s) ks v.layers ∧
    Train.program ks p.gi p.ci p.ri v.loss p.opt v.upd p.gen p.g v.ops = .ok (st, g)

end Trixy
