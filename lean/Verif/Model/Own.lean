import Verif.Model.Base
/-
Ownership of the objects behind raw pointers: networks own layers, layers own activations, trainings own losses. Objects are
identified by the order of their creation (an address is not reused here); `objs` are the objects alive, `deleted` logs the
destructor runs. What the objects compute is modelled elsewhere.
-/
namespace Trixy

/-- An object with its owning pointer. `layer a` is a FullyConnected or MaxPooling layer with `activation_ = a` (FullyConnected.hpp:39,
114; MaxPooling.hpp:41,139), `conv` a Convolutional layer, which has no activation. -/
inductive OObj
  | act
  | loss
  | layer (a : Option Nat)
  | conv
  deriving DecidableEq

/-- Objects alive, number of objects created, log of deletions, networks by name with `inner_` (UnifiedNet.hpp:54), trainings by name
with the network they refer to and `loss_` (Training/UnifiedNet.hpp:52-56). -/
structure OWorld where
  objs : List (Nat × OObj)
  next : Nat
  deleted : List Nat
  nets : List (Nat × List Nat)
  trains : List (Nat × Nat × Option Nat)
  deriving DecidableEq

/-- Before the program starts. -/
def OWorld.init : OWorld := ⟨[], 0, [], [], []⟩

/-- Dereference of a pointer to an object: it must be alive. -/
def OWorld.deref (w : OWorld) (p : Nat) : Res OObj :=
  match w.objs.find? (fun e => e.1 = p) with
  | none => .error .useAfterFree
  | some e => .ok e.2

/-- `delete p` for an object without owning members: it must be alive. -/
def OWorld.delLeaf (w : OWorld) (p : Nat) : Res OWorld :=
  match w.objs.find? (fun e => e.1 = p) with
  | none => .error .badFree
  | some e => .ok { w with objs := w.objs.erase e, deleted := w.deleted ++ [p] }

/-- `delete p` where `p` may be null. -/
def OWorld.delOpt (w : OWorld) : Option Nat → Res OWorld
  | none => .ok w
  | some p => w.delLeaf p

/-- `delete p` of any object: the destructors of the layers delete the activation (FullyConnected.hpp:74, 168; MaxPooling.hpp:84, 191:
`virtual ~Layer() { delete activation_; }`). -/
def OWorld.del (w : OWorld) (p : Nat) : Res OWorld :=
  match w.objs.find? (fun e => e.1 = p) with
  | none => .error .badFree
  | some (_, .layer a) => do
    let w ← w.delOpt a
    w.delLeaf p
  | some _ => w.delLeaf p

/-- Deletion of a list of objects, in order. -/
def OWorld.delAll (w : OWorld) : List Nat → Res OWorld
  | [] => .ok w
  | p :: ps => do
    let w ← w.del p
    w.delAll ps

/-- `new …`. -/
def OWorld.create (w : OWorld) (o : OObj) : OWorld := { w with objs := (w.next, o) :: w.objs, next := w.next + 1 }

/-- `connect(activation)`: FullyConnected.hpp:76-80, 176-180, MaxPooling.hpp:86-90, 193-197 delete the old activation and store the new
pointer; Convolutional.hpp:97, 235 ignores its argument. -/
def OWorld.connect (w : OWorld) (l : Nat) (a : Option Nat) : Res OWorld := do
  match ← w.deref l with
  | .layer old =>
    let w ← w.delOpt old
    return { w with objs := (l, .layer a) :: w.objs.erase (l, .layer old) }
  | .conv => .ok w
  | _ => .error .badCast

/-- A named network. -/
def OWorld.net (w : OWorld) (n : Nat) : Res (Nat × List Nat) :=
  match w.nets.find? (fun e => e.1 = n) with
  | none => .error .useAfterFree
  | some e => .ok e

/-- A named training. -/
def OWorld.train (w : OWorld) (t : Nat) : Res (Nat × Nat × Option Nat) :=
  match w.trains.find? (fun e => e.1 = t) with
  | none => .error .useAfterFree
  | some e => .ok e

/-- Touching every layer of a list and its activation, as `feedforward` does. -/
def OWorld.touch (w : OWorld) : List Nat → Res Unit
  | [] => .ok ()
  | p :: ps => do
    match ← w.deref p with
    | .layer (some a) =>
      let _ ← w.deref a
      w.touch ps
    | .layer none => .error .nullDeref
    | .conv => w.touch ps
    | _ => .error .badCast

/-- `feedforward` of a network with the given layers (UnifiedNet.hpp:100-108): `layer(0)` of an empty one is outside the container. -/
def OWorld.ff (w : OWorld) (ls : List Nat) : Res Unit := if ls = [] then .error .oob else w.touch ls

/-- `network.inner().back()->osize()` (Training/UnifiedNet.hpp:60). -/
def OWorld.lastLayer (w : OWorld) (ls : List Nat) : Res OObj :=
  match ls.getLast? with
  | none => .error .oob
  | some p => w.deref p

/-- `loss_->f(…)` (Training/UnifiedNet.hpp:202). -/
def OWorld.derefLoss (w : OWorld) : Option Nat → Res OObj
  | none => .error .nullDeref
  | some p => w.deref p

/-- Steps of a client program. -/
inductive OOp
  | newAct
  | newLoss
  | newLayer (a : Option Nat)
  | newConv
  | connect (l : Nat) (a : Option Nat)
  | netNew (n : Nat)
  | netFrom (n : Nat) (ls : List Nat)
  | netCopy (n m : Nat)
  | add (n p : Nat)
  | feedforward (n : Nat)
  | netDestroy (n : Nat)
  | trainNew (t n : Nat)
  | trainCopy (t u : Nat)
  | setLoss (t : Nat) (a : Option Nat)
  | evalLoss (t : Nat)
  | trainDestroy (t : Nat)
  | delete (p : Nat)

/-- One step. `newLayer` FullyConnected.hpp:51-65, MaxPooling.hpp:53-78 (constructor stores the pointer); `netNew`/`netFrom`
UnifiedNet.hpp:60-68; `netCopy` the implicitly declared copy constructor (the class declares none, UnifiedNet.hpp:20-123); `add` 76-80;
`feedforward` 100-108; `netDestroy` 70-74; `trainNew`/`trainCopy`/`trainDestroy` Training/UnifiedNet.hpp:59-71; `setLoss` 176-180;
`evalLoss` 194-207. The tables of names are bookkeeping; entries are taken out before the destructor bodies run. -/
def OWorld.step (w : OWorld) : OOp → Res OWorld
  | .newAct => .ok (w.create .act)
  | .newLoss => .ok (w.create .loss)
  | .newLayer a => .ok (w.create (.layer a))
  | .newConv => .ok (w.create .conv)
  | .connect l a => w.connect l a
  | .netNew n => .ok { w with nets := (n, []) :: w.nets }
  | .netFrom n ls => .ok { w with nets := (n, ls) :: w.nets }
  | .netCopy n m => do
    let e ← w.net m
    return { w with nets := (n, e.2) :: w.nets }
  | .add n p => do
    let e ← w.net n
    return { w with nets := (n, e.2 ++ [p]) :: w.nets.erase e }
  | .feedforward n => do
    let e ← w.net n
    let _ ← w.ff e.2
    return w
  | .netDestroy n => do
    let e ← w.net n
    OWorld.delAll { w with nets := w.nets.erase e } e.2
  | .trainNew t n => do
    let e ← w.net n
    let _ ← w.lastLayer e.2
    return { w with trains := (t, n, none) :: w.trains }
  | .trainCopy t u => do
    let e ← w.train u
    return { w with trains := (t, e.2) :: w.trains }
  | .setLoss t a => do
    let e ← w.train t
    let w ← w.delOpt e.2.2
    return { w with trains := (t, e.2.1, a) :: w.trains.erase e }
  | .evalLoss t => do
    let e ← w.train t
    let n ← w.net e.2.1
    let _ ← w.ff n.2
    let _ ← w.derefLoss e.2.2
    return w
  | .trainDestroy t => do
    let e ← w.train t
    OWorld.delOpt { w with trains := w.trains.erase e } e.2.2
  | .delete p => w.del p

/-- A program. -/
def OWorld.run (w : OWorld) : List OOp → Res OWorld
  | [] => .ok w
  | op :: ops => do
    let w ← w.step op
    w.run ops

end Trixy
