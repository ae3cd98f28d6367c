import Verif.Model.TensorMem
import Verif.Model.Container
/-
Lockers (Locker/Vector.hpp, Locker/Matrix.hpp, Locker/Tensor.hpp, Locker/Container.hpp): classes with a protected base that
re-export only some members of it. A locked tensor is an object of the tensor world (Model/TensorMem.lean); the model adds the
element-wise members as operations of a history and what the references returned by them allow.
-/
namespace Trixy

variable {α : Type _}

/-- Element-wise members (TensorBase.hpp:122-264), all re-exported by lockers (Locker/Matrix.hpp:64-80). -/
inductive EOp (α : Type _)
  /-- `x.copy(list)`: TensorBase.hpp:142-146 -/
  | copyList (x : Nat) (l : List α)
  /-- `x.copy(y)`: TensorBase.hpp:134-140 -/
  | copy (x y : Nat)
  /-- `x.fill(generator)`: TensorBase.hpp:148-154; the state of the generator is a number (it may encode anything) -/
  | fillGen (x : Nat) (gen : Nat → α × Nat) (g : Nat)
  /-- `x.apply(f)`: TensorBase.hpp:170-175 -/
  | apply (x : Nat) (f : α → α)
  /-- `x.apply(f, y)`: TensorBase.hpp:184-188 -/
  | apply2 (x : Nat) (f : α → α) (y : Nat)
  /-- `x.add(y)`: TensorBase.hpp:197-201 -/
  | add (x y : Nat)
  /-- `x.add(y, z)`: TensorBase.hpp:203-207 -/
  | add2 (x y z : Nat)
  /-- `x.sub(y)`: TensorBase.hpp:216-220 -/
  | sub (x y : Nat)
  /-- `x.sub(y, z)`: TensorBase.hpp:222-226 -/
  | sub2 (x y z : Nat)
  /-- `x.mul(y)`: TensorBase.hpp:235-239 -/
  | mul (x y : Nat)
  /-- `x.mul(y, z)`: TensorBase.hpp:241-245 -/
  | mul2 (x y z : Nat)
  /-- `x.join(v)`: TensorBase.hpp:254-258 -/
  | join (x : Nat) (v : α)
  /-- `x.join(v, y)`: TensorBase.hpp:260-264 -/
  | join2 (x : Nat) (v : α) (y : Nat)

/-- An element-wise member changes only the store (TensorBase.hpp:122-264). -/
def World.estep [Add α] [Sub α] [Mul α] (w : World α) : EOp α → Res (World α)
  | .copyList x l => do
    let a ← look w.own x
    let H ← Trixy.copyList w.heap a.data a.shape.size l
    return { w with heap := H }
  | .copy x y => do
    let a ← look w.own x
    let t ← look w.own y
    let H ← a.copy w.heap t (x == y)
    return { w with heap := H }
  | .fillGen x gen g => do
    let a ← look w.own x
    let (H, _) ← Trixy.fillGen w.heap a.data a.shape.size gen g
    return { w with heap := H }
  | .apply x f => do
    let a ← look w.own x
    let H ← a.apply w.heap f
    return { w with heap := H }
  | .apply2 x f y => do
    let a ← look w.own x
    let t ← look w.own y
    let H ← a.apply2 w.heap f t
    return { w with heap := H }
  | .add x y => do
    let a ← look w.own x
    let t ← look w.own y
    let H ← a.add w.heap t
    return { w with heap := H }
  | .add2 x y z => do
    let a ← look w.own x
    let t ← look w.own y
    let u ← look w.own z
    let H ← a.add2 w.heap t u
    return { w with heap := H }
  | .sub x y => do
    let a ← look w.own x
    let t ← look w.own y
    let H ← a.sub w.heap t
    return { w with heap := H }
  | .sub2 x y z => do
    let a ← look w.own x
    let t ← look w.own y
    let u ← look w.own z
    let H ← a.sub2 w.heap t u
    return { w with heap := H }
  | .mul x y => do
    let a ← look w.own x
    let t ← look w.own y
    let H ← a.mul w.heap t
    return { w with heap := H }
  | .mul2 x y z => do
    let a ← look w.own x
    let t ← look w.own y
    let u ← look w.own z
    let H ← a.mul2 w.heap t u
    return { w with heap := H }
  | .join x v => do
    let a ← look w.own x
    let H ← a.join w.heap v
    return { w with heap := H }
  | .join2 x v y => do
    let a ← look w.own x
    let t ← look w.own y
    let H ← a.join2 w.heap v t
    return { w with heap := H }

/-- What a program with lockers does. The in-place members return `Tensor&`, a reference to the (unlocked) `TensorBase` part
of the object, whose assignment operators and `swap` are public. -/
inductive LEv (α : Type _)
  /-- an operation of Model/TensorMem.lean -/
  | op (o : Op α)
  /-- an element-wise member -/
  | elem (e : EOp α)
  /-- `x.fill(…) = y.base()` (any in-place member returns such a reference): TensorBase.hpp:105-114 -/
  | refAssign (x y : Nat)
  /-- `x.fill(…) = std::move(y.fill(…))`: TensorBase.hpp:116-126 -/
  | refMove (x y : Nat)
  /-- `x.fill(…).swap(y.fill(…))`: TensorBase.hpp:272-276 -/
  | refSwap (x y : Nat)

/-- TensorBase.hpp:105-114: pointer and shape are overwritten. -/
def Obj.refAssign (a t : Obj) : Obj := ⟨a.kind, t.data, t.shape⟩

/-- One event. (`fill` itself, which the reference comes from, is an event of its own.) -/
def World.lstep [Add α] [Sub α] [Mul α] (w : World α) : LEv α → Res (World α)
  | .op o => w.step o
  | .elem e => w.estep e
  | .refAssign x y => do
    let a ← look w.own x
    let t ← look w.own y
    if x = y then return w
    return { w with own := upd w.own x (some (a.refAssign t)) }
  | .refMove x y => do
    let a ← look w.own x
    let t ← look w.own y
    if x = y then return w
    return { w with own := upd (upd w.own y (some { t with data := .null })) x (some (a.refAssign t)) }
  | .refSwap x y => do
    let a ← look w.own x
    let t ← look w.own y
    return { w with own := upd (upd w.own y (some (t.refAssign a))) x (some (a.refAssign t)) }

/-- A history. -/
def World.lrun [Add α] [Sub α] [Mul α] (w : World α) : List (LEv α) → Res (World α)
  | [] => .ok w
  | e :: es => do
    let w ← w.lstep e
    w.lrun es

end Trixy
