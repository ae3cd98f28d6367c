import Verif.Model.Container
/-
Exceptions in Container/Container.hpp: the state in which an operation leaves the program when the allocation in it, or one
of the element constructors it calls, throws. No function of the class contains a `try`. An exception leaving a
constructor of the container means that there is no container (its destructor does not run); an exception leaving another
member leaves the container as it is at the `throw`.
-/
namespace Trixy

variable {α : Type _}

/-- Where the exception comes from: `operator new[]` (Container.hpp:219-226), the move construction number `k` (counted
from 0) of a reallocation (Container.hpp:165-166), or the construction number `k` of a new element. -/
inductive Crash
  | alloc
  | move (k : Nat)
  | elem (k : Nat)
  deriving DecidableEq, Repr

/-- Container.hpp:51-58. -/
def Cont.sizedThrow (dflt : α) (s : Store α) (n : Nat) : Crash → Res (Store α)
  | .elem k => forN k (s.allocate n).1 (fun i s' => s'.construct (s.allocate n).2 i dflt)
  | _ => .ok s

/-- Container.hpp:79-90. -/
def Cont.ofListThrow (s : Store α) (l : List α) : Crash → Res (Store α)
  | .elem k => forN k (s.allocate l.length).1 (fun i s' =>
      match l[i]? with
      | none => .error .oob
      | some v => s'.construct (s.allocate l.length).2 i v)
  | _ => .ok s

/-- Container.hpp:60-67. -/
def Cont.copyCtorThrow (s : Store α) (src : Cont) : Crash → Res (Store α)
  | .elem k => copyElems (s.allocate src.size).1 (s.allocate src.size).2 src.data k
  | _ => .ok s

/-- Container.hpp:92-108 for distinct objects: the old elements and storage are gone and `capacity_`, `size_` are set
before the allocation; `data_` is the old pointer until the allocation has succeeded. -/
def Cont.copyAssignThrow (s : Store α) (c src : Cont) (pt : Crash) : Res (Store α × Cont) := do
  let s ← s.destroyRange c.data 0 c.size
  let s ← s.deallocate c.data
  match pt with
  | .elem k =>
    let s1 ← copyElems (s.allocate src.cap).1 (s.allocate src.cap).2 src.data k
    return (s1, ⟨(s.allocate src.cap).2, src.size, src.cap⟩)
  | _ => return (s, ⟨c.data, src.size, src.cap⟩)

/-- Container.hpp:159-175 with `n > capacity_`: nothing has changed when the allocation throws; a throwing move leaves the
new buffer and the elements constructed in it behind, and the first `k` elements moved-from. -/
def Cont.reserveThrow (moved : α → α) (s : Store α) (c : Cont) (n : Nat) : Crash → Res (Store α × Cont)
  | .move k => do
    let s1 ← forN k (s.allocate n).1 (fun i s' => do
      let (v, s') ← s'.moveOut moved c.data i
      s'.construct (s.allocate n).2 i v)
    return (s1, c)
  | _ => .ok (s, c)

/-- Container.hpp:131-157; `size_` is advanced after each construction. Branches that do not reach the throwing operation
run to their end. -/
def Cont.resizeThrow (moved : α → α) (s : Store α) (c : Cont) (n : Nat) (arg : Nat → α) (pt : Crash) : Res (Store α × Cont) :=
  if n > c.cap then
    match pt with
    | .elem k => do
      let (s, c) ← c.reserve moved s n
      let s ← fillElems s c.data c.size (c.size + k) arg
      return (s, { c with size := c.size + k })
    | _ => c.reserveThrow moved s n pt
  else if n < c.size then c.resize moved s n arg
  else
    match pt with
    | .elem k => do
      let s ← fillElems s c.data c.size (c.size + k) arg
      return (s, { c with size := c.size + k })
    | _ => c.resize moved s n arg

/-- Container.hpp:177-186. -/
def Cont.emplaceBackThrow (moved : α → α) (s : Store α) (c : Cont) (v : α) (pt : Crash) : Res (Store α × Cont) :=
  match pt with
  | .elem _ => c.grow moved s
  | _ => if c.size = c.cap then c.reserveThrow moved s (c.cap * 2 + 1) pt else c.emplaceBack moved s v

/-- The operation `op` in which an exception is thrown at `pt`, if that point is reached. -/
def CWorld.stepThrow (dflt : α) (moved : α → α) (w : CWorld α) (pt : Crash) : COp α → Res (CWorld α)
  | .sized _ n => do
    let s ← Cont.sizedThrow dflt w.store n pt
    return ⟨s, w.conts⟩
  | .ofList _ l => do
    let s ← Cont.ofListThrow w.store l pt
    return ⟨s, w.conts⟩
  | .copyCtor _ y => do
    let src ← w.get y
    let s ← Cont.copyCtorThrow w.store src pt
    return ⟨s, w.conts⟩
  | .copyAssign x y => do
    let c ← w.get x
    let src ← w.get y
    if x = y then return w
    let (s, c) ← Cont.copyAssignThrow w.store c src pt
    return ⟨s, cset w.conts x (some c)⟩
  | .resize x n arg => do
    let c ← w.get x
    let (s, c) ← c.resizeThrow moved w.store n arg pt
    return ⟨s, cset w.conts x (some c)⟩
  | .reserve x n => do
    let c ← w.get x
    if n > c.cap then
      let (s, c) ← c.reserveThrow moved w.store n pt
      return ⟨s, cset w.conts x (some c)⟩
    else return w
  | .emplaceBack x v => do
    let c ← w.get x
    let (s, c) ← c.emplaceBackThrow moved w.store v pt
    return ⟨s, cset w.conts x (some c)⟩
  | op => w.step dflt moved op

/-- An operation that completes, or one that throws (and whose exception is caught by the program). -/
inductive CEv (α : Type _)
  | done (op : COp α)
  | threw (pt : Crash) (op : COp α)

/-- One event. -/
def CWorld.ev (dflt : α) (moved : α → α) (w : CWorld α) : CEv α → Res (CWorld α)
  | .done op => w.step dflt moved op
  | .threw pt op => w.stepThrow dflt moved pt op

/-- A history with exceptions. -/
def CWorld.runEv (dflt : α) (moved : α → α) (w : CWorld α) : List (CEv α) → Res (CWorld α)
  | [] => .ok w
  | e :: es => do
    let w ← w.ev dflt moved e
    w.runEv dflt moved es

end Trixy
