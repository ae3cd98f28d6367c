import Verif.Model.Heap
/-
Model of Container/Container.hpp.

Storage comes from `operator new[]` (raw): a cell is `none` while no element lives in it and `some v`
while an element with value `v` lives in it. The model is instrumented: constructing over a live
element, destroying where none lives, and releasing storage that still contains live elements are
reported as `UB.lifetime`. Sizes are unbounded naturals: `capacity_ * 2 + 1` never wraps because
`sizeof(T) * capacity_` bytes were already allocated.
-/
namespace Trixy

variable {α : Type _}

/-- Free store plus the number of element moves performed by reallocation so far. -/
structure Store (α : Type _) where
  heap : Heap α
  moves : Nat

/-- A Container object: Container.hpp:38-40. -/
structure Cont where
  data : Ptr
  size : Nat
  cap : Nat
  deriving DecidableEq, Repr

/-- Container.hpp:219-226 `allocate(n)`. -/
def Store.allocate (s : Store α) (n : Nat) : Store α × Ptr :=
  ({ s with heap := (s.heap.new n).1 }, (s.heap.new n).2)

/-- `new (p + i) value_type(v)`: placement construction. -/
def Store.construct (s : Store α) (p : Ptr) (i : Nat) (v : α) : Res (Store α) := do
  match ← s.heap.cell p i with
  | some _ => .error .lifetime
  | none =>
    let h ← s.heap.put p i (some v)
    return { s with heap := h }

/-- `p[i].~value_type()`. -/
def Store.destroyAt (s : Store α) (p : Ptr) (i : Nat) : Res (Store α) := do
  match ← s.heap.cell p i with
  | none => .error .lifetime
  | some _ =>
    let h ← s.heap.put p i none
    return { s with heap := h }

/-- `value_type(std::move(p[i]))`: the value, leaving the moved-from state `moved v` behind. -/
def Store.moveOut (moved : α → α) (s : Store α) (p : Ptr) (i : Nat) : Res (α × Store α) := do
  let v ← s.heap.load p i
  let h ← s.heap.put p i (some (moved v))
  return (v, { heap := h, moves := s.moves + 1 })

/-- Container.hpp:233-242 `destroy(p + lo, p + hi)`; nothing is done for a null pointer. -/
def Store.destroyRange (s : Store α) (p : Ptr) (lo hi : Nat) : Res (Store α) :=
  match p with
  | .null => .ok s
  | .at b o => forLoop lo hi s (fun i s => s.destroyAt (.at b o) i)

/-- Every cell of the block is raw. -/
def rawBlock (b : Buf α) : Bool := b.all (fun c => c.isNone)

/-- Container.hpp:228-231 `deallocate(p)` (instrumented: no element may still live in the block). -/
def Store.deallocate (s : Store α) (p : Ptr) : Res (Store α) :=
  match p with
  | .null => .ok s
  | .at b o =>
    match s.heap.blocks b with
    | none => .error .badFree
    | some buf =>
      if rawBlock buf then do
        let h ← s.heap.delete (.at b o)
        return { s with heap := h }
      else .error .lifetime

/-- Container.hpp:43. -/
def Cont.default : Cont := ⟨.null, 0, 0⟩

/-- Container.hpp:45-49. -/
def Cont.destruct (s : Store α) (c : Cont) : Res (Store α) := do
  let s ← s.destroyRange c.data 0 c.size
  s.deallocate c.data

/-- Container.hpp:51-58; `dflt` is `value_type()`. -/
def Cont.sized (dflt : α) (s : Store α) (n : Nat) : Res (Store α × Cont) := do
  let (s, p) := s.allocate n
  let s ← forN n s (fun i s => s.construct p i dflt)
  return (s, ⟨p, n, n⟩)

/-- Loop of Container.hpp:65-66 and 104-105: copy-construct elements `0 … n-1` of `src` at `dst`. -/
def copyElems (s : Store α) (dst src : Ptr) (n : Nat) : Res (Store α) :=
  forN n s (fun i s => do
    let v ← s.heap.load src i
    s.construct dst i v)

/-- Container.hpp:60-67: storage for `size_` elements, but `capacity_` of the source. -/
def Cont.copyCtor (s : Store α) (src : Cont) : Res (Store α × Cont) := do
  let (s, p) := s.allocate src.size
  let s ← copyElems s p src.data src.size
  return (s, ⟨p, src.size, src.cap⟩)

/-- Container.hpp:69-77: the new object and the source afterwards. -/
def Cont.moveCtor (src : Cont) : Cont × Cont := (⟨src.data, src.size, src.cap⟩, { src with data := .null })

/-- Container.hpp:79-90. -/
def Cont.ofList (s : Store α) (l : List α) : Res (Store α × Cont) := do
  let (s, p) := s.allocate l.length
  let s ← forN l.length s (fun i s =>
    match l[i]? with
    | none => .error .oob
    | some v => s.construct p i v)
  return (s, ⟨p, l.length, l.length⟩)

/-- Container.hpp:92-108 for distinct objects (self-assignment returns at once). -/
def Cont.copyAssign (s : Store α) (c src : Cont) : Res (Store α × Cont) := do
  let s ← s.destroyRange c.data 0 c.size
  let s ← s.deallocate c.data
  let (s, p) := s.allocate src.cap
  let s ← copyElems s p src.data src.size
  return (s, ⟨p, src.size, src.cap⟩)

/-- Container.hpp:110-125 for distinct objects: (store, destination, source). -/
def Cont.moveAssign (s : Store α) (c src : Cont) : Res (Store α × Cont × Cont) := do
  let s ← s.destroyRange c.data 0 c.size
  let s ← s.deallocate c.data
  return (s, ⟨src.data, src.size, src.cap⟩, { src with data := .null })

/-- Container.hpp:159-175. -/
def Cont.reserve (moved : α → α) (s : Store α) (c : Cont) (n : Nat) : Res (Store α × Cont) :=
  if n > c.cap then do
    let (s, buff) := s.allocate n
    let s ← forN c.size s (fun i s => do
      let (v, s) ← s.moveOut moved c.data i
      s.construct buff i v)
    let s ← s.destroyRange c.data 0 c.size
    let s ← s.deallocate c.data
    return (s, { c with data := buff, cap := n })
  else .ok (s, c)

/-- Loop of Container.hpp:138-139 and 152-153: construct elements `lo … hi-1`; `arg k` is the value the
`k`-th construction obtains from the forwarded arguments. -/
def fillElems (s : Store α) (p : Ptr) (lo hi : Nat) (arg : Nat → α) : Res (Store α) :=
  forLoop lo hi s (fun i s => s.construct p i (arg (i - lo)))

/-- Container.hpp:131-157. -/
def Cont.resize (moved : α → α) (s : Store α) (c : Cont) (n : Nat) (arg : Nat → α) : Res (Store α × Cont) :=
  if n > c.cap then do
    let (s, c) ← c.reserve moved s n
    let s ← fillElems s c.data c.size n arg
    return (s, { c with size := n, cap := n })
  else if n < c.size then do
    let s ← s.destroyRange c.data n c.size
    return (s, { c with size := n })
  else do
    let s ← fillElems s c.data c.size n arg
    return (s, { c with size := n })

/-- Container.hpp:133-139 and 152-153: what `std::forward<Args>(args)...` yields at the `k`-th construction when
the single argument is an lvalue (every construction copies it). -/
def lvalueArg (v : α) : Nat → α := fun _ => v

/-- The same for an rvalue argument: each construction moves from the same object again. -/
def rvalueArg (moved : α → α) (v : α) : Nat → α
  | 0 => v
  | k + 1 => moved (rvalueArg moved v k)

/-- Container.hpp:180-182: make room for one more element. -/
def Cont.grow (moved : α → α) (s : Store α) (c : Cont) : Res (Store α × Cont) :=
  if c.size = c.cap then c.reserve moved s (c.cap * 2 + 1) else .ok (s, c)

/-- Container.hpp:177-186. -/
def Cont.emplaceBack (moved : α → α) (s : Store α) (c : Cont) (v : α) : Res (Store α × Cont) := do
  let (s, c) ← c.grow moved s
  let s ← s.construct c.data c.size v
  return (s, { c with size := c.size + 1 })

/-- Container.hpp:188-193 (on an empty container `size_` would wrap; the access is then far outside). -/
def Cont.popBack (s : Store α) (c : Cont) : Res (Store α × Cont) :=
  if c.size = 0 then .error .oob else do
    let s ← s.destroyAt c.data (c.size - 1)
    return (s, { c with size := c.size - 1 })

/-- Container.hpp:215-216 `c[i]` as a value. -/
def Cont.at_ (s : Store α) (c : Cont) (i : Nat) : Res α := s.heap.load c.data i
/-- Container.hpp:206-207. -/
def Cont.front (s : Store α) (c : Cont) : Res α := s.heap.load c.data 0
/-- Container.hpp:209-210 (index wraps for an empty container). -/
def Cont.back (s : Store α) (c : Cont) : Res α := if c.size = 0 then .error .oob else s.heap.load c.data (c.size - 1)
/-- `c[i] = v`: assignment to a live element (Container.hpp:215). -/
def Cont.write (s : Store α) (c : Cont) (i : Nat) (v : α) : Res (Store α) := do
  let _ ← s.heap.load c.data i
  let h ← s.heap.store c.data i v
  return { s with heap := h }
/-- Container.hpp:195: `empty()`. -/
def Cont.empty (c : Cont) : Bool := c.size == 0
/-- `for (auto& v : c)`: Container.hpp:197-205, 245-268, visiting `begin()` … `end()`. -/
def Cont.iterate (s : Store α) (c : Cont) : Res (List α) :=
  forN c.size [] (fun i acc => do
    let v ← s.heap.load c.data i
    return acc ++ [v])
/-- Container.hpp:308-314 when saving: the elements are written out, then `capacity_ = size_`. -/
def Cont.save (s : Store α) (c : Cont) : Res (List α × Cont) := do
  let l ← c.iterate s
  return (l, { c with cap := c.size })

/-! ### Histories -/

/-- Named containers over one free store. -/
structure CWorld (α : Type _) where
  store : Store α
  conts : Nat → Option Cont

/-- Operations on named containers. -/
inductive COp (α : Type _)
  | default (x : Nat)
  | sized (x n : Nat)
  | ofList (x : Nat) (l : List α)
  | copyCtor (x y : Nat)
  | moveCtor (x y : Nat)
  | copyAssign (x y : Nat)
  | moveAssign (x y : Nat)
  | resize (x n : Nat) (arg : Nat → α)
  | reserve (x n : Nat)
  | emplaceBack (x : Nat) (v : α)
  | popBack (x : Nat)
  | write (x i : Nat) (v : α)
  | save (x : Nat)
  | destroy (x : Nat)

/-- Change one entry of a table (assignment to a named object). -/
def cset (m : Nat → Option Cont) (x : Nat) (c : Option Cont) : Nat → Option Cont := fun y => if y = x then c else m y

/-- Look up a named object; using a name that denotes no object is an error. -/
def CWorld.get (w : CWorld α) (x : Nat) : Res Cont :=
  match w.conts x with
  | none => .error .useAfterFree
  | some c => .ok c

/-- One operation: dispatch to the functions above (Container.hpp:43-193, 308-314). -/
def CWorld.step (dflt : α) (moved : α → α) (w : CWorld α) : COp α → Res (CWorld α)
  | .default x => .ok ⟨w.store, cset w.conts x (some Cont.default)⟩
  | .sized x n => do
    let (s, c) ← Cont.sized dflt w.store n
    return ⟨s, cset w.conts x (some c)⟩
  | .ofList x l => do
    let (s, c) ← Cont.ofList w.store l
    return ⟨s, cset w.conts x (some c)⟩
  | .copyCtor x y => do
    let src ← w.get y
    let (s, c) ← Cont.copyCtor w.store src
    return ⟨s, cset w.conts x (some c)⟩
  | .moveCtor x y => do
    let src ← w.get y
    let (c, src') := Cont.moveCtor src
    return ⟨w.store, cset (cset w.conts y (some src')) x (some c)⟩
  | .copyAssign x y => do
    let c ← w.get x
    let src ← w.get y
    if x = y then return w
    let (s, c) ← Cont.copyAssign w.store c src
    return ⟨s, cset w.conts x (some c)⟩
  | .moveAssign x y => do
    let c ← w.get x
    let src ← w.get y
    if x = y then return w
    let (s, c, src') ← Cont.moveAssign w.store c src
    return ⟨s, cset (cset w.conts y (some src')) x (some c)⟩
  | .resize x n arg => do
    let c ← w.get x
    let (s, c) ← c.resize moved w.store n arg
    return ⟨s, cset w.conts x (some c)⟩
  | .reserve x n => do
    let c ← w.get x
    let (s, c) ← c.reserve moved w.store n
    return ⟨s, cset w.conts x (some c)⟩
  | .emplaceBack x v => do
    let c ← w.get x
    let (s, c) ← c.emplaceBack moved w.store v
    return ⟨s, cset w.conts x (some c)⟩
  | .popBack x => do
    let c ← w.get x
    let (s, c) ← c.popBack w.store
    return ⟨s, cset w.conts x (some c)⟩
  | .write x i v => do
    let c ← w.get x
    let s ← c.write w.store i v
    return ⟨s, w.conts⟩
  | .save x => do
    let c ← w.get x
    let (_, c) ← c.save w.store
    return ⟨w.store, cset w.conts x (some c)⟩
  | .destroy x => do
    let c ← w.get x
    let s ← c.destruct w.store
    return ⟨s, cset w.conts x none⟩

/-- A history of operations, left to right. -/
def CWorld.run (dflt : α) (moved : α → α) (w : CWorld α) : List (COp α) → Res (CWorld α)
  | [] => .ok w
  | op :: ops => do
    let w ← w.step dflt moved op
    w.run dflt moved ops

/-- The world before the program starts. -/
def CWorld.init : CWorld α := ⟨⟨Heap.empty, 0⟩, fun _ => none⟩

end Trixy
