import Verif.Model.Container
/-
Container.hpp: operations whose argument is a reference to an element (of the same or of another container). `std::forward<Args>(args)...` is
evaluated where the element is constructed, i.e. after a possible reallocation.
-/
namespace Trixy

variable {α : Type _}

/-- Container.hpp:177-186 `emplace_back(r)` where `r` refers to the element `p[i]`. -/
def Cont.emplaceBackRef (moved : α → α) (s : Store α) (c : Cont) (p : Ptr) (i : Nat) : Res (Store α × Cont) := do
  let (s, c) ← c.grow moved s
  let v ← s.heap.load p i
  let s ← s.construct c.data c.size v
  return (s, { c with size := c.size + 1 })

/-- Loop of Container.hpp:138-139 and 152-153 with such an argument. -/
def fillElemsRef (s : Store α) (d : Ptr) (lo hi : Nat) (p : Ptr) (i : Nat) : Res (Store α) :=
  forLoop lo hi s (fun k s => do
    let v ← s.heap.load p i
    s.construct d k v)

/-- Container.hpp:131-157 `resize(n, r)` where `r` refers to the element `p[i]`. -/
def Cont.resizeRef (moved : α → α) (s : Store α) (c : Cont) (n : Nat) (p : Ptr) (i : Nat) : Res (Store α × Cont) :=
  if n > c.cap then do
    let (s, c) ← c.reserve moved s n
    let s ← fillElemsRef s c.data c.size n p i
    return (s, { c with size := n, cap := n })
  else if n < c.size then do
    let s ← s.destroyRange c.data n c.size
    return (s, { c with size := n })
  else do
    let s ← fillElemsRef s c.data c.size n p i
    return (s, { c with size := n })

end Trixy
