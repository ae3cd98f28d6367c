import Verif.Model.Container
/-
Iterators of Container (Container.hpp:197-205, 245-299). An iterator is a pointer (`ptr_`).
-/
namespace Trixy

variable {α : Type _}

/-- Pointer arithmetic `p + n`: defined up to one past the end of the allocation; `nullptr + 0` is defined. -/
def ptrAdd (H : Heap α) (p : Ptr) (n : Nat) : Res Ptr :=
  match p with
  | .null => if n = 0 then .ok .null else .error .nullDeref
  | .at b o =>
    match H.blocks b with
    | none => .error .useAfterFree
    | some buf => if o + n ≤ buf.length then .ok (.at b (o + n)) else .error .oob

/-- Pointer arithmetic `p - n`. -/
def ptrSub (H : Heap α) (p : Ptr) (n : Nat) : Res Ptr :=
  match p with
  | .null => if n = 0 then .ok .null else .error .nullDeref
  | .at b o =>
    match H.blocks b with
    | none => .error .useAfterFree
    | some _ => if n ≤ o then .ok (.at b (o - n)) else .error .oob

/-- Pointer difference: defined within one allocation. -/
def ptrDiff (p q : Ptr) : Res Int :=
  match p, q with
  | .null, .null => .ok 0
  | .at b o, .at b' o' => if b = b' then .ok ((o : Int) - o') else .error .oob
  | _, _ => .error .oob

/-- Container.hpp:197, 200, 203 `begin()`, `cbegin()`. -/
def Cont.begin (c : Cont) : Ptr := c.data
/-- Container.hpp:198, 201, 204 `end()`, `cend()`. -/
def Cont.end_ (s : Store α) (c : Cont) : Res Ptr := ptrAdd s.heap c.data c.size

/-- Container.hpp:256, 284 `operator*`. -/
def Iter.deref (s : Store α) (p : Ptr) : Res α := s.heap.load p 0
/-- Container.hpp:260, 288 `operator==`. -/
def Iter.eq (p q : Ptr) : Bool := decide (p = q)
/-- Container.hpp:262, 290 `operator++`. -/
def Iter.inc (s : Store α) (p : Ptr) : Res Ptr := ptrAdd s.heap p 1
/-- Container.hpp:263, 291 `operator--`. -/
def Iter.dec (s : Store α) (p : Ptr) : Res Ptr := ptrSub s.heap p 1
/-- Container.hpp:265, 293 `operator-(iterator)`. -/
def Iter.diff (p q : Ptr) : Res Int := ptrDiff p q
/-- Container.hpp:267, 295 `operator+(n)`: `ptr_ + n; return *this;` -/
def Iter.plus (s : Store α) (p : Ptr) (n : Nat) : Res Ptr := do
  let _ ← ptrAdd s.heap p n
  return p
/-- Container.hpp:268, 296 `operator-(n)`: `ptr_ - n; return *this;` -/
def Iter.minus (s : Store α) (p : Ptr) (n : Nat) : Res Ptr := do
  let _ ← ptrSub s.heap p n
  return p
/-- Container.hpp:270, 298 `operator[]`. -/
def Iter.idx (s : Store α) (p : Ptr) (i : Nat) : Res α := s.heap.load p i

/-- `k` times `++it`. -/
def Iter.advance (s : Store α) (p : Ptr) : Nat → Res Ptr
  | 0 => .ok p
  | k + 1 => do
    let p ← Iter.advance s p k
    Iter.inc s p

/-- `for (auto it = first; it != last; ++it) visit(*it)` with at most `fuel` rounds (the values in order of visit). -/
def Iter.walk (s : Store α) (last : Ptr) : Nat → Ptr → List α → Res (List α)
  | 0, _, acc => .ok acc
  | fuel + 1, p, acc =>
    if Iter.eq p last then .ok acc else do
      let v ← Iter.deref s p
      let p ← Iter.inc s p
      Iter.walk s last fuel p (acc ++ [v])

end Trixy
