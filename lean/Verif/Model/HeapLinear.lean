import Verif.Model.TensorMem
import Verif.Model.Linear
/-
Lique/Linear.hpp on the free store: the same loops as in Model/Linear.lean, but on objects that are pointers into the
free store, so that two operands may share storage. Element positions are computed without `size_t` wrap-around
(`Shape.at2`; see C01 for the wrapped version).
-/
namespace Trixy

variable {α : Type _}

/-- Linear.hpp:45-64 `dot(result, row_vector, matrix)`. -/
def Obj.dotRow [Zero α] [Add α] [Mul α] (H : Heap α) (r x m : Obj) : Res (Heap α) := do
  let H ← fillLoop H r.data r.shape.size 0
  forN x.shape.size H (fun i H => do
    let temp ← x.get1 H i
    forN r.shape.size H (fun j H => do
      let u ← r.get1 H j
      let y ← m.get2 H i j
      r.set1 H j (u + temp * y)))

/-- Linear.hpp:66-80 `dot(result, matrix, col_vector)`. -/
def Obj.dotCol [Zero α] [Add α] [Mul α] (H : Heap α) (r m x : Obj) : Res (Heap α) := do
  let H ← fillLoop H r.data r.shape.size 0
  forN r.shape.size H (fun i H =>
    forN x.shape.size H (fun j H => do
      let u ← r.get1 H i
      let a ← m.get2 H i j
      let b ← x.get1 H j
      r.set1 H i (u + a * b)))

/-- Linear.hpp:82-102 `dot(result, lhs, rhs)`. -/
def Obj.dotMat [Add α] [Mul α] (H : Heap α) (r l m : Obj) : Res (Heap α) :=
  forN l.shape.h H (fun i H =>
    forN l.shape.w H (fun k H => do
      let buff ← l.get2 H i k
      forN m.shape.w H (fun j H => do
        let u ← r.get2 H i j
        let y ← m.get2 H k j
        r.set2 H i j (u + buff * y))))

/-- Linear.hpp:104-139 `tensordot(result, col_vector, row_vector)`: `dst` advances by `row_vector.size()`. The column
element is an argument passed by value (FunctionDetail.hpp:89-99), hence read once per block. -/
def Obj.tensordot [Mul α] (H : Heap α) (r c x : Obj) : Res (Heap α) :=
  forN c.shape.size H (fun i H => do
    let v ← c.get1 H i
    forN x.shape.size H (fun j H => do
      let y ← x.get1 H j
      r.set1 H (i * x.shape.size + j) (v * y)))

/-- Linear.hpp:141-151 `transpose(result, matrix)`. -/
def Obj.transpose (H : Heap α) (r m : Obj) : Res (Heap α) :=
  forN r.shape.h H (fun i H =>
    forN r.shape.w H (fun j H => do
      let x ← m.get2 H j i
      r.set2 H i j x))

/-- Linear.hpp:237-250 `dot(row_vector, matrix)`: a new vector. (The local `result` is returned by value: with the default return type it is
constructed in place or moved, which leaves the same object.) -/
def Obj.dotRowNew [Zero α] [Add α] [Mul α] (H : Heap α) (x m : Obj) : Res (Heap α × Obj) := do
  let (H, r) := Obj.sized H .vec 1 1 m.shape.w
  let H ← Obj.dotRow H r x m
  return (H, r)

/-- Linear.hpp:252-265 `dot(matrix, col_vector)`: a new vector. -/
def Obj.dotColNew [Zero α] [Add α] [Mul α] (H : Heap α) (m x : Obj) : Res (Heap α × Obj) := do
  let (H, r) := Obj.sized H .vec 1 1 m.shape.h
  let H ← Obj.dotCol H r m x
  return (H, r)

/-- Linear.hpp:267-280 `dot(lhs, rhs)`: a new matrix, filled with 0 first. -/
def Obj.dotMatNew [Zero α] [Add α] [Mul α] (H : Heap α) (l m : Obj) : Res (Heap α × Obj) := do
  let (H, r) ← Obj.valued H .mat 1 l.shape.h m.shape.w 0
  let H ← Obj.dotMat H r l m
  return (H, r)

/-- Linear.hpp:282-294 `tensordot(col_vector, row_vector)`: a new matrix. -/
def Obj.tensordotNew [Mul α] (H : Heap α) (c x : Obj) : Res (Heap α × Obj) := do
  let (H, r) := Obj.sized H .mat 1 c.shape.size x.shape.size
  let H ← Obj.tensordot H r c x
  return (H, r)

/-- Linear.hpp:296-306 `transpose(matrix)`: a new matrix. -/
def Obj.transposeNew (H : Heap α) (m : Obj) : Res (Heap α × Obj) := do
  let (H, r) := Obj.sized H .mat 1 m.shape.w m.shape.h
  let H ← Obj.transpose H r m
  return (H, r)

section Inverse
variable {K : Type _} [Field K] [LinearOrder K]

/-- Linear.hpp:167-169: result = identity. -/
def Obj.invInit (N : Nat) (r : Obj) (H : Heap K) : Res (Heap K) :=
  forN N H (fun i H => forN N H (fun j H => r.set2 H i j (if i = j then 1 else 0)))

/-- Linear.hpp:173-176: pivot row. -/
def Obj.invPivot (N k : Nat) (m : Obj) (H : Heap K) : Res Nat :=
  forLoop (k + 1) N k (fun i p => do
    let x ← m.get2 H p k
    let y ← m.get2 H i k
    return if |x| < |y| then i else p)

/-- Linear.hpp:180-185 / 187-192. -/
def Obj.rowSwap (N k p lo : Nat) (o : Obj) (H : Heap K) : Res (Heap K) :=
  forLoop lo N H (fun j H => do
    let buff ← o.get2 H k j
    let y ← o.get2 H p j
    let H ← o.set2 H k j y
    o.set2 H p j buff)

/-- Linear.hpp:178-193. -/
def Obj.rowSwapIf (N k p lo : Nat) (o : Obj) (H : Heap K) : Res (Heap K) :=
  if p ≠ k then o.rowSwap N k p lo H else .ok H

/-- Linear.hpp:197 / 198. -/
def Obj.rowScale (N k lo : Nat) (c : K) (o : Obj) (H : Heap K) : Res (Heap K) :=
  forLoop lo N H (fun j H => do
    let x ← o.get2 H k j
    o.set2 H k j (x * c))

/-- Linear.hpp:206 / 207. -/
def Obj.rowElim (N i k lo : Nat) (c : K) (o : Obj) (H : Heap K) : Res (Heap K) :=
  forLoop lo N H (fun j H => do
    let x ← o.get2 H i j
    let y ← o.get2 H k j
    o.set2 H i j (x - y * c))

/-- Linear.hpp:171-209, one iteration of the main loop. -/
def Obj.invStep (N k : Nat) (r m : Obj) (H : Heap K) : Res (Heap K) := do
  let p ← m.invPivot N k H
  let H ← m.rowSwapIf N k p k H
  let H ← r.rowSwapIf N k p 0 H
  let piv ← m.get2 H k k
  if piv = 0 then .error .divByZero else
  let buff := 1 / piv
  let H ← m.rowScale N k k buff H
  let H ← r.rowScale N k 0 buff H
  forN N H (fun i H =>
    if i = k then .ok H else do
      let buff ← m.get2 H i k
      let H ← m.rowElim N i k k buff H
      r.rowElim N i k 0 buff H)

/-- Linear.hpp:153-210 `inverse(result, matrix)`. -/
def Obj.inverse (H : Heap K) (r m : Obj) : Res (Heap K) := do
  let N := m.shape.h
  let H ← r.invInit N H
  forN N H (fun k H => Obj.invStep N k r m H)

/-- Linear.hpp:308-318 `inverse(matrix)`: a new matrix, constructed from the `shape()` of the argument, i.e. with `depth * height` rows
(Matrix.hpp:53-57). -/
def Obj.inverseNew (H : Heap K) (m : Obj) : Res (Heap K × Obj) := do
  let (H, r) := Obj.sized H .mat 1 (wmul m.shape.d m.shape.h) m.shape.w
  let H ← Obj.inverse H r m
  return (H, r)

end Inverse

end Trixy
