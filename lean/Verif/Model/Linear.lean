import Verif.Model.Mat
import Mathlib.Algebra.Order.Group.Abs
import Mathlib.Algebra.Field.Defs
/- Model of Lique/Linear.hpp. -/
namespace Trixy

variable {α : Type _}

/-- Zeroing with `detail::assign(first(result), last(result), detail::cpy(), 0)`: Linear.hpp:56, 75. -/
def zeroFill [Zero α] (r : Buf α) : Res (Buf α) := forN r.length r (fun i r => r.set i 0)

/-- Linear.hpp:45-64 `dot(result, row_vector, matrix)`. -/
def dotRow [Zero α] [Add α] [Mul α] (result row : Buf α) (m : Mat α) : Res (Buf α) := do
  let r ← zeroFill result
  forN row.length r (fun i r => do
    let temp ← row.get i
    forN result.length r (fun j r => do
      let x ← r.get j
      let y ← m.get i j
      r.set j (x + temp * y)))

/-- Linear.hpp:66-80 `dot(result, matrix, col_vector)`. -/
def dotCol [Zero α] [Add α] [Mul α] (result : Buf α) (m : Mat α) (col : Buf α) : Res (Buf α) := do
  let r ← zeroFill result
  forN result.length r (fun i r =>
    forN col.length r (fun j r => do
      let x ← r.get i
      let a ← m.get i j
      let b ← col.get j
      r.set i (x + a * b)))

/-- Linear.hpp:82-102 `dot(result, lhs, rhs)` (adds to `result`). -/
def dotMat [Add α] [Mul α] (result lhs rhs : Mat α) : Res (Mat α) :=
  forN lhs.h result (fun i R =>
    forN lhs.w R (fun r R => do
      let buff ← lhs.get i r
      forN rhs.w R (fun j R => do
        let x ← R.get i j
        let y ← rhs.get r j
        R.set i j (x + buff * y))))

/-- Linear.hpp:104-139 `tensordot(result, col_vector, row_vector)`: writes `col.size` consecutive blocks of
`row.size` cells starting at `result.data()`. -/
def tensordot [Mul α] (result : Mat α) (col row : Buf α) : Res (Mat α) :=
  forN col.length result (fun i R => do
    let c ← col.get i
    forN row.length R (fun j R => do
      let y ← row.get j
      let d ← R.data.set (i * row.length + j) (c * y)
      return { R with data := d }))

/-- Linear.hpp:141-151 `transpose(result, matrix)`. -/
def transposeInto (result m : Mat α) : Res (Mat α) :=
  forN result.h result (fun i R =>
    forN result.w R (fun j R => do
      let x ← m.get j i
      R.set i j x))

/-- Linear.hpp:212-235 inner product. -/
def dotVec [Zero α] [Add α] [Mul α] (lhs rhs : Buf α) : Res α :=
  forN lhs.length 0 (fun i acc => do
    let x ← lhs.get i
    let y ← rhs.get i
    return acc + x * y)

/-- Linear.hpp:237-250. -/
def dotRowNew [Zero α] [Add α] [Mul α] (row : Buf α) (m : Mat α) : Res (Buf α) := dotRow (Buf.alloc m.w) row m
/-- Linear.hpp:252-265. -/
def dotColNew [Zero α] [Add α] [Mul α] (m : Mat α) (col : Buf α) : Res (Buf α) := dotCol (Buf.alloc m.h) m col
/-- Linear.hpp:267-280. -/
def dotMatNew [Zero α] [Add α] [Mul α] (lhs rhs : Mat α) : Res (Mat α) := dotMat (Mat.fill lhs.h rhs.w 0) lhs rhs
/-- Linear.hpp:282-294. -/
def tensordotNew [Mul α] (col row : Buf α) : Res (Mat α) := tensordot (Mat.alloc col.length row.length) col row
/-- Linear.hpp:296-306. -/
def transposeNew (m : Mat α) : Res (Mat α) := transposeInto (Mat.alloc m.w m.h) m

section Inverse
variable {K : Type _} [Field K] [LinearOrder K]

/-- Linear.hpp:167-169: result = identity. -/
def invInit (N : Nat) (R : Mat K) : Res (Mat K) :=
  forN N R (fun i R => forN N R (fun j R => R.set i j (if i = j then 1 else 0)))

/-- Linear.hpp:173-176: pivot row. -/
def invPivot (N k : Nat) (M : Mat K) : Res Nat :=
  forLoop (k + 1) N k (fun i p => do
    let x ← M.get p k
    let y ← M.get i k
    return if |x| < |y| then i else p)

/-- Linear.hpp:180-185 / 187-192: swap rows `k` and `p` in the columns `lo … N-1`. -/
def rowSwap (N k p lo : Nat) (M : Mat K) : Res (Mat K) :=
  forLoop lo N M (fun j M => do
    let buff ← M.get k j
    let y ← M.get p j
    let M ← M.set k j y
    M.set p j buff)

/-- Linear.hpp:178-193: the swap is done only if the pivot row differs from row `k`. -/
def rowSwapIf (N k p lo : Nat) (M : Mat K) : Res (Mat K) :=
  if p ≠ k then rowSwap N k p lo M else .ok M

/-- Linear.hpp:197 / 198: multiply row `k`, columns `lo … N-1`, by `c`. -/
def rowScale (N k lo : Nat) (c : K) (M : Mat K) : Res (Mat K) :=
  forLoop lo N M (fun j M => do
    let x ← M.get k j
    M.set k j (x * c))

/-- Linear.hpp:206 / 207: row `i` -= row `k` * `c` in the columns `lo … N-1`. -/
def rowElim (N i k lo : Nat) (c : K) (M : Mat K) : Res (Mat K) :=
  forLoop lo N M (fun j M => do
    let x ← M.get i j
    let y ← M.get k j
    M.set i j (x - y * c))

/-- Linear.hpp:171-209, one iteration `k` of the main loop on the pair (result, matrix). The reciprocal
`1. / matrix(k, k)` of a zero pivot is reported as `divByZero`. -/
def invStep (N k : Nat) : Mat K × Mat K → Res (Mat K × Mat K)
  | (R, M) => do
    let p ← invPivot N k M
    let M ← rowSwapIf N k p k M
    let R ← rowSwapIf N k p 0 R
    let piv ← M.get k k
    if piv = 0 then .error .divByZero else
    let buff := 1 / piv
    let M ← rowScale N k k buff M
    let R ← rowScale N k 0 buff R
    forN N (R, M) (fun i (R, M) =>
      if i = k then .ok (R, M) else do
        let buff ← M.get i k
        let M ← rowElim N i k k buff M
        let R ← rowElim N i k 0 buff R
        return (R, M))

/-- Linear.hpp:153-210 `inverse(result, matrix)`; `matrix` is modified too. -/
def inverseInto (R M : Mat K) : Res (Mat K × Mat K) := do
  let N := M.h
  let R ← invInit N R
  forN N (R, M) (fun k s => invStep N k s)

/-- Linear.hpp:308-318 `inverse(matrix)`: `MatrixRet result(matrix.shape())` is Matrix.hpp:53-57 (height
`depth*height`, equal to `height` for depth 1). -/
def inverseNew (M : Mat K) : Res (Mat K × Mat K) := inverseInto (Mat.alloc M.h M.w) M

end Inverse

end Trixy
