import Verif.Model.Mat
import Mathlib.Algebra.Field.Defs
/- Model of Lique/Tool.hpp. -/
namespace Trixy

variable {α : Type _}

/-- Floating-point division with the zero divisor made explicit (the C++ result would be inf/NaN). -/
def fdiv {K : Type _} [Div K] [Zero K] [DecidableEq K] (a b : K) : Res K :=
  if b = 0 then .error .divByZero else .ok (a / b)

/-- Tool.hpp:66-74 `accumulate(first, last, init)` over the whole range `b`. -/
def accumulate [Add α] (b : Buf α) (init : α) : Res α :=
  forN b.length init (fun i acc => do
    let v ← b.get i
    return acc + v)

/-- Tool.hpp:76-92 `search(first, last, compare)` on the range `b`, as the index `hold - first`. For an empty
range it returns `first` (= `last`), i.e. index 0. -/
def search (compare : α → α → Bool) (b : Buf α) : Res Nat :=
  if b.length = 0 then .ok 0
  else forLoop 1 b.length 0 (fun it hold => do
    let x ← b.get hold
    let y ← b.get it
    return if compare x y then it else hold)

/-- Tool.hpp:139-149 with `comp::is_bigger` (Tool.hpp:24-40: `lhs > rhs`). -/
def argmin (lt : α → α → Bool) (b : Buf α) : Res Nat := search (fun x y => lt y x) b
/-- Tool.hpp:151-161 with `comp::is_less` (`lhs < rhs`). -/
def argmax (lt : α → α → Bool) (b : Buf α) : Res Nat := search lt b
/-- Tool.hpp:175-186. -/
def minOf (lt : α → α → Bool) (b : Buf α) : Res α := do
  let i ← argmin lt b
  b.get i
/-- Tool.hpp:188-199. -/
def maxOf (lt : α → α → Bool) (b : Buf α) : Res α := do
  let i ← argmax lt b
  b.get i

/-- Tool.hpp:101-121, `Axis::X`. -/
def searchX (compare : α → α → Bool) (m : Mat α) : Res (Buf Nat) :=
  forLoop 1 m.h (List.replicate m.w (some 0) : Buf Nat) (fun i v =>
    forN m.w v (fun n v => do
      let r ← v.get n
      let x ← m.get r n
      let y ← m.get i n
      if compare x y then v.set n i else return v))

/-- Use of the value of a `size_t` variable that may be indeterminate (Tool.hpp:129, 132: `arg`). -/
def useArg (arg : Option Nat) : Res Nat :=
  match arg with
  | none => .error .uninit
  | some a => .ok a

/-- Tool.hpp:110, 122-134, `Axis::Y`: `arg` is declared without initialiser before the loops and never
reset; `none` is its indeterminate state. -/
def searchY (compare : α → α → Bool) (m : Mat α) : Res (Buf Nat) := do
  let (v, _) ← forN m.h ((Buf.alloc m.h : Buf Nat), (none : Option Nat)) (fun n (v, arg) => do
    let arg ← forLoop 1 m.w arg (fun i arg => do
      let a ← useArg arg
      let x ← m.get n a
      let y ← m.get n i
      return if compare x y then some i else arg)
    let a ← useArg arg
    let v ← v.set n a
    return (v, arg))
  return v

section Stat
variable {K : Type _} [Field K] [DecidableEq K]

/-- Tool.hpp:201-207 (and 209-213 with `init = T{}`). `cast` is `static_cast<T>(last - first)`. -/
def mean (b : Buf K) (init : K) : Res K := do
  let s ← accumulate b init
  fdiv s (b.length : K)

/-- Tool.hpp:215-234 (and 236-241 with `init = T{}`); `sqrt` is `std::sqrt`. The pointer difference
`last - first - unbiased` is an integer before the cast. -/
def stddev (sqrt : K → K) (b : Buf K) (init : K) (unbiased : Bool) : Res K := do
  let mv ← mean b init
  let s ← forN b.length (0 : K) (fun i acc => do
    let x ← b.get i
    let d := x - mv
    return acc + d * d)
  let n : Int := (b.length : Int) - (if unbiased then 1 else 0)
  let q ← fdiv s (n : K)
  return sqrt q

end Stat

/-- Tool.hpp:367-375 / Detail/FunctionDetail.hpp:35-53: the loop `while (first < last)`; `first`, `last` are
positions in one array, the result is the list of visited positions in order. -/
def blockWalk (first last width W : Nat) : List Nat :=
  if _h : first < last ∧ 0 < W then
    (List.range width).map (first + ·) ++ blockWalk (first + W) last width W
  else []
termination_by last - first

/-- Detail/FunctionDetail.hpp:35-53 for `first <= last`; `width = size % W`, `offset = W - width` (so one
iteration advances `first` by `width + offset = W`); `size % 0` is undefined. -/
def blockForEach (first last W : Nat) : Res (List Nat) :=
  if W = 0 then .error .divByZero
  else .ok (blockWalk first last ((last - first + 1) % W) W)

/-- Tool.hpp:377-395 `detail::concat(out, at, it, it_n...)`: copies each range behind the previous one. -/
def concatInto (out : Buf α) (at_ : Nat) : List (Buf α) → Res (Buf α)
  | [] => .ok out
  | it :: rest => do
    let out ← forN it.length out (fun i out => do
      let x ← it.get i
      out.set (at_ + i) x)
    concatInto out (at_ + it.length) rest

/-- Tool.hpp:421-434 `concat(it, it_n...)`; the result is allocated with the sum of the sizes
(Tool.hpp:44-52). -/
def concat (its : List (Buf α)) : Res (Buf α) :=
  concatInto (Buf.alloc (its.map List.length).sum) 0 its

/-- Tool.hpp:436-460 `multinomial` after the draw: `r` is `precision_type(generator()) / precision_type(rand_max)`.
State of the while loop: (accumulated weight, result index once returned). -/
def multinomial [Add α] [Zero α] (lt : α → α → Bool) (b : Buf α) (r : α) : Res Nat := do
  let (_, ret) ← forN b.length ((0 : α), (none : Option Nat)) (fun i (acc, ret) =>
    match ret with
    | some k => .ok (acc, some k)
    | none => do
      let x ← b.get i
      let acc := acc + x
      if lt r acc then return (acc, some i) else return (acc, none))
  match ret with
  | some k => return k
  | none => argmax lt b

end Trixy
