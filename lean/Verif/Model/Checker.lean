import Verif.Model.Train
/-
Model of Neuro/Checker/Accuracy.hpp and Neuro/Checker/Core.hpp. The network is a template parameter: `ff` is its `feedforward`,
which may change the network (state `ν`). Results are exact rational numbers: `double` rounding is not modelled.
-/
namespace Trixy

variable {α ν ι : Type}

/-- `std::fabs`. -/
def cabs [Zero α] [Neg α] [LT α] [DecidableLT α] (x : α) : α := if x < 0 then -x else x

/-- Accuracy.hpp:95-97 and 99-101: `for (j = 1; j < n; ++j) if (v(max) < v(j)) max = j;` -/
def guideMax [LT α] [DecidableLT α] (n : Nat) (v : Buf α) : Res Nat :=
  forLoop 1 n 0 (fun j m => do
    let a ← v.get m
    let b ← v.get j
    return if a < b then j else m)

/-- Accuracy.hpp:85-104, `Guide::normal`; both loops are bounded by `target.size()`. -/
def Guide.normal [LT α] [DecidableLT α] (target prediction : Buf α) : Res Bool := do
  let t ← guideMax target.length target
  let p ← guideMax target.length prediction
  return t == p

/-- Accuracy.hpp:111-115 from index `j` with `k` rounds left. -/
def guideFull [Zero α] [Neg α] [Sub α] [LT α] [DecidableLT α] (target prediction : Buf α) (range : α) : Nat → Nat → Res Bool
  | 0, _ => .ok true
  | k + 1, j => do
    let a ← target.get j
    let b ← prediction.get j
    if range < cabs (a - b) then return false
    guideFull target prediction range k (j + 1)

/-- Accuracy.hpp:106-116, `Guide::full`. -/
def Guide.full [Zero α] [Neg α] [Sub α] [LT α] [DecidableLT α] (target prediction : Buf α) (range : α) : Res Bool :=
  guideFull target prediction range target.length 0

/-- Accuracy.hpp:118-129, `Guide::global`. -/
def Guide.global [Zero α] [Neg α] [Sub α] [LT α] [DecidableLT α] (target prediction : Buf α) (range : α) : Res Nat :=
  forN target.length 0 (fun i count => do
    let a ← target.get i
    let b ← prediction.get i
    return if cabs (a - b) < range then count + 1 else count)

/-- The loops of Accuracy.hpp:37-41, 51-55, 65-68: `guide(odata[i], net.feedforward(idata[i]))` for every `i < odata.size()`, with the
amounts it adds to `count`. -/
def countAll (ff : ι → ν → Res (ν × Buf α)) (guide : Buf α → Buf α → Res Nat) (idata : List ι) (odata : List (Buf α)) (net : ν) : Res (ν × Nat) :=
  forN odata.length (net, 0) (fun i s => do
    let y ← lget odata i
    let x ← lget idata i
    let (net, v) ← ff x s.1
    let k ← guide y v
    return (net, s.2 + k))

/-- `static_cast<double>(count) / n`; `0. / 0` is not a number. -/
def ratio (count n : Nat) : Res Rat := if n = 0 then .error .divByZero else .ok ((count : Rat) / (n : Rat))

/-- `if (b) ++count;` as an amount. -/
def asCount (b : Res Bool) : Res Nat := do
  let b ← b
  return if b then 1 else 0

/-- Accuracy.hpp:33-44 (`operator()`, 73-78, is the same). -/
def Accuracy.normal [LT α] [DecidableLT α] (ff : ι → ν → Res (ν × Buf α)) (idata : List ι) (odata : List (Buf α)) (net : ν) : Res (Rat × ν) := do
  let (net, count) ← countAll ff (fun y v => asCount (Guide.normal y v)) idata odata net
  let r ← ratio count odata.length
  return (r, net)

/-- Accuracy.hpp:46-58. -/
def Accuracy.full [Zero α] [Neg α] [Sub α] [LT α] [DecidableLT α] (ff : ι → ν → Res (ν × Buf α)) (range : α) (idata : List ι) (odata : List (Buf α)) (net : ν) :
    Res (Rat × ν) := do
  let (net, count) ← countAll ff (fun y v => asCount (Guide.full y v range)) idata odata net
  let r ← ratio count odata.length
  return (r, net)

/-- Accuracy.hpp:60-71; the divisor is `odata.size() * odata.front().size()`. -/
def Accuracy.global [Zero α] [Neg α] [Sub α] [LT α] [DecidableLT α] (ff : ι → ν → Res (ν × Buf α)) (range : α) (idata : List ι) (odata : List (Buf α)) (net : ν) :
    Res (Rat × ν) := do
  let (net, count) ← countAll ff (fun y v => Guide.global y v range) idata odata net
  let y ← lget odata 0
  let r ← ratio count (wmul odata.length y.length)
  return (r, net)

/-- Checker/Core.hpp:37-53; the loss function reports through its first argument. -/
def Checker.loss [Zero α] [Add α] [Div α] [NatCast α] (ff : ι → ν → Res (ν × Buf α)) (loss : Buf α → Buf α → Res α) (idata : List ι) (odata : List (Buf α)) (net : ν) :
    Res (α × ν) := do
  let (net, r) ← forN odata.length (net, (0 : α)) (fun i s => do
    let y ← lget odata i
    let x ← lget idata i
    let (net, v) ← ff x s.1
    let e ← loss y v
    return (net, s.2 + e))
  if odata.length = 0 then .error .divByZero else
  return (r / (odata.length : α), net)

/-- Checker/Core.hpp:55-65. -/
def Checker.lossOne (ff : ι → ν → Res (ν × Buf α)) (loss : Buf α → Buf α → Res α) (x : ι) (y : Buf α) (net : ν) : Res (α × ν) := do
  let (net, v) ← ff x net
  let e ← loss y v
  return (e, net)

/-- The `feedforward` of a unified network as used by the checker (UnifiedNet.hpp:100-108); the result is a reference to the
last layer's value, read before the next call. -/
def netFF [Zero α] [One α] [Add α] [Mul α] [LT α] [DecidableLT α] (x : Ten α) (net : Net α) : Res (Net α × Buf α) := do
  let (net, v) ← Net.feedforward x net
  return (net, v.data)

end Trixy
