import Verif.Model.Scalar
import Verif.Model.Tool
/-
Model of `unstable_softmax`, `softmax`, `softmax_derived` (Neuro/Functional/Function/Activation.hpp:42-141) and the class
`SoftMax` (162). The loops are generic in the element type; `exp` and `recip` stand for the calls `std::exp(·)` and
`1. / ·`, so that statements about the arguments they receive can be made.
-/
namespace Trixy

variable {α : Type}

/-- Activation.hpp:82-95: `max = *first++; while (first != last) { if (max < *first) max = *first; ++first; }`. For an empty
range `*first` is read outside of it (and `first` starts beyond `last`). -/
def rangeMax [LT α] [DecidableLT α] (x : Buf α) : Res α := do
  let m ← x.get 0
  forLoop 1 x.length m (fun i m => do
    let a ← x.get i
    return if m < a then a else m)

/-- Activation.hpp:112-130 (and 54-74): sum the elements, invert the sum, scale the elements. -/
def normalise [Zero α] [Add α] [Mul α] (recip : α → Res α) (r : Buf α) : Res (Buf α) := do
  let den ← forN r.length (0 : α) (fun i s => do
    let a ← r.get i
    return s + a)
  let den ← recip den
  scaleInto r den

/-- Activation.hpp:97-107: `*first = std::exp(*it - max)`. -/
def expInto [Sub α] (exp : α → Res α) (max : α) (r x : Buf α) : Res (Buf α) :=
  forN r.length r (fun i r => do
    let a ← x.get i
    let e ← exp (a - max)
    r.set i e)

/-- The same loop when `result` and `input` are the same range. -/
def expSelf [Sub α] (exp : α → Res α) (max : α) (r : Buf α) : Res (Buf α) :=
  forN r.length r (fun i r => do
    let a ← r.get i
    let e ← exp (a - max)
    r.set i e)

/-- Activation.hpp:77-130 with distinct `result` and `input`. -/
def softmax [Zero α] [Add α] [Sub α] [Mul α] [LT α] [DecidableLT α] (exp recip : α → Res α) (r x : Buf α) : Res (Buf α) := do
  let max ← rangeMax x
  let r ← expInto exp max r x
  normalise recip r

/-- Activation.hpp:77-130 with `result` and `input` the same range. -/
def softmaxSelf [Zero α] [Add α] [Sub α] [Mul α] [LT α] [DecidableLT α] (exp recip : α → Res α) (r : Buf α) : Res (Buf α) := do
  let max ← rangeMax r
  let r ← expSelf exp max r
  normalise recip r

/-- Activation.hpp:42-75. -/
def unstableSoftmax [Zero α] [Add α] [Mul α] (exp recip : α → Res α) (r x : Buf α) : Res (Buf α) := do
  let r ← forN r.length r (fun i r => do
    let a ← x.get i
    let e ← exp a
    r.set i e)
  normalise recip r

/-- Activation.hpp:132-141: every element becomes 1, the input is not read. -/
def softmaxDerived [One α] (r : Buf α) : Res (Buf α) := fillInto r 1

/-- `std::exp` on the reals. -/
noncomputable def realExp (x : ℝ) : Res ℝ := .ok (Real.exp x)
/-- `1. / x` on the reals, the zero divisor made explicit. -/
noncomputable def realRecip (x : ℝ) : Res ℝ := fdiv 1 x

/-- Activation.hpp:162: an object of class `SoftMax`. -/
noncomputable def softMaxAct : Act ℝ where
  f := softmax realExp realRecip
  fSelf := softmaxSelf realExp realRecip
  df r _ := softmaxDerived r
  dfSelf r := softmaxDerived r

end Trixy
