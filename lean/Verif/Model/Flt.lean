import Verif.Model.Loss
import Verif.Model.Softmax
/-
The scalar functions of Neuro/Functional/Function/ActivationLess.hpp and the losses of Loss.hpp once more, over any
floating-point type: `Flt` names the operations the C++ code uses on `Precision` and nothing is assumed about them. Division by
zero is not singled out (a floating-point type has a value for it). Simplification: `float`/`double` promotions inside an
expression are not distinguished. That these are the functions of Model/Scalar.lean and Model/Loss.lean when `Precision` is the
real line is proved in Props/NaN.lean.
-/
namespace Trixy

/-- The operations used on `Precision`: arithmetic, `<`, literals, and the functions of `<cmath>`. -/
class Flt (α : Type) extends Zero α, One α, Add α, Sub α, Mul α, Div α, Neg α, LT α where
  lit : Rat → α
  exp : α → α
  expm1 : α → α
  log : α → α
  log1p : α → α
  tanh : α → α
  cosh : α → α
  fabs : α → α
  decLT : DecidableLT α

instance {α : Type} [Flt α] : DecidableLT α := Flt.decLT

variable {α : Type} [Flt α]

open Flt

namespace FltFn

/-- ActivationLess.hpp:24-27. -/
def identity (x : α) : α := x
/-- ActivationLess.hpp:34-37. -/
def relu (x : α) : α := if x > 0 then x else 0
/-- ActivationLess.hpp:44-48. -/
def elu (x : α) : α := if x > 0 then x else lit 0.2 * expm1 x
/-- ActivationLess.hpp:56-60. -/
def lrelu (x : α) : α := if x > 0 then x else lit 0.01 * x
/-- ActivationLess.hpp:68-74. -/
def selu (x : α) : α := if x > 0 then lit 1.050701 * x else lit 1.758099 * expm1 x
/-- ActivationLess.hpp:84-90. -/
def gelu (x : α) : α := lit 0.5 * x * (tanh (x * lit 0.797885 + x * x * x * lit 0.0356774) + 1)
/-- ActivationLess.hpp:106-109. -/
def sigmoid (x : α) : α := 1 / (exp (-x) + 1)
/-- ActivationLess.hpp:132-135. -/
def softsign (x : α) : α := x / (fabs x + 1)
/-- ActivationLess.hpp:143-146. -/
def softplus (x : α) : α := log (exp x + 1)
/-- ActivationLess.hpp:153-156. -/
def swish (x : α) : α := x / (exp (-x) + 1)
/-- ActivationLess.hpp:165-170. -/
def modRelu (x : α) : α := if x < 0 then lit 0.01 * x else if x > 1 then lit 0.99 + lit 0.01 * x else x
/-- ActivationLess.hpp:176-179. -/
def modTanh (x : α) : α := if x < 0 then lit 0.01 * tanh x else tanh x

/-- ActivationLess.hpp:29-32. -/
def identityD (_x : α) : α := 1
/-- ActivationLess.hpp:39-42. -/
def reluD (x : α) : α := if x > 0 then 1 else 0
/-- ActivationLess.hpp:50-54. -/
def eluD (x : α) : α := if x > 0 then 1 else lit 0.2 * exp x
/-- ActivationLess.hpp:62-66. -/
def lreluD (x : α) : α := if x > 0 then 1 else lit 0.01
/-- ActivationLess.hpp:76-82. -/
def seluD (x : α) : α := if x > 0 then lit 1.050701 else lit 1.758099 * exp x
/-- ActivationLess.hpp:92-104. -/
def geluD (x : α) : α :=
  let x3 := x * x * x
  let y := lit 0.797885 * x3 + lit 0.0356774 * x
  let sch := 1 / cosh y
  lit 0.5 * tanh y + (lit 0.0535161 * x3 + lit 0.398942 * x) * sch * sch + lit 0.5
/-- ActivationLess.hpp:111-114. -/
def sigmoidD (x : α) : α := lit 0.5 / (cosh x + 1)
/-- ActivationLess.hpp:126-130. -/
def tanhD (x : α) : α :=
  let sech := 1 / cosh x
  sech * sech
/-- ActivationLess.hpp:137-141. -/
def softsignD (x : α) : α :=
  let f := 1 / (fabs x + 1)
  f * f
/-- ActivationLess.hpp:148-151. -/
def softplusD (x : α) : α := 1 / (exp (-x) + 1)
/-- ActivationLess.hpp:158-163. -/
def swishD (x : α) : α :=
  let a := exp (-x)
  let b := a + 1
  (a * x + b) / (b * b)
/-- ActivationLess.hpp:171-174. -/
def modReluD (x : α) : α := if x < 0 ∨ x > 1 then lit 0.01 else 1
/-- ActivationLess.hpp:181-186. -/
def modTanhD (x : α) : α :=
  let sech2 := 1 / cosh x
  let sech2 := sech2 * sech2
  if x < 0 then lit 0.01 * sech2 else sech2

end FltFn

/-- The scalar function of each element-wise activation class (Activation.hpp:143-160); `tanh` is ActivationLess.hpp:121-124. -/
def ActKind.flt : ActKind → α → α
  | .identity => FltFn.identity
  | .relu => FltFn.relu
  | .elu => FltFn.elu
  | .lrelu => FltFn.lrelu
  | .selu => FltFn.selu
  | .gelu => FltFn.gelu
  | .sigmoid => FltFn.sigmoid
  | .tanh => Flt.tanh
  | .softsign => FltFn.softsign
  | .softplus => FltFn.softplus
  | .swish => FltFn.swish
  | .modRelu => FltFn.modRelu
  | .modTanh => FltFn.modTanh

/-- The derivative function of each element-wise activation class (Activation.hpp:143-160). -/
def ActKind.fltD : ActKind → α → α
  | .identity => FltFn.identityD
  | .relu => FltFn.reluD
  | .elu => FltFn.eluD
  | .lrelu => FltFn.lreluD
  | .selu => FltFn.seluD
  | .gelu => FltFn.geluD
  | .sigmoid => FltFn.sigmoidD
  | .tanh => FltFn.tanhD
  | .softsign => FltFn.softsignD
  | .softplus => FltFn.softplusD
  | .swish => FltFn.swishD
  | .modRelu => FltFn.modReluD
  | .modTanh => FltFn.modTanhD

/-- Activation.hpp:143-160: an object of the class over a floating-point type. -/
def ActKind.fltObj (k : ActKind) : Act α := Act.elementwise k.flt k.fltD

/-- The loss classes of Loss.hpp:320-326. -/
inductive LossKind
  | mse | mae | cce | bce | msle | nll | lc

namespace FltLoss

/-- Loss.hpp:24. -/
def eps : α := lit 1e-9

/-- Loss.hpp:21-39. -/
def cce (t p : Buf α) : Res α :=
  forN t.length (0 : α) (fun i s => do
    let a ← t.get i
    let b ← p.get i
    return s - a * log (b + eps))

/-- Loss.hpp:61-82. -/
def mse (t p : Buf α) : Res α := do
  let s ← forN t.length (0 : α) (fun i s => do
    let a ← t.get i
    let b ← p.get i
    let f := a - b
    return s + f * f)
  return s * lit 0.5

/-- Loss.hpp:102-118. -/
def mae (t p : Buf α) : Res α :=
  forN t.length (0 : α) (fun i s => do
    let b ← p.get i
    let a ← t.get i
    return s + fabs (b - a))

/-- Loss.hpp:120-140. -/
def maeD (r t p : Buf α) : Res (Buf α) :=
  forN r.length r (fun i r => do
    let a ← t.get i
    let b ← p.get i
    let r ← r.set i (a - b)
    let d ← r.get i
    r.set i (if d < 0 then -1 else if d > 0 then 1 else 0))

/-- Loss.hpp:142-165. -/
def msle (t p : Buf α) : Res α := do
  let s ← forN t.length (0 : α) (fun i s => do
    let b ← p.get i
    let a ← t.get i
    let f := (b + 1) / (a + 1)
    let f := log f
    return s + f * f)
  return s * lit 0.5

/-- Loss.hpp:187-205. -/
def bce (t p : Buf α) : Res α :=
  forN t.length (0 : α) (fun i s => do
    let a ← t.get i
    let b ← p.get i
    return s - (a * log (b + eps) + (1 - a) * log1p (eps - b)))

/-- Loss.hpp:246-264. -/
def nll (t p : Buf α) : Res α := do
  let s ← forN t.length (0 : α) (fun i s => do
    let a ← t.get i
    let b ← p.get i
    return s + a * b)
  return -log s

/-- Loss.hpp:284-300. -/
def logcosh (t p : Buf α) : Res α :=
  forN t.length (0 : α) (fun i s => do
    let b ← p.get i
    let a ← t.get i
    return s + log (cosh (b - a)))

/-- The value function of each loss class (Loss.hpp:320-326). -/
def ofKind : LossKind → Buf α → Buf α → Res α
  | .mse => mse
  | .mae => mae
  | .cce => cce
  | .bce => bce
  | .msle => msle
  | .nll => nll
  | .lc => logcosh

end FltLoss

/-- `std::exp` and `1. / ·` as the softmax of Model/Softmax.lean takes them. -/
def fltExp (x : α) : Res α := .ok (exp x)
/-- Activation.hpp:121: `1. / ·`. -/
def fltRecip (x : α) : Res α := .ok (1 / x)

/-- Activation.hpp:162 over a floating-point type. -/
def fltSoftMax : Act α where
  f := softmax fltExp fltRecip
  fSelf := softmaxSelf fltExp fltRecip
  df r _ := softmaxDerived r
  dfSelf r := softmaxDerived r

end Trixy
