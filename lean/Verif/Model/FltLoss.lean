import Verif.Model.Flt
import Verif.Model.Train
/-
The derivative functions of Neuro/Functional/Function/Loss.hpp that the loss classes use, and the loss classes, over any
floating-point type (the values are in Model/Flt.lean). That these are the functions of Model/Loss.lean when `Precision` is
the real line is proved in Props/Precision.lean.
-/
namespace Trixy

variable {α : Type} [Flt α]

namespace FltLoss

/-- Loss.hpp:84-100. -/
def mseD (r t p : Buf α) : Res (Buf α) :=
  forN r.length r (fun i r => do
    let b ← p.get i
    let a ← t.get i
    r.set i (b - a))

/-- Loss.hpp:167-185 (`*pred + 1` is stored in the result and read back from there). -/
def msleD (r t p : Buf α) : Res (Buf α) :=
  forN r.length r (fun i r => do
    let b ← p.get i
    let r ← r.set i (b + 1)
    let d ← r.get i
    let a ← t.get i
    let q := d / (a + 1)
    let d ← r.get i
    r.set i (Flt.log q / d))

/-- Loss.hpp:228-244. -/
def bceDSigmoid (r t p : Buf α) : Res (Buf α) :=
  forN r.length r (fun i r => do
    let a ← t.get i
    let b ← p.get i
    r.set i (a * (b - 1) + b * (1 - a)))

/-- Loss.hpp:266-282. -/
def nllDSoftmax (r t p : Buf α) : Res (Buf α) :=
  forN r.length r (fun i r => do
    let b ← p.get i
    let a ← t.get i
    r.set i (b - a))

/-- Loss.hpp:302-318. -/
def logcoshD (r t p : Buf α) : Res (Buf α) :=
  forN r.length r (fun i r => do
    let b ← p.get i
    let a ← t.get i
    r.set i (Flt.tanh (b - a)))

end FltLoss

/-- The derivative function of each loss class (Loss.hpp:320-326). -/
def LossKind.fltDf : LossKind → Buf α → Buf α → Buf α → Res (Buf α)
  | .mse => FltLoss.mseD
  | .mae => FltLoss.maeD
  | .cce => FltLoss.mseD
  | .bce => FltLoss.bceDSigmoid
  | .msle => FltLoss.msleD
  | .nll => FltLoss.nllDSoftmax
  | .lc => FltLoss.logcoshD

/-- An object of the loss class over a floating-point type (Loss.hpp:320-326). -/
def LossKind.fltObj (k : LossKind) : Loss α := ⟨FltLoss.ofKind k, k.fltDf⟩

end Trixy
