import Verif.Model.Linear
/-
Model of Neuro/Regression/Linear.hpp, Neuro/Regression/Polynomial.hpp, Neuro/Training/LinearRegression.hpp and
Neuro/Training/PolynomialRegression.hpp. `Training::loss` (LinearRegression.hpp:59-63, PolynomialRegression.hpp:67-71) calls a
member function the regressions do not have and is not modelled. Results are returned by moving local vectors.
-/
namespace Trixy
universe u

variable {α : Type u}

/-- Members `W`, `N` of both regressions (Linear.hpp:42-43, Polynomial.hpp:42-43). -/
structure Reg (α : Type u) where
  W : Buf α
  N : Nat
deriving DecidableEq

/-- Linear.hpp:48-51, Polynomial.hpp:48-51 (weights indeterminate); Linear.hpp:58-62 and Polynomial.hpp:58-62 `reset` sets the
same members (`resize` reallocates, Vector.hpp). -/
def Reg.make (k : Nat) : Reg α := ⟨Buf.alloc (k + 1), k + 1⟩

/-- Linear.hpp:53-56, Polynomial.hpp:53-56: `W.copy(weight)` copies `W.size()` elements from the parameter; here the parameter
was constructed from a temporary (moved). A named vector argument is copy constructed into the parameter and arrives empty
(property C04): that is `init` with an empty `weight`. -/
def Reg.init (r : Reg α) (weight : Buf α) : Res (Reg α) := do
  let w ← forN r.W.length r.W (fun i w => do
    let a ← weight.get i
    w.set i a)
  return { r with W := w }

/-- Linear.hpp:64-74. -/
def Reg.linSample [Add α] [Mul α] (r : Reg α) (sample : Buf α) : Res α := do
  let result ← r.W.get 0
  forLoop 1 r.N result (fun i result => do
    let x ← sample.get (i - 1)
    let w ← r.W.get i
    return result + x * w)

/-- Linear.hpp:78-85 and LinearRegression.hpp:38-45 (identical loops): the design matrix. -/
def linDesign [One α] (N : Nat) (idata : Mat α) : Res (Mat α) :=
  forN idata.h (Mat.alloc idata.h N) (fun i X => do
    let X ← X.set i 0 1
    forLoop 1 N X (fun j X => do
      let a ← idata.get i (j - 1)
      X.set i j a))

/-- Linear.hpp:76-88. -/
def Reg.linForward [Zero α] [One α] [Add α] [Mul α] (r : Reg α) (idata : Mat α) : Res (Buf α) := do
  let X ← linDesign r.N idata
  dotColNew X r.W

/-- Polynomial.hpp:64-76. -/
def Reg.polySample [One α] [Add α] [Mul α] (r : Reg α) (sample : α) : Res α := do
  let result ← r.W.get 0
  let (result, _) ← forLoop 1 r.N (result, (1 : α)) (fun i (result, power) => do
    let power := power * sample
    let w ← r.W.get i
    return (result + power * w, power))
  return result

/-- Polynomial.hpp:80-96. -/
def polyDesign [One α] [Mul α] (N : Nat) (idata : Buf α) : Res (Mat α) :=
  forN idata.length (Mat.alloc idata.length N) (fun i X => do
    let sample ← idata.get i
    let X ← X.set i 0 1
    let (X, _) ← forLoop 1 N (X, (1 : α)) (fun j (X, power) => do
      let power := power * sample
      let X ← X.set i j power
      return (X, power))
    return X)

/-- Polynomial.hpp:78-99. -/
def Reg.polyForward [Zero α] [One α] [Add α] [Mul α] (r : Reg α) (idata : Buf α) : Res (Buf α) := do
  let X ← polyDesign r.N idata
  dotColNew X r.W

/-- PolynomialRegression.hpp:38-53. -/
def polyTrainDesign [One α] [Mul α] (N : Nat) (idata : Buf α) : Res (Mat α) :=
  forN idata.length (Mat.alloc idata.length N) (fun i X => do
    let sample ← idata.get i
    let (X, _) ← forN N (X, (1 : α)) (fun j (X, power) => do
      let X ← X.set i j power
      return (X, power * sample))
    return X)

section
variable {K : Type} [Field K] [LinearOrder K]

/-- LinearRegression.hpp:47-56, PolynomialRegression.hpp:55-64. -/
def Reg.normalSolve (r : Reg K) (X : Mat K) (odata : Buf K) : Res (Reg K) := do
  let XT ← transposeNew X
  let XTX ← dotMatNew XT X
  let (inv, _) ← inverseNew XTX
  let P ← dotMatNew inv XT
  let w ← dotCol r.W P odata
  return { r with W := w }

/-- LinearRegression.hpp:35-57. -/
def Reg.linTrain (r : Reg K) (idata : Mat K) (odata : Buf K) : Res (Reg K) := do
  let X ← linDesign r.N idata
  r.normalSolve X odata

/-- PolynomialRegression.hpp:35-65. -/
def Reg.polyTrain (r : Reg K) (idata odata : Buf K) : Res (Reg K) := do
  let X ← polyTrainDesign r.N idata
  r.normalSolve X odata
end

end Trixy
