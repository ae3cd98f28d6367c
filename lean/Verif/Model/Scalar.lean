import Verif.Model.Act
import Mathlib.Analysis.SpecialFunctions.Log.Basic
import Mathlib.Analysis.SpecialFunctions.Trigonometric.DerivHyp
/-
Model of the scalar activation functions, Neuro/Functional/Function/ActivationLess.hpp:24-186, and of the activation
classes, Activation.hpp:143-160. Simplification: `Precision` is the real line, so rounding, overflow and NaN are outside
the model; `std::exp`, `std::log`, `std::expm1`, `std::tanh`, `std::cosh`, `std::fabs` are the mathematical functions.
-/
namespace Trixy.Fn

/-- `std::expm1`. -/
noncomputable def expm1 (x : ℝ) : ℝ := Real.exp x - 1

/-- ActivationLess.hpp:24-27. -/
def identity (x : ℝ) : ℝ := x
/-- ActivationLess.hpp:29-32. -/
def identityD (_x : ℝ) : ℝ := 1
/-- ActivationLess.hpp:34-37. -/
noncomputable def relu (x : ℝ) : ℝ := if x > 0 then x else 0
/-- ActivationLess.hpp:39-42. -/
noncomputable def reluD (x : ℝ) : ℝ := if x > 0 then 1 else 0
/-- ActivationLess.hpp:44-48. -/
noncomputable def elu (x : ℝ) : ℝ := if x > 0 then x else 0.2 * expm1 x
/-- ActivationLess.hpp:50-54. -/
noncomputable def eluD (x : ℝ) : ℝ := if x > 0 then 1 else 0.2 * Real.exp x
/-- ActivationLess.hpp:56-60. -/
noncomputable def lrelu (x : ℝ) : ℝ := if x > 0 then x else 0.01 * x
/-- ActivationLess.hpp:62-66. -/
noncomputable def lreluD (x : ℝ) : ℝ := if x > 0 then 1 else 0.01
/-- ActivationLess.hpp:68-74. -/
noncomputable def selu (x : ℝ) : ℝ := if x > 0 then 1.050701 * x else 1.758099 * expm1 x
/-- ActivationLess.hpp:76-82. -/
noncomputable def seluD (x : ℝ) : ℝ := if x > 0 then 1.050701 else 1.758099 * Real.exp x
/-- ActivationLess.hpp:84-90. -/
noncomputable def gelu (x : ℝ) : ℝ := 0.5 * x * (Real.tanh (x * 0.797885 + x * x * x * 0.0356774) + 1)
/-- ActivationLess.hpp:92-104. -/
noncomputable def geluD (x : ℝ) : ℝ :=
  let x3 := x * x * x
  let y := 0.797885 * x3 + 0.0356774 * x
  let sch := 1 / Real.cosh y
  0.5 * Real.tanh y + (0.0535161 * x3 + 0.398942 * x) * sch * sch + 0.5
/-- ActivationLess.hpp:106-109. -/
noncomputable def sigmoid (x : ℝ) : ℝ := 1 / (Real.exp (-x) + 1)
/-- ActivationLess.hpp:111-114. -/
noncomputable def sigmoidD (x : ℝ) : ℝ := 0.5 / (Real.cosh x + 1)
/-- ActivationLess.hpp:116-119. -/
def sigmoidDSelf (x : ℝ) : ℝ := x * (1 - x)
/-- ActivationLess.hpp:121-124. -/
noncomputable def tanh (x : ℝ) : ℝ := Real.tanh x
/-- ActivationLess.hpp:126-130. -/
noncomputable def tanhD (x : ℝ) : ℝ :=
  let sech := 1 / Real.cosh x
  sech * sech
/-- ActivationLess.hpp:132-135. -/
noncomputable def softsign (x : ℝ) : ℝ := x / (|x| + 1)
/-- ActivationLess.hpp:137-141. -/
noncomputable def softsignD (x : ℝ) : ℝ :=
  let f := 1 / (|x| + 1)
  f * f
/-- ActivationLess.hpp:143-146. -/
noncomputable def softplus (x : ℝ) : ℝ := Real.log (Real.exp x + 1)
/-- ActivationLess.hpp:148-151. -/
noncomputable def softplusD (x : ℝ) : ℝ := 1 / (Real.exp (-x) + 1)
/-- ActivationLess.hpp:153-156. -/
noncomputable def swish (x : ℝ) : ℝ := x / (Real.exp (-x) + 1)
/-- ActivationLess.hpp:158-163. -/
noncomputable def swishD (x : ℝ) : ℝ :=
  let a := Real.exp (-x)
  let b := a + 1
  (a * x + b) / (b * b)
/-- ActivationLess.hpp:165-170. -/
noncomputable def modRelu (x : ℝ) : ℝ := if x < 0 then 0.01 * x else if x > 1 then 0.99 + 0.01 * x else x
/-- ActivationLess.hpp:171-174. -/
noncomputable def modReluD (x : ℝ) : ℝ := if x < 0 ∨ x > 1 then 0.01 else 1
/-- ActivationLess.hpp:176-179. -/
noncomputable def modTanh (x : ℝ) : ℝ := if x < 0 then 0.01 * Real.tanh x else Real.tanh x
/-- ActivationLess.hpp:181-186. -/
noncomputable def modTanhD (x : ℝ) : ℝ :=
  let sech2 := 1 / Real.cosh x
  let sech2 := sech2 * sech2
  if x < 0 then 0.01 * sech2 else sech2

end Trixy.Fn

namespace Trixy

/-- The element-wise activation classes declared in Activation.hpp:143-160. -/
inductive ActKind
  | identity | relu | elu | lrelu | selu | gelu | sigmoid | tanh | softsign | softplus | swish | modRelu | modTanh
  deriving DecidableEq

/-- Activation.hpp:143-160 (class, `f`, `df`) with Activation.hpp:24-40 and Detail/MacroScope.hpp:6-17, 37-53: an object of
the class. -/
noncomputable def ActKind.obj : ActKind → Act ℝ
  | .identity => Act.elementwise Fn.identity Fn.identityD
  | .relu => Act.elementwise Fn.relu Fn.reluD
  | .elu => Act.elementwise Fn.elu Fn.eluD
  | .lrelu => Act.elementwise Fn.lrelu Fn.lreluD
  | .selu => Act.elementwise Fn.selu Fn.seluD
  | .gelu => Act.elementwise Fn.gelu Fn.geluD
  | .sigmoid => Act.elementwise Fn.sigmoid Fn.sigmoidD
  | .tanh => Act.elementwise Fn.tanh Fn.tanhD
  | .softsign => Act.elementwise Fn.softsign Fn.softsignD
  | .softplus => Act.elementwise Fn.softplus Fn.softplusD
  | .swish => Act.elementwise Fn.swish Fn.swishD
  | .modRelu => Act.elementwise Fn.modRelu Fn.modReluD
  | .modTanh => Act.elementwise Fn.modTanh Fn.modTanhD

end Trixy
