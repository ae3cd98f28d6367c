import Verif.Spec.Fit
/- The gap between prediction and target. -/
namespace Trixy

/-- What a sample contributes to the gradient at one output: prediction minus target, for `LC` its hyperbolic tangent. -/
noncomputable def FitKind.gap : FitKind → ℝ → ℝ → ℝ
  | .lc => fun p w => Real.tanh (p - w)
  | _ => fun p w => p - w

end Trixy
