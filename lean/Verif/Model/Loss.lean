import Verif.Model.Scalar
import Verif.Model.Tool
import Verif.Model.Train
/-
Model of Neuro/Functional/Function/Loss.hpp over the reals (see Model/Scalar.lean for the simplification; divisions make the
zero divisor explicit, `std::log` is the mathematical logarithm extended by Mathlib's convention, which no theorem uses
outside its domain unless it says so). The `static` local of `mean_squared_error` and `mean_squared_log_error` is a plain
local here; Model/LossRace.lean treats it as the shared variable it is.
-/
namespace Trixy.Losses

/-- Loss.hpp:24 and 44, 190, 210: `epsilon`. -/
noncomputable def eps : ℝ := 1e-9

/-- Loss.hpp:21-39. -/
noncomputable def cce (t p : Buf ℝ) : Res ℝ :=
  forN t.length (0 : ℝ) (fun i s => do
    let a ← t.get i
    let b ← p.get i
    return s - a * Real.log (b + eps))

/-- Loss.hpp:41-59. -/
noncomputable def cceD (r t p : Buf ℝ) : Res (Buf ℝ) :=
  forN r.length r (fun i r => do
    let a ← t.get i
    let b ← p.get i
    let q ← fdiv (-a) (b + eps)
    r.set i q)

/-- Loss.hpp:61-82. -/
noncomputable def mse (t p : Buf ℝ) : Res ℝ := do
  let s ← forN t.length (0 : ℝ) (fun i s => do
    let a ← t.get i
    let b ← p.get i
    let f := a - b
    return s + f * f)
  return s * 0.5

/-- Loss.hpp:84-100. -/
noncomputable def mseD (r t p : Buf ℝ) : Res (Buf ℝ) :=
  forN r.length r (fun i r => do
    let b ← p.get i
    let a ← t.get i
    r.set i (b - a))

/-- Loss.hpp:102-118. -/
noncomputable def mae (t p : Buf ℝ) : Res ℝ :=
  forN t.length (0 : ℝ) (fun i s => do
    let b ← p.get i
    let a ← t.get i
    return s + |b - a|)

/-- Loss.hpp:120-140 (the intermediate store of `*target - *pred` in `*first` is read back from there). -/
noncomputable def maeD (r t p : Buf ℝ) : Res (Buf ℝ) :=
  forN r.length r (fun i r => do
    let a ← t.get i
    let b ← p.get i
    let r ← r.set i (a - b)
    let d ← r.get i
    r.set i (if d < 0 then -1 else if d > 0 then 1 else 0))

/-- Loss.hpp:142-165. -/
noncomputable def msle (t p : Buf ℝ) : Res ℝ := do
  let s ← forN t.length (0 : ℝ) (fun i s => do
    let b ← p.get i
    let a ← t.get i
    let f ← fdiv (b + 1) (a + 1)
    let f := Real.log f
    return s + f * f)
  return s * 0.5

/-- Loss.hpp:167-185. -/
noncomputable def msleD (r t p : Buf ℝ) : Res (Buf ℝ) :=
  forN r.length r (fun i r => do
    let b ← p.get i
    let r ← r.set i (b + 1)
    let d ← r.get i
    let a ← t.get i
    let q ← fdiv d (a + 1)
    let d ← r.get i
    let q ← fdiv (Real.log q) d
    r.set i q)

/-- Loss.hpp:187-205 (`std::log1p(x)` is `log (1 + x)`). -/
noncomputable def bce (t p : Buf ℝ) : Res ℝ :=
  forN t.length (0 : ℝ) (fun i s => do
    let a ← t.get i
    let b ← p.get i
    return s - (a * Real.log (b + eps) + (1 - a) * Real.log (1 + (eps - b))))

/-- Loss.hpp:207-226. -/
noncomputable def bceD (r t p : Buf ℝ) : Res (Buf ℝ) :=
  forN r.length r (fun i r => do
    let a ← t.get i
    let b ← p.get i
    let q1 ← fdiv (a - 1) (b + (eps - 1))
    let q2 ← fdiv a (b + eps)
    r.set i (q1 - q2))

/-- Loss.hpp:228-244. -/
noncomputable def bceDSigmoid (r t p : Buf ℝ) : Res (Buf ℝ) :=
  forN r.length r (fun i r => do
    let a ← t.get i
    let b ← p.get i
    r.set i (a * (b - 1) + b * (1 - a)))

/-- Loss.hpp:246-264. -/
noncomputable def nll (t p : Buf ℝ) : Res ℝ := do
  let s ← forN t.length (0 : ℝ) (fun i s => do
    let a ← t.get i
    let b ← p.get i
    return s + a * b)
  return -Real.log s

/-- Loss.hpp:266-282. -/
noncomputable def nllDSoftmax (r t p : Buf ℝ) : Res (Buf ℝ) :=
  forN r.length r (fun i r => do
    let b ← p.get i
    let a ← t.get i
    r.set i (b - a))

/-- Loss.hpp:284-300. -/
noncomputable def logcosh (t p : Buf ℝ) : Res ℝ :=
  forN t.length (0 : ℝ) (fun i s => do
    let b ← p.get i
    let a ← t.get i
    return s + Real.log (Real.cosh (b - a)))

/-- Loss.hpp:302-318. -/
noncomputable def logcoshD (r t p : Buf ℝ) : Res (Buf ℝ) :=
  forN r.length r (fun i r => do
    let b ← p.get i
    let a ← t.get i
    r.set i (Real.tanh (b - a)))

/-- Loss.hpp:320. -/
noncomputable def MSE : Loss ℝ := ⟨mse, mseD⟩
/-- Loss.hpp:321. -/
noncomputable def MAE : Loss ℝ := ⟨mae, maeD⟩
/-- Loss.hpp:322: `CCE` pairs the cross entropy with `mean_squared_error_derived`. -/
noncomputable def CCE : Loss ℝ := ⟨cce, mseD⟩
/-- Loss.hpp:323. -/
noncomputable def BCE : Loss ℝ := ⟨bce, bceDSigmoid⟩
/-- Loss.hpp:324. -/
noncomputable def MSLE : Loss ℝ := ⟨msle, msleD⟩
/-- Loss.hpp:325. -/
noncomputable def NLL : Loss ℝ := ⟨nll, nllDSoftmax⟩
/-- Loss.hpp:326. -/
noncomputable def LC : Loss ℝ := ⟨logcosh, logcoshD⟩

end Trixy.Losses
