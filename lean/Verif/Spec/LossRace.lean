import Verif.Model.LossRace
import Verif.Spec.Loss
/- Vocabulary for concurrent loss evaluation. -/
namespace Trixy.Losses

/-- The mathematical loss the function is documented to compute. -/
noncomputable def StaticLoss.fn : StaticLoss → Nat → (Nat → ℝ) → (Nat → ℝ) → ℝ
  | .mse => mseFn
  | .msle => msleFn

/-- Arguments on which the loss is defined. -/
def StaticLoss.Dom (k : StaticLoss) (m : Nat) (t p : Nat → ℝ) : Prop :=
  match k with
  | .mse => True
  | .msle => ∀ i, i < m → -1 < t i ∧ -1 < p i

/-- The arguments of one evaluation: `m` components, targets `t`, predictions `p`. -/
structure Job where
  fn : StaticLoss
  m : Nat
  t : Nat → ℝ
  p : Nat → ℝ

/-- The loss this evaluation should return. -/
noncomputable def Job.loss (j : Job) : ℝ := j.fn.fn j.m j.t j.p

/-- The buffers hold the arguments of the job. -/
def Job.Holds (j : Job) (target pred : Buf ℝ) : Prop := VecIs target j.m j.t ∧ VecIs pred j.m j.p ∧ j.fn.Dom j.m j.t j.p

/-- The call has just been made with the arguments of the job. -/
def Job.Started (j : Job) (c : Call) : Prop := ∃ target pred, j.Holds target pred ∧ c = Call.start j.fn target pred

/-- The call is not inside the loop body. -/
def Call.Outside (c : Call) : Prop := c.pc = .head ∨ c.pc = .done

/-- A schedule in which no thread runs a function while another thread is inside the loop body of the same function (what a lock
around the loop body, or evaluating one after the other, achieves). -/
def Exclusive : List Nat → Statics × List Call → Prop
  | [], _ => True
  | k :: ks, st =>
      (∀ c, st.2[k]? = some c → ∀ k' c', k' ≠ k → st.2[k']? = some c' → c'.fn = c.fn → c'.Outside) ∧
      ∀ st', threadStep k st = .ok st' → Exclusive ks st'

/-- The error of component `i`, whose square the loss sums up. -/
noncomputable def Job.err (j : Job) (i : Nat) : ℝ :=
  match j.fn with
  | .mse => j.t i - j.p i
  | .msle => Real.log (j.p i + 1) - Real.log (j.t i + 1)

/-- Whether the next step of the call accesses the static variable, and if so whether it writes. -/
def Call.access (c : Call) : Option Bool :=
  match c.pc with
  | .head => if c.i < c.target.length then some true else none
  | .logR => some false
  | .logW _ => some true
  | .sqR => some false
  | .sqR2 _ => some false
  | .done => none

/-- A data race: two calls of the same function can access its static variable next, one of them writing. -/
def Race (cs : List Call) : Prop :=
  ∃ (k k' : Nat) (c c' : Call), k ≠ k' ∧ cs[k]? = some c ∧ cs[k']? = some c' ∧ c.fn = c'.fn ∧ c.access = some true ∧ c'.access.isSome

end Trixy.Losses
