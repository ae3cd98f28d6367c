import Verif.Model.Loss
/-
Concurrent evaluations of `mean_squared_error` and `mean_squared_log_error` (Function/Loss.hpp:61-82, 142-165), whose local `f`
is declared `static`: one variable per function (template instantiation), shared by all threads.

Simplifications: memory is sequentially consistent (every step below is atomic; under the C++ memory model an execution with a data
race has no meaning at all, see `Race` in Spec/LossRace.lean), arithmetic is over the reals as in Model/Loss.lean. `f * f` makes two
reads of `f`; a compiler that reads once has a subset of these executions where the two reads are adjacent.
-/
namespace Trixy.Losses

/-- The two functions with a `static` local. -/
inductive StaticLoss
  | mse   -- Loss.hpp:61-82
  | msle  -- Loss.hpp:142-165
  deriving DecidableEq

/-- The `static` variables (Loss.hpp:64 and 145). -/
structure Statics where
  mse : ℝ
  msle : ℝ

/-- Loss.hpp:64, 145: static variables are zero-initialised. -/
def Statics.init : Statics := ⟨0, 0⟩

def Statics.get (s : Statics) : StaticLoss → ℝ
  | .mse => s.mse
  | .msle => s.msle

def Statics.set (s : Statics) (k : StaticLoss) (x : ℝ) : Statics :=
  match k with
  | .mse => { s with mse := x }
  | .msle => { s with msle := x }

/-- Where a thread is in the loop. -/
inductive Pc
  | head            -- Loss.hpp:72, 153: before the loop test
  | logR            -- Loss.hpp:156: before reading `f` for `std::log(f)`
  | logW (x : ℝ)    -- Loss.hpp:156: `f` was read as `x`, before the write
  | sqR             -- Loss.hpp:75, 158: before the first read of `f * f`
  | sqR2 (x : ℝ)    -- Loss.hpp:75, 158: the first read gave `x`, before the second
  | done            -- the function has returned

/-- A call in progress. -/
structure Call where
  fn : StaticLoss
  target : Buf ℝ
  pred : Buf ℝ
  i : Nat
  result : ℝ
  pc : Pc

/-- Loss.hpp:62-71, 143-152: the call has set `result` to zero and stands before the loop. -/
def Call.start (fn : StaticLoss) (target pred : Buf ℝ) : Call := ⟨fn, target, pred, 0, 0, .head⟩

/-- Loss.hpp:74, 155: the value first assigned to `f`. -/
noncomputable def StaticLoss.first (fn : StaticLoss) (a b : ℝ) : Res ℝ :=
  match fn with
  | .mse => .ok (a - b)
  | .msle => fdiv (b + 1) (a + 1)

/-- Where the call continues after the first assignment. -/
def StaticLoss.next : StaticLoss → Pc
  | .mse => .sqR
  | .msle => .logR

/-- Loss.hpp:72-81, 153-164: one atomic step of a call. -/
noncomputable def Call.step (s : Statics) (c : Call) : Res (Statics × Call) :=
  match c.pc with
  | .head =>
    if c.i < c.target.length then do
      let a ← c.target.get c.i
      let b ← c.pred.get c.i
      let x ← c.fn.first a b
      return (s.set c.fn x, { c with pc := c.fn.next })
    else return (s, { c with result := c.result * 0.5, pc := .done })
  | .logR => return (s, { c with pc := .logW (s.get c.fn) })
  | .logW x => return (s.set c.fn (Real.log x), { c with pc := .sqR })
  | .sqR => return (s, { c with pc := .sqR2 (s.get c.fn) })
  | .sqR2 x => return (s, { c with result := c.result + x * s.get c.fn, i := c.i + 1, pc := .head })
  | .done => return (s, c)

/-- One step of thread `k`. -/
noncomputable def threadStep (k : Nat) (st : Statics × List Call) : Res (Statics × List Call) := do
  let c ← lget st.2 k
  let (s, c) ← c.step st.1
  let cs ← lset st.2 k c
  return (s, cs)

/-- The threads run in the order given by the schedule. -/
noncomputable def runThreads : List Nat → Statics × List Call → Res (Statics × List Call)
  | [], st => .ok st
  | k :: ks, st => do
    let st ← threadStep k st
    runThreads ks st

/-! The other functions of Loss.hpp have no static variable: a call is a loop over its own state. -/

/-- A loop `for i < n` on a thread-local state. -/
structure LocalLoop (σ : Type) where
  n : Nat
  body : Nat → σ → Res σ

/-- A loop in progress. -/
structure LocalCall (σ : Type) where
  loop : LocalLoop σ
  i : Nat
  st : σ

/-- One round of the loop. -/
def LocalCall.step {σ : Type} (c : LocalCall σ) : Res (LocalCall σ) :=
  if c.i < c.loop.n then do
    let s ← c.loop.body c.i c.st
    return { c with i := c.i + 1, st := s }
  else return c

/-- The threads run in the order given by the schedule, one round at a time. -/
def runLocal {σ : Type} : List Nat → List (LocalCall σ) → Res (List (LocalCall σ))
  | [], cs => .ok cs
  | k :: ks, cs => do
    let c ← lget cs k
    let c ← c.step
    let cs ← lset cs k c
    runLocal ks cs

/-- Loss.hpp:21-39, the loop of `categorical_cross_entropy`. -/
noncomputable def cceLoop (t p : Buf ℝ) : LocalLoop ℝ := ⟨t.length, fun i s => do
  let a ← t.get i
  let b ← p.get i
  return s - a * Real.log (b + eps)⟩
/-- Loss.hpp:102-118, the loop of `mean_absolute_error`. -/
noncomputable def maeLoop (t p : Buf ℝ) : LocalLoop ℝ := ⟨t.length, fun i s => do
  let b ← p.get i
  let a ← t.get i
  return s + |b - a|⟩
/-- Loss.hpp:187-205, the loop of `binary_cross_entropy`. -/
noncomputable def bceLoop (t p : Buf ℝ) : LocalLoop ℝ := ⟨t.length, fun i s => do
  let a ← t.get i
  let b ← p.get i
  return s - (a * Real.log (b + eps) + (1 - a) * Real.log (1 + (eps - b)))⟩
/-- Loss.hpp:246-262, the loop of `negative_log_likelihood`. -/
noncomputable def nllLoop (t p : Buf ℝ) : LocalLoop ℝ := ⟨t.length, fun i s => do
  let a ← t.get i
  let b ← p.get i
  return s + a * b⟩
/-- Loss.hpp:284-300, the loop of `logcosh`. -/
noncomputable def lcLoop (t p : Buf ℝ) : LocalLoop ℝ := ⟨t.length, fun i s => do
  let b ← p.get i
  let a ← t.get i
  return s + Real.log (Real.cosh (b - a))⟩

end Trixy.Losses
