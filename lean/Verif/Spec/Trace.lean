import Verif.Model.Train
/- Training schedules as traces of elementary actions. -/
namespace Trixy

variable {α γ ρ σ : Type}

/-- Elementary actions of a training run on a data set. -/
inductive TEv (α : Type) where
  | reset
  | sample (i : Nat)
  | accumulate
  | update (alpha : α)

/-- Execute an action: `sample i` is forward and backward with sample `i`; the others act on all layers. -/
def TEv.exec [Zero α] [One α] [Add α] [Mul α] [LT α] [DecidableLT α] [DecidableEq α] (upd : Upd σ α) (idata odata : List (Ten α))
    (st : σ × Train α) : TEv α → Res (σ × Train α)
  | .reset => do let t ← st.2.reseting; return (st.1, t)
  | .sample i => do let t ← st.2.sample idata odata i; return (st.1, t)
  | .accumulate => do let t ← st.2.accumulating; return (st.1, t)
  | .update alpha => Train.updating upd alpha st

/-- Execute a trace. -/
def TEv.run [Zero α] [One α] [Add α] [Mul α] [LT α] [DecidableLT α] [DecidableEq α] (upd : Upd σ α) (idata odata : List (Ten α)) :
    σ × Train α → List (TEv α) → Res (σ × Train α)
  | st, [] => .ok st
  | st, e :: es => do let st ← TEv.exec upd idata odata st e; TEv.run upd idata odata st es

/-- One averaged step: reset, then forward/backward/accumulate for the samples `lo, …, lo+k-1`, then one update. -/
def stepTrace (alpha : α) (lo k : Nat) : List (TEv α) :=
  .reset :: (List.range k).flatMap (fun j => [.sample (lo + j), .accumulate]) ++ [.update alpha]

/-- `epochs` epochs of full-batch training on `n` samples. -/
def batchTrace (alpha : α) (n epochs : Nat) : List (TEv α) := (List.replicate epochs (stepTrace alpha 0 n)).flatten

/-- One epoch of mini-batch training: `n/m` averaged steps of `m` samples each. -/
def miniEpochTrace (alpha : α) (n m : Nat) : List (TEv α) := (List.range (n / m)).flatMap (fun k => stepTrace alpha (k * m) m)

/-- `epochs` epochs of mini-batch training. -/
def miniTrace (alpha : α) (n m epochs : Nat) : List (TEv α) := (List.replicate epochs (miniEpochTrace alpha n m)).flatten

/-- The first `k` values a generator produces. -/
def draws (gen : Gen γ ρ α) : Nat → γ → ρ → List α
  | 0, _, _ => []
  | k + 1, c, g => (gen c g).1 :: draws gen k (gen c g).2.1 (gen c g).2.2

/-- Stochastic training: for every index one forward/backward pass and one update with factor 1. -/
def stoTrace [One α] (is : List Nat) : List (TEv α) := is.flatMap (fun i => [.sample i, .update 1])

/-- Indices of the samples a trace visits, in order. -/
def TEv.visited (es : List (TEv α)) : List Nat :=
  es.filterMap (fun e => match e with | .sample i => some i | _ => none)

/-- Number of updates in a trace. -/
def TEv.updates (es : List (TEv α)) : Nat :=
  es.countP (fun e => match e with | .update _ => true | _ => false)

end Trixy
