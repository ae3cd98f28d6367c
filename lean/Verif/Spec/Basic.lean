import Verif.Model.Base
/-
Specification vocabulary: "this buffer of length `n` holds the values `f 0 … f (n-1)`".
-/
namespace Trixy

/-- Buffer `b` has exactly `n` cells and cell `i` is in state `f i`. -/
def BufIs {α : Type _} (b : Buf α) (n : Nat) (f : Nat → Option α) : Prop :=
  b.length = n ∧ ∀ i, i < n → b[i]? = some (f i)

/-- Buffer `b` has exactly `n` cells, all initialised, holding `f 0 … f (n-1)`. -/
def VecIs {α : Type _} (b : Buf α) (n : Nat) (f : Nat → α) : Prop :=
  BufIs b n (fun i => some (f i))

/-- Left-to-right sum `((init + t 0) + t 1) + … + t (n-1)` in the evaluation order of a C++ loop. -/
def foldSum {α : Type _} [Add α] (init : α) (n : Nat) (t : Nat → α) : α :=
  match n with
  | 0 => init
  | n + 1 => foldSum init n t + t n

/-- A loop over a pure state: the accumulator after the steps `0, …, n-1`, in this order. -/
def iter {σ : Type _} (n : Nat) (s : σ) (f : Nat → σ → σ) : σ :=
  match n with
  | 0 => s
  | n + 1 => f n (iter n s f)

end Trixy
