import Verif.Proof.Base
import Mathlib.Algebra.BigOperators.Group.Finset.Basic
import Mathlib.Algebra.BigOperators.Intervals
/- `foldSum` and finite sums. -/
namespace Trixy

open Finset

theorem foldSum_eq {α : Type _} [AddCommMonoid α] (z : α) (n : Nat) (t : Nat → α) :
    foldSum z n t = z + ∑ i ∈ range n, t i := by
  induction n with
  | zero => simp
  | succ n ih => rw [foldSum_succ, ih, Finset.sum_range_succ, add_assoc]

theorem foldSum_zero_eq {α : Type _} [AddCommMonoid α] (n : Nat) (t : Nat → α) :
    foldSum 0 n t = ∑ i ∈ range n, t i := by rw [foldSum_eq, zero_add]

end Trixy
