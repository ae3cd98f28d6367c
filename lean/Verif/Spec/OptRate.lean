import Verif.Model.OptRate
import Verif.Spec.Optim
/- Which learning rate applies to which update. -/
namespace Trixy
open Finset

variable {α : Type}

/-- One update of the tensor under consideration: the learning rate in force, the number of update calls so far on the
optimizer (of any tensor, this one included), and the gradient. -/
structure Applied (α : Type) where
  rate : α
  call : Nat
  grad : Buf α

/-- The updates of the tensor at `k`, in order, when the rate in force before the calls is `η` and `c` updates were made. -/
def applied (k : Nat) : α → Nat → List (OptCall α) → List (Applied α)
  | _, _, [] => []
  | _, c, .setRate v :: cs => applied k v c cs
  | η, c, .update k' G :: cs => if k' = k then ⟨η, c + 1, G⟩ :: applied k η (c + 1) cs else applied k η (c + 1) cs

/-- The rate in force after the calls. -/
def lastRate : α → List (OptCall α) → α
  | η, [] => η
  | _, .setRate v :: cs => lastRate v cs
  | η, .update _ _ :: cs => lastRate η cs

/-- The `t`-th of these updates has rate `η t`, was the `c t`-th update call, and has gradient `g t` of `n` components. -/
def Sched (tr : List (Applied α)) (n : Nat) (η : Nat → α) (c : Nat → Nat) (g : Nat → Nat → α) : Prop :=
  ∀ t (h : t < tr.length), tr[t].rate = η t ∧ tr[t].call = c t ∧ VecIs tr[t].grad n (g t)

/-- Velocity after `t` updates with rates `η`: `-Σ_{τ<t} μ^(t-1-τ) η_τ g_τ`. -/
def velocityS {K : Type _} [CommRing K] (η : Nat → K) (mu : K) (g : Nat → Nat → K) (t i : Nat) : K :=
  -∑ τ ∈ range t, mu ^ (t - 1 - τ) * (η τ * g τ i)

/-- The gradients of a program fit the tensors: the tensor at `k` has `size k` components. -/
def CallsFit (size : Nat → Nat) (cs : List (OptCall α)) : Prop :=
  ∀ k G, OptCall.update k G ∈ cs → ∃ g, VecIs G (size k) g

end Trixy
