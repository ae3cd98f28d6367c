import Verif.Model.Checker
import Verif.Spec.Tool
import Mathlib.Algebra.Order.Group.Abs
import Mathlib.Data.Finset.Card
import Mathlib.Data.Finset.Prod
/- What "accuracy" means. -/
namespace Trixy
open Finset

variable {α ν ι : Type}

/-- While `Inv` holds, `ff` maps the input `x` to the `m` components `F x` and keeps `Inv`. -/
def Predicts (ff : ι → ν → Res (ν × Buf α)) (Inv : ν → Prop) (D : ι → Prop) (m : Nat) (F : ι → Nat → α) : Prop :=
  ∀ x net, D x → Inv net → Ok (ff x net) (fun r => Inv r.1 ∧ VecIs r.2 m (F x))

/-- The data set: inputs `x 0 … x (N-1)` from the domain and targets `y i` of `m` components. -/
structure SetIs (idata : List ι) (odata : List (Buf α)) (D : ι → Prop) (N m : Nat) (x : Nat → ι) (y : Nat → Nat → α) : Prop where
  isize : idata.length = N
  osize : odata.length = N
  input : ∀ i, i < N → lget idata i = .ok (x i) ∧ D (x i)
  target : ∀ i, i < N → Ok (lget odata i) (fun b => VecIs b m (y i))

/-- Two vectors of `m` components take their maximum at the same first position. -/
def SameArgmax [LinearOrder α] (m : Nat) (a b : Nat → α) : Prop :=
  ∃ k, IsFirstMax (fun x y => decide (x < y)) a m k ∧ IsFirstMax (fun x y => decide (x < y)) b m k

/-- All `m` components differ by at most `r`. -/
def AllWithin [Ring α] [LinearOrder α] (m : Nat) (r : α) (a b : Nat → α) : Prop := ∀ j, j < m → |a j - b j| ≤ r

open Classical in
/-- The fraction of the numbers `0 … N-1` with the property `P`. -/
noncomputable def fractionOf (N : Nat) (P : Nat → Prop) : Rat := (((range N).filter P).card : Rat) / (N : Rat)

open Classical in
/-- The fraction of the `N · m` pairs `(i, j)` with the property `P`. -/
noncomputable def fractionOf2 (N m : Nat) (P : Nat → Nat → Prop) : Rat :=
  (((range N ×ˢ range m).filter (fun ij => P ij.1 ij.2)).card : Rat) / ((N * m : Nat) : Rat)

end Trixy
