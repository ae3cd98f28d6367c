import Verif.Spec.Deriv
import Mathlib.Analysis.Calculus.Deriv.Mul
import Mathlib.Analysis.Calculus.Deriv.Add
import Mathlib.Analysis.Calculus.Deriv.Comp
/- Derivatives of layer functions along curves of inputs and parameters. -/
namespace Trixy
open Finset

theorem hasDerivAt_setAt (v : Nat → ℝ) (i k : Nat) (t0 : ℝ) :
    HasDerivAt (fun t => setAt v i t k) (if k = i then 1 else 0) t0 := by
  unfold setAt
  by_cases h : k = i
  · simp only [h, if_true]; exact hasDerivAt_id t0
  · simp only [h, if_false]; exact hasDerivAt_const t0 _

theorem hasDerivAt_setEntry (W : Nat → Nat → ℝ) (i j a b : Nat) (t0 : ℝ) :
    HasDerivAt (fun t => setEntry W i j t a b) (if a = i ∧ b = j then 1 else 0) t0 := by
  unfold setEntry
  by_cases h : a = i ∧ b = j
  · simp only [h, and_self, if_true]; exact hasDerivAt_id t0
  · simp only [h, if_false]; exact hasDerivAt_const t0 _

theorem setAt_self (v : Nat → ℝ) (i : Nat) : setAt v i (v i) = v := by
  funext k; unfold setAt; split
  · next h => rw [h]
  · rfl

theorem setEntry_self (W : Nat → Nat → ℝ) (i j : Nat) : setEntry W i j (W i j) = W := by
  funext a b; unfold setEntry; split
  · next h => rw [h.1, h.2]
  · rfl

/-- Sum of finitely many derivatives (function form). -/
theorem hasDerivAt_sum {n : Nat} {f : Nat → ℝ → ℝ} {f' : Nat → ℝ} {t0 : ℝ} (h : ∀ i, i < n → HasDerivAt (f i) (f' i) t0) :
    HasDerivAt (fun t => ∑ i ∈ range n, f i t) (∑ i ∈ range n, f' i) t0 := by
  have := HasDerivAt.fun_sum (u := range n) (A := f) (A' := f') (x := t0) (fun i hi => h i (mem_range.1 hi))
  exact this

theorem pre_curve {n : Nat} {Wc : ℝ → Nat → Nat → ℝ} {bc xc : ℝ → Nat → ℝ} {W' : Nat → Nat → ℝ} {b' x' : Nat → ℝ} {t0 : ℝ}
    {k : Nat} (hW : ∀ i, i < n → HasDerivAt (fun t => Wc t i k) (W' i k) t0) (hb : HasDerivAt (fun t => bc t k) (b' k) t0)
    (hx : ∀ i, i < n → HasDerivAt (fun t => xc t i) (x' i) t0) :
    HasDerivAt (fun t => pre n (Wc t) (bc t) (xc t) k)
      (∑ i ∈ range n, (x' i * Wc t0 i k + xc t0 i * W' i k) + b' k) t0 := by
  unfold pre
  exact (hasDerivAt_sum (fun i hi => (hx i hi).mul (hW i hi))).add hb

/-- The derivative of an element-wise layer along curves of its parameters and input. -/
theorem fc_curve {n : Nat} {g : ℝ → ℝ} {Wc : ℝ → Nat → Nat → ℝ} {bc xc : ℝ → Nat → ℝ} {W' : Nat → Nat → ℝ} {b' x' : Nat → ℝ}
    {t0 gk : ℝ} {k : Nat} (hW : ∀ i, i < n → HasDerivAt (fun t => Wc t i k) (W' i k) t0)
    (hb : HasDerivAt (fun t => bc t k) (b' k) t0) (hx : ∀ i, i < n → HasDerivAt (fun t => xc t i) (x' i) t0)
    (hg : HasDerivAt g gk (pre n (Wc t0) (bc t0) (xc t0) k)) :
    HasDerivAt (fun t => g (pre n (Wc t) (bc t) (xc t) k))
      (gk * (∑ i ∈ range n, (x' i * Wc t0 i k + xc t0 i * W' i k) + b' k)) t0 :=
  HasDerivAt.comp (h₂ := g) t0 hg (pre_curve hW hb hx)

/-- Reorganising the sum: what the derivative pairs with. -/
theorem fc_pairing (n m : Nat) (W W' : Nat → Nat → ℝ) (x x' b' β : Nat → ℝ) :
    ∑ k ∈ range m, β k * (∑ i ∈ range n, (x' i * W i k + x i * W' i k) + b' k) =
      ∑ k ∈ range m, β k * b' k + ∑ i ∈ range n, ∑ k ∈ range m, (x i * β k) * W' i k +
        ∑ i ∈ range n, (∑ k ∈ range m, W i k * β k) * x' i := by
  have e : ∀ k, β k * (∑ i ∈ range n, (x' i * W i k + x i * W' i k) + b' k) =
      β k * b' k + ∑ i ∈ range n, x i * β k * W' i k + ∑ i ∈ range n, W i k * β k * x' i := by
    intro k
    rw [mul_add, Finset.mul_sum, add_assoc, ← Finset.sum_add_distrib, add_comm]
    congr 1
    exact Finset.sum_congr rfl (fun i _ => by ring)
  rw [Finset.sum_congr rfl (fun k _ => e k), Finset.sum_add_distrib, Finset.sum_add_distrib]
  congr 1
  · congr 1; exact Finset.sum_comm
  · rw [Finset.sum_comm]; exact Finset.sum_congr rfl (fun i _ => by rw [Finset.sum_mul])

end Trixy
