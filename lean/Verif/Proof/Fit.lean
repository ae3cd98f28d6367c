import Verif.Spec.Fit
import Mathlib.Analysis.SpecialFunctions.Log.Deriv
import Mathlib.Analysis.SpecialFunctions.Trigonometric.DerivHyp
import Mathlib.Analysis.SpecialFunctions.ExpDeriv
import Mathlib.Analysis.Calculus.Deriv.MeanValue
import Mathlib.Algebra.Order.Chebyshev
import Mathlib.Algebra.BigOperators.Field
/- Convex and smooth losses of affine maps; one step of gradient descent on their mean. -/
namespace Trixy.FitMath
open Finset

/-- A function with `g' ≤ c`, on `[0, ∞)`, grows at most linearly. -/
theorem linear_bound {g g' : ℝ → ℝ} (h : ∀ t, HasDerivAt g (g' t) t) {c : ℝ} (hc : ∀ t, g' t ≤ c) {t : ℝ} (ht : 0 ≤ t) : g t ≤ g 0 + c * t := by
  have hd : ∀ s, HasDerivAt (fun s => g s - c * s) (g' s - c) s := fun s => by
    exact ((h s).fun_sub ((hasDerivAt_id s).const_mul c)).congr_deriv (by simp)
  have : Antitone (fun s => g s - c * s) := antitone_of_deriv_nonpos (fun s => (hd s).differentiableAt) (fun s => by rw [(hd s).deriv]; linarith [hc s])
  have := this ht
  simp only [mul_zero, sub_zero] at this
  linarith

/-- Second order bound from above. -/
theorem taylor_up {f g g' : ℝ → ℝ} (h1 : ∀ t, HasDerivAt f (g t) t) (h2 : ∀ t, HasDerivAt g (g' t) t) {c : ℝ} (hc : ∀ t, g' t ≤ c) :
    f 1 ≤ f 0 + g 0 + c / 2 := by
  have hd : ∀ s, HasDerivAt (fun s => f s - (g 0 * s + c / 2 * s ^ 2)) (g s - (g 0 + c * s)) s := fun s => by
    refine ((h1 s).sub (((hasDerivAt_id s).const_mul (g 0)).add ((hasDerivAt_pow 2 s).const_mul (c / 2)))).congr_deriv ?_
    simp; ring
  have : AntitoneOn (fun s => f s - (g 0 * s + c / 2 * s ^ 2)) (Set.Icc 0 1) := by
    refine antitoneOn_of_deriv_nonpos (convex_Icc 0 1) (fun s _ => (hd s).continuousAt.continuousWithinAt) (fun s _ => (hd s).differentiableAt.differentiableWithinAt) (fun s hs => ?_)
    rw [interior_Icc] at hs
    rw [(hd s).deriv]
    linarith [linear_bound h2 hc hs.1.le]
  have := this (Set.left_mem_Icc.2 zero_le_one) (Set.right_mem_Icc.2 zero_le_one) zero_le_one
  simp only [mul_zero, mul_one, one_pow] at this
  norm_num at this
  linarith

/-- First order bound from below. -/
theorem taylor_low {f g g' : ℝ → ℝ} (h1 : ∀ t, HasDerivAt f (g t) t) (h2 : ∀ t, HasDerivAt g (g' t) t) (hc : ∀ t, 0 ≤ g' t) : f 0 + g 0 ≤ f 1 := by
  have := taylor_up (f := fun t => -f t) (g := fun t => -g t) (g' := fun t => -g' t) (fun t => (h1 t).neg) (fun t => (h2 t).neg) (c := 0) (fun t => by linarith [hc t])
  linarith

/-! ### log cosh -/

theorem lc_bounds (x d : ℝ) : Real.log (Real.cosh x) + Real.tanh x * d ≤ Real.log (Real.cosh (x + d)) ∧
    Real.log (Real.cosh (x + d)) ≤ Real.log (Real.cosh x) + Real.tanh x * d + d ^ 2 / 2 := by
  have hin : ∀ t : ℝ, HasDerivAt (fun t => x + t * d) d t := fun t => by simpa using ((hasDerivAt_id t).mul_const d).const_add x
  have h1 : ∀ t : ℝ, HasDerivAt (fun t => Real.log (Real.cosh (x + t * d))) (Real.tanh (x + t * d) * d) t := fun t => by
    refine (((hin t).cosh).log (Real.cosh_pos _).ne').congr_deriv ?_
    rw [Real.tanh_eq_sinh_div_cosh]; ring
  have h2 : ∀ t : ℝ, HasDerivAt (fun t => Real.tanh (x + t * d) * d) (1 / Real.cosh (x + t * d) ^ 2 * d ^ 2) t := fun t => by
    have e : (fun t => Real.tanh (x + t * d) * d) = fun t => Real.sinh (x + t * d) / Real.cosh (x + t * d) * d := by
      funext t; rw [Real.tanh_eq_sinh_div_cosh]
    rw [e]
    refine ((((hin t).sinh).div ((hin t).cosh) (Real.cosh_pos _).ne').mul_const d).congr_deriv ?_
    have := Real.cosh_sq' (x + t * d)
    have hp := (Real.cosh_pos (x + t * d)).ne'
    field_simp
    linear_combination d ^ 2 * this
  constructor
  · have := taylor_low h1 h2 (fun t => by positivity)
    simpa using this
  · have := taylor_up h1 h2 (c := d ^ 2) (fun t => by
      have : 1 / Real.cosh (x + t * d) ^ 2 ≤ 1 := by
        rw [div_le_one (by positivity)]
        have := Real.one_le_cosh (x + t * d)
        nlinarith
      nlinarith [sq_nonneg d])
    simpa using this

/-! ### log of a sum of exponentials -/

/-- Σ e^{zⱼ}. -/
noncomputable def expSum (m : Nat) (z : Nat → ℝ) : ℝ := ∑ j ∈ range m, Real.exp (z j)

theorem expSum_pos {m : Nat} (hm : 0 < m) (z : Nat → ℝ) : 0 < expSum m z := sum_pos (fun _ _ => Real.exp_pos _) ⟨0, mem_range.2 hm⟩

theorem lse_bounds {m : Nat} (hm : 0 < m) (z d : Nat → ℝ) :
    Real.log (expSum m z) + ∑ j ∈ range m, softmaxFn m z j * d j ≤ Real.log (expSum m (fun j => z j + d j)) ∧
    Real.log (expSum m (fun j => z j + d j)) ≤ Real.log (expSum m z) + ∑ j ∈ range m, softmaxFn m z j * d j + (∑ j ∈ range m, d j ^ 2) / 2 := by
  set S : ℝ → ℝ := fun t => expSum m (fun j => z j + t * d j) with hS
  set N : ℝ → ℝ := fun t => ∑ j ∈ range m, Real.exp (z j + t * d j) * d j with hN
  set M : ℝ → ℝ := fun t => ∑ j ∈ range m, Real.exp (z j + t * d j) * d j ^ 2 with hM
  have hin : ∀ (j : Nat) (t : ℝ), HasDerivAt (fun t => z j + t * d j) (d j) t := fun j t => by simpa using ((hasDerivAt_id t).mul_const (d j)).const_add (z j)
  have hpos : ∀ t, 0 < S t := fun t => expSum_pos hm _
  have dS : ∀ t, HasDerivAt S (N t) t := fun t => HasDerivAt.fun_sum (fun j _ => (hin j t).exp)
  have dN : ∀ t, HasDerivAt N (M t) t := fun t => by
    refine (HasDerivAt.fun_sum (u := range m) (A := fun j t => Real.exp (z j + t * d j) * d j) (fun j _ => ((hin j t).exp).mul_const (d j))).congr_deriv ?_
    exact sum_congr rfl (fun j _ => by ring)
  have h1 : ∀ t, HasDerivAt (fun t => Real.log (S t)) (N t / S t) t := fun t => (dS t).log (hpos t).ne'
  have h2 : ∀ t, HasDerivAt (fun t => N t / S t) ((M t * S t - N t * N t) / S t ^ 2) t := fun t => (dN t).div (dS t) (hpos t).ne'
  have cs : ∀ t, N t * N t ≤ M t * S t := fun t => by
    have := Finset.sum_mul_sq_le_sq_mul_sq (range m) (fun j => Real.exp ((z j + t * d j) / 2) * d j) (fun j => Real.exp ((z j + t * d j) / 2))
    have e : ∀ j, Real.exp ((z j + t * d j) / 2) * Real.exp ((z j + t * d j) / 2) = Real.exp (z j + t * d j) := fun j => by
      rw [← Real.exp_add]; congr 1; ring
    have e1 : ∑ j ∈ range m, Real.exp ((z j + t * d j) / 2) * d j * Real.exp ((z j + t * d j) / 2) = N t :=
      sum_congr rfl (fun j _ => by rw [mul_right_comm, e])
    have e2 : ∑ j ∈ range m, (Real.exp ((z j + t * d j) / 2) * d j) ^ 2 = M t :=
      sum_congr rfl (fun j _ => by rw [mul_pow, sq (Real.exp _), e])
    have e3 : ∑ j ∈ range m, Real.exp ((z j + t * d j) / 2) ^ 2 = S t :=
      sum_congr rfl (fun j _ => by rw [sq (Real.exp _), e])
    rw [e1, e2, e3, sq] at this
    exact this
  have up : ∀ t, (M t * S t - N t * N t) / S t ^ 2 ≤ ∑ j ∈ range m, d j ^ 2 := fun t => by
    rw [div_le_iff₀ (by have := hpos t; positivity)]
    have hle : M t ≤ (∑ j ∈ range m, d j ^ 2) * S t := by
      show ∑ j ∈ range m, Real.exp (z j + t * d j) * d j ^ 2 ≤ _
      show _ ≤ _ * ∑ j ∈ range m, Real.exp (z j + t * d j)
      rw [mul_sum]
      refine sum_le_sum (fun j hj => ?_)
      rw [mul_comm]
      exact mul_le_mul_of_nonneg_right (single_le_sum (f := fun j => d j ^ 2) (fun j _ => sq_nonneg _) hj) (Real.exp_pos _).le
    nlinarith [mul_self_nonneg (N t), mul_le_mul_of_nonneg_right hle (hpos t).le]
  have eN : N 0 / S 0 = ∑ j ∈ range m, softmaxFn m z j * d j := by
    simp only [hN, hS, zero_mul, add_zero, sum_div]
    exact sum_congr rfl (fun j _ => by unfold softmaxFn expSum; ring)
  have e0 : S 0 = expSum m z := by simp [hS]
  have e1 : S 1 = expSum m (fun j => z j + d j) := by simp [hS]
  constructor
  · have := taylor_low h1 h2 (fun t => div_nonneg (by linarith [cs t]) (sq_nonneg _))
    rw [eN, e0, e1] at this
    exact this
  · have := taylor_up h1 h2 up
    rw [eN, e0, e1] at this
    exact this

/-! ### The four losses, as functions of the weighted sums -/

/-- Gradient of the loss with respect to the weighted sums. -/
noncomputable def zGrad (k : FitKind) (m : Nat) (w z : Nat → ℝ) (j : Nat) : ℝ :=
  match k with
  | .mse => z j - w j
  | .lc => Real.tanh (z j - w j)
  | .nll => softmaxFn m z j - w j
  | .cce => softmaxFn m z j - w j

/-- The loss of the prediction made from the weighted sums `z`. -/
noncomputable def phi (k : FitKind) (m : Nat) (w z : Nat → ℝ) : ℝ := k.fn m w (k.act.fn m z)

theorem softmax_log {m : Nat} (hm : 0 < m) (z : Nat → ℝ) (j : Nat) : Real.log (softmaxFn m z j) = z j - Real.log (expSum m z) := by
  show Real.log (Real.exp (z j) / expSum m z) = _
  rw [Real.log_div (Real.exp_pos _).ne' (expSum_pos hm z).ne', Real.log_exp]

theorem phi_soft {k : FitKind} (hk : k = .nll ∨ k = .cce) {m : Nat} (hm : 0 < m) {w : Nat → ℝ} (hw : k.Target m w) (z : Nat → ℝ) :
    phi k m w z = Real.log (expSum m z) - ∑ j ∈ range m, w j * z j := by
  rcases hk with rfl | rfl
  · obtain ⟨c, hc, h1, h0⟩ := hw
    show -Real.log (∑ i ∈ range m, w i * softmaxFn m z i) = _
    have e : ∀ u : Nat → ℝ, ∑ i ∈ range m, w i * u i = u c := fun u => by
      rw [sum_eq_single_of_mem c (mem_range.2 hc) (fun j hj hne => by rw [h0 j (mem_range.1 hj) hne, zero_mul]), h1, one_mul]
    rw [e, e, softmax_log hm]; ring
  · have hw : ∑ j ∈ range m, w j = 1 := hw
    show -∑ i ∈ range m, w i * Real.log (softmaxFn m z i + 0) = _
    have : ∀ i ∈ range m, w i * Real.log (softmaxFn m z i + 0) = w i * z i - w i * Real.log (expSum m z) := fun i _ => by
      rw [add_zero, softmax_log hm]; ring
    rw [sum_congr rfl this, sum_sub_distrib, ← sum_mul, hw]; ring

theorem phi_bounds (k : FitKind) {m : Nat} (hm : 0 < m) {w : Nat → ℝ} (hw : k.Target m w) (z d : Nat → ℝ) :
    phi k m w z + ∑ j ∈ range m, zGrad k m w z j * d j ≤ phi k m w (fun j => z j + d j) ∧
    phi k m w (fun j => z j + d j) ≤ phi k m w z + ∑ j ∈ range m, zGrad k m w z j * d j + (∑ j ∈ range m, d j ^ 2) / 2 := by
  have soft : ∀ k : FitKind, (k = .nll ∨ k = .cce) → k.Target m w → (∀ j, zGrad k m w z j = softmaxFn m z j - w j) →
      phi k m w z + ∑ j ∈ range m, zGrad k m w z j * d j ≤ phi k m w (fun j => z j + d j) ∧
      phi k m w (fun j => z j + d j) ≤ phi k m w z + ∑ j ∈ range m, zGrad k m w z j * d j + (∑ j ∈ range m, d j ^ 2) / 2 := by
    intro k hk hw hs
    have e : ∑ j ∈ range m, zGrad k m w z j * d j = ∑ j ∈ range m, softmaxFn m z j * d j - ∑ j ∈ range m, w j * d j := by
      rw [← sum_sub_distrib]; exact sum_congr rfl (fun j _ => by rw [hs]; ring)
    have e2 : ∑ j ∈ range m, w j * (z j + d j) = ∑ j ∈ range m, w j * z j + ∑ j ∈ range m, w j * d j := by
      rw [← sum_add_distrib]; exact sum_congr rfl (fun j _ => by ring)
    obtain ⟨a, b⟩ := lse_bounds hm z d
    rw [phi_soft hk hm hw, phi_soft hk hm hw, e, e2]
    constructor <;> linarith
  cases k with
  | mse =>
    have e : phi .mse m w (fun j => z j + d j) = phi .mse m w z + ∑ j ∈ range m, zGrad .mse m w z j * d j + (∑ j ∈ range m, d j ^ 2) / 2 := by
      show 1 / 2 * ∑ i ∈ range m, ((z i + d i) - w i) ^ 2 = 1 / 2 * ∑ i ∈ range m, (z i - w i) ^ 2 + ∑ j ∈ range m, (z j - w j) * d j + _
      rw [mul_sum, mul_sum, sum_div, ← sum_add_distrib, ← sum_add_distrib]
      exact sum_congr rfl (fun j _ => by ring)
    have : 0 ≤ ∑ j ∈ range m, d j ^ 2 := sum_nonneg (fun _ _ => sq_nonneg _)
    rw [e]; constructor <;> linarith
  | lc =>
    have e : ∀ j, z j + d j - w j = (z j - w j) + d j := fun j => by ring
    constructor
    · show ∑ i ∈ range m, Real.log (Real.cosh (z i - w i)) + ∑ j ∈ range m, Real.tanh (z j - w j) * d j ≤ ∑ i ∈ range m, Real.log (Real.cosh (z i + d i - w i))
      rw [← sum_add_distrib]
      exact sum_le_sum (fun j _ => by rw [e]; exact (lc_bounds _ _).1)
    · show ∑ i ∈ range m, Real.log (Real.cosh (z i + d i - w i)) ≤ ∑ i ∈ range m, Real.log (Real.cosh (z i - w i)) + ∑ j ∈ range m, Real.tanh (z j - w j) * d j + _
      rw [sum_div, ← sum_add_distrib, ← sum_add_distrib]
      exact sum_le_sum (fun j _ => by rw [e]; exact (lc_bounds _ _).2)
  | nll => exact soft _ (.inl rfl) hw (fun _ => rfl)
  | cce => exact soft _ (.inr rfl) hw (fun _ => rfl)

/-! ### One step on the mean -/

/-- Weighted sums with the bias as weight of a constant input. -/
noncomputable def lin (n : Nat) (u : Nat → ℝ) (T : Nat → Nat → ℝ) (j : Nat) : ℝ := ∑ i ∈ range n, u i * T i j

/-- Squared norm of a parameter matrix. -/
noncomputable def nrm (n m : Nat) (T : Nat → Nat → ℝ) : ℝ := ∑ i ∈ range n, ∑ j ∈ range m, T i j ^ 2

theorem lin_sq (n m : Nat) (u : Nat → ℝ) (T : Nat → Nat → ℝ) : ∑ j ∈ range m, lin n u T j ^ 2 ≤ (∑ i ∈ range n, u i ^ 2) * nrm n m T := by
  unfold nrm
  rw [sum_comm, mul_sum]
  exact sum_le_sum (fun j _ => Finset.sum_mul_sq_le_sq_mul_sq (range n) u (fun i => T i j))

theorem pair_lin (n m : Nat) (u g : Nat → ℝ) (T : Nat → Nat → ℝ) : ∑ i ∈ range n, ∑ j ∈ range m, u i * g j * T i j = ∑ j ∈ range m, g j * lin n u T j := by
  rw [sum_comm]
  refine sum_congr rfl (fun j _ => ?_)
  unfold lin
  rw [mul_sum]
  exact sum_congr rfl (fun i _ => by ring)

theorem lin_add (n : Nat) (u : Nat → ℝ) (T D : Nat → Nat → ℝ) (j : Nat) : lin n u (fun i j => T i j + D i j) j = lin n u T j + lin n u D j := by
  unfold lin
  rw [← sum_add_distrib]
  exact sum_congr rfl (fun i _ => by ring)

variable (k : FitKind) (n m : Nat)

/-- Sum of the losses. -/
noncomputable def tot (us : List ((Nat → ℝ) × (Nat → ℝ))) (T : Nat → Nat → ℝ) : ℝ := (us.map (fun uw => phi k m uw.2 (lin n uw.1 T))).sum
/-- Sum of the gradients. -/
noncomputable def grd (us : List ((Nat → ℝ) × (Nat → ℝ))) (T : Nat → Nat → ℝ) (i j : Nat) : ℝ :=
  (us.map (fun uw => uw.1 i * zGrad k m uw.2 (lin n uw.1 T) j)).sum
/-- Sum of the squared lengths of the inputs. -/
noncomputable def len2 (us : List ((Nat → ℝ) × (Nat → ℝ))) : ℝ := (us.map (fun uw => ∑ i ∈ range n, uw.1 i ^ 2)).sum

theorem tot_bounds (hm : 0 < m) (us : List ((Nat → ℝ) × (Nat → ℝ))) (hw : ∀ uw ∈ us, k.Target m uw.2) (T D : Nat → Nat → ℝ) :
    tot k n m us T + ∑ i ∈ range n, ∑ j ∈ range m, grd k n m us T i j * D i j ≤ tot k n m us (fun i j => T i j + D i j) ∧
    tot k n m us (fun i j => T i j + D i j) ≤ tot k n m us T + ∑ i ∈ range n, ∑ j ∈ range m, grd k n m us T i j * D i j + len2 n us * nrm n m D / 2 := by
  induction us with
  | nil => simp [tot, grd, len2]
  | cons uw us ih =>
    obtain ⟨ih1, ih2⟩ := ih (fun x hx => hw x (List.mem_cons_of_mem _ hx))
    have hp := phi_bounds k hm (hw uw (List.mem_cons_self ..)) (lin n uw.1 T) (lin n uw.1 D)
    have e1 : (fun j => lin n uw.1 T j + lin n uw.1 D j) = lin n uw.1 (fun i j => T i j + D i j) := by funext j; rw [lin_add]
    rw [e1] at hp
    have e2 : ∑ i ∈ range n, ∑ j ∈ range m, grd k n m (uw :: us) T i j * D i j =
        ∑ j ∈ range m, zGrad k m uw.2 (lin n uw.1 T) j * lin n uw.1 D j + ∑ i ∈ range n, ∑ j ∈ range m, grd k n m us T i j * D i j := by
      rw [← pair_lin, ← sum_add_distrib]
      refine sum_congr rfl (fun i _ => ?_)
      rw [← sum_add_distrib]
      refine sum_congr rfl (fun j _ => ?_)
      simp only [grd, List.map_cons, List.sum_cons]; ring
    have e3 : ∀ T, tot k n m (uw :: us) T = phi k m uw.2 (lin n uw.1 T) + tot k n m us T := fun T => by simp [tot]
    have e4 : len2 n (uw :: us) = ∑ i ∈ range n, uw.1 i ^ 2 + len2 n us := by simp [len2]
    have hl := lin_sq n m uw.1 D
    rw [e2, e3, e3, e4, add_mul]
    constructor <;> linarith [hp.1, hp.2]

/-- One step of gradient descent on the mean of the losses, compared with any other parameters. -/
theorem step_bound (hm : 0 < m) (us : List ((Nat → ℝ) × (Nat → ℝ))) (hw : ∀ uw ∈ us, k.Target m uw.2) (lr a : ℝ) (hlr : 0 < lr) (ha : 0 ≤ a)
    (hL : lr * (a * len2 n us) ≤ 1) (T R : Nat → Nat → ℝ) :
    a * tot k n m us (fun i j => T i j + -(grd k n m us T i j * a * lr)) ≤
      a * tot k n m us R + (nrm n m (fun i j => T i j - R i j) - nrm n m (fun i j => T i j + -(grd k n m us T i j * a * lr) - R i j)) / (2 * lr) ∧
    a * tot k n m us (fun i j => T i j + -(grd k n m us T i j * a * lr)) ≤ a * tot k n m us T := by
  set G := grd k n m us T with hG
  set Q := nrm n m (fun i j => G i j * a) with hQ
  have hQ0 : 0 ≤ Q := sum_nonneg (fun _ _ => sum_nonneg (fun _ _ => sq_nonneg _))
  obtain ⟨_, up⟩ := tot_bounds k n m hm us hw T (fun i j => -(G i j * a * lr))
  obtain ⟨low, _⟩ := tot_bounds k n m hm us hw T (fun i j => R i j - T i j)
  have eR : (fun i j => T i j + (R i j - T i j)) = R := by funext i j; ring
  rw [eR] at low
  set P := ∑ i ∈ range n, ∑ j ∈ range m, G i j * (R i j - T i j) with hP
  have eN : nrm n m (fun i j => -(G i j * a * lr)) = lr ^ 2 * Q := by
    rw [hQ]; unfold nrm; rw [mul_sum]
    refine sum_congr rfl (fun i _ => ?_)
    rw [mul_sum]
    exact sum_congr rfl (fun j _ => by ring)
  have eD : a * ∑ i ∈ range n, ∑ j ∈ range m, G i j * -(G i j * a * lr) = -(lr * Q) := by
    rw [hQ]; unfold nrm; rw [mul_sum, mul_sum, ← sum_neg_distrib]
    refine sum_congr rfl (fun i _ => ?_)
    rw [mul_sum, mul_sum, ← sum_neg_distrib]
    exact sum_congr rfl (fun j _ => by ring)
  have eM : nrm n m (fun i j => T i j + -(G i j * a * lr) - R i j) = nrm n m (fun i j => T i j - R i j) + 2 * lr * (a * P) + lr ^ 2 * Q := by
    rw [hQ, hP]; unfold nrm
    simp only [mul_sum, ← sum_add_distrib]
    exact sum_congr rfl (fun i _ => sum_congr rfl (fun j _ => by ring))
  have up' := mul_le_mul_of_nonneg_left up ha
  have low' := mul_le_mul_of_nonneg_left low ha
  rw [mul_add, mul_add, eD, eN] at up'
  rw [mul_add] at low'
  have hq : a * (len2 n us * (lr ^ 2 * Q) / 2) ≤ lr * Q / 2 := by
    have := mul_le_mul_of_nonneg_right hL (mul_nonneg hlr.le hQ0)
    nlinarith
  constructor
  · have e5 : (nrm n m (fun i j => T i j - R i j) - nrm n m (fun i j => T i j + -(G i j * a * lr) - R i j)) / (2 * lr) = -(a * P) - lr * Q / 2 := by
      rw [eM]; field_simp; ring
    rw [e5]
    linarith
  · have := mul_nonneg hlr.le hQ0
    linarith

end Trixy.FitMath
