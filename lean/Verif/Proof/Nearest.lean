import Verif.Proof.Fit
import Mathlib.Topology.Algebra.Order.LiminfLimsup
import Mathlib.Topology.MetricSpace.Sequences
import Mathlib.Analysis.Normed.Module.FiniteDimension
import Mathlib.Analysis.Normed.Group.Bounded
import Mathlib.Topology.Order.Compact
/- Gradient descent on convex losses of affine maps converges to the minimiser nearest to the start. -/
namespace Trixy.FitMath
open Finset Filter Topology

/-! ### Directions in which a loss is flat -/

theorem lc_flat {x d : ℝ} (h : Real.log (Real.cosh (x + d)) = Real.log (Real.cosh x) + Real.tanh x * d) : d = 0 := by
  by_contra hd
  have hin : ∀ t : ℝ, HasDerivAt (fun t => x + t * d) d t := fun t => by simpa using ((hasDerivAt_id t).mul_const d).const_add x
  have hlog : ∀ t : ℝ, HasDerivAt (fun t => Real.log (Real.cosh t)) (Real.tanh t) t := fun t => by
    refine ((Real.hasDerivAt_cosh t).log (Real.cosh_pos _).ne').congr_deriv ?_
    rw [Real.tanh_eq_sinh_div_cosh]
  -- half way the bound is met as well, twice
  have a1 := (lc_bounds x (d / 2)).1
  have a2 := (lc_bounds (x + d / 2) (d / 2)).1
  have e : x + d / 2 + d / 2 = x + d := by ring
  rw [e, h] at a2
  have hmono : Real.tanh (x + d / 2) * d ≤ Real.tanh x * d := by nlinarith
  -- tanh is strictly monotone
  have hst : StrictMono Real.tanh := by
    refine strictMono_of_deriv_pos (fun t => ?_)
    have : HasDerivAt Real.tanh (1 / Real.cosh t ^ 2) t := by
      have h1 := (Real.hasDerivAt_sinh t).div (Real.hasDerivAt_cosh t) (Real.cosh_pos t).ne'
      refine (h1.congr_deriv ?_).congr_of_eventuallyEq (Filter.Eventually.of_forall (fun s => Real.tanh_eq_sinh_div_cosh s))
      have := Real.cosh_sq_sub_sinh_sq t
      congr 1; nlinarith
    rw [this.deriv]
    have := Real.cosh_pos t
    positivity
  rcases lt_or_gt_of_ne hd with h0 | h0
  · have : Real.tanh (x + d / 2) < Real.tanh x := hst (by linarith)
    nlinarith
  · have : Real.tanh x < Real.tanh (x + d / 2) := hst (by linarith)
    nlinarith

theorem lse_flat {m : Nat} (hm : 0 < m) (z d : Nat → ℝ)
    (h : Real.log (expSum m (fun j => z j + d j)) = Real.log (expSum m z) + ∑ j ∈ range m, softmaxFn m z j * d j) : ∃ c, ∀ j, j < m → d j = c := by
  set c := ∑ j ∈ range m, softmaxFn m z j * d j with hc
  refine ⟨c, ?_⟩
  have hS := expSum_pos hm z
  have hp : ∀ j, 0 < softmaxFn m z j := fun j => div_pos (Real.exp_pos _) hS
  have hsum : ∑ j ∈ range m, softmaxFn m z j = 1 := by
    show ∑ j ∈ range m, Real.exp (z j) / ∑ j ∈ range m, Real.exp (z j) = 1
    rw [← sum_div]; exact div_self hS.ne'
  have h1 : ∑ j ∈ range m, softmaxFn m z j * Real.exp (d j - c) = 1 := by
    have : expSum m (fun j => z j + d j) = expSum m z * Real.exp c := by
      rw [← Real.exp_log (expSum_pos hm (fun j => z j + d j)), h, Real.exp_add, Real.exp_log hS]
    have e : ∑ j ∈ range m, softmaxFn m z j * Real.exp (d j - c) = expSum m (fun j => z j + d j) / (expSum m z * Real.exp c) := by
      unfold expSum softmaxFn
      rw [sum_div]
      refine sum_congr rfl (fun j _ => ?_)
      rw [Real.exp_sub, Real.exp_add]
      field_simp
    rw [e, this, div_self (by positivity)]
  have h2 : ∑ j ∈ range m, softmaxFn m z j * (Real.exp (d j - c) - (d j - c + 1)) = 0 := by
    have : ∑ j ∈ range m, softmaxFn m z j * (Real.exp (d j - c) - (d j - c + 1)) =
        ∑ j ∈ range m, softmaxFn m z j * Real.exp (d j - c) - (∑ j ∈ range m, softmaxFn m z j * d j) + (c - 1) * ∑ j ∈ range m, softmaxFn m z j := by
      rw [mul_sum, ← sum_sub_distrib, ← sum_add_distrib]
      exact sum_congr rfl (fun j _ => by ring)
    rw [this, h1, hsum, ← hc]; ring
  intro j hj
  have h3 := (sum_eq_zero_iff_of_nonneg (fun i _ => mul_nonneg (hp i).le (by linarith [Real.add_one_le_exp (d i - c)]))).1 h2 j (mem_range.2 hj)
  have h4 : Real.exp (d j - c) - (d j - c + 1) = 0 := by
    rcases mul_eq_zero.1 h3 with h | h
    · exact absurd h (hp j).ne'
    · exact h
  by_contra hne
  have := Real.add_one_lt_exp (x := d j - c) (fun e => hne (by linarith))
  linarith

/-- If the loss grows no faster than its linearisation in direction `d`, no gradient has a component in direction `d`. -/
theorem phi_flat (k : FitKind) {m : Nat} (hm : 0 < m) {w : Nat → ℝ} (hw : k.Target m w) (z d : Nat → ℝ)
    (h : phi k m w (fun j => z j + d j) = phi k m w z + ∑ j ∈ range m, zGrad k m w z j * d j) (z' : Nat → ℝ) : ∑ j ∈ range m, zGrad k m w z' j * d j = 0 := by
  have soft : ∀ k : FitKind, (k = .nll ∨ k = .cce) → k.Target m w → (∀ z j, zGrad k m w z j = softmaxFn m z j - w j) → ∑ j ∈ range m, w j = 1 →
      phi k m w (fun j => z j + d j) = phi k m w z + ∑ j ∈ range m, zGrad k m w z j * d j → ∑ j ∈ range m, zGrad k m w z' j * d j = 0 := by
    intro k hk hw hg h1 h
    rw [phi_soft hk hm hw, phi_soft hk hm hw] at h
    obtain ⟨c, hc⟩ := lse_flat hm z d (by
      have e1 : ∑ j ∈ range m, w j * (z j + d j) = ∑ j ∈ range m, w j * z j + ∑ j ∈ range m, w j * d j := by
        rw [← sum_add_distrib]; exact sum_congr rfl (fun j _ => by ring)
      have e2 : ∑ j ∈ range m, zGrad k m w z j * d j = ∑ j ∈ range m, softmaxFn m z j * d j - ∑ j ∈ range m, w j * d j := by
        rw [← sum_sub_distrib]; exact sum_congr rfl (fun j _ => by rw [hg]; ring)
      rw [e1, e2] at h
      linarith)
    have hs : ∑ j ∈ range m, softmaxFn m z' j = 1 := by
      show ∑ j ∈ range m, Real.exp (z' j) / ∑ j ∈ range m, Real.exp (z' j) = 1
      rw [← sum_div]; exact div_self (expSum_pos hm z').ne'
    rw [sum_congr rfl (fun j hj => by rw [hg, hc j (mem_range.1 hj)]), ← sum_mul, sum_sub_distrib, hs, h1, sub_self, zero_mul]
  cases k with
  | mse =>
    have hd : ∑ j ∈ range m, d j ^ 2 = 0 := by
      have e : ∀ z, phi .mse m w z = 1 / 2 * ∑ j ∈ range m, (z j - w j) ^ 2 := fun z => rfl
      rw [e, e] at h
      have : 1 / 2 * ∑ j ∈ range m, (z j + d j - w j) ^ 2 = 1 / 2 * ∑ j ∈ range m, (z j - w j) ^ 2 + ∑ j ∈ range m, zGrad .mse m w z j * d j + 1 / 2 * ∑ j ∈ range m, d j ^ 2 := by
        simp only [mul_sum, ← sum_add_distrib]
        exact sum_congr rfl (fun j _ => by simp only [zGrad]; ring)
      linarith
    refine sum_eq_zero (fun j hj => ?_)
    have := (sum_eq_zero_iff_of_nonneg (fun i _ => sq_nonneg (d i))).1 hd j hj
    rw [pow_eq_zero_iff (by decide)] at this
    rw [this, mul_zero]
  | lc =>
    have e : ∀ z, phi .lc m w z = ∑ j ∈ range m, Real.log (Real.cosh (z j - w j)) := fun z => rfl
    rw [e, e] at h
    have h0 : ∑ j ∈ range m, (Real.log (Real.cosh (z j + d j - w j)) - (Real.log (Real.cosh (z j - w j)) + Real.tanh (z j - w j) * d j)) = 0 := by
      rw [sum_sub_distrib, sum_add_distrib]
      have : ∑ j ∈ range m, zGrad .lc m w z j * d j = ∑ j ∈ range m, Real.tanh (z j - w j) * d j := rfl
      linarith
    refine sum_eq_zero (fun j hj => ?_)
    have h1 := (sum_eq_zero_iff_of_nonneg (fun i _ => by
      have := (lc_bounds (z i - w i) (d i)).1
      rw [show z i - w i + d i = z i + d i - w i by ring] at this
      linarith)).1 h0 j hj
    have := lc_flat (x := z j - w j) (d := d j) (by rw [show z j - w j + d j = z j + d j - w j by ring]; linarith)
    rw [this, mul_zero]
  | nll =>
    obtain ⟨c, hc, h1, h0⟩ := id hw
    exact soft .nll (.inl rfl) hw (fun _ _ => rfl) (by
      rw [sum_eq_single_of_mem c (mem_range.2 hc) (fun j hj hne => h0 j (mem_range.1 hj) hne), h1]) h
  | cce => exact soft .cce (.inr rfl) hw (fun _ _ => rfl) hw h


/-! ### Parameters as points -/

/-- Inner product of parameter matrices. -/
noncomputable def inn (n m : Nat) (A B : Nat → Nat → ℝ) : ℝ := ∑ i ∈ range n, ∑ j ∈ range m, A i j * B i j

theorem inn_sub (n m : Nat) (A B D : Nat → Nat → ℝ) : inn n m (fun i j => A i j - B i j) D = inn n m A D - inn n m B D := by
  unfold inn
  simp only [sub_mul, sum_sub_distrib]

theorem nrm_split (n m : Nat) (A B : Nat → Nat → ℝ) : nrm n m (fun i j => A i j + B i j) = nrm n m A + 2 * inn n m A B + nrm n m B := by
  unfold nrm inn
  simp only [mul_sum, ← sum_add_distrib]
  exact sum_congr rfl (fun i _ => sum_congr rfl (fun j _ => by ring))

theorem nrm_entry {n m : Nat} (A : Nat → Nat → ℝ) {i j : Nat} (hi : i < n) (hj : j < m) : A i j ^ 2 ≤ nrm n m A := by
  unfold nrm
  exact (single_le_sum (f := fun j => A i j ^ 2) (fun _ _ => sq_nonneg _) (mem_range.2 hj)).trans
    (single_le_sum (f := fun i => ∑ j ∈ range m, A i j ^ 2) (fun _ _ => sum_nonneg (fun _ _ => sq_nonneg _)) (mem_range.2 hi))

theorem nrm_tendsto {n m : Nat} {T : Nat → Nat → Nat → ℝ} {p : Nat → Nat → ℝ} (h : ∀ i j, i < n → j < m → Tendsto (fun N => T N i j) atTop (𝓝 (p i j))) :
    Tendsto (fun N => nrm n m (fun i j => T N i j - p i j)) atTop (𝓝 0) := by
  have : Tendsto (fun N => ∑ i ∈ range n, ∑ j ∈ range m, (T N i j - p i j) ^ 2) atTop (𝓝 (∑ i ∈ range n, ∑ j ∈ range m, (p i j - p i j) ^ 2)) :=
    tendsto_finsetSum _ (fun i hi => tendsto_finsetSum _ (fun j hj => ((h i j (mem_range.1 hi) (mem_range.1 hj)).sub_const _).pow 2))
  simpa [nrm] using this

theorem inn_tendsto {n m : Nat} {T : Nat → Nat → Nat → ℝ} {p : Nat → Nat → ℝ} (D : Nat → Nat → ℝ) (h : ∀ i j, i < n → j < m → Tendsto (fun N => T N i j) atTop (𝓝 (p i j))) :
    Tendsto (fun N => inn n m (T N) D) atTop (𝓝 (inn n m p D)) :=
  tendsto_finsetSum _ (fun i hi => tendsto_finsetSum _ (fun j hj => (h i j (mem_range.1 hi) (mem_range.1 hj)).mul_const _))

/-- A bounded sequence of matrices has a convergent subsequence. -/
theorem mat_subseq {n m : Nat} {T : Nat → Nat → Nat → ℝ} {c : ℝ} (h : ∀ N i j, i < n → j < m → |T N i j| ≤ c) :
    ∃ (p : Nat → Nat → ℝ) (φ : Nat → Nat), StrictMono φ ∧ ∀ i j, i < n → j < m → Tendsto (fun N => T (φ N) i j) atTop (𝓝 (p i j)) := by
  let x : Nat → Fin n → Fin m → ℝ := fun N i j => T N i j
  have hb : ∀ N, x N ∈ Set.pi Set.univ (fun _ : Fin n => Set.pi Set.univ (fun _ : Fin m => Set.Icc (-c) c)) := fun N i _ j _ => abs_le.1 (h N i j i.2 j.2)
  have hK : IsCompact (Set.pi Set.univ (fun _ : Fin n => Set.pi Set.univ (fun _ : Fin m => Set.Icc (-c) c))) :=
    isCompact_univ_pi (fun _ => isCompact_univ_pi (fun _ => isCompact_Icc))
  obtain ⟨a, _, φ, hφ, ha⟩ := hK.tendsto_subseq hb
  refine ⟨fun i j => if h : i < n ∧ j < m then a ⟨i, h.1⟩ ⟨j, h.2⟩ else 0, φ, hφ, fun i j hi hj => ?_⟩
  dsimp only
  rw [dif_pos ⟨hi, hj⟩]
  have h1 := tendsto_pi_nhds.1 ha ⟨i, hi⟩
  exact tendsto_pi_nhds.1 h1 ⟨j, hj⟩

variable (k : FitKind) (n m : Nat)

/-- Minimisers of the summed loss. -/
def Best (us : List ((Nat → ℝ) × (Nat → ℝ))) (T : Nat → Nat → ℝ) : Prop := ∀ S, tot k n m us T ≤ tot k n m us S

theorem grd_inn (us : List ((Nat → ℝ) × (Nat → ℝ))) (T D : Nat → Nat → ℝ) :
    inn n m (grd k n m us T) D = (us.map (fun uw => ∑ j ∈ range m, zGrad k m uw.2 (lin n uw.1 T) j * lin n uw.1 D j)).sum := by
  induction us with
  | nil => simp [inn, grd]
  | cons uw us ih =>
    have e : inn n m (grd k n m (uw :: us) T) D = inn n m (fun i j => uw.1 i * zGrad k m uw.2 (lin n uw.1 T) j) D + inn n m (grd k n m us T) D := by
      unfold inn
      simp only [← sum_add_distrib]
      refine sum_congr rfl (fun i _ => sum_congr rfl (fun j _ => ?_))
      unfold grd
      rw [List.map_cons, List.sum_cons, add_mul]
    rw [e, ih, List.map_cons, List.sum_cons]
    congr 1
    exact pair_lin n m uw.1 _ D

variable {k n m}

/-- At a minimiser the gradient vanishes. -/
theorem best_grd (hm : 0 < m) {us : List ((Nat → ℝ) × (Nat → ℝ))} (hw : ∀ uw ∈ us, k.Target m uw.2) {p : Nat → Nat → ℝ} (hp : Best k n m us p) (D : Nat → Nat → ℝ) :
    0 ≤ inn n m (grd k n m us p) D := by
  by_contra hneg
  push Not at hneg
  set g := inn n m (grd k n m us p) D with hg
  set q := len2 n us * nrm n m D / 2 with hq
  have hl : 0 ≤ len2 n us := List.sum_nonneg (fun x hx => by
    obtain ⟨uw, _, rfl⟩ := List.mem_map.1 hx
    exact sum_nonneg (fun _ _ => sq_nonneg _))
  have hq0 : 0 ≤ q := by
    have : 0 ≤ nrm n m D := sum_nonneg (fun _ _ => sum_nonneg (fun _ _ => sq_nonneg _))
    positivity
  have key : ∀ t : ℝ, 0 ≤ t * g + t ^ 2 * q := fun t => by
    have up := (tot_bounds k n m hm us hw p (fun i j => t * D i j)).2
    have e1 : ∑ i ∈ range n, ∑ j ∈ range m, grd k n m us p i j * (t * D i j) = t * g := by
      rw [hg]; unfold inn; simp only [mul_sum]
      exact sum_congr rfl (fun i _ => sum_congr rfl (fun j _ => by ring))
    have e2 : nrm n m (fun i j => t * D i j) = t ^ 2 * nrm n m D := by
      unfold nrm; simp only [mul_sum]
      exact sum_congr rfl (fun i _ => sum_congr rfl (fun j _ => by ring))
    rw [e1, e2] at up
    have := hp (fun i j => p i j + t * D i j)
    have e3 : len2 n us * (t ^ 2 * nrm n m D) / 2 = t ^ 2 * q := by rw [hq]; ring
    rw [e3] at up
    linarith
  have h1 := key (-g / (2 * (q + 1)))
  have hq1 : 0 < q + 1 := by linarith
  have e : -g / (2 * (q + 1)) * g + (-g / (2 * (q + 1))) ^ 2 * q = g ^ 2 / (2 * (q + 1)) * (q / (2 * (q + 1)) - 1) := by field_simp; ring
  rw [e] at h1
  have h2 : q / (2 * (q + 1)) - 1 < 0 := by
    rw [sub_neg, div_lt_one (by linarith)]; linarith
  have h3 : 0 < g ^ 2 / (2 * (q + 1)) := by
    have hg2 : 0 < g ^ 2 := by nlinarith
    exact div_pos hg2 (by linarith)
  nlinarith [mul_neg_of_pos_of_neg h3 h2]

/-- Gradients never point from one minimiser to another. -/
theorem best_flat (hm : 0 < m) {us : List ((Nat → ℝ) × (Nat → ℝ))} (hw : ∀ uw ∈ us, k.Target m uw.2) {p q : Nat → Nat → ℝ} (hp : Best k n m us p) (hq : Best k n m us q)
    (T : Nat → Nat → ℝ) : inn n m (grd k n m us T) (fun i j => q i j - p i j) = 0 := by
  set D : Nat → Nat → ℝ := fun i j => q i j - p i j with hD
  have hqe : q = fun i j => p i j + D i j := by funext i j; rw [hD]; ring
  have hg := best_grd hm hw hp D
  have htot : tot k n m us (fun i j => p i j + D i j) = tot k n m us p := by rw [← hqe]; exact le_antisymm (hq p) (hp q)
  -- sample by sample
  have gap : ∀ uw ∈ us, phi k m uw.2 (lin n uw.1 (fun i j => p i j + D i j)) = phi k m uw.2 (lin n uw.1 p) + ∑ j ∈ range m, zGrad k m uw.2 (lin n uw.1 p) j * lin n uw.1 D j := by
    have hge : ∀ uw ∈ us, 0 ≤ phi k m uw.2 (lin n uw.1 (fun i j => p i j + D i j)) - (phi k m uw.2 (lin n uw.1 p) + ∑ j ∈ range m, zGrad k m uw.2 (lin n uw.1 p) j * lin n uw.1 D j) := by
      intro uw hu
      have := (phi_bounds k hm (hw uw hu) (lin n uw.1 p) (lin n uw.1 D)).1
      have e : lin n uw.1 (fun i j => p i j + D i j) = fun j => lin n uw.1 p j + lin n uw.1 D j := funext (lin_add n uw.1 p D)
      rw [e]; linarith
    have hsum : (us.map (fun uw => phi k m uw.2 (lin n uw.1 (fun i j => p i j + D i j)) -
        (phi k m uw.2 (lin n uw.1 p) + ∑ j ∈ range m, zGrad k m uw.2 (lin n uw.1 p) j * lin n uw.1 D j))).sum ≤ 0 := by
      have e : (us.map (fun uw => phi k m uw.2 (lin n uw.1 (fun i j => p i j + D i j)) -
          (phi k m uw.2 (lin n uw.1 p) + ∑ j ∈ range m, zGrad k m uw.2 (lin n uw.1 p) j * lin n uw.1 D j))).sum =
          tot k n m us (fun i j => p i j + D i j) - (tot k n m us p + inn n m (grd k n m us p) D) := by
        rw [grd_inn]; unfold tot
        clear hge htot hg hp hq hw
        induction us with
        | nil => simp
        | cons uw us ih => simp only [List.map_cons, List.sum_cons, ih]; ring
      rw [e, htot]; linarith
    have hall : ∀ L : List ((Nat → ℝ) × (Nat → ℝ)), ∀ f : (Nat → ℝ) × (Nat → ℝ) → ℝ, (∀ a ∈ L, 0 ≤ f a) → (L.map f).sum ≤ 0 → ∀ a ∈ L, f a = 0 := by
      intro L f
      induction L with
      | nil => intro _ _ a ha; cases ha
      | cons x L ih =>
        intro h0 hs a ha
        rw [List.map_cons, List.sum_cons] at hs
        have hx := h0 x (List.mem_cons_self ..)
        have hL : 0 ≤ (L.map f).sum := List.sum_nonneg (fun y hy => by
          obtain ⟨b, hb, rfl⟩ := List.mem_map.1 hy
          exact h0 b (List.mem_cons_of_mem _ hb))
        rcases List.mem_cons.1 ha with rfl | ha
        · linarith
        · exact ih (fun b hb => h0 b (List.mem_cons_of_mem _ hb)) (by linarith) a ha
    intro uw hu
    have := hall us _ hge hsum uw hu
    linarith
  rw [grd_inn]
  refine List.sum_eq_zero (fun x hx => ?_)
  obtain ⟨uw, hu, rfl⟩ := List.mem_map.1 hx
  refine phi_flat k hm (hw uw hu) (lin n uw.1 p) (lin n uw.1 D) ?_ _
  have e : (fun j => lin n uw.1 p j + lin n uw.1 D j) = lin n uw.1 (fun i j => p i j + D i j) := (funext (lin_add n uw.1 p D)).symm
  rw [e]
  exact gap uw hu

/-- Gradient descent, if there is a minimiser: convergence to the minimiser nearest to the start. -/
theorem nearest (hm : 0 < m) (us : List ((Nat → ℝ) × (Nat → ℝ))) (hw : ∀ uw ∈ us, k.Target m uw.2) (lr a : ℝ) (hlr : 0 < lr) (ha : 0 < a) (hL : lr * (a * len2 n us) ≤ 1)
    (T : Nat → Nat → Nat → ℝ) (hT : ∀ N, T (N + 1) = fun i j => T N i j + -(grd k n m us (T N) i j * a * lr)) (hex : ∃ R, Best k n m us R) :
    ∃ p, Best k n m us p ∧ (∀ i j, i < n → j < m → Tendsto (fun N => T N i j) atTop (𝓝 (p i j))) ∧
      ∀ q, Best k n m us q → nrm n m (fun i j => T 0 i j - q i j) = nrm n m (fun i j => T 0 i j - p i j) + nrm n m (fun i j => p i j - q i j) := by
  have nrm0 : ∀ A, 0 ≤ nrm n m A := fun A => sum_nonneg (fun _ _ => sum_nonneg (fun _ _ => sq_nonneg _))
  -- the distance to a minimiser never grows
  have fejer : ∀ q, Best k n m us q → ∀ N, nrm n m (fun i j => T (N + 1) i j - q i j) ≤ nrm n m (fun i j => T N i j - q i j) := fun q hq N => by
    have h := (step_bound k n m hm us hw lr a hlr ha.le hL (T N) q).1
    rw [← hT N] at h
    have h2 : a * tot k n m us q ≤ a * tot k n m us (T (N + 1)) := mul_le_mul_of_nonneg_left (hq _) ha.le
    have h3 : 0 ≤ (nrm n m (fun i j => T N i j - q i j) - nrm n m (fun i j => T (N + 1) i j - q i j)) / (2 * lr) := by
      have e : (fun i j => T (N + 1) i j - q i j) = fun i j => T N i j + -(grd k n m us (T N) i j * a * lr) - q i j := by rw [hT N]
      rw [e]; linarith
    have h4 : 0 ≤ nrm n m (fun i j => T N i j - q i j) - nrm n m (fun i j => T (N + 1) i j - q i j) := by
      have := mul_nonneg h3 (by linarith : (0 : ℝ) ≤ 2 * lr)
      rwa [div_mul_cancel₀ _ (by linarith)] at this
    linarith
  have anti : ∀ q, Best k n m us q → Antitone (fun N => nrm n m (fun i j => T N i j - q i j)) := fun q hq => antitone_nat_of_succ_le (fejer q hq)
  obtain ⟨R, hR⟩ := hex
  -- the losses converge to the minimum
  have conv : ∀ N : Nat, (N : ℝ) * (a * (tot k n m us (T N) - tot k n m us R)) ≤ nrm n m (fun i j => T 0 i j - R i j) / (2 * lr) := by
    have hsum : ∀ N : Nat, (N : ℝ) * (a * (tot k n m us (T N) - tot k n m us R)) ≤ (nrm n m (fun i j => T 0 i j - R i j) - nrm n m (fun i j => T N i j - R i j)) / (2 * lr) := by
      intro N
      induction N with
      | zero => simp
      | succ N ih =>
        obtain ⟨h1, h2⟩ := step_bound k n m hm us hw lr a hlr ha.le hL (T N) R
        rw [← hT N] at h1 h2
        have e : (fun i j => T N i j + -(grd k n m us (T N) i j * a * lr) - R i j) = fun i j => T (N + 1) i j - R i j := by rw [hT N]
        rw [e] at h1
        have hN : (0 : ℝ) ≤ N := Nat.cast_nonneg N
        have h3 := mul_le_mul_of_nonneg_left h2 hN
        rw [sub_div] at h1 ih ⊢
        push_cast
        nlinarith
    intro N
    refine (hsum N).trans ?_
    have := nrm0 (fun i j => T N i j - R i j)
    gcongr
    linarith
  have hlim : Tendsto (fun N => tot k n m us (T N)) atTop (𝓝 (tot k n m us R)) := by
    have hup : Tendsto (fun N : Nat => tot k n m us R + nrm n m (fun i j => T 0 i j - R i j) / (2 * lr) / a / (N : ℝ)) atTop (𝓝 (tot k n m us R)) := by
      have := (tendsto_const_div_atTop_nhds_zero_nat (nrm n m (fun i j => T 0 i j - R i j) / (2 * lr) / a)).const_add (tot k n m us R)
      simpa using this
    refine tendsto_of_tendsto_of_tendsto_of_le_of_le' tendsto_const_nhds hup (Eventually.of_forall (fun N => hR _)) ?_
    filter_upwards [eventually_gt_atTop 0] with N hN
    have hN' : (0 : ℝ) < N := by exact_mod_cast hN
    have := conv N
    rw [← sub_le_iff_le_add', le_div_iff₀ hN', le_div_iff₀ ha]
    linarith
  -- a limit point
  obtain ⟨p, φ, hφ, hp⟩ := mat_subseq (T := T) (n := n) (m := m) (c := Real.sqrt (nrm n m (fun i j => T 0 i j - R i j)) + ∑ i ∈ range n, ∑ j ∈ range m, |R i j|) (fun N i j hi hj => by
    have h1 : |T N i j - R i j| ≤ Real.sqrt (nrm n m (fun i j => T 0 i j - R i j)) := by
      rw [← Real.sqrt_sq_eq_abs]
      exact Real.sqrt_le_sqrt ((nrm_entry (fun i j => T N i j - R i j) hi hj).trans (anti R hR (Nat.zero_le N)))
    have h2 : |R i j| ≤ ∑ i ∈ range n, ∑ j ∈ range m, |R i j| :=
      (single_le_sum (f := fun j => |R i j|) (fun _ _ => abs_nonneg _) (mem_range.2 hj)).trans
        (single_le_sum (f := fun i => ∑ j ∈ range m, |R i j|) (fun _ _ => sum_nonneg (fun _ _ => abs_nonneg _)) (mem_range.2 hi))
    have h3 := abs_add_le (T N i j - R i j) (R i j)
    rw [sub_add_cancel] at h3
    linarith)
  have hbest : Best k n m us p := by
    intro S
    refine le_trans ?_ (hR S)
    have h1 : Tendsto (fun N => tot k n m us (T (φ N)) - inn n m (grd k n m us p) (fun i j => T (φ N) i j - p i j)) atTop (𝓝 (tot k n m us R - 0)) := by
      refine (hlim.comp hφ.tendsto_atTop).sub ?_
      have : Tendsto (fun N => ∑ i ∈ range n, ∑ j ∈ range m, grd k n m us p i j * (T (φ N) i j - p i j)) atTop (𝓝 (∑ i ∈ range n, ∑ j ∈ range m, grd k n m us p i j * (p i j - p i j))) :=
        tendsto_finsetSum _ (fun i hi => tendsto_finsetSum _ (fun j hj => ((hp i j (mem_range.1 hi) (mem_range.1 hj)).sub_const _).const_mul _))
      simpa [inn] using this
    rw [sub_zero] at h1
    refine ge_of_tendsto h1 (Eventually.of_forall (fun N => ?_))
    have := (tot_bounds k n m hm us hw p (fun i j => T (φ N) i j - p i j)).1
    have e : (fun i j => p i j + (T (φ N) i j - p i j)) = T (φ N) := by funext i j; ring
    rw [e] at this
    show _ ≤ tot k n m us (T (φ N)) - inn n m _ _
    unfold inn
    linarith
  have hz : Tendsto (fun N => nrm n m (fun i j => T N i j - p i j)) atTop (𝓝 0) := by
    have hsub := nrm_tendsto hp
    have hl := tendsto_atTop_ciInf (anti p hbest) ⟨0, by rintro _ ⟨N, rfl⟩; exact nrm0 _⟩
    have := tendsto_nhds_unique (hl.comp hφ.tendsto_atTop) hsub
    rwa [this] at hl
  have hconv : ∀ i j, i < n → j < m → Tendsto (fun N => T N i j) atTop (𝓝 (p i j)) := fun i j hi hj => by
    have h1 : Tendsto (fun N => |T N i j - p i j|) atTop (𝓝 0) := by
      have hs : Tendsto (fun N => Real.sqrt (nrm n m (fun i j => T N i j - p i j))) atTop (𝓝 0) := by
        have := (Real.continuous_sqrt.tendsto 0).comp hz
        rwa [Real.sqrt_zero] at this
      refine squeeze_zero (fun _ => abs_nonneg _) (fun N => ?_) hs
      rw [← Real.sqrt_sq_eq_abs]
      exact Real.sqrt_le_sqrt (nrm_entry (fun i j => T N i j - p i j) hi hj)
    exact tendsto_sub_nhds_zero_iff.1 ((tendsto_zero_iff_abs_tendsto_zero _).2 h1)
  refine ⟨p, hbest, hconv, fun q hq => ?_⟩
  -- the run stays perpendicular to the set of minimisers
  have hperp : ∀ N, inn n m (T N) (fun i j => q i j - p i j) = inn n m (T 0) (fun i j => q i j - p i j) := by
    intro N
    induction N with
    | zero => rfl
    | succ N ih =>
      rw [← ih, hT N]
      have e : inn n m (fun i j => T N i j + -(grd k n m us (T N) i j * a * lr)) (fun i j => q i j - p i j) =
          inn n m (T N) (fun i j => q i j - p i j) - a * lr * inn n m (grd k n m us (T N)) (fun i j => q i j - p i j) := by
        unfold inn
        simp only [mul_sum, ← sum_sub_distrib]
        exact sum_congr rfl (fun i _ => sum_congr rfl (fun j _ => by ring))
      rw [e, best_flat hm hw hbest hq]; ring
  have hl := inn_tendsto (fun i j => q i j - p i j) hconv
  have h0 : inn n m p (fun i j => q i j - p i j) = inn n m (T 0) (fun i j => q i j - p i j) := by
    refine tendsto_nhds_unique hl ?_
    simp only [hperp]
    exact tendsto_const_nhds
  have e1 : (fun i j => T 0 i j - q i j) = fun i j => (T 0 i j - p i j) + (p i j - q i j) := by funext i j; ring
  have e2 : inn n m (fun i j => T 0 i j - p i j) (fun i j => p i j - q i j) = 0 := by
    have : inn n m (fun i j => T 0 i j - p i j) (fun i j => p i j - q i j) = -inn n m (fun i j => T 0 i j - p i j) (fun i j => q i j - p i j) := by
      unfold inn
      simp only [← sum_neg_distrib]
      exact sum_congr rfl (fun i _ => sum_congr rfl (fun j _ => by ring))
    rw [this, inn_sub, h0, sub_self, neg_zero]
  rw [e1, nrm_split, e2]
  ring


/-! ### Minimisers -/

theorem phi_congr (k : FitKind) (m : Nat) (w : Nat → ℝ) {z z' : Nat → ℝ} (h : ∀ j, j < m → z j = z' j) : phi k m w z = phi k m w z' := by
  have hs : ∀ j, j < m → softmaxFn m z j = softmaxFn m z' j := fun j hj => by
    show Real.exp (z j) / ∑ j ∈ range m, Real.exp (z j) = Real.exp (z' j) / ∑ j ∈ range m, Real.exp (z' j)
    rw [h j hj, sum_congr rfl (fun i hi => by rw [h i (mem_range.1 hi)])]
  cases k with
  | mse =>
    show 1 / 2 * ∑ j ∈ range m, (z j - w j) ^ 2 = 1 / 2 * ∑ j ∈ range m, (z' j - w j) ^ 2
    rw [sum_congr rfl (fun i hi => by rw [h i (mem_range.1 hi)])]
  | lc =>
    show ∑ j ∈ range m, Real.log (Real.cosh (z j - w j)) = ∑ j ∈ range m, Real.log (Real.cosh (z' j - w j))
    rw [sum_congr rfl (fun i hi => by rw [h i (mem_range.1 hi)])]
  | nll =>
    show -Real.log (∑ i ∈ range m, w i * softmaxFn m z i) = -Real.log (∑ i ∈ range m, w i * softmaxFn m z' i)
    rw [sum_congr rfl (fun i hi => by rw [hs i (mem_range.1 hi)])]
  | cce =>
    show -∑ i ∈ range m, w i * Real.log (softmaxFn m z i + 0) = -∑ i ∈ range m, w i * Real.log (softmaxFn m z' i + 0)
    rw [sum_congr rfl (fun i hi => by rw [hs i (mem_range.1 hi)])]

/-- A finite vector, continued by zeros. -/
noncomputable def pad (m : Nat) (v : Fin m → ℝ) (j : Nat) : ℝ := if h : j < m then v ⟨j, h⟩ else 0

theorem pad_lt {m : Nat} (v : Fin m → ℝ) {j : Nat} (h : j < m) : pad m v j = v ⟨j, h⟩ := dif_pos h

theorem pad_cont (m j : Nat) : Continuous (fun v : Fin m → ℝ => pad m v j) := by
  unfold pad
  split
  · exact continuous_apply _
  · exact continuous_const

theorem phi_cont (k : FitKind) {m : Nat} (hm : 0 < m) {w : Nat → ℝ} (hw : k.Target m w) : Continuous (fun v : Fin m → ℝ => phi k m w (pad m v)) := by
  have soft : (k = .nll ∨ k = .cce) → Continuous (fun v : Fin m → ℝ => phi k m w (pad m v)) := fun hk => by
    simp only [phi_soft hk hm hw]
    refine (Continuous.log ?_ (fun v => (expSum_pos hm _).ne')).sub ?_
    · exact continuous_finsetSum _ (fun j _ => Real.continuous_exp.comp (pad_cont m j))
    · exact continuous_finsetSum _ (fun j _ => (pad_cont m j).const_mul _)
  cases k with
  | mse =>
    show Continuous (fun v : Fin m → ℝ => 1 / 2 * ∑ j ∈ range m, (pad m v j - w j) ^ 2)
    exact continuous_const.mul (continuous_finsetSum _ (fun j _ => ((pad_cont m j).sub continuous_const).pow 2))
  | lc =>
    show Continuous (fun v : Fin m → ℝ => ∑ j ∈ range m, Real.log (Real.cosh (pad m v j - w j)))
    exact continuous_finsetSum _ (fun j _ => (Real.continuous_cosh.comp ((pad_cont m j).sub continuous_const)).log (fun v => (Real.cosh_pos _).ne'))
  | nll => exact soft (.inl rfl)
  | cce => exact soft (.inr rfl)

/-- A loss that grows with the (centred) weighted sums has a minimiser. -/
theorem best_exists (k : FitKind) (n : Nat) {m : Nat} (hm : 0 < m) (us : List ((Nat → ℝ) × (Nat → ℝ))) (hw : ∀ uw ∈ us, k.Target m uw.2) (γ δ c : ℝ) (hδ : 0 < δ) (_hc : 0 ≤ c)
    (hs : ∀ uw ∈ us, ∀ z : Nat → ℝ, phi k m uw.2 (fun j => z j - γ * ∑ a : Fin m, z a) = phi k m uw.2 z)
    (hl : ∀ uw ∈ us, ∀ z : Nat → ℝ, ∀ j, j < m → δ * |z j - γ * ∑ a : Fin m, z a| - c ≤ phi k m uw.2 z) : ∃ R, Best k n m us R := by
  let A : (Fin n → Fin m → ℝ) →ₗ[ℝ] (Fin us.length → Fin m → ℝ) :=
    { toFun := fun u i j => ∑ q : Fin n, us[i].1 q * u q j - γ * ∑ a : Fin m, ∑ q : Fin n, us[i].1 q * u q a
      map_add' := fun u v => by
        funext i j
        simp only [Pi.add_apply, mul_add, sum_add_distrib]
        ring
      map_smul' := fun r u => by
        funext i j
        simp only [Pi.smul_apply, smul_eq_mul, RingHom.id_apply, mul_sub, mul_sum]
        congr 1
        · exact sum_congr rfl (fun q _ => by ring)
        · exact sum_congr rfl (fun a _ => sum_congr rfl (fun q _ => by ring)) }
  let K := LinearMap.range A
  let F : K → ℝ := fun v => ∑ i : Fin us.length, phi k m us[i].2 (pad m (v.1 i))
  have hmem : ∀ i : Fin us.length, us[i] ∈ us := fun i => List.getElem_mem _
  have htot : ∀ S : Nat → Nat → ℝ, tot k n m us S = F ⟨A (fun q j => S q j), ⟨_, rfl⟩⟩ := fun S => by
    unfold tot
    rw [← Fin.sum_univ_fun_getElem us (fun uw => phi k m uw.2 (lin n uw.1 S))]
    refine sum_congr rfl (fun i _ => ?_)
    refine (hs _ (hmem i) (lin n us[i].1 S)).symm.trans (phi_congr k m _ (fun j hj => ?_))
    rw [pad_lt _ hj]
    show lin n us[i].1 S j - γ * ∑ a : Fin m, lin n us[i].1 S a = ∑ q : Fin n, us[i].1 q * S q j - γ * ∑ a : Fin m, ∑ q : Fin n, us[i].1 q * S q a
    have e : ∀ j, lin n us[i].1 S j = ∑ q : Fin n, us[i].1 q * S q j := fun j => (Fin.sum_univ_eq_sum_range (fun q => us[i].1 q * S q j) n).symm
    simp only [e]
  have hF : Continuous F := continuous_finsetSum _ (fun i _ =>
    (phi_cont k hm (hw _ (hmem i))).comp ((continuous_apply i).comp continuous_subtype_val))
  have hlow : ∀ (i : Fin us.length) (z : Nat → ℝ), -c ≤ phi k m us[i].2 z := fun i z => by
    have := hl _ (hmem i) z 0 hm
    have := mul_nonneg hδ.le (abs_nonneg (z 0 - γ * ∑ a : Fin m, z a))
    linarith
  have hcoe : ∀ v : K, ‖v‖ ≤ (F v + us.length * c) / δ := by
    rintro ⟨_, ⟨u, rfl⟩⟩
    have hval : ∀ i j, δ * |A u i j| - c ≤ phi k m us[i].2 (pad m (A u i)) := fun i j => by
      set z : Nat → ℝ := fun a => ∑ q : Fin n, us[i].1 q * pad m (u q) a with hz
      have hzj : ∀ a : Fin m, z a = ∑ q : Fin n, us[i].1 q * u q a := fun a => sum_congr rfl (fun q _ => by rw [pad_lt _ a.2])
      have hA : ∀ j : Fin m, A u i j = z j - γ * ∑ a : Fin m, z a := fun j => by
        simp only [hzj]
        rfl
      have h1 := hl _ (hmem i) z j j.2
      rw [← hA j, ← hs _ (hmem i) z] at h1
      refine h1.trans (le_of_eq (phi_congr k m _ (fun j hj => ?_)))
      rw [pad_lt _ hj, hA]
    have hFge : ∀ i j, δ * |A u i j| ≤ F ⟨A u, ⟨u, rfl⟩⟩ + us.length * c := fun i j => by
      have h1 : phi k m us[i].2 (pad m (A u i)) + c ≤ ∑ i : Fin us.length, (phi k m us[i].2 (pad m (A u i)) + c) :=
        single_le_sum (f := fun i : Fin us.length => phi k m us[i].2 (pad m (A u i)) + c) (fun i _ => by linarith [hlow i (pad m (A u i))]) (mem_univ i)
      rw [sum_add_distrib, sum_const, card_univ, Fintype.card_fin, nsmul_eq_mul] at h1
      have := hval i j
      show _ ≤ ∑ i : Fin us.length, phi k m us[i].2 (pad m (A u i)) + us.length * c
      linarith
    have hnn : 0 ≤ F ⟨A u, ⟨u, rfl⟩⟩ + us.length * c := by
      have : ∑ i : Fin us.length, (-c) ≤ ∑ i : Fin us.length, phi k m us[i].2 (pad m (A u i)) := sum_le_sum (fun i _ => hlow i _)
      rw [sum_const, card_univ, Fintype.card_fin, nsmul_eq_mul] at this
      show 0 ≤ ∑ i : Fin us.length, phi k m us[i].2 (pad m (A u i)) + us.length * c
      linarith
    show ‖A u‖ ≤ _
    refine (pi_norm_le_iff_of_nonneg (div_nonneg hnn hδ.le)).2 (fun i => (pi_norm_le_iff_of_nonneg (div_nonneg hnn hδ.le)).2 (fun j => ?_))
    rw [Real.norm_eq_abs, le_div_iff₀ hδ, mul_comm]
    exact hFge i j
  have hlim : Tendsto F (cocompact K) atTop := by
    have : ProperSpace K := FiniteDimensional.proper_real K
    have h1 : Tendsto (fun v : K => δ * ‖v‖ - us.length * c) (cocompact K) atTop :=
      tendsto_atTop_add_const_right _ _ ((tendsto_norm_cocompact_atTop (E := K)).const_mul_atTop hδ)
    refine tendsto_atTop_mono (fun v => ?_) h1
    have := hcoe v
    rw [le_div_iff₀ hδ] at this
    linarith
  obtain ⟨⟨_, ⟨u, rfl⟩⟩, hu⟩ := hF.exists_forall_le hlim
  refine ⟨fun q j => if h : q < n then pad m (u ⟨q, h⟩) j else 0, fun S => ?_⟩
  rw [htot, htot S]
  refine le_trans (le_of_eq ?_) (hu _)
  congr 2
  congr 1
  funext q j
  show (if h : (q : Nat) < n then pad m (u ⟨q, h⟩) j else 0) = u q j
  rw [dif_pos q.2, pad_lt _ j.2]

theorem best_regression (k : FitKind) (hk : k = .mse ∨ k = .lc) (n : Nat) {m : Nat} (hm : 0 < m) (us : List ((Nat → ℝ) × (Nat → ℝ))) : ∃ R, Best k n m us R := by
  have htgt : ∀ uw ∈ us, k.Target m uw.2 := fun uw _ => by rcases hk with rfl | rfl <;> trivial
  have hterm : ∀ w z : Nat → ℝ, ∀ j, j < m → |z j - w j| - 1 ≤ phi k m w z := fun w z j hj => by
    rcases hk with rfl | rfl
    · show _ ≤ 1 / 2 * ∑ j ∈ range m, (z j - w j) ^ 2
      have := single_le_sum (f := fun j => (z j - w j) ^ 2) (fun _ _ => sq_nonneg _) (mem_range.2 hj)
      have h2 := sq_abs (z j - w j)
      nlinarith [sq_nonneg (|z j - w j| - 1)]
    · show _ ≤ ∑ j ∈ range m, Real.log (Real.cosh (z j - w j))
      have := single_le_sum (f := fun j => Real.log (Real.cosh (z j - w j))) (fun _ _ => Real.log_nonneg (Real.one_le_cosh _)) (mem_range.2 hj)
      refine le_trans ?_ this
      rw [← Real.cosh_abs]
      set x := |z j - w j|
      have h3 : Real.exp (x - 1) ≤ Real.cosh x := by
        rw [Real.cosh_eq, Real.exp_sub]
        have he : 2 ≤ Real.exp 1 := by have := Real.add_one_le_exp (1 : ℝ); linarith
        have h4 : Real.exp x / Real.exp 1 ≤ Real.exp x / 2 := div_le_div_of_nonneg_left (Real.exp_pos _).le two_pos he
        have := Real.exp_pos (-x)
        linarith
      have h5 := Real.log_le_log (Real.exp_pos _) h3
      rwa [Real.log_exp] at h5
  obtain ⟨b, hb0, hb⟩ : ∃ b : ℝ, 0 ≤ b ∧ ∀ uw ∈ us, ∀ j, j < m → |uw.2 j| ≤ b := by
    refine ⟨(us.map (fun uw => ∑ j ∈ range m, |uw.2 j|)).sum, List.sum_nonneg (fun x hx => ?_), fun uw hu j hj => ?_⟩
    · obtain ⟨uw, _, rfl⟩ := List.mem_map.1 hx
      exact sum_nonneg (fun _ _ => abs_nonneg _)
    · refine (single_le_sum (f := fun j => |uw.2 j|) (fun _ _ => abs_nonneg _) (mem_range.2 hj)).trans ?_
      refine List.single_le_sum (fun x hx => ?_) _ (List.mem_map.2 ⟨uw, hu, rfl⟩)
      obtain ⟨uw, _, rfl⟩ := List.mem_map.1 hx
      exact sum_nonneg (fun _ _ => abs_nonneg _)
  refine best_exists k n hm us htgt 0 1 (b + 1) one_pos (by linarith) (fun uw _ z => ?_) (fun uw hu z j hj => ?_)
  · simp only [zero_mul, sub_zero]
  · rw [zero_mul, sub_zero, one_mul]
    have := hterm uw.2 z j hj
    have h2 := hb uw hu j hj
    have h3 := abs_sub_abs_le_abs_sub (z j) (uw.2 j)
    linarith

theorem best_soft (k : FitKind) (hk : k = .nll ∨ k = .cce) (n : Nat) {m : Nat} (hm : 0 < m) (us : List ((Nat → ℝ) × (Nat → ℝ)))
    (h1 : ∀ uw ∈ us, ∑ j ∈ range m, uw.2 j = 1) (hw : ∀ uw ∈ us, k.Target m uw.2) {δ : ℝ} (hδ : 0 < δ) (hpos : ∀ uw ∈ us, ∀ j, j < m → δ ≤ uw.2 j) : ∃ R, Best k n m us R := by
  have hm' : (0 : ℝ) < m := by exact_mod_cast hm
  have hsum : ∀ z : Nat → ℝ, ∑ a : Fin m, z a = ∑ a ∈ range m, z a := fun z => Fin.sum_univ_eq_sum_range z m
  have shift : ∀ uw ∈ us, ∀ (z : Nat → ℝ) (s : ℝ), phi k m uw.2 (fun j => z j - s) = phi k m uw.2 z := fun uw hu z s => by
    rw [phi_soft hk hm (hw uw hu), phi_soft hk hm (hw uw hu)]
    have e1 : expSum m (fun j => z j - s) = expSum m z / Real.exp s := by
      unfold expSum; rw [sum_div]; exact sum_congr rfl (fun j _ => Real.exp_sub _ _)
    have e2 : ∑ j ∈ range m, uw.2 j * (z j - s) = ∑ j ∈ range m, uw.2 j * z j - s := by
      simp only [mul_sub, sum_sub_distrib, ← sum_mul, h1 uw hu, one_mul]
    rw [e1, e2, Real.log_div (expSum_pos hm z).ne' (Real.exp_pos _).ne', Real.log_exp]
    ring
  refine best_exists k n hm us hw (1 / m) δ 0 hδ le_rfl (fun uw hu z => shift uw hu z _) (fun uw hu z j hj => ?_)
  rw [sub_zero, ← shift uw hu z (1 / m * ∑ a : Fin m, z a)]
  set y : Nat → ℝ := fun j => z j - 1 / m * ∑ a : Fin m, z a with hy
  have hy0 : ∑ j ∈ range m, y j = 0 := by
    rw [hy, sum_sub_distrib, sum_const, card_range, nsmul_eq_mul, hsum]
    field_simp; ring
  show δ * |y j| ≤ phi k m uw.2 y
  rw [phi_soft hk hm (hw uw hu)]
  -- every component is below the logarithm
  have hlog : ∀ i, i < m → y i ≤ Real.log (expSum m y) := fun i hi => by
    have : Real.exp (y i) ≤ expSum m y := single_le_sum (f := fun j => Real.exp (y j)) (fun _ _ => (Real.exp_pos _).le) (mem_range.2 hi)
    have := Real.log_le_log (Real.exp_pos _) this
    rwa [Real.log_exp] at this
  set M := Real.log (expSum m y)
  have hM0 : 0 ≤ M := by
    by_contra hneg
    push Not at hneg
    have : ∑ j ∈ range m, y j ≤ ∑ j ∈ range m, M := sum_le_sum (fun i hi => hlog i (mem_range.1 hi))
    rw [hy0, sum_const, card_range, nsmul_eq_mul] at this
    nlinarith
  have hgap : M - ∑ i ∈ range m, uw.2 i * y i = ∑ i ∈ range m, uw.2 i * (M - y i) := by
    simp only [mul_sub, sum_sub_distrib, ← sum_mul, h1 uw hu, one_mul]
  have hnn : ∀ i ∈ range m, 0 ≤ uw.2 i * (M - y i) := fun i hi =>
    mul_nonneg (hδ.le.trans (hpos uw hu i (mem_range.1 hi))) (by linarith [hlog i (mem_range.1 hi)])
  have hone : ∀ i, i < m → δ * (M - y i) ≤ M - ∑ i ∈ range m, uw.2 i * y i := fun i hi => by
    rw [hgap]
    refine le_trans ?_ (single_le_sum hnn (mem_range.2 hi))
    exact mul_le_mul_of_nonneg_right (hpos uw hu i hi) (by linarith [hlog i hi])
  rcases le_total 0 (y j) with h | h
  · -- some component is not positive
    obtain ⟨i, hi, hi0⟩ : ∃ i, i < m ∧ y i ≤ 0 := by
      by_contra hno
      push Not at hno
      have : 0 < ∑ j ∈ range m, y j := sum_pos (fun i hi => hno i (mem_range.1 hi)) ⟨0, mem_range.2 hm⟩
      linarith
    rw [abs_of_nonneg h]
    refine le_trans (mul_le_mul_of_nonneg_left ?_ hδ.le) (hone i hi)
    linarith [hlog j hj]
  · rw [abs_of_nonpos h]
    refine le_trans (mul_le_mul_of_nonneg_left ?_ hδ.le) (hone j hj)
    linarith

end Trixy.FitMath
