import Verif.Proof.Nearest
import Mathlib.Topology.Algebra.InfiniteSum.Real
/- Steps on changing batches that one set of parameters fits exactly. -/
namespace Trixy.FitMath
open Finset Filter Topology

variable {k : FitKind} {n m : Nat}

theorem mnrm_nonneg (n m : Nat) (A : Nat → Nat → ℝ) : 0 ≤ nrm n m A := sum_nonneg (fun _ _ => sum_nonneg (fun _ _ => sq_nonneg _))

/-- A step on a batch whose gradient vanishes at `R`. -/
theorem drop (hm : 0 < m) (us : List ((Nat → ℝ) × (Nat → ℝ))) (hw : ∀ uw ∈ us, k.Target m uw.2) (lr a : ℝ) (hlr : 0 < lr) (ha : 0 ≤ a) (hL : lr * (a * len2 n us) ≤ 1)
    (T R : Nat → Nat → ℝ) (hR : ∀ D, inn n m (grd k n m us R) D = 0) :
    nrm n m (fun i j => T i j + -(grd k n m us T i j * a * lr) - R i j) + 2 * lr * (a * (tot k n m us T - tot k n m us R)) ≤ nrm n m (fun i j => T i j - R i j) ∧
    nrm n m (fun i j => T i j + -(grd k n m us T i j * a * lr) - T i j) ≤ 2 * lr * (a * (tot k n m us T - tot k n m us R)) := by
  set G := grd k n m us T with hG
  set Q := nrm n m G with hQ
  have hQ0 : 0 ≤ Q := mnrm_nonneg n m G
  have hlen : lr * a * len2 n us ≤ 1 := by linarith [hL, mul_assoc lr a (len2 n us)]
  have hsq : ∀ c : ℝ, nrm n m (fun i j => c * G i j) = c ^ 2 * Q := fun c => by
    rw [hQ]; unfold nrm
    simp only [mul_sum]
    exact sum_congr rfl (fun i _ => sum_congr rfl (fun j _ => by ring))
  -- from above at R, from below at T
  have up := (tot_bounds k n m hm us hw R (fun i j => lr * a * G i j)).2
  have low := (tot_bounds k n m hm us hw T (fun i j => R i j + lr * a * G i j - T i j)).1
  have e0 : ∑ i ∈ range n, ∑ j ∈ range m, grd k n m us R i j * (lr * a * G i j) = 0 := hR (fun i j => lr * a * G i j)
  have e1 : (fun i j => T i j + (R i j + lr * a * G i j - T i j)) = fun i j => R i j + lr * a * G i j := by funext i j; ring
  have e2 : ∑ i ∈ range n, ∑ j ∈ range m, grd k n m us T i j * (R i j + lr * a * G i j - T i j) = lr * a * Q - inn n m G (fun i j => T i j - R i j) := by
    rw [hQ, ← hG]; unfold nrm inn
    simp only [mul_sum, ← sum_sub_distrib]
    exact sum_congr rfl (fun i _ => sum_congr rfl (fun j _ => by ring))
  rw [e0, hsq] at up
  rw [e1, e2] at low
  have h1 : len2 n us * ((lr * a) ^ 2 * Q) / 2 ≤ lr * a * Q / 2 := by
    have : lr * a * len2 n us * (lr * a * Q) ≤ 1 * (lr * a * Q) := mul_le_mul_of_nonneg_right hlen (by positivity)
    have e : len2 n us * ((lr * a) ^ 2 * Q) = lr * a * len2 n us * (lr * a * Q) := by ring
    rw [e]; linarith
  have key : tot k n m us T - tot k n m us R + lr * a * Q / 2 ≤ inn n m G (fun i j => T i j - R i j) := by linarith
  have hla : 0 ≤ 2 * lr * a := by positivity
  constructor
  · have e3 : nrm n m (fun i j => T i j + -(G i j * a * lr) - R i j) = nrm n m (fun i j => T i j - R i j) - 2 * lr * a * inn n m G (fun i j => T i j - R i j) + (lr * a) ^ 2 * Q := by
      rw [hQ]; unfold nrm inn
      simp only [mul_sum, ← sum_sub_distrib, ← sum_add_distrib]
      exact sum_congr rfl (fun i _ => sum_congr rfl (fun j _ => by ring))
    rw [e3]
    have := mul_le_mul_of_nonneg_left key hla
    nlinarith
  · have e3 : nrm n m (fun i j => T i j + -(G i j * a * lr) - T i j) = (lr * a) ^ 2 * Q := by
      rw [← hsq]; unfold nrm
      exact sum_congr rfl (fun i _ => sum_congr rfl (fun j _ => by ring))
    rw [e3]
    have up2 := (tot_bounds k n m hm us hw T (fun i j => -(lr * a) * G i j)).2
    have low2 := (tot_bounds k n m hm us hw R (fun i j => T i j + -(lr * a) * G i j - R i j)).1
    have e4 : ∑ i ∈ range n, ∑ j ∈ range m, grd k n m us R i j * (T i j + -(lr * a) * G i j - R i j) = 0 := hR _
    have e5 : (fun i j => R i j + (T i j + -(lr * a) * G i j - R i j)) = fun i j => T i j + -(lr * a) * G i j := by funext i j; ring
    have e6 : ∑ i ∈ range n, ∑ j ∈ range m, grd k n m us T i j * (-(lr * a) * G i j) = -(lr * a * Q) := by
      rw [hQ, ← hG]; unfold nrm
      simp only [mul_sum, ← sum_neg_distrib]
      exact sum_congr rfl (fun i _ => sum_congr rfl (fun j _ => by ring))
    rw [e6, hsq, neg_sq] at up2
    rw [e4, e5] at low2
    have h2 : lr * a * Q / 2 ≤ tot k n m us T - tot k n m us R := by linarith
    have := mul_le_mul_of_nonneg_left h2 hla
    nlinarith

variable (k n m) in
/-- The gradient of every sample vanishes. -/
def Exact (us : List ((Nat → ℝ) × (Nat → ℝ))) (R : Nat → Nat → ℝ) : Prop := ∀ uw ∈ us, ∀ j, j < m → zGrad k m uw.2 (lin n uw.1 R) j = 0

theorem Exact.grd {us : List ((Nat → ℝ) × (Nat → ℝ))} {R : Nat → Nat → ℝ} (h : Exact k n m us R) (D : Nat → Nat → ℝ) : inn n m (grd k n m us R) D = 0 := by
  rw [grd_inn]
  refine List.sum_eq_zero (fun x hx => ?_)
  obtain ⟨uw, hu, rfl⟩ := List.mem_map.1 hx
  exact sum_eq_zero (fun j hj => by rw [h uw hu j (mem_range.1 hj), zero_mul])

theorem Exact.phi_le (hm : 0 < m) {us : List ((Nat → ℝ) × (Nat → ℝ))} (hw : ∀ uw ∈ us, k.Target m uw.2) {R : Nat → Nat → ℝ} (h : Exact k n m us R) {uw : (Nat → ℝ) × (Nat → ℝ)}
    (hu : uw ∈ us) (z : Nat → ℝ) : phi k m uw.2 (lin n uw.1 R) ≤ phi k m uw.2 z := by
  have := (phi_bounds k hm (hw uw hu) (lin n uw.1 R) (fun j => z j - lin n uw.1 R j)).1
  have e : (fun j => lin n uw.1 R j + (z j - lin n uw.1 R j)) = z := by funext j; ring
  rw [e, sum_eq_zero (fun j hj => by rw [h uw hu j (mem_range.1 hj), zero_mul])] at this
  linarith

theorem Exact.best (hm : 0 < m) {us : List ((Nat → ℝ) × (Nat → ℝ))} (hw : ∀ uw ∈ us, k.Target m uw.2) {R : Nat → Nat → ℝ} (h : Exact k n m us R) : Best k n m us R :=
  fun _ => List.sum_le_sum (fun _ hu => h.phi_le hm hw hu _)

theorem zero_of_phi (hm : 0 < m) {w : Nat → ℝ} (hw : k.Target m w) {z r : Nat → ℝ} (hr : ∀ z, phi k m w r ≤ phi k m w z) (h : phi k m w z ≤ phi k m w r) {j : Nat} (hj : j < m) :
    zGrad k m w z j = 0 := by
  have up := (phi_bounds k hm hw z (fun j => -zGrad k m w z j)).2
  have := hr (fun j => z j + -zGrad k m w z j)
  have e : ∑ j ∈ range m, zGrad k m w z j * -zGrad k m w z j = -∑ j ∈ range m, zGrad k m w z j ^ 2 := by
    rw [← sum_neg_distrib]; exact sum_congr rfl (fun j _ => by ring)
  have e2 : ∑ j ∈ range m, (-zGrad k m w z j) ^ 2 = ∑ j ∈ range m, zGrad k m w z j ^ 2 := sum_congr rfl (fun j _ => by ring)
  rw [e, e2] at up
  have h0 : ∑ j ∈ range m, zGrad k m w z j ^ 2 = 0 := le_antisymm (by linarith) (sum_nonneg (fun _ _ => sq_nonneg _))
  have := (sum_eq_zero_iff_of_nonneg (fun _ _ => sq_nonneg _)).1 h0 j (mem_range.2 hj)
  exact pow_eq_zero_iff (by decide) |>.1 this

/-- Changing batches of samples that can be fitted exactly, every sample at least once in `K` steps: convergence to the nearest exact solution. -/
theorem interp (hm : 0 < m) (data : List ((Nat → ℝ) × (Nat → ℝ))) (hw : ∀ uw ∈ data, k.Target m uw.2) (us : Nat → List ((Nat → ℝ) × (Nat → ℝ)))
    (hsub : ∀ N, ∀ uw ∈ us N, uw ∈ data) (lr : ℝ) (hlr : 0 < lr) (a : Nat → ℝ) (α : ℝ) (hα : 0 < α) (ha : ∀ N, α ≤ a N) (hL : ∀ N, lr * (a N * len2 n (us N)) ≤ 1) (K : Nat)
    (hwin : ∀ uw ∈ data, ∀ N, ∃ i, N ≤ i ∧ i < N + K ∧ uw ∈ us i) (T : Nat → Nat → Nat → ℝ)
    (hT : ∀ N, T (N + 1) = fun i j => T N i j + -(grd k n m (us N) (T N) i j * a N * lr)) (hex : ∃ R, Exact k n m data R) :
    ∃ p, Exact k n m data p ∧ (∀ i j, i < n → j < m → Tendsto (fun N => T N i j) atTop (𝓝 (p i j))) ∧
      ∀ q, Exact k n m data q → nrm n m (fun i j => T 0 i j - q i j) = nrm n m (fun i j => T 0 i j - p i j) + nrm n m (fun i j => p i j - q i j) := by
  have hw' : ∀ N, ∀ uw ∈ us N, k.Target m uw.2 := fun N uw hu => hw uw (hsub N uw hu)
  have hsubE : ∀ {R}, Exact k n m data R → ∀ N, Exact k n m (us N) R := fun h N uw hu => h uw (hsub N uw hu)
  have ha0 : ∀ N, 0 < a N := fun N => hα.trans_le (ha N)
  let e : (Nat → Nat → ℝ) → Nat → ℝ := fun R N => a N * (tot k n m (us N) (T N) - tot k n m (us N) R)
  have he0 : ∀ {R}, Exact k n m data R → ∀ N, 0 ≤ e R N := fun h N => mul_nonneg (ha0 N).le (sub_nonneg.2 ((hsubE h N).best hm (hw' N) _))
  have hdrop : ∀ {R}, Exact k n m data R → ∀ N, nrm n m (fun i j => T (N + 1) i j - R i j) + 2 * lr * e R N ≤ nrm n m (fun i j => T N i j - R i j) ∧
      nrm n m (fun i j => T (N + 1) i j - T N i j) ≤ 2 * lr * e R N := fun h N => by
    have := drop hm (us N) (hw' N) lr (a N) hlr (ha0 N).le (hL N) (T N) _ (hsubE h N).grd
    rw [hT N]
    exact this
  have anti : ∀ {R}, Exact k n m data R → Antitone (fun N => nrm n m (fun i j => T N i j - R i j)) := fun h => antitone_nat_of_succ_le (fun N => by
    have := (hdrop h N).1
    have := mul_nonneg (by linarith : (0 : ℝ) ≤ 2 * lr) (he0 h N)
    linarith)
  obtain ⟨R, hR⟩ := hex
  have hesum : ∀ N, ∑ i ∈ range N, 2 * lr * e R i ≤ nrm n m (fun i j => T 0 i j - R i j) := fun N => by
    have : ∑ i ∈ range N, 2 * lr * e R i + nrm n m (fun i j => T N i j - R i j) ≤ nrm n m (fun i j => T 0 i j - R i j) := by
      induction N with
      | zero => simp
      | succ N ih => rw [sum_range_succ]; linarith [(hdrop hR N).1]
    linarith [mnrm_nonneg n m (fun i j => T N i j - R i j)]
  have he2 : Tendsto (fun N => 2 * lr * e R N) atTop (𝓝 0) :=
    (summable_of_sum_range_le (fun N => mul_nonneg (by linarith) (he0 hR N)) hesum).tendsto_atTop_zero
  have hetend : Tendsto (e R) atTop (𝓝 0) := by
    have := he2.const_mul (1 / (2 * lr))
    rw [mul_zero] at this
    refine this.congr (fun N => ?_)
    field_simp
  let s : Nat → ℝ := fun N => Real.sqrt (2 * lr * e R N)
  have hs0 : Tendsto s atTop (𝓝 0) := by
    have := (Real.continuous_sqrt.tendsto 0).comp he2
    rwa [Real.sqrt_zero] at this
  have hstep : ∀ N i j, i < n → j < m → |T (N + 1) i j - T N i j| ≤ s N := fun N i j hi hj => by
    rw [← Real.sqrt_sq_eq_abs]
    exact Real.sqrt_le_sqrt ((nrm_entry (fun i j => T (N + 1) i j - T N i j) hi hj).trans (hdrop hR N).2)
  have hrun : ∀ r N i j, i < n → j < m → |T (N + r) i j - T N i j| ≤ ∑ q ∈ range r, s (N + q) := fun r N i j hi hj => by
    induction r with
    | zero => simp
    | succ r ih =>
      rw [sum_range_succ]
      have h1 := hstep (N + r) i j hi hj
      have h2 : T (N + (r + 1)) i j - T N i j = (T (N + r + 1) i j - T (N + r) i j) + (T (N + r) i j - T N i j) := by rw [← add_assoc]; ring
      rw [h2]
      exact (abs_add_le _ _).trans (by linarith)
  let W : Nat → ℝ := fun N => ∑ q ∈ range K, s (N + q)
  have hW : Tendsto W atTop (𝓝 0) := by
    have : Tendsto W atTop (𝓝 (∑ q ∈ range K, 0)) := tendsto_finsetSum _ (fun q _ => hs0.comp (tendsto_add_atTop_nat q))
    simpa using this
  -- a limit point
  obtain ⟨p, φ, hφ, hp⟩ := mat_subseq (T := T) (n := n) (m := m) (c := Real.sqrt (nrm n m (fun i j => T 0 i j - R i j)) + ∑ i ∈ range n, ∑ j ∈ range m, |R i j|) (fun N i j hi hj => by
    have h1 : |T N i j - R i j| ≤ Real.sqrt (nrm n m (fun i j => T 0 i j - R i j)) := by
      rw [← Real.sqrt_sq_eq_abs]
      exact Real.sqrt_le_sqrt ((nrm_entry (fun i j => T N i j - R i j) hi hj).trans (anti hR (Nat.zero_le N)))
    have h2 : |R i j| ≤ ∑ i ∈ range n, ∑ j ∈ range m, |R i j| :=
      (single_le_sum (f := fun j => |R i j|) (fun _ _ => abs_nonneg _) (mem_range.2 hj)).trans
        (single_le_sum (f := fun i => ∑ j ∈ range m, |R i j|) (fun _ _ => sum_nonneg (fun _ _ => abs_nonneg _)) (mem_range.2 hi))
    have h3 := abs_add_le (T N i j - R i j) (R i j)
    rw [sub_add_cancel] at h3
    linarith)
  have hexact : Exact k n m data p := by
    intro uw hu j hj
    choose g hg1 hg2 hg3 using hwin uw hu
    have hgt : Tendsto (fun N => g (φ N)) atTop atTop := tendsto_atTop_mono (fun N => hg1 (φ N)) hφ.tendsto_atTop
    have hTg : ∀ i j, i < n → j < m → Tendsto (fun N => T (g (φ N)) i j) atTop (𝓝 (p i j)) := fun i j hi hj => by
      have h1 : Tendsto (fun N => T (g (φ N)) i j - T (φ N) i j) atTop (𝓝 0) := by
        refine (tendsto_zero_iff_abs_tendsto_zero _).2 (squeeze_zero (fun _ => abs_nonneg _) (fun N => ?_) (hW.comp hφ.tendsto_atTop))
        show |T (g (φ N)) i j - T (φ N) i j| ≤ ∑ q ∈ range K, s (φ N + q)
        obtain ⟨r, hr⟩ := Nat.exists_eq_add_of_le (hg1 (φ N))
        have hrK : r ≤ K := by have := hg2 (φ N); omega
        rw [hr]
        exact (hrun r (φ N) i j hi hj).trans (sum_le_sum_of_subset_of_nonneg (range_mono hrK) (fun _ _ _ => Real.sqrt_nonneg _))
      have h2 := h1.add (hp i j hi hj)
      rw [zero_add] at h2
      exact h2.congr (fun N => by ring)
    have hz : ∀ j, j < m → Tendsto (fun N => lin n uw.1 (T (g (φ N))) j) atTop (𝓝 (lin n uw.1 p j)) := fun j hj =>
      tendsto_finsetSum _ (fun i hi => (hTg i j (mem_range.1 hi) hj).const_mul _)
    have hphi : Tendsto (fun N => phi k m uw.2 (lin n uw.1 (T (g (φ N))))) atTop (𝓝 (phi k m uw.2 (lin n uw.1 p))) := by
      have hc : ∀ z : Nat → ℝ, phi k m uw.2 (pad m (fun j : Fin m => z j)) = phi k m uw.2 z := fun z => phi_congr k m _ (fun j hj => pad_lt _ hj)
      have h1 := ((phi_cont k hm (hw uw hu)).tendsto (fun j : Fin m => lin n uw.1 p j)).comp
        (tendsto_pi_nhds.2 (fun j : Fin m => hz j j.2))
      rw [hc] at h1
      refine h1.congr (fun N => ?_)
      exact hc (lin n uw.1 (T (g (φ N))))
    have hle : ∀ N, phi k m uw.2 (lin n uw.1 (T (g (φ N)))) - phi k m uw.2 (lin n uw.1 R) ≤ e R (g (φ N)) / α := fun N => by
      set M := g (φ N)
      have h1 : phi k m uw.2 (lin n uw.1 (T M)) - phi k m uw.2 (lin n uw.1 R) ≤ tot k n m (us M) (T M) - tot k n m (us M) R := by
        have h2 : phi k m uw.2 (lin n uw.1 (T M)) - phi k m uw.2 (lin n uw.1 R) ≤
            ((us M).map (fun uw => phi k m uw.2 (lin n uw.1 (T M)) - phi k m uw.2 (lin n uw.1 R))).sum :=
          List.single_le_sum (fun x hx => by
            obtain ⟨vw, hv, rfl⟩ := List.mem_map.1 hx
            exact sub_nonneg.2 ((hsubE hR M).phi_le hm (hw' M) hv _)) _ (List.mem_map.2 ⟨uw, hg3 (φ N), rfl⟩)
        refine h2.trans (le_of_eq ?_)
        unfold tot
        generalize us M = L
        induction L with
        | nil => simp
        | cons x L ih => simp only [List.map_cons, List.sum_cons, ih]; ring
      rw [le_div_iff₀ hα]
      have h3 := (hsubE hR M).best hm (hw' M) (T M)
      have h4 : (phi k m uw.2 (lin n uw.1 (T M)) - phi k m uw.2 (lin n uw.1 R)) * α ≤ (tot k n m (us M) (T M) - tot k n m (us M) R) * α := mul_le_mul_of_nonneg_right h1 hα.le
      have h5 : (tot k n m (us M) (T M) - tot k n m (us M) R) * α ≤ (tot k n m (us M) (T M) - tot k n m (us M) R) * a M := mul_le_mul_of_nonneg_left (ha M) (sub_nonneg.2 h3)
      have h6 : e R M = a M * (tot k n m (us M) (T M) - tot k n m (us M) R) := rfl
      rw [h6]; linarith
    have hlim : phi k m uw.2 (lin n uw.1 p) - phi k m uw.2 (lin n uw.1 R) ≤ 0 := by
      have h1 : Tendsto (fun N => e R (g (φ N)) / α) atTop (𝓝 (0 / α)) := (hetend.comp hgt).div_const α
      rw [zero_div] at h1
      exact le_of_tendsto_of_tendsto' (hphi.sub_const _) h1 hle
    exact zero_of_phi hm (hw uw hu) (hR.phi_le hm hw hu) (by linarith) hj
  have hz : Tendsto (fun N => nrm n m (fun i j => T N i j - p i j)) atTop (𝓝 0) := by
    have hsub := nrm_tendsto hp
    have hl := tendsto_atTop_ciInf (anti hexact) ⟨0, by rintro _ ⟨N, rfl⟩; exact mnrm_nonneg n m _⟩
    have := tendsto_nhds_unique (hl.comp hφ.tendsto_atTop) hsub
    rwa [this] at hl
  have hconv : ∀ i j, i < n → j < m → Tendsto (fun N => T N i j) atTop (𝓝 (p i j)) := fun i j hi hj => by
    have h1 : Tendsto (fun N => |T N i j - p i j|) atTop (𝓝 0) := by
      have hs : Tendsto (fun N => Real.sqrt (nrm n m (fun i j => T N i j - p i j))) atTop (𝓝 0) := by
        have := (Real.continuous_sqrt.tendsto 0).comp hz
        rwa [Real.sqrt_zero] at this
      refine squeeze_zero (fun _ => abs_nonneg _) (fun N => ?_) hs
      rw [← Real.sqrt_sq_eq_abs]
      exact Real.sqrt_le_sqrt (nrm_entry (fun i j => T N i j - p i j) hi hj)
    exact tendsto_sub_nhds_zero_iff.1 ((tendsto_zero_iff_abs_tendsto_zero _).2 h1)
  refine ⟨p, hexact, hconv, fun q hq => ?_⟩
  have hperp : ∀ N, inn n m (T N) (fun i j => q i j - p i j) = inn n m (T 0) (fun i j => q i j - p i j) := by
    intro N
    induction N with
    | zero => rfl
    | succ N ih =>
      rw [← ih, hT N]
      have e : inn n m (fun i j => T N i j + -(grd k n m (us N) (T N) i j * a N * lr)) (fun i j => q i j - p i j) =
          inn n m (T N) (fun i j => q i j - p i j) - a N * lr * inn n m (grd k n m (us N) (T N)) (fun i j => q i j - p i j) := by
        unfold inn
        simp only [mul_sum, ← sum_sub_distrib]
        exact sum_congr rfl (fun i _ => sum_congr rfl (fun j _ => by ring))
      rw [e, best_flat hm (hw' N) ((hsubE hexact N).best hm (hw' N)) ((hsubE hq N).best hm (hw' N))]; ring
  have hl := inn_tendsto (fun i j => q i j - p i j) hconv
  have h0 : inn n m p (fun i j => q i j - p i j) = inn n m (T 0) (fun i j => q i j - p i j) := by
    refine tendsto_nhds_unique hl ?_
    simp only [hperp]
    exact tendsto_const_nhds
  have e1 : (fun i j => T 0 i j - q i j) = fun i j => (T 0 i j - p i j) + (p i j - q i j) := by funext i j; ring
  have e2 : inn n m (fun i j => T 0 i j - p i j) (fun i j => p i j - q i j) = 0 := by
    have : inn n m (fun i j => T 0 i j - p i j) (fun i j => p i j - q i j) = -inn n m (fun i j => T 0 i j - p i j) (fun i j => q i j - p i j) := by
      unfold inn
      simp only [← sum_neg_distrib]
      exact sum_congr rfl (fun i _ => sum_congr rfl (fun j _ => by ring))
    rw [this, inn_sub, h0, sub_self, neg_zero]
  rw [e1, nrm_split, e2]
  ring

end Trixy.FitMath
