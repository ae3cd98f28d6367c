import Verif.Proof.Cycle
/- Linear regression on a fixed cycle of batches: runs approach each other exponentially. -/
namespace Trixy.FitMath
open Finset Filter Topology

variable {n m : Nat}

/-- Sum of the squares of the entries. -/
def sq2 (A : EMat n m) : ℝ := ∑ i, ∑ j, A i j ^ 2

theorem nrm_fin (T : Nat → Nat → ℝ) (A : EMat n m) (h : ∀ (i : Fin n) (j : Fin m), T i j = A i j) : nrm n m T = sq2 A := by
  unfold nrm sq2
  rw [← Fin.sum_univ_eq_sum_range (fun i => ∑ j ∈ range m, T i j ^ 2)]
  refine sum_congr rfl (fun i _ => ?_)
  rw [← Fin.sum_univ_eq_sum_range (fun j => T i j ^ 2)]
  exact sum_congr rfl (fun j _ => by rw [h])

theorem nrm_ext (A : EMat n m) : nrm n m (ext A) = sq2 A := nrm_fin _ _ (ext_in A)

theorem sq2_nonneg (A : EMat n m) : 0 ≤ sq2 A := sum_nonneg (fun _ _ => sum_nonneg (fun _ _ => sq_nonneg _))

theorem sq2_entry (A : EMat n m) (i : Fin n) (j : Fin m) : A i j ^ 2 ≤ sq2 A :=
  (single_le_sum (f := fun j => A i j ^ 2) (fun _ _ => sq_nonneg _) (mem_univ j)).trans
    (single_le_sum (f := fun i => ∑ j, A i j ^ 2) (fun _ _ => sum_nonneg (fun _ _ => sq_nonneg _)) (mem_univ i))

theorem sq2_smul (t : ℝ) (A : EMat n m) : sq2 (t • A) = t ^ 2 * sq2 A := by
  unfold sq2
  simp only [mul_sum, Pi.smul_apply, smul_eq_mul, mul_pow]

theorem sq2_continuous : Continuous (sq2 : EMat n m → ℝ) :=
  continuous_finset_sum _ (fun i _ => continuous_finset_sum _ (fun j _ => ((continuous_apply j).comp (continuous_apply i)).pow 2))

theorem sq2_pos {A : EMat n m} (h : A ≠ 0) : 0 < sq2 A := by
  refine lt_of_le_of_ne (sq2_nonneg A) (fun h0 => h ?_)
  funext i j
  have := sq2_entry A i j
  rw [← h0] at this
  exact pow_eq_zero_iff (by decide) |>.1 (le_antisymm this (sq_nonneg _))

section
variable {data : List ((Nat → ℝ) × (Nat → ℝ))} {us : Nat → List ((Nat → ℝ) × (Nat → ℝ))}
  (hm : 0 < m) (hsub : ∀ N, ∀ uw ∈ us N, uw ∈ data) {lr : ℝ} (hlr : 0 < lr) {a : Nat → ℝ} (ha : ∀ N, 0 < a N)
  (hL : ∀ N, lr * (a N * len2 n (us N)) ≤ 1) {K : Nat} (hall : ∀ uw ∈ data, ∃ i, i < K ∧ uw ∈ us i)
include hm hlr ha hL hall

/-- One cycle shortens combinations of inputs by a fixed factor. -/
theorem contract : ∃ q : ℝ, 0 ≤ q ∧ q < 1 ∧ ∀ A : spanV n m data, sq2 (runL hsub (fun N => a N * lr) K A : EMat n m) ≤ q * sq2 (A : EMat n m) := by
  set R := runL (n := n) (m := m) hsub (fun N => a N * lr) K with hR
  let S : Set (spanV n m data) := {A | sq2 (A : EMat n m) = 1}
  have hcl : IsClosed S := isClosed_eq (sq2_continuous.comp continuous_subtype_val) continuous_const
  have hbd : Bornology.IsBounded S := by
    refine (Metric.isBounded_iff_subset_closedBall (0 : spanV n m data)).2 ⟨1, fun A hA => ?_⟩
    rw [mem_closedBall_zero_iff]
    show ‖(A : EMat n m)‖ ≤ 1
    refine (pi_norm_le_iff_of_nonneg zero_le_one).2 (fun i => (pi_norm_le_iff_of_nonneg zero_le_one).2 (fun j => ?_))
    have h1 : (A : EMat n m) i j ^ 2 ≤ 1 := (sq2_entry _ i j).trans (le_of_eq hA)
    rw [Real.norm_eq_abs]
    exact abs_le_one_iff_mul_self_le_one.2 (by rw [← sq]; exact h1)
  haveI : ProperSpace (spanV n m data) := FiniteDimensional.proper ℝ _
  have hcpt : IsCompact S := Metric.isCompact_of_isClosed_isBounded hcl hbd
  have hcont : Continuous (fun A : spanV n m data => sq2 (R A : EMat n m)) :=
    sq2_continuous.comp (continuous_subtype_val.comp (LinearMap.continuous_of_finiteDimensional R))
  by_cases hne : S.Nonempty
  · obtain ⟨A0, hA0, hmax⟩ := hcpt.exists_isMaxOn hne hcont.continuousOn
    refine ⟨sq2 (R A0 : EMat n m), sq2_nonneg _, ?_, fun A => ?_⟩
    · by_contra hge
      push Not at hge
      have := runL_strict hm hsub hlr ha hL hall A0 (by rw [nrm_ext, nrm_ext, show sq2 (A0 : EMat n m) = 1 from hA0]; exact hge)
      have h1 : sq2 (A0 : EMat n m) = 1 := hA0
      rw [this] at h1
      simp [sq2] at h1
    · by_cases h0 : (A : EMat n m) = 0
      · have : A = 0 := Subtype.ext h0
        rw [this, map_zero]
        simp [sq2]
      · have hp := sq2_pos h0
        set s := Real.sqrt (sq2 (A : EMat n m)) with hs
        have hsp : 0 < s := Real.sqrt_pos.2 hp
        have hs2 : s ^ 2 = sq2 (A : EMat n m) := Real.sq_sqrt hp.le
        have hmem : s⁻¹ • A ∈ S := by
          show sq2 (s⁻¹ • (A : EMat n m)) = 1
          rw [sq2_smul, ← hs2]
          field_simp
        have h1 : sq2 (R (s⁻¹ • A) : EMat n m) ≤ sq2 (R A0 : EMat n m) := hmax hmem
        rw [map_smul] at h1
        have h2 : sq2 ((s⁻¹ • R A : spanV n m data) : EMat n m) = (s⁻¹) ^ 2 * sq2 (R A : EMat n m) := sq2_smul _ _
        rw [h2, inv_pow, hs2, inv_mul_le_iff₀ hp] at h1
        linarith
  · refine ⟨0, le_rfl, zero_lt_one, fun A => ?_⟩
    have h0 : A = 0 := by
      by_contra hA
      have hA' : (A : EMat n m) ≠ 0 := fun h => hA (Subtype.ext h)
      have hp := sq2_pos hA'
      refine hne ⟨(Real.sqrt (sq2 (A : EMat n m)))⁻¹ • A, ?_⟩
      show sq2 ((Real.sqrt (sq2 (A : EMat n m)))⁻¹ • (A : EMat n m)) = 1
      rw [sq2_smul, inv_pow, Real.sq_sqrt hp.le, inv_mul_cancel₀ hp.ne']
    rw [h0, map_zero]
    simp [sq2]

end

/-- Two runs on the same cycle of batches whose difference vanishes in the limit: it vanishes exponentially, by a factor that depends on the cycle only. -/
theorem cycle_rate (hm : 0 < m) (us : Nat → List ((Nat → ℝ) × (Nat → ℝ))) (lr : ℝ) (hlr : 0 < lr) (a : Nat → ℝ) (ha : ∀ N, 0 < a N)
    (hL : ∀ N, lr * (a N * len2 n (us N)) ≤ 1) (K : Nat) (hK : 0 < K) (hus : ∀ N, us (N + K) = us N) (hac : ∀ N, a (N + K) = a N) :
    ∃ q : ℝ, 0 ≤ q ∧ q < 1 ∧ ∀ T S : Nat → Nat → Nat → ℝ, (∀ N, T (N + 1) = fun i j => T N i j + -(grd .mse n m (us N) (T N) i j * a N * lr)) →
      (∀ N, S (N + 1) = fun i j => S N i j + -(grd .mse n m (us N) (S N) i j * a N * lr)) →
      (∀ i j, i < n → j < m → Tendsto (fun N => T N i j - S N i j) atTop (𝓝 0)) →
      ∀ N, nrm n m (fun i j => T N i j - S N i j) ≤ q ^ (N / K) * nrm n m (fun i j => T 0 i j - S 0 i j) := by
  set data : List ((Nat → ℝ) × (Nat → ℝ)) := (List.range K).flatMap us with hd
  have hmod : ∀ r N, us (N + r * K) = us N := fun r N => by
    induction r with
    | zero => simp
    | succ r ih => rw [Nat.succ_mul, ← add_assoc, hus, ih]
  have hmoda : ∀ r N, a (N + r * K) = a N := fun r N => by
    induction r with
    | zero => simp
    | succ r ih => rw [Nat.succ_mul, ← add_assoc, hac, ih]
  have hsub : ∀ N, ∀ uw ∈ us N, uw ∈ data := fun N uw hu => by
    refine List.mem_flatMap.2 ⟨N % K, List.mem_range.2 (Nat.mod_lt _ hK), ?_⟩
    rw [← hmod (N / K) (N % K), Nat.mul_comm, Nat.mod_add_div]
    exact hu
  have hall : ∀ uw ∈ data, ∃ i, i < K ∧ uw ∈ us i := fun uw hu => by
    obtain ⟨i, h1, h2⟩ := List.mem_flatMap.1 hu
    exact ⟨i, List.mem_range.1 h1, h2⟩
  obtain ⟨q, hq0, hq1, hq⟩ := contract (n := n) hm hsub hlr ha hL hall
  refine ⟨q, hq0, hq1, fun T S hT hS hlim N => ?_⟩
  let D : Nat → EMat n m := fun N i j => T N i j - S N i j
  have hD : ∀ N, nrm n m (fun i j => T N i j - S N i j) = sq2 (D N) := fun N => nrm_fin _ _ (fun _ _ => rfl)
  have hstep : ∀ N, D (N + 1) = stepL n m (us N) (a N * lr) (D N) := fun N => by
    funext i j
    have h1 := step_fin (zeroed (us N)) (a N * lr) (D N) i j
    rw [stepC_zeroed, add_zero, stepL_zeroed, ext_in] at h1
    rw [← h1]
    show T (N + 1) i j - S (N + 1) i j = T N i j - S N i j + _
    have h2 : grd .mse n m (zeroed (us N)) (ext (D N)) i j = grd .mse n m (us N) (T N) i j - grd .mse n m (us N) (S N) i j := by
      rw [grd_sub]
      exact grd_lin (fun uw _ => lin_congr (fun i' hi' => ext_in (D N) ⟨i', hi'⟩ j)) i
    rw [hT, hS, h2]
    ring
  have hmemD : ∀ N, D 0 - D N ∈ spanV n m data := fun N => by
    induction N with
    | zero => rw [sub_self]; exact zero_mem _
    | succ N ih =>
      have e : D 0 - D (N + 1) = (D 0 - D N) + (fun (i : Fin n) (j : Fin m) => a N * lr * ((us N).map (fun uw => uw.1 i * ∑ q : Fin n, uw.1 q * D N q j)).sum) := by
        rw [hstep]
        funext i j
        show D 0 i j - (D N i j - _) = D 0 i j - D N i j + _
        ring
      rw [e]
      exact add_mem ih (input_mem (hsub N) (a N * lr) (fun uw j => ∑ q : Fin n, uw.1 q * D N q j))
  have hlimD : Tendsto (fun N => D 0 - D N) atTop (𝓝 (D 0)) := by
    have h1 : Tendsto D atTop (𝓝 0) := tendsto_pi_nhds.2 (fun i => tendsto_pi_nhds.2 (fun j => hlim i j i.2 j.2))
    have := h1.const_sub (D 0)
    rwa [sub_zero] at this
  have h0 : D 0 ∈ spanV n m data := (Submodule.closed_of_finiteDimensional (spanV n m data)).mem_of_tendsto hlimD (Eventually.of_forall hmemD)
  have hall' : ∀ N, D N ∈ spanV n m data := fun N => by
    have := sub_mem h0 (hmemD N)
    rwa [sub_sub_cancel] at this
  have hanti : ∀ N, sq2 (D (N + 1)) ≤ sq2 (D N) := fun N => by
    have := (stepL_short hm (us N) lr (a N) hlr (ha N) (hL N) (D N)).1
    rw [← hstep, nrm_ext, nrm_ext] at this
    exact this
  have hA : Antitone (fun N => sq2 (D N)) := antitone_nat_of_succ_le hanti
  have hrunD : ∀ e N, D (e * K + N) = (runL hsub (fun N => a N * lr) N ⟨D (e * K), hall' _⟩ : EMat n m) := fun e N => by
    induction N with
    | zero => rfl
    | succ N ih =>
      rw [← add_assoc, hstep, ih, Nat.add_comm (e * K) N, hmod, hmoda]
      rfl
  have hcyc : ∀ e, sq2 (D (e * K)) ≤ q ^ e * sq2 (D 0) := fun e => by
    induction e with
    | zero => simp
    | succ e ih =>
      rw [Nat.succ_mul, hrunD e K, pow_succ]
      have h1 := hq ⟨D (e * K), hall' _⟩
      have h2 := mul_le_mul_of_nonneg_left ih hq0
      dsimp only at h1
      linarith
  rw [hD, hD]
  exact (hA (Nat.div_mul_le_self N K)).trans (hcyc (N / K))

end Trixy.FitMath
