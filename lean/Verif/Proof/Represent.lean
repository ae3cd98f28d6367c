import Mathlib.Algebra.BigOperators.Field
import Mathlib.Data.Finset.Max
import Mathlib.Algebra.Polynomial.Roots
import Mathlib.Topology.ContinuousMap.StoneWeierstrass
import Mathlib.Topology.UniformSpace.HeineCantor
import Mathlib.Analysis.SpecialFunctions.Exp
/- Sums of hinges `max (x·a + b) 0`: interpolation of finitely many points, uniform approximation of continuous functions. Pure mathematics. -/
namespace Trixy
open Finset
set_option linter.unusedSectionVars false

/-- Kinks between distinct reals, and weights that reach any values. -/
theorem hinges {ι : Type} [DecidableEq ι] (z : ι → ℝ) (s : Finset ι) (hz : ∀ i ∈ s, ∀ j ∈ s, z i = z j → i = j) :
    ∃ b : ι → ℝ, ∀ y : ι → ℝ, ∃ w : ι → ℝ, ∀ i ∈ s, ∑ k ∈ s, max (z i - b k) 0 * w k = y i := by
  induction s using Finset.induction_on_max_value z with
  | empty => exact ⟨fun _ => 0, fun _ => ⟨fun _ => 0, fun i hi => by simp at hi⟩⟩
  | insert a s ha hmax ih =>
    obtain ⟨b, hb⟩ := ih (fun i hi j hj => hz i (mem_insert_of_mem hi) j (mem_insert_of_mem hj))
    have hlt : ∀ x ∈ s, z x < z a := fun x hx => lt_of_le_of_ne (hmax x hx) (fun e => ha (by
      rw [← hz x (mem_insert_of_mem hx) a (mem_insert_self _ _) e]; exact hx))
    obtain ⟨β, hβ1, hβ2⟩ : ∃ β, (∀ x ∈ s, z x ≤ β) ∧ β < z a := by
      rcases s.eq_empty_or_nonempty with rfl | hs
      · exact ⟨z a - 1, by simp, by linarith⟩
      · exact ⟨s.sup' hs z, fun x hx => Finset.le_sup' z hx, (Finset.sup'_lt_iff hs).2 hlt⟩
    refine ⟨Function.update b a β, fun y => ?_⟩
    obtain ⟨w, hw⟩ := hb y
    have hne : ∀ k ∈ s, k ≠ a := fun k hk e => ha (e ▸ hk)
    refine ⟨Function.update w a ((y a - ∑ k ∈ s, max (z a - b k) 0 * w k) / (z a - β)), fun i hi => ?_⟩
    have hrest : ∀ W : ℝ, ∑ k ∈ s, max (z i - Function.update b a β k) 0 * Function.update w a W k = ∑ k ∈ s, max (z i - b k) 0 * w k := fun W =>
      sum_congr rfl (fun k hk => by rw [Function.update_of_ne (hne k hk), Function.update_of_ne (hne k hk)])
    rw [sum_insert ha, Function.update_self, Function.update_self, hrest]
    rcases mem_insert.1 hi with rfl | hi
    · rw [max_eq_left (by linarith), mul_div_cancel₀ _ (by linarith)]
      ring
    · rw [max_eq_right (by linarith [hβ1 i hi]), zero_mul, zero_add, hw i hi]

/-- Finitely many different points have different weighted sums for suitable weights. -/
theorem direction {ι : Type} (n : Nat) (v : ι → Nat → ℝ) (s : Finset ι) :
    ∃ a : Nat → ℝ, ∀ i ∈ s, ∀ j ∈ s, ∑ q ∈ range n, v i q * a q = ∑ q ∈ range n, v j q * a q → ∀ q, q < n → v i q = v j q := by
  classical
  let P : ι × ι → Polynomial ℝ := fun p => ∑ q ∈ range n, Polynomial.monomial q (v p.1 q - v p.2 q)
  let bad : Finset ℝ := (s ×ˢ s).biUnion (fun p => (P p).roots.toFinset)
  obtain ⟨t, ht⟩ := Infinite.exists_notMem_finset bad
  refine ⟨fun q => t ^ q, fun i hi j hj e q hq => ?_⟩
  have hroot : (P (i, j)).eval t = 0 := by
    simp only [P, Polynomial.eval_finsetSum, Polynomial.eval_monomial, sub_mul, sum_sub_distrib]
    linarith
  have h0 : P (i, j) = 0 := by
    by_contra hne
    exact ht (mem_biUnion.2 ⟨(i, j), mem_product.2 ⟨hi, hj⟩, by simpa [hne] using hroot⟩)
  have hc : (P (i, j)).coeff q = v i q - v j q := by
    simp only [P, Polynomial.finsetSum_coeff, Polynomial.coeff_monomial]
    rw [sum_ite_eq' (range n) q, if_pos (mem_range.2 hq)]
  rw [h0, Polynomial.coeff_zero] at hc
  linarith

/-- One input variable: sums of hinges approximate every continuous function on an interval. -/
theorem hingeApprox (g : ℝ → ℝ) (hg : Continuous g) (R : ℝ) (hR : 0 < R) (ε : ℝ) (hε : 0 < ε) :
    ∃ (k : Nat) (c : ℝ) (b w : Nat → ℝ), ∀ x, |x| ≤ R → |c + ∑ q ∈ range k, max (x - b q) 0 * w q - g x| ≤ ε := by
  have huc : UniformContinuousOn g (Set.Icc (-R) R) := isCompact_Icc.uniformContinuousOn_of_continuous hg.continuousOn
  obtain ⟨δ, hδ, hu⟩ := Metric.uniformContinuousOn_iff.1 huc ε hε
  obtain ⟨N, hN⟩ := exists_nat_gt (2 * R / δ)
  have hN0 : (0 : ℝ) < N := lt_of_le_of_lt (by positivity) hN
  set h : ℝ := 2 * R / N with hh
  have hh0 : 0 < h := by positivity
  have hhδ : h < δ := by rw [hh, div_lt_iff₀ hN0]; rw [div_lt_iff₀ hδ] at hN; linarith
  let z : Nat → ℝ := fun q => -R + q * h
  have zs : ∀ q, z (q + 1) = z q + h := fun q => by simp only [z]; push_cast; ring
  have zN : z N = R := by simp only [z, hh]; field_simp; ring
  let ramp : Nat → ℝ → ℝ := fun q x => (max (x - z q) 0 - max (x - z (q + 1)) 0) / h
  -- two hinges per step
  have main : ∀ x, |x| ≤ R → |g (-R) + ∑ q ∈ range N, ramp q x * (g (z (q + 1)) - g (z q)) - g x| ≤ ε := by
    intro x hx
    have hx' := abs_le.1 hx
    have step : ∀ M : Nat, (z M ≤ x → g (-R) + ∑ q ∈ range M, ramp q x * (g (z (q + 1)) - g (z q)) = g (z M)) := by
      intro M
      induction M with
      | zero => intro _; simp [z]
      | succ M ih =>
        intro hM
        rw [zs] at hM
        have := ih (by linarith)
        rw [sum_range_succ, ← add_assoc, this]
        have hr : ramp M x = 1 := by
          simp only [ramp]
          rw [max_eq_left (by linarith), max_eq_left (by rw [zs]; linarith), zs]
          field_simp; ring
        rw [hr]; ring
    have close : ∀ y, -R ≤ y → y ≤ R → |y - x| ≤ h → |g y - g x| ≤ ε := fun y h1 h2 h3 => by
      have := hu y ⟨h1, h2⟩ x ⟨hx'.1, hx'.2⟩ (by rw [Real.dist_eq]; linarith)
      rw [Real.dist_eq] at this
      exact this.le
    have zlow : ∀ q, -R ≤ z q := fun q => by simp only [z]; nlinarith [(Nat.cast_nonneg q : (0 : ℝ) ≤ q)]
    have tail : ∀ M j : Nat, x ≤ z M → ∑ q ∈ range (M + j), ramp q x * (g (z (q + 1)) - g (z q)) = ∑ q ∈ range M, ramp q x * (g (z (q + 1)) - g (z q)) := by
      intro M j hM
      induction j with
      | zero => rfl
      | succ j ih =>
        rw [← add_assoc, sum_range_succ, ih]
        have : z M ≤ z (M + j) := by simp only [z]; push_cast; nlinarith [(Nat.cast_nonneg j : (0 : ℝ) ≤ j)]
        have hr : ramp (M + j) x = 0 := by
          simp only [ramp]
          rw [max_eq_right (by linarith), max_eq_right (by rw [zs]; linarith)]
          simp
        rw [hr]; ring
    -- the cell of x
    classical
    have hex : ∃ M, x ≤ z M := ⟨N, by rw [zN]; exact hx'.2⟩
    set M := Nat.find hex with hM
    have hMx : x ≤ z M := Nat.find_spec hex
    have hMN : M ≤ N := Nat.find_min' hex (by rw [zN]; exact hx'.2)
    obtain ⟨j, hj⟩ := Nat.exists_eq_add_of_le hMN
    rw [hj, tail M j hMx]
    have zhigh : z M ≤ R := by
      rw [← zN]; simp only [z]
      have : (M : ℝ) ≤ N := by exact_mod_cast hMN
      nlinarith
    rcases Nat.eq_zero_or_pos M with h0 | h0
    · rw [h0] at hMx ⊢
      have hz0 : z 0 = -R := by simp [z]
      have hx0 : x = -R := by rw [hz0] at hMx; linarith
      rw [hx0]; simp [hε.le]
    · obtain ⟨L, hL⟩ : ∃ L, M = L + 1 := ⟨M - 1, by omega⟩
      have hLx : z L < x := by
        have := Nat.find_min hex (m := L) (by omega)
        exact not_le.1 this
      rw [hL] at hMx zhigh ⊢
      rw [sum_range_succ, ← add_assoc, step L hLx.le]
      rw [zs] at hMx
      have hr0 : 0 ≤ ramp L x ∧ ramp L x ≤ 1 := by
        simp only [ramp]
        rw [max_eq_left (by linarith), max_eq_right (by rw [zs]; linarith), sub_zero]
        exact ⟨div_nonneg (by linarith) hh0.le, by rw [div_le_one hh0]; linarith⟩
      have c1 := abs_le.1 (close (z L) (zlow L) (by linarith) (by rw [abs_le]; constructor <;> linarith))
      have c2 := abs_le.1 (close (z (L + 1)) (zlow _) zhigh (by rw [zs, abs_le]; constructor <;> linarith))
      rw [abs_le]
      constructor <;> nlinarith
  -- as a list of 2N hinges
  refine ⟨2 * N, g (-R), fun q => z (q / 2 + q % 2), fun q => (if q % 2 = 0 then 1 else -1) * ((g (z (q / 2 + 1)) - g (z (q / 2))) / h), fun x hx => ?_⟩
  have e : ∀ M : Nat, ∑ q ∈ range (2 * M), max (x - z (q / 2 + q % 2)) 0 * ((if q % 2 = 0 then 1 else -1) * ((g (z (q / 2 + 1)) - g (z (q / 2))) / h)) =
      ∑ q ∈ range M, ramp q x * (g (z (q + 1)) - g (z q)) := by
    intro M
    induction M with
    | zero => rfl
    | succ M ih =>
      rw [show 2 * (M + 1) = 2 * M + 1 + 1 by ring, sum_range_succ, sum_range_succ, ih, sum_range_succ, add_assoc]
      congr 1
      have a1 : 2 * M / 2 = M := by omega
      have a2 : 2 * M % 2 = 0 := by omega
      have a3 : (2 * M + 1) / 2 = M := by omega
      have a4 : (2 * M + 1) % 2 = 1 := by omega
      rw [a1, a2, a3, a4]
      simp only [ramp, if_true, add_zero, one_ne_zero, if_false]
      ring
  rw [e N]
  exact main x hx


/-! ### Several inputs -/

/-- With the hidden units `A`, `b` and suitable output weights, `g` is matched up to `ε` on the box of side `2R`. -/
def Near (n : Nat) (R : ℝ) (k : Nat) (A : Nat → Nat → ℝ) (b : Nat → ℝ) (g : (Fin n → ℝ) → ℝ) (ε : ℝ) : Prop :=
  ∃ (w : Nat → ℝ) (c : ℝ), ∀ v : Nat → ℝ, (∀ i, i < n → |v i| ≤ R) →
    |∑ q ∈ range k, max (∑ i ∈ range n, v i * A i q + b q) 0 * w q + c - g (fun i => v i)| ≤ ε

/-- Units of two layers side by side. -/
def beside {X : Type} (k : Nat) (a a' : Nat → X) : Nat → X := fun q => if q < k then a q else a' (q - k)

theorem beside_left {X : Type} {k : Nat} (a a' : Nat → X) {q : Nat} (h : q < k) : beside k a a' q = a q := if_pos h
theorem beside_right {X : Type} (k : Nat) (a a' : Nat → X) (q : Nat) : beside k a a' (k + q) = a' q := by
  unfold beside; rw [if_neg (by omega), Nat.add_sub_cancel_left]

theorem beside_sum {k k' n : Nat} (A A' : Nat → Nat → ℝ) (b b' w w' : Nat → ℝ) (v : Nat → ℝ) :
    ∑ q ∈ range (k + k'), max (∑ i ∈ range n, v i * beside k (A i) (A' i) q + beside k b b' q) 0 * beside k w w' q =
    ∑ q ∈ range k, max (∑ i ∈ range n, v i * A i q + b q) 0 * w q + ∑ q ∈ range k', max (∑ i ∈ range n, v i * A' i q + b' q) 0 * w' q := by
  rw [sum_range_add]
  congr 1
  · refine sum_congr rfl (fun q hq => ?_)
    have h := mem_range.1 hq
    rw [beside_left _ _ h, beside_left _ _ h, sum_congr rfl (fun i _ => by rw [beside_left _ _ h])]
  · refine sum_congr rfl (fun q _ => ?_)
    rw [beside_right, beside_right, sum_congr rfl (fun i _ => by rw [beside_right])]

theorem Near.left {n k : Nat} {R : ℝ} {A : Nat → Nat → ℝ} {b : Nat → ℝ} {g : (Fin n → ℝ) → ℝ} {ε : ℝ} (h : Near n R k A b g ε) (k' : Nat) (A' : Nat → Nat → ℝ) (b' : Nat → ℝ) :
    Near n R (k + k') (fun i => beside k (A i) (A' i)) (beside k b b') g ε := by
  obtain ⟨w, c, h⟩ := h
  refine ⟨beside k w (fun _ => 0), c, fun v hv => ?_⟩
  rw [beside_sum]
  simpa using h v hv

theorem Near.right {n k' : Nat} {R : ℝ} {A' : Nat → Nat → ℝ} {b' : Nat → ℝ} {g : (Fin n → ℝ) → ℝ} {ε : ℝ} (h : Near n R k' A' b' g ε) (k : Nat) (A : Nat → Nat → ℝ) (b : Nat → ℝ) :
    Near n R (k + k') (fun i => beside k (A i) (A' i)) (beside k b b') g ε := by
  obtain ⟨w, c, h⟩ := h
  refine ⟨beside k (fun _ => 0) w, c, fun v hv => ?_⟩
  rw [beside_sum]
  simpa using h v hv

theorem Near.add {n k : Nat} {R : ℝ} {A : Nat → Nat → ℝ} {b : Nat → ℝ} {g g' : (Fin n → ℝ) → ℝ} {ε ε' : ℝ} (h : Near n R k A b g ε) (h' : Near n R k A b g' ε') :
    Near n R k A b (fun u => g u + g' u) (ε + ε') := by
  obtain ⟨w, c, h⟩ := h
  obtain ⟨w', c', h'⟩ := h'
  refine ⟨fun q => w q + w' q, c + c', fun v hv => ?_⟩
  simp only [mul_add, sum_add_distrib]
  refine le_trans (le_of_eq ?_) ((abs_add_le _ _).trans (add_le_add (h v hv) (h' v hv)))
  congr 1; ring

theorem Near.smul {n k : Nat} {R : ℝ} {A : Nat → Nat → ℝ} {b : Nat → ℝ} {g : (Fin n → ℝ) → ℝ} {ε : ℝ} (h : Near n R k A b g ε) (t : ℝ) :
    Near n R k A b (fun u => t * g u) (|t| * ε) := by
  obtain ⟨w, c, h⟩ := h
  refine ⟨fun q => t * w q, t * c, fun v hv => ?_⟩
  refine le_trans (le_of_eq ?_) (mul_le_mul_of_nonneg_left (h v hv) (abs_nonneg t))
  rw [← abs_mul]
  congr 1
  rw [mul_sub, mul_add, mul_sum]
  congr 2
  exact sum_congr rfl (fun q _ => by ring)

/-- Every accuracy can be reached. -/
def HingeReached (n : Nat) (R : ℝ) (g : (Fin n → ℝ) → ℝ) : Prop := ∀ ε, 0 < ε → ∃ k A b, Near n R k A b g ε

theorem reached_add {n : Nat} {R : ℝ} {g g' : (Fin n → ℝ) → ℝ} (h : HingeReached n R g) (h' : HingeReached n R g') : HingeReached n R (fun u => g u + g' u) := by
  intro ε hε
  obtain ⟨k, A, b, h1⟩ := h (ε / 2) (by linarith)
  obtain ⟨k', A', b', h2⟩ := h' (ε / 2) (by linarith)
  refine ⟨k + k', fun i => beside k (A i) (A' i), beside k b b', ?_⟩
  have := (h1.left k' A' b').add (h2.right k A b)
  rwa [add_halves] at this

theorem reached_smul {n : Nat} {R : ℝ} {g : (Fin n → ℝ) → ℝ} (h : HingeReached n R g) (t : ℝ) : HingeReached n R (fun u => t * g u) := by
  intro ε hε
  obtain ⟨k, A, b, h1⟩ := h (ε / (|t| + 1)) (by positivity)
  refine ⟨k, A, b, ?_⟩
  obtain ⟨w, c, h2⟩ := h1.smul t
  refine ⟨w, c, fun v hv => (h2 v hv).trans ?_⟩
  rw [mul_div_assoc', div_le_iff₀ (by positivity)]
  nlinarith [abs_nonneg t]

theorem reached_exp {n : Nat} {R : ℝ} (hR : 0 < R) (a : Fin n → ℝ) : HingeReached n R (fun u => Real.exp (∑ i, a i * u i)) := by
  intro ε hε
  have hS : 0 ≤ ∑ i, |a i| := sum_nonneg (fun i _ => abs_nonneg _)
  obtain ⟨k, c, b, w, h⟩ := hingeApprox Real.exp Real.continuous_exp ((∑ i, |a i| + 1) * R) (by positivity) ε hε
  refine ⟨k, fun i _ => if hi : i < n then a ⟨i, hi⟩ else 0, fun q => -b q, w, c, fun v hv => ?_⟩
  have e : ∑ i ∈ range n, v i * (if hi : i < n then a ⟨i, hi⟩ else 0) = ∑ i : Fin n, a i * v i := by
    rw [sum_range]
    exact sum_congr rfl (fun i _ => by rw [dif_pos i.2, mul_comm])
  have hx : |∑ i : Fin n, a i * v i| ≤ (∑ i, |a i| + 1) * R := by
    refine (abs_sum_le_sum_abs _ _).trans ?_
    have : ∑ i : Fin n, |a i * v i| ≤ ∑ i : Fin n, |a i| * R := sum_le_sum (fun i _ => by
      rw [abs_mul]; exact mul_le_mul_of_nonneg_left (hv i i.2) (abs_nonneg _))
    rw [← sum_mul] at this
    nlinarith
  have := h _ hx
  dsimp only
  rw [e]
  simp only [← sub_eq_add_neg]
  rwa [add_comm c] at this

/-- On a box, sums of hinges approximate every continuous function of several variables. -/
theorem reached {n : Nat} {R : ℝ} (hR : 0 < R) (f : (Fin n → ℝ) → ℝ) (hf : ContinuousOn f {u | ∀ i, |u i| ≤ R}) : HingeReached n R f := by
  intro ε hε
  let K : Set (Fin n → ℝ) := {u | ∀ i, |u i| ≤ R}
  have hK : IsCompact K := by
    have : K = Set.pi Set.univ (fun _ => Set.Icc (-R) R) := by
      ext u; simp only [K, Set.mem_pi, abs_le, Set.mem_ofPred_eq, Set.mem_univ, true_imp_iff, Set.mem_Icc]
    rw [this]
    exact isCompact_univ_pi (fun _ => isCompact_Icc)
  have : CompactSpace K := isCompact_iff_compactSpace.1 hK
  let E : (Fin n → ℝ) → C(K, ℝ) := fun a => ⟨fun u => Real.exp (∑ i, a i * u.1 i),
    Real.continuous_exp.comp (continuous_finsetSum _ fun i _ => continuous_const.mul ((continuous_apply i).comp continuous_subtype_val))⟩
  let S : Submonoid C(K, ℝ) := {
    carrier := Set.range E
    mul_mem' := by
      rintro _ _ ⟨a, rfl⟩ ⟨b, rfl⟩
      refine ⟨a + b, ?_⟩
      ext u
      simp only [E, ContinuousMap.coe_mk, ContinuousMap.mul_apply, ← Real.exp_add, Pi.add_apply, add_mul, sum_add_distrib]
    one_mem' := ⟨0, by ext u; simp [E]⟩ }
  have hsep : (Algebra.adjoin ℝ (S : Set C(K, ℝ))).SeparatesPoints := by
    intro u u' hne
    obtain ⟨i, hi⟩ : ∃ i, u.1 i ≠ u'.1 i := by
      by_contra h
      push Not at h
      exact hne (Subtype.ext (funext h))
    refine ⟨_, ⟨E (Pi.single i 1), Algebra.subset_adjoin ⟨_, rfl⟩, rfl⟩, ?_⟩
    simp only [E, ContinuousMap.coe_mk]
    intro e
    have := Real.exp_injective e
    simp [Pi.single_apply] at this
    exact hi this
  obtain ⟨F, hF⟩ : ∃ F : C(K, ℝ), ∀ u : K, F u = f u.1 := ⟨⟨_, continuousOn_iff_continuous_domRestrict.1 hf⟩, fun _ => rfl⟩
  obtain ⟨⟨g, hg⟩, hgf⟩ := ContinuousMap.exists_mem_subalgebra_near_continuousMap_of_separatesPoints _ hsep F (ε / 2) (by linarith)
  -- elements of the algebra are reached
  have hspan : g ∈ Submodule.span ℝ (S : Set C(K, ℝ)) := by
    have := Algebra.adjoin_eq_span ℝ (S : Set C(K, ℝ))
    rw [Submonoid.closure_eq] at this
    rw [← this]; exact hg
  have hall : ∀ g ∈ Submodule.span ℝ (S : Set C(K, ℝ)), ∃ G : (Fin n → ℝ) → ℝ, (∀ u : K, G u.1 = g u) ∧ HingeReached n R G := by
    intro g hg
    induction hg using Submodule.span_induction with
    | mem x hx =>
      obtain ⟨a, rfl⟩ := hx
      exact ⟨_, fun u => rfl, reached_exp hR a⟩
    | zero => exact ⟨fun u => 0 * Real.exp (∑ i, (0 : Fin n → ℝ) i * u i), fun u => by simp, reached_smul (reached_exp hR 0) 0⟩
    | add x y _ _ hx hy =>
      obtain ⟨G, h1, h2⟩ := hx
      obtain ⟨G', h1', h2'⟩ := hy
      exact ⟨_, fun u => by rw [ContinuousMap.add_apply, ← h1, ← h1'], reached_add h2 h2'⟩
    | smul t x _ hx =>
      obtain ⟨G, h1, h2⟩ := hx
      exact ⟨_, fun u => by rw [ContinuousMap.smul_apply, ← h1, smul_eq_mul], reached_smul h2 t⟩
  obtain ⟨G, h1, h2⟩ := hall g hspan
  obtain ⟨k, A, b, w, c, h⟩ := h2 (ε / 2) (by linarith)
  refine ⟨k, A, b, w, c, fun v hv => ?_⟩
  have hu : (fun i : Fin n => v i) ∈ K := fun i => hv i i.2
  have d1 := h v hv
  have d2 := (ContinuousMap.norm_coe_le_norm (g - F) ⟨_, hu⟩).trans hgf.le
  rw [ContinuousMap.sub_apply, Real.norm_eq_abs, ← h1 ⟨_, hu⟩, hF] at d2
  dsimp only at d2
  have a1 := abs_le.1 d1
  have a2 := abs_le.1 d2
  rw [abs_le]
  constructor <;> linarith

/-- Several outputs share one layer of hidden units. -/
theorem reached_all {n : Nat} {R : ℝ} (m : Nat) (f : Nat → (Fin n → ℝ) → ℝ) (hf : ∀ j, j < m → HingeReached n R (f j)) (ε : ℝ) (hε : 0 < ε) :
    ∃ k A b, ∀ j, j < m → Near n R k A b (f j) ε := by
  induction m with
  | zero => exact ⟨0, fun _ _ => 0, fun _ => 0, fun j hj => absurd hj (by omega)⟩
  | succ m ih =>
    obtain ⟨k, A, b, h⟩ := ih (fun j hj => hf j (by omega))
    obtain ⟨k', A', b', h'⟩ := hf m (by omega) ε hε
    refine ⟨k + k', fun i => beside k (A i) (A' i), beside k b b', fun j hj => ?_⟩
    rcases Nat.lt_succ_iff_lt_or_eq.1 hj with hj | rfl
    · exact (h j hj).left k' A' b'
    · exact h'.right k A b

end Trixy
