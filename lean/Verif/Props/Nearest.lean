import Verif.Spec.Nearest
import Verif.Proof.Nearest
import Verif.Props.Fit
/- C127: where gradient descent on a linear model ends up. -/
namespace Trixy
set_option linter.unusedSectionVars false
open Finset Losses FitMath Filter Topology

/-- The parameters in an augmented matrix. -/
def deT (p : Nat → Nat → ℝ) : Theta := (p 0, fun i => p (i + 1))

theorem aug_de (p : Nat → Nat → ℝ) : augT (deT p) = p := by
  funext i j
  cases i <;> rfl

theorem best_aug {k : FitKind} {n m : Nat} {vs : List ((Nat → ℝ) × (Nat → ℝ))} (hne : vs ≠ []) (η : Theta) :
    Best k (n + 1) m (augD vs) (augT η) ↔ IsBest k n m vs η := by
  have hlen : (0 : ℝ) < 1 / (vs.length : ℝ) := by
    have : (0 : ℝ) < vs.length := by exact_mod_cast List.length_pos_iff.2 hne
    positivity
  constructor
  · intro h θ
    rw [← tot_aug, ← tot_aug]
    exact mul_le_mul_of_nonneg_left (h _) hlen.le
  · intro h S
    have := h (deT S)
    rw [← tot_aug, ← tot_aug, aug_de] at this
    exact le_of_mul_le_mul_left this hlen

theorem target_aug {k : FitKind} {m : Nat} {vs : List ((Nat → ℝ) × (Nat → ℝ))} (hw : ∀ vw ∈ vs, k.Target m vw.2) : ∀ uw ∈ augD vs, k.Target m uw.2 := fun uw h => by
  obtain ⟨vw, hv, rfl⟩ := List.mem_map.1 h
  exact hw vw hv

theorem run_nearest (k : FitKind) {n m : Nat} (hm : 0 < m) (vs : List ((Nat → ℝ) × (Nat → ℝ))) (hne : vs ≠ []) (hw : ∀ vw ∈ vs, k.Target m vw.2) (lr : ℝ) (hlr : 0 < lr)
    (hL : lr * meanSq n vs ≤ 1) (θ : Theta) (hex : ∃ η, IsBest k n m vs η) :
    ∃ p, IsBest k n m vs p ∧ ThetaTendsto n m (fitRun k n m lr (fun _ => vs) θ) p ∧
      ∀ η, IsBest k n m vs η → θ.dist2 n m η = θ.dist2 n m p + p.dist2 n m η := by
  have hlen : (0 : ℝ) < vs.length := by exact_mod_cast List.length_pos_iff.2 hne
  obtain ⟨p, hp, hc, hd⟩ := nearest (k := k) (n := n + 1) (m := m) hm (augD vs) (target_aug hw) lr (1 / (vs.length : ℝ)) hlr (by positivity)
    (by rw [len2_aug]; exact hL) (fun N => augT (fitRun k n m lr (fun _ => vs) θ N)) (fun N => (step_aug k n m lr vs _).symm)
    (hex.elim (fun η h => ⟨_, (best_aug hne η).2 h⟩))
  refine ⟨deT p, (best_aug hne _).1 (by rw [aug_de]; exact hp), ⟨fun j hj => hc 0 j (by omega) hj, fun i j hi hj => hc (i + 1) j (by omega) hj⟩, fun η hη => ?_⟩
  have := hd (augT η) ((best_aug hne η).2 hη)
  rw [← nrm_aug, ← nrm_aug, ← nrm_aug, aug_de]
  exact this

theorem exists_best (k : FitKind) (n : Nat) {m : Nat} (vs : List ((Nat → ℝ) × (Nat → ℝ))) (hne : vs ≠ []) (h : ∃ R, Best k (n + 1) m (augD vs) R) :
    ∃ η, IsBest k n m vs η := by
  obtain ⟨R, hR⟩ := h
  exact ⟨deT R, (best_aug hne _).1 (by rw [aug_de]; exact hR)⟩

/-! ### C127 -/

/-- Whatever the batches, their order, the number of steps and the learning rate: a change `η` of the parameters that no sample notices (all its weighted sums are 0)
is never made; the parameters keep their component along `η`. -/
theorem C127_unseen (k : FitKind) (n m : Nat) (hm : 0 < m) (θ : Theta) (l : FC ℝ) (h : l.IsFit k n m θ) (B : Nat → List (Ten ℝ × Ten ℝ))
    (vs : Nat → List ((Nat → ℝ) × (Nat → ℝ))) (hv : ∀ i, BatchIs (B i) n m (vs i)) (hne : ∀ i, vs i ≠ []) (lr : ℝ) :
    ∃ P : Nat → Theta, P 0 = θ ∧ (∀ N, Ok (l.fit k.loss lr B N) (fun l' => l'.IsFit k n m (P N))) ∧
      ∀ η : Theta, (∀ i, ∀ vw ∈ vs i, ∀ j, j < m → η.sums n vw.1 j = 0) → ∀ N, (P N).inner n m η = θ.inner n m η := by
  refine ⟨fitRun k n m lr vs θ, rfl, fit_spec hm hv hne lr h, fun η hη N => ?_⟩
  induction N with
  | zero => rfl
  | succ N ih =>
    rw [← ih]
    set ζ := fitRun k n m lr vs θ N with hζ
    have e : fitRun k n m lr vs θ (N + 1) = fitStep k n m lr (vs N) ζ := rfl
    have hg : (fitGrad k n m (vs N) ζ).inner n m η = 0 := by
      have h0 := grd_inn (k := k) (n := n + 1) (m := m) (augD (vs N)) (augT ζ) (augT η)
      have e1 : inn (n + 1) m (grd k (n + 1) m (augD (vs N)) (augT ζ)) (augT η) = (fitGrad k n m (vs N) ζ).inner n m η := by
        rw [grd_aug]
        unfold inn Theta.inner
        rw [sum_range_succ', add_comm]
        rfl
      rw [← e1, h0]
      refine List.sum_eq_zero (fun x hx => ?_)
      obtain ⟨uw, hu, rfl⟩ := List.mem_map.1 hx
      obtain ⟨vw, hvw, rfl⟩ := List.mem_map.1 hu
      refine sum_eq_zero (fun j hj => ?_)
      dsimp only
      rw [lin_aug n vw.1 η, hη N vw hvw j (mem_range.1 hj), mul_zero]
    have e2 : (fitStep k n m lr (vs N) ζ).inner n m η = ζ.inner n m η - 1 / ((vs N).length : ℝ) * lr * (fitGrad k n m (vs N) ζ).inner n m η := by
      unfold Theta.inner fitStep
      rw [mul_add, add_sub_add_comm]
      simp only [mul_sum, ← sum_sub_distrib]
      congr 1
      · exact sum_congr rfl (fun j _ => by ring)
      · exact sum_congr rfl (fun i _ => sum_congr rfl (fun j _ => by ring))
    rw [e, e2, hg, mul_zero, sub_zero]

/-- An input that is 0 in every sample keeps its weights exactly, for any loss, batches and learning rate. -/
theorem C127_dead_input (k : FitKind) (n m : Nat) (hm : 0 < m) (θ : Theta) (l : FC ℝ) (h : l.IsFit k n m θ) (B : Nat → List (Ten ℝ × Ten ℝ))
    (vs : Nat → List ((Nat → ℝ) × (Nat → ℝ))) (hv : ∀ i, BatchIs (B i) n m (vs i)) (hne : ∀ i, vs i ≠ []) (lr : ℝ) (q : Nat) (hq : q < n)
    (h0 : ∀ i, ∀ vw ∈ vs i, vw.1 q = 0) (N : Nat) :
    Ok (l.fit k.loss lr B N) (fun l' => ∃ ζ : Theta, l'.IsFit k n m ζ ∧ ∀ j, j < m → ζ.2 q j = θ.2 q j) := by
  obtain ⟨P, _, hP, hin⟩ := C127_unseen k n m hm θ l h B vs hv hne lr
  refine (hP N).mono (fun l' hl' => ⟨P N, hl', fun j hj => ?_⟩)
  have key := hin (fun _ => 0, fun a b => if a = q ∧ b = j then 1 else 0) (fun i vw hvw b _ => by
    unfold Theta.sums
    rw [add_zero]
    refine sum_eq_zero (fun a _ => ?_)
    by_cases ha : a = q
    · rw [ha, h0 i vw hvw, zero_mul]
    · simp [ha]) N
  have e : ∀ ζ : Theta, ζ.inner n m (fun _ => 0, fun a b => if a = q ∧ b = j then 1 else 0) = ζ.2 q j := fun ζ => by
    unfold Theta.inner
    simp only [mul_zero, sum_const_zero, zero_add]
    rw [sum_eq_single_of_mem q (mem_range.2 hq) (fun a _ ha => sum_eq_zero (fun b _ => by simp [ha])),
      sum_eq_single_of_mem j (mem_range.2 hj) (fun b _ hb => by simp [hb])]
    simp
  rw [e, e] at key
  exact key

/-- If some parameters have the smallest mean loss, gradient descent converges, and to those optimal parameters that are nearest to the initial ones: the initial
parameters are farther from every other optimal `η`, with the theorem of Pythagoras. -/
theorem C127_nearest (k : FitKind) (n m : Nat) (hm : 0 < m) (θ : Theta) (l : FC ℝ) (h : l.IsFit k n m θ) (B : List (Ten ℝ × Ten ℝ))
    (vs : List ((Nat → ℝ) × (Nat → ℝ))) (hv : BatchIs B n m vs) (hne : vs ≠ []) (hw : ∀ vw ∈ vs, k.Target m vw.2) (lr : ℝ) (hlr : 0 < lr) (hL : lr * meanSq n vs ≤ 1)
    (hex : ∃ η, IsBest k n m vs η) :
    ∃ (P : Nat → Theta) (p : Theta), P 0 = θ ∧ (∀ N, Ok (l.fit k.loss lr (fun _ => B) N) (fun l' => l'.IsFit k n m (P N))) ∧
      ThetaTendsto n m P p ∧ IsBest k n m vs p ∧ ∀ η, IsBest k n m vs η → θ.dist2 n m η = θ.dist2 n m p + p.dist2 n m η := by
  obtain ⟨p, h1, h2, h3⟩ := run_nearest k hm vs hne hw lr hlr hL θ hex
  exact ⟨_, p, rfl, fit_spec hm (fun _ => hv) (fun _ => hne) lr h, h2, h1, h3⟩

/-- For regression (`MSE`, `LC`) optimal parameters exist for every data set, so that training always converges. -/
theorem C127_regression (k : FitKind) (hk : k = .mse ∨ k = .lc) (n m : Nat) (hm : 0 < m) (θ : Theta) (l : FC ℝ) (h : l.IsFit k n m θ) (B : List (Ten ℝ × Ten ℝ))
    (vs : List ((Nat → ℝ) × (Nat → ℝ))) (hv : BatchIs B n m vs) (hne : vs ≠ []) (lr : ℝ) (hlr : 0 < lr) (hL : lr * meanSq n vs ≤ 1) :
    ∃ (P : Nat → Theta) (p : Theta), P 0 = θ ∧ (∀ N, Ok (l.fit k.loss lr (fun _ => B) N) (fun l' => l'.IsFit k n m (P N))) ∧
      ThetaTendsto n m P p ∧ IsBest k n m vs p ∧ ∀ η, IsBest k n m vs η → θ.dist2 n m η = θ.dist2 n m p + p.dist2 n m η :=
  C127_nearest k n m hm θ l h B vs hv hne (fun vw _ => by rcases hk with rfl | rfl <;> trivial) lr hlr hL
    (exists_best k n vs hne (best_regression k hk (n + 1) hm (augD vs)))

/-- For `CCE` with `SoftMax` the same holds when every class has a positive weight in every target. -/
theorem C127_distributions (n m : Nat) (hm : 0 < m) (θ : Theta) (l : FC ℝ) (h : l.IsFit .cce n m θ) (B : List (Ten ℝ × Ten ℝ))
    (vs : List ((Nat → ℝ) × (Nat → ℝ))) (hv : BatchIs B n m vs) (hne : vs ≠ []) (hw : ∀ vw ∈ vs, ∑ j ∈ range m, vw.2 j = 1) (hpos : ∀ vw ∈ vs, ∀ j, j < m → 0 < vw.2 j)
    (lr : ℝ) (hlr : 0 < lr) (hL : lr * meanSq n vs ≤ 1) :
    ∃ (P : Nat → Theta) (p : Theta), P 0 = θ ∧ (∀ N, Ok (l.fit CCE lr (fun _ => B) N) (fun l' => l'.IsFit .cce n m (P N))) ∧
      ThetaTendsto n m P p ∧ IsBest .cce n m vs p ∧ ∀ η, IsBest .cce n m vs η → θ.dist2 n m η = θ.dist2 n m p + p.dist2 n m η := by
  obtain ⟨δ, hδ, hmin⟩ := least_pos (vs.flatMap (fun vw => (List.range m).map vw.2)) (fun a ha => by
    obtain ⟨vw, hvw, ha⟩ := List.mem_flatMap.1 ha
    obtain ⟨j, hj, rfl⟩ := List.mem_map.1 ha
    exact hpos vw hvw j (List.mem_range.1 hj))
  refine C127_nearest .cce n m hm θ l h B vs hv hne hw lr hlr hL (exists_best .cce n vs hne (best_soft .cce (.inr rfl) (n + 1) hm (augD vs) ?_ ?_ hδ ?_))
  · intro uw hu
    obtain ⟨vw, hvw, rfl⟩ := List.mem_map.1 hu
    exact hw vw hvw
  · exact target_aug hw
  · intro uw hu j hj
    obtain ⟨vw, hvw, rfl⟩ := List.mem_map.1 hu
    exact hmin _ (List.mem_flatMap.2 ⟨vw, hvw, List.mem_map.2 ⟨j, List.mem_range.2 hj, rfl⟩⟩)

/-- A new layer (all parameters 0): regression converges to the optimal parameters with the smallest sum of squares, and no others have it. -/
theorem C127_smallest (k : FitKind) (hk : k = .mse ∨ k = .lc) (n m : Nat) (hm : 0 < m) (l : FC ℝ) (h : l.IsFit k n m (fun _ => 0, fun _ _ => 0)) (B : List (Ten ℝ × Ten ℝ))
    (vs : List ((Nat → ℝ) × (Nat → ℝ))) (hv : BatchIs B n m vs) (hne : vs ≠ []) (lr : ℝ) (hlr : 0 < lr) (hL : lr * meanSq n vs ≤ 1) :
    ∃ (P : Nat → Theta) (p : Theta), (∀ N, Ok (l.fit k.loss lr (fun _ => B) N) (fun l' => l'.IsFit k n m (P N))) ∧
      ThetaTendsto n m P p ∧ IsBest k n m vs p ∧ ∀ η, IsBest k n m vs η → p.size2 n m ≤ η.size2 n m ∧
        (η.size2 n m = p.size2 n m → (∀ j, j < m → η.1 j = p.1 j) ∧ ∀ i j, i < n → j < m → η.2 i j = p.2 i j) := by
  obtain ⟨P, p, _, hP, hc, hb, hd⟩ := C127_regression k hk n m hm _ l h B vs hv hne lr hlr hL
  refine ⟨P, p, hP, hc, hb, fun η hη => ?_⟩
  have e : ∀ η : Theta, Theta.dist2 n m (fun _ => 0, fun _ _ => 0) η = η.size2 n m := fun η => by simp [Theta.dist2, Theta.size2]
  have := hd η hη
  rw [e, e] at this
  have h0 := dist2_nonneg n m p η
  refine ⟨by linarith, fun heq => ?_⟩
  have hz : p.dist2 n m η = 0 := by linarith
  unfold Theta.dist2 at hz
  have h1 : 0 ≤ ∑ j ∈ range m, (p.1 j - η.1 j) ^ 2 := sum_nonneg (fun _ _ => sq_nonneg _)
  have h2 : 0 ≤ ∑ i ∈ range n, ∑ j ∈ range m, (p.2 i j - η.2 i j) ^ 2 := sum_nonneg (fun _ _ => sum_nonneg (fun _ _ => sq_nonneg _))
  have hz1 : ∑ j ∈ range m, (p.1 j - η.1 j) ^ 2 = 0 := by linarith
  have hz2 : ∑ i ∈ range n, ∑ j ∈ range m, (p.2 i j - η.2 i j) ^ 2 = 0 := by linarith
  constructor
  · intro j hj
    have := (sum_eq_zero_iff_of_nonneg (fun _ _ => sq_nonneg _)).1 hz1 j (mem_range.2 hj)
    rw [pow_eq_zero_iff (by decide)] at this
    linarith
  · intro i j hi hj
    have := (sum_eq_zero_iff_of_nonneg (fun _ _ => sum_nonneg (fun _ _ => sq_nonneg _))).1 hz2 i (mem_range.2 hi)
    have := (sum_eq_zero_iff_of_nonneg (fun _ _ => sq_nonneg _)).1 this j (mem_range.2 hj)
    rw [pow_eq_zero_iff (by decide)] at this
    linarith

theorem sums_close (n : Nat) {m : Nat} (θ ζ : Theta) (v : Nat → ℝ) {j : Nat} (hj : j < m) :
    |ζ.sums n v j - θ.sums n v j| ≤ (1 + ∑ i ∈ range n, |v i|) * Real.sqrt (θ.dist2 n m ζ) := by
  have hb : |ζ.1 j - θ.1 j| ≤ Real.sqrt (θ.dist2 n m ζ) := by
    rw [abs_sub_comm, ← Real.sqrt_sq_eq_abs]
    refine Real.sqrt_le_sqrt ?_
    have h1 := single_le_sum (f := fun j => (θ.1 j - ζ.1 j) ^ 2) (fun _ _ => sq_nonneg _) (mem_range.2 hj)
    have h2 : 0 ≤ ∑ i ∈ range n, ∑ j ∈ range m, (θ.2 i j - ζ.2 i j) ^ 2 := sum_nonneg (fun _ _ => sum_nonneg (fun _ _ => sq_nonneg _))
    unfold Theta.dist2
    linarith
  have hW : ∀ i ∈ range n, |v i * (ζ.2 i j - θ.2 i j)| ≤ |v i| * Real.sqrt (θ.dist2 n m ζ) := fun i hi => by
    rw [abs_mul]
    refine mul_le_mul_of_nonneg_left ?_ (abs_nonneg _)
    rw [abs_sub_comm, ← Real.sqrt_sq_eq_abs]
    refine Real.sqrt_le_sqrt ?_
    have h1 := (single_le_sum (f := fun j => (θ.2 i j - ζ.2 i j) ^ 2) (fun _ _ => sq_nonneg _) (mem_range.2 hj)).trans
      (single_le_sum (f := fun i => ∑ j ∈ range m, (θ.2 i j - ζ.2 i j) ^ 2) (fun _ _ => sum_nonneg (fun _ _ => sq_nonneg _)) hi)
    have h2 : 0 ≤ ∑ j ∈ range m, (θ.1 j - ζ.1 j) ^ 2 := sum_nonneg (fun _ _ => sq_nonneg _)
    unfold Theta.dist2
    linarith
  have e : ζ.sums n v j - θ.sums n v j = ∑ i ∈ range n, v i * (ζ.2 i j - θ.2 i j) + (ζ.1 j - θ.1 j) := by
    unfold Theta.sums
    rw [add_sub_add_comm, ← sum_sub_distrib]
    congr 1
    exact sum_congr rfl (fun i _ => by ring)
  rw [e, add_mul, one_mul, add_comm (Real.sqrt _), sum_mul]
  exact (abs_add_le _ _).trans (add_le_add ((abs_sum_le_sum_abs _ _).trans (sum_le_sum hW)) hb)

/-- Classes that a linear model separates, one class per sample: there are no optimal parameters, and the distance from the initial parameters grows beyond
every bound (the weights never settle, while C116 says that the predictions become right). -/
theorem C127_diverges (k : FitKind) (hk : k = .nll ∨ k = .cce) (n m : Nat) (hm : 2 ≤ m) (θ : Theta) (l : FC ℝ) (h : l.IsFit k n m θ) (B : List (Ten ℝ × Ten ℝ))
    (vs : List ((Nat → ℝ) × (Nat → ℝ))) (hv : BatchIs B n m vs) (hne : vs ≠ []) (hw : ∀ vw ∈ vs, ∃ c, Hot m vw.2 c) (hs : Separable n m vs) (lr : ℝ) (hlr : 0 < lr)
    (hL : lr * meanSq n vs ≤ 1) :
    (¬ ∃ η, IsBest k n m vs η) ∧
    ∃ P : Nat → Theta, P 0 = θ ∧ (∀ N, Ok (l.fit k.loss lr (fun _ => B) N) (fun l' => l'.IsFit k n m (P N))) ∧
      ∀ R : ℝ, ∃ N0 : Nat, ∀ N, N0 ≤ N → R < θ.dist2 n m (P N) := by
  have hm0 : 0 < m := by omega
  have hlen : (0 : ℝ) < vs.length := by exact_mod_cast List.length_pos_iff.2 hne
  have hT : ∀ vw ∈ vs, k.Target m vw.2 := fun vw hvw => by
    obtain ⟨c, hc⟩ := hw vw hvw
    rcases hk with rfl | rfl
    · exact ⟨c, hc⟩
    · show ∑ j ∈ range m, vw.2 j = 1
      simpa using hc.sum (fun _ => 1)
  -- losses as small as wanted
  have small : ∀ ε : ℝ, 0 < ε → ∃ ζ : Theta, fitMean k n m vs ζ ≤ ε := fun ε hε => by
    obtain ⟨η, hη⟩ := hs
    obtain ⟨γ, hγ, hmar⟩ := margin η hη
    set r : ℝ := m / (ε * γ) with hr
    have hr0 : 0 ≤ r := by positivity
    have hsmall : (m : ℝ) * Real.exp (-(r * γ)) ≤ ε := by
      have h1 : r * γ = m / ε := by rw [hr]; field_simp
      rw [h1, Real.exp_neg, ← div_eq_mul_inv, div_le_iff₀ (Real.exp_pos _)]
      have := Real.add_one_le_exp ((m : ℝ) / ε)
      have h2 : (m : ℝ) = ε * (m / ε) := by field_simp
      nlinarith
    refine ⟨(fun j => r * η.1 j, fun i j => r * η.2 i j), ?_⟩
    rw [fitMean_phi, one_div, inv_mul_le_iff₀ hlen]
    refine listSum_le (fun vw hvw => ?_)
    obtain ⟨c, hc⟩ := hw vw hvw
    have e : Theta.sums n (fun j => r * η.1 j, fun i j => r * η.2 i j) vw.1 = fun j => r * η.sums n vw.1 j := by funext j; exact sums_smul n r η vw.1 j
    rw [e]
    exact (phi_scaled hk (hT vw hvw) hc hr0 (hmar vw hvw c hc)).trans hsmall
  -- losses of parameters near the start
  have large : ∀ R : ℝ, ∃ ε > 0, ∀ ζ : Theta, θ.dist2 n m ζ ≤ R → ε < fitMean k n m vs ζ := fun R => by
    obtain ⟨vw, hvw⟩ := List.exists_mem_of_ne_nil vs hne
    obtain ⟨c, hc⟩ := hw vw hvw
    obtain ⟨j, hj, hjc⟩ : ∃ j, j < m ∧ j ≠ c := by
      by_cases h0 : c = 0
      · exact ⟨1, by omega, by omega⟩
      · exact ⟨0, by omega, by omega⟩
    set D : ℝ := 2 * ((1 + ∑ i ∈ range n, |vw.1 i|) * Real.sqrt R) + (θ.sums n vw.1 c - θ.sums n vw.1 j) with hD
    have hpos : 0 < Real.log (1 + Real.exp (-D)) := Real.log_pos (by linarith [Real.exp_pos (-D)])
    refine ⟨1 / (vs.length : ℝ) * (Real.log (1 + Real.exp (-D)) / 2), by positivity, fun ζ hζ => ?_⟩
    rw [fitMean_phi]
    refine mul_lt_mul_of_pos_left ?_ (by positivity)
    have hterm : Real.log (1 + Real.exp (-D)) ≤ phi k m vw.2 (ζ.sums n vw.1) := by
      rw [phi_soft hk hm0 (hT vw hvw), hc.sum]
      have hq := Real.sqrt_le_sqrt hζ
      have hp : (0 : ℝ) ≤ 1 + ∑ i ∈ range n, |vw.1 i| := add_nonneg zero_le_one (sum_nonneg (fun _ _ => abs_nonneg _))
      have hmul := mul_le_mul_of_nonneg_left hq hp
      have a1 := abs_le.1 ((sums_close n θ ζ vw.1 hj).trans hmul)
      have a2 := abs_le.1 ((sums_close n θ ζ vw.1 hc.1).trans hmul)
      have hge : -D ≤ ζ.sums n vw.1 j - ζ.sums n vw.1 c := by rw [hD]; linarith [a1.1, a2.2]
      have h4 : Real.exp (ζ.sums n vw.1 c) * (1 + Real.exp (-D)) ≤ expSum m (ζ.sums n vw.1) := by
        have h5 : ∑ i ∈ ({j, c} : Finset Nat), Real.exp (ζ.sums n vw.1 i) ≤ ∑ i ∈ range m, Real.exp (ζ.sums n vw.1 i) :=
          sum_le_sum_of_subset_of_nonneg (fun i hi => by
            rcases mem_insert.1 hi with rfl | hi
            · exact mem_range.2 hj
            · rw [mem_singleton.1 hi]; exact mem_range.2 hc.1) (fun _ _ _ => (Real.exp_pos _).le)
        rw [sum_pair hjc] at h5
        refine le_trans ?_ h5
        rw [mul_add, mul_one, ← Real.exp_add]
        have := Real.exp_le_exp.2 (show ζ.sums n vw.1 c + -D ≤ ζ.sums n vw.1 j by linarith)
        linarith
      have h6 := Real.log_le_log (by positivity) h4
      rw [Real.log_mul (Real.exp_pos _).ne' (by positivity), Real.log_exp] at h6
      linarith
    have hall : phi k m vw.2 (ζ.sums n vw.1) ≤ (vs.map (fun vw => phi k m vw.2 (ζ.sums n vw.1))).sum :=
      term_le_listSum (f := fun vw => phi k m vw.2 (ζ.sums n vw.1)) (fun v hv' => by
        obtain ⟨c', hc'⟩ := hw v hv'
        exact phi_nonneg hk (hT v hv') hc') vw hvw
    linarith
  constructor
  · rintro ⟨η, hη⟩
    obtain ⟨ε, hε, hbig⟩ := large (θ.dist2 n m η)
    obtain ⟨ζ, hζ⟩ := small ε hε
    exact absurd ((hη ζ).trans hζ) (not_le.2 (hbig η le_rfl))
  · obtain ⟨P, h0, hP, _, hb⟩ := C116_best k n m hm0 θ l h B vs hv hne hT lr hlr hL
    refine ⟨P, h0, hP, fun R => ?_⟩
    obtain ⟨ε, hε, hbig⟩ := large R
    obtain ⟨ζ, hζ⟩ := small (ε / 2) (by linarith)
    obtain ⟨N0, hN0⟩ := exists_nat_gt (θ.dist2 n m ζ / (2 * lr * (ε / 2)))
    refine ⟨N0 + 1, fun N hN => ?_⟩
    by_contra hcon
    push Not at hcon
    have h1 := hbig (P N) hcon
    have hNpos : 0 < N := by omega
    have hNr : (N0 : ℝ) < N := by exact_mod_cast (by omega : N0 < N)
    have hN' : (0 : ℝ) < N := by exact_mod_cast hNpos
    have hlast : θ.dist2 n m ζ / (2 * lr * N) < ε / 2 := by
      rw [div_lt_iff₀ (by positivity)] at hN0 ⊢
      have := mul_lt_mul_of_pos_right hNr (show 0 < 2 * lr * (ε / 2) by positivity)
      linarith
    have := hb N ζ hNpos
    linarith

/-! Non-vacuity. -/

/-- The second input of the only sample is 0; -/
example (N : Nat) : Ok ((ftLayer .lc 2 1).fit LC 3 (fun _ => ftBatch 2 1 [(fun i => if i = 0 then 1 else 0, fun _ => 5)]) N) (fun l' => ∃ ζ : Theta, l'.IsFit .lc 2 1 ζ ∧
    ∀ j, j < 1 → ζ.2 1 j = 0) :=
  C127_dead_input .lc 2 1 one_pos _ _ (ftLayer_IsFit _ _ _) _ (fun _ => [(fun i => if i = 0 then 1 else 0, fun _ => 5)]) (fun _ => ftBatch_Is _ _ _) (by simp) 3 1 (by decide)
    (by simp) N

/-- One sample, one input, one output: infinitely many exact solutions, the new layer converges to the smallest; -/
example : ∃ (P : Nat → Theta) (p : Theta), (∀ N, Ok ((ftLayer .mse 1 1).fit MSE (1 / 2) (fun _ => ftBatch 1 1 [(fun _ => 1, fun _ => 1)]) N) (fun l' => l'.IsFit .mse 1 1 (P N))) ∧
      ThetaTendsto 1 1 P p ∧ p.1 0 = 1 / 2 ∧ p.2 0 0 = 1 / 2 := by
  obtain ⟨P, p, h1, h2, h3, h4⟩ := C127_smallest .mse (.inl rfl) 1 1 one_pos _ (ftLayer_IsFit _ _ _) _ _ (ftBatch_Is 1 1 [(fun _ => 1, fun _ => 1)]) (by simp) (1 / 2) (by norm_num)
    (by norm_num [meanSq])
  refine ⟨P, p, h1, h2, ?_⟩
  have hz : fitMean .mse 1 1 [(fun _ => 1, fun _ => 1)] (fun _ => 1 / 2, fun _ _ => 1 / 2) = 0 := by
    norm_num [fitMean, FitKind.fn, mseFn, FitKind.act, LibAct.fn, ActKind.fn, Theta.sums]
  have hnn : ∀ θ : Theta, 0 ≤ fitMean .mse 1 1 [(fun _ => 1, fun _ => 1)] θ := fun θ => by
    simp only [fitMean, FitKind.fn, mseFn, List.map_cons, List.map_nil, List.sum_cons, List.sum_nil]
    positivity
  have hbest : IsBest .mse 1 1 [(fun _ => 1, fun _ => 1)] (fun _ => 1 / 2, fun _ _ => 1 / 2) := fun θ => by rw [hz]; exact hnn θ
  have hp0 : fitMean .mse 1 1 [(fun _ => 1, fun _ => 1)] p = 0 := le_antisymm ((h3 _).trans_eq hz) (hnn p)
  have hs : p.2 0 0 + p.1 0 = 1 := by
    simp [fitMean, FitKind.fn, mseFn, FitKind.act, LibAct.fn, ActKind.fn, Theta.sums] at hp0
    linarith
  have h5 := (h4 _ hbest).1
  simp [Theta.size2] at h5
  constructor <;> nlinarith [sq_nonneg (p.2 0 0 - p.1 0)]

/-- soft targets converge; -/
example : ∃ (P : Nat → Theta) (p : Theta), P 0 = (fun _ => 0, fun _ _ => 0) ∧
    (∀ N, Ok ((ftLayer .cce 1 2).fit CCE (1 / 2) (fun _ => ftBatch 1 2 [(fun _ => 1, fun _ => 1 / 2)]) N) (fun l' => l'.IsFit .cce 1 2 (P N))) ∧
      ThetaTendsto 1 2 P p ∧ IsBest .cce 1 2 [(fun _ => 1, fun _ => 1 / 2)] p ∧
      ∀ η, IsBest .cce 1 2 [(fun _ => 1, fun _ => 1 / 2)] η → Theta.dist2 1 2 (fun _ => 0, fun _ _ => 0) η = Theta.dist2 1 2 (fun _ => 0, fun _ _ => 0) p + p.dist2 1 2 η :=
  C127_distributions 1 2 (by decide) _ _ (ftLayer_IsFit _ _ _) _ _ (ftBatch_Is 1 2 [(fun _ => 1, fun _ => 1 / 2)]) (by simp) (by norm_num [sum_range_succ])
    (by simp) (1 / 2) (by norm_num) (by norm_num [meanSq])

/-- hard ones diverge. -/
example : ∃ P : Nat → Theta, P 0 = (fun _ => 0, fun _ _ => 0) ∧
    (∀ N, Ok ((ftLayer .nll 1 2).fit NLL (1 / 2) (fun _ => ftBatch 1 2 ftTwo) N) (fun l' => l'.IsFit .nll 1 2 (P N))) ∧
      ∀ R : ℝ, ∃ N0 : Nat, ∀ N, N0 ≤ N → R < Theta.dist2 1 2 (fun _ => 0, fun _ _ => 0) (P N) :=
  (C127_diverges .nll (.inl rfl) 1 2 le_rfl _ _ (ftLayer_IsFit _ _ _) _ _ (ftBatch_Is _ _ _) (by simp [ftTwo]) ftTwo_hot ftTwo_sep (1 / 2) (by norm_num) (by rw [ftTwo_sq]; norm_num)).2

end Trixy
