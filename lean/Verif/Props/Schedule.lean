import Mathlib.Analysis.PSeries
import Verif.Spec.Schedule
import Verif.Proof.Schedule
import Verif.Props.Epoch
/- C132: with learning rates that decrease, but not too fast, mini-batch training of linear models reaches the optimum. -/
namespace Trixy
set_option linter.unusedSectionVars false
open Finset Losses FitMath Filter Topology

section
variable {k : FitKind} {n m K : Nat}

/-- The order of the batches in epoch `e`. -/
def shuf (hK : 0 < K) (vs : Fin K → List ((Nat → ℝ) × (Nat → ℝ))) (σ : Nat → Equiv.Perm (Fin K)) (e i : Nat) : List ((Nat → ℝ) × (Nat → ℝ)) :=
  vs (σ e ⟨i % K, Nat.mod_lt i hK⟩)

theorem shuf_sum (hK : 0 < K) (vs : Fin K → List ((Nat → ℝ) × (Nat → ℝ))) (σ : Nat → Equiv.Perm (Fin K)) (e : Nat) (θ : Theta) :
    ∑ q ∈ range K, fitMean k n m (shuf hK vs σ e (0 + q)) θ = epochLoss k n m K vs θ := by
  simp only [Nat.zero_add]
  rw [← Fin.sum_univ_eq_sum_range (fun q => fitMean k n m (shuf hK vs σ e q) θ)]
  unfold epochLoss
  rw [← Equiv.sum_comp (σ e) (fun q => fitMean k n m (vs q) θ)]
  refine sum_congr rfl (fun q _ => ?_)
  have e1 : (⟨q % K, Nat.mod_lt q hK⟩ : Fin K) = q := Fin.ext (Nat.mod_eq_of_lt q.2)
  unfold shuf
  rw [e1]

/-- Parameters at the start of epoch `e`. -/
noncomputable def schedRun (k : FitKind) (n m : Nat) (hK : 0 < K) (rate : Nat → ℝ) (vs : Fin K → List ((Nat → ℝ) × (Nat → ℝ))) (σ : Nat → Equiv.Perm (Fin K)) (θ : Theta) : Nat → Theta
  | 0 => θ
  | e + 1 => fitRun k n m (rate e) (shuf hK vs σ e) (schedRun k n m hK rate vs σ θ e) K

theorem sched_step (hm : 0 < m) (hK : 0 < K) (vs : Fin K → List ((Nat → ℝ) × (Nat → ℝ))) (σ : Nat → Equiv.Perm (Fin K)) (hne : ∀ q, vs q ≠ [])
    (hw : ∀ q, ∀ vw ∈ vs q, k.Target m vw.2) (hp : ∀ q, ∀ vw ∈ vs q, ∀ j, j < m → k = .cce → 0 ≤ vw.2 j) (rate : Nat → ℝ) (hr : ∀ e, 0 < rate e) (s : ℝ)
    (hs : ∀ q, meanSq n (vs q) ≤ s) (hsmall : ∀ e, rate e * s * (4 * K + 2) ≤ 1) (θ η : Theta) (e : Nat)
    (hFG : epochLoss k n m K vs η ≤ epochLoss k n m K vs (schedRun k n m hK rate vs σ θ e)) :
    (schedRun k n m hK rate vs σ θ (e + 1)).dist2 n m η + rate e * (epochLoss k n m K vs (schedRun k n m hK rate vs σ θ e) - epochLoss k n m K vs η) ≤
      (schedRun k n m hK rate vs σ θ e).dist2 n m η + 2 * (2 * K + 1) * s * epochLoss k n m K vs η * rate e ^ 2 := by
  have hK' : (1 : ℝ) ≤ K := by exact_mod_cast hK
  set x := schedRun k n m hK rate vs σ θ e
  set c := rate e * s with hc
  have hc0 : 0 ≤ c := by
    have : 0 ≤ meanSq n (vs ⟨0, hK⟩) := by
      rw [← len2_aug]
      refine mul_nonneg (by positivity) (List.sum_nonneg (fun y hy => ?_))
      obtain ⟨uw, _, rfl⟩ := List.mem_map.1 hy
      exact sum_nonneg (fun _ _ => sq_nonneg _)
    exact mul_nonneg (hr e).le (this.trans (hs _))
  have hcs : c * (4 * K + 2) ≤ 1 := hsmall e
  have hc1 : c ≤ 1 := by nlinarith
  have h1 := epoch_pass k n m hm x (shuf hK vs σ e) (fun i => hne _) (fun i => hw _) (fun i => hp _) K hK (rate e) c (hr e)
    (fun i => mul_le_mul_of_nonneg_left (hs _) (hr e).le) hc1 η 0
  simp only [shuf_sum] at h1
  rw [Nat.zero_add] at h1
  change (1 - c) * epochLoss k n m K vs x ≤ (1 + c * K) ^ 2 * (epochLoss k n m K vs η +
    (x.dist2 n m η - (schedRun k n m hK rate vs σ θ (e + 1)).dist2 n m η) / (2 * rate e)) at h1
  set d' := (schedRun k n m hK rate vs σ θ (e + 1)).dist2 n m η
  set F := epochLoss k n m K vs x
  set G := epochLoss k n m K vs η
  have hG : 0 ≤ G := sum_nonneg (fun q _ => by
    rw [fitMean_phi]
    refine mul_nonneg (by positivity) (List.sum_nonneg (fun y hy => ?_))
    obtain ⟨vw, hvw, rfl⟩ := List.mem_map.1 hy
    exact fitLoss_nonneg k hm (hw q vw hvw) (hp q vw hvw) _)
  have hF : 0 ≤ F := hG.trans hFG
  set t := (2 * K + 1) * c with ht
  have ht2 : 2 * t ≤ 1 := by rw [ht]; linarith
  have hpoly : (1 - t) * (1 + c * K) ^ 2 ≤ 1 - c := by
    have h3 : (1 - t) * (1 + c * K) ^ 2 = 1 - c - c ^ 2 * (3 * K ^ 2 + 2 * K) - (2 * K + 1) * c * (c * K) ^ 2 := by rw [ht]; ring
    rw [h3]
    have h4 : 0 ≤ c ^ 2 * (3 * (K : ℝ) ^ 2 + 2 * K) := by positivity
    have h5 : 0 ≤ (2 * (K : ℝ) + 1) * c * (c * K) ^ 2 := by positivity
    linarith
  have hpos : 0 < (1 + c * K) ^ 2 := by positivity
  have h6 : (1 - t) * F ≤ G + (x.dist2 n m η - d') / (2 * rate e) := by
    have := mul_le_mul_of_nonneg_right hpoly hF
    have h7 : (1 + c * K) ^ 2 * ((1 - t) * F) ≤ (1 + c * K) ^ 2 * (G + (x.dist2 n m η - d') / (2 * rate e)) := by linarith
    exact le_of_mul_le_mul_left h7 hpos
  have h8 : 2 * rate e * ((1 - t) * F - G) ≤ x.dist2 n m η - d' := by
    have h9 : (1 - t) * F - G ≤ (x.dist2 n m η - d') / (2 * rate e) := by linarith
    rw [le_div_iff₀ (by linarith [hr e])] at h9
    linarith
  have h10 : rate e * (F - G) - 2 * rate e * t * G ≤ 2 * rate e * ((1 - t) * F - G) := by
    have h11 : 0 ≤ rate e * ((1 - 2 * t) * (F - G)) := mul_nonneg (hr e).le (mul_nonneg (by linarith) (by linarith))
    nlinarith
  have e3 : 2 * rate e * t * G = 2 * (2 * K + 1) * s * G * rate e ^ 2 := by rw [ht, hc]; ring
  linarith

theorem sched_spec (hm : 0 < m) (hK : 0 < K) {θ : Theta} {B : Nat → Nat → List (Ten ℝ × Ten ℝ)} {vs : Fin K → List ((Nat → ℝ) × (Nat → ℝ))} {σ : Nat → Equiv.Perm (Fin K)}
    (hv : ∀ e i, BatchIs (B e i) n m (shuf hK vs σ e i)) (hne : ∀ q, vs q ≠ []) (rate : Nat → ℝ) {l : FC ℝ} (h : l.IsFit k n m θ) (E : Nat) :
    Ok (l.fitEpochs k.loss rate B K E) (fun l' => l'.IsFit k n m (schedRun k n m hK rate vs σ θ E)) :=
  forN_spec (fun e (l : FC ℝ) => l.IsFit k n m (schedRun k n m hK rate vs σ θ e)) h (fun e _ _ hs => fit_spec hm (hv e) (fun _ => hne _) (rate e) hs K)

/-- The loss at a limit is at most the limit of the losses. -/
theorem epochLoss_lim (hm : 0 < m) {vs : Fin K → List ((Nat → ℝ) × (Nat → ℝ))} (hw : ∀ q, ∀ vw ∈ vs q, k.Target m vw.2) {P : Nat → Theta} {p : Theta}
    (h : ThetaTendsto n m P p) {c : ℝ} (hc : Tendsto (fun j => epochLoss k n m K vs (P j)) atTop (𝓝 c)) : epochLoss k n m K vs p ≤ c := by
  have ht : ∀ i j, i < n + 1 → j < m → Tendsto (fun N => augT (P N) i j - augT p i j) atTop (𝓝 0) := fun i j hi hj => by
    have h1 : Tendsto (fun N => augT (P N) i j) atTop (𝓝 (augT p i j)) := by
      cases i with
      | zero => exact h.1 j hj
      | succ i => exact h.2 i j (by omega) hj
    have := h1.sub_const (augT p i j)
    rwa [sub_self] at this
  have low : ∀ N (q : Fin K), fitMean k n m (vs q) p + 1 / ((vs q).length : ℝ) * inn (n + 1) m (fun i j => augT (P N) i j - augT p i j) (grd k (n + 1) m (augD (vs q)) (augT p)) ≤
      fitMean k n m (vs q) (P N) := fun N q => by
    have h1 := (tot_bounds k (n + 1) m hm (augD (vs q)) (target_aug (hw q)) (augT p) (fun i j => augT (P N) i j - augT p i j)).1
    have e1 : (fun i j => augT p i j + (augT (P N) i j - augT p i j)) = augT (P N) := by funext i j; ring
    have e2 : ∑ i ∈ range (n + 1), ∑ j ∈ range m, grd k (n + 1) m (augD (vs q)) (augT p) i j * (augT (P N) i j - augT p i j) =
        inn (n + 1) m (fun i j => augT (P N) i j - augT p i j) (grd k (n + 1) m (augD (vs q)) (augT p)) :=
      sum_congr rfl (fun i _ => sum_congr rfl (fun j _ => mul_comm _ _))
    rw [e1, e2] at h1
    have h2 := mul_le_mul_of_nonneg_left h1 (show 0 ≤ 1 / ((vs q).length : ℝ) by positivity)
    rw [mul_add, tot_aug, tot_aug] at h2
    exact h2
  have hlim : Tendsto (fun N => ∑ q : Fin K, (fitMean k n m (vs q) p + 1 / ((vs q).length : ℝ) *
      inn (n + 1) m (fun i j => augT (P N) i j - augT p i j) (grd k (n + 1) m (augD (vs q)) (augT p)))) atTop (𝓝 (epochLoss k n m K vs p)) := by
    refine tendsto_finsetSum _ (fun q _ => ?_)
    have h1 := inn_tendsto (p := fun _ _ => 0) (grd k (n + 1) m (augD (vs q)) (augT p)) (fun i j hi hj => ht i j hi hj)
    have e0 : inn (n + 1) m (fun _ _ => 0) (grd k (n + 1) m (augD (vs q)) (augT p)) = 0 := by simp [inn]
    rw [e0] at h1
    have := (h1.const_mul (1 / ((vs q).length : ℝ))).const_add (fitMean k n m (vs q) p)
    rwa [mul_zero, add_zero] at this
  exact le_of_tendsto_of_tendsto' hlim hc (fun N => sum_le_sum (fun q _ => low N q))

end

/-! ### C132 -/

/-- Epochs of `K` mini-batches, shuffled anew in every epoch in any way, with a learning rate that is lowered from epoch to epoch such that the rates have an infinite sum
and their squares a finite one: if the total loss has optimal parameters at all, the parameters converge to optimal ones. -/
theorem C132_optimum (k : FitKind) (n m : Nat) (hm : 0 < m) (θ : Theta) (l : FC ℝ) (h : l.IsFit k n m θ) (K : Nat) (hK : 0 < K)
    (vs : Fin K → List ((Nat → ℝ) × (Nat → ℝ))) (hne : ∀ q, vs q ≠ []) (hw : ∀ q, ∀ vw ∈ vs q, k.Target m vw.2) (hp : ∀ q, ∀ vw ∈ vs q, ∀ j, j < m → k = .cce → 0 ≤ vw.2 j)
    (hbest : ∃ η, ∀ θ, epochLoss k n m K vs η ≤ epochLoss k n m K vs θ)
    (σ : Nat → Equiv.Perm (Fin K)) (B : Nat → Nat → List (Ten ℝ × Ten ℝ)) (hv : ∀ e i, BatchIs (B e i) n m (vs (σ e ⟨i % K, Nat.mod_lt i hK⟩)))
    (rate : Nat → ℝ) (hr : ∀ e, 0 < rate e) (hinf : ¬ Summable rate) (hsq : Summable (fun e => rate e ^ 2)) (s : ℝ) (hs : ∀ q, meanSq n (vs q) ≤ s)
    (hsmall : ∀ e, rate e * s * (4 * K + 2) ≤ 1) :
    ∃ (P : Nat → Theta) (p : Theta), P 0 = θ ∧ (∀ E, Ok (l.fitEpochs k.loss rate B K E) (fun l' => l'.IsFit k n m (P E))) ∧ ThetaTendsto n m P p ∧
      ∀ η, epochLoss k n m K vs p ≤ epochLoss k n m K vs η := by
  obtain ⟨η, hη⟩ := hbest
  set P := schedRun k n m hK rate vs σ θ with hP
  set G := epochLoss k n m K vs η with hG
  set r : Nat → ℝ := fun e => 2 * (2 * K + 1) * s * G * rate e ^ 2 with hrd
  have hmean : 0 ≤ meanSq n (vs ⟨0, hK⟩) := by
    rw [← len2_aug]
    refine mul_nonneg (by positivity) (List.sum_nonneg (fun y hy => ?_))
    obtain ⟨uw, _, rfl⟩ := List.mem_map.1 hy
    exact sum_nonneg (fun _ _ => sq_nonneg _)
  have hs0 : 0 ≤ s := hmean.trans (hs _)
  have hG0 : 0 ≤ G := sum_nonneg (fun q _ => by
    rw [fitMean_phi]
    refine mul_nonneg (by positivity) (List.sum_nonneg (fun y hy => ?_))
    obtain ⟨vw, hvw, rfl⟩ := List.mem_map.1 hy
    exact fitLoss_nonneg k hm (hw q vw hvw) (hp q vw hvw) _)
  have hr0 : ∀ e, 0 ≤ r e := fun e => by positivity
  have hrs : Summable r := hsq.mul_left _
  have hstep : ∀ ζ, (∀ θ, epochLoss k n m K vs ζ ≤ epochLoss k n m K vs θ) → ∀ e, (P (e + 1)).dist2 n m ζ + rate e * (epochLoss k n m K vs (P e) - G) ≤ (P e).dist2 n m ζ + r e := fun ζ hζ e => by
    have e1 : epochLoss k n m K vs ζ = G := le_antisymm (hζ η) (hη ζ)
    have := sched_step hm hK vs σ hne hw hp rate hr s hs hsmall θ ζ e (hζ _)
    rw [e1] at this
    exact this
  have hnn : ∀ ζ e, 0 ≤ (P e).dist2 n m ζ := fun ζ e => dist2_nonneg n m _ _
  -- epochs with a loss near the optimum
  have hgap : ∀ j : Nat, ∃ e, j ≤ e ∧ epochLoss k n m K vs (P e) - G < 1 / ((j : ℝ) + 1) := fun j =>
    small_gap (hnn η) hr0 hrs hr hinf (hstep η hη) _ (by positivity) j
  choose ψ hψ1 hψ2 using hgap
  have hbound : ∀ e, (P e).dist2 n m η ≤ θ.dist2 n m η + ∑' i, r i := fun e => by
    have h1 := quasi_sum (b := fun e => rate e * (epochLoss k n m K vs (P e) - G)) (hnn η) (hstep η hη) 0 e
    simp only [Nat.zero_add] at h1
    have h2 : 0 ≤ ∑ i ∈ range e, rate i * (epochLoss k n m K vs (P i) - G) := sum_nonneg (fun i _ => mul_nonneg (hr i).le (sub_nonneg.2 (hη _)))
    have h3 := hrs.sum_le_tsum (range e) (fun i _ => hr0 i)
    have h4 : (P 0).dist2 n m η = θ.dist2 n m η := rfl
    linarith
  set C := Real.sqrt (θ.dist2 n m η + ∑' i, r i) with hC
  have hentry : ∀ e i j, i < n + 1 → j < m → |augT (P e) i j - augT η i j| ≤ C := fun e i j hi hj => by
    rw [← Real.sqrt_sq_eq_abs]
    refine Real.sqrt_le_sqrt ((nrm_entry (fun i j => augT (P e) i j - augT η i j) hi hj).trans ?_)
    rw [nrm_aug]
    exact hbound e
  obtain ⟨p, φ, hφ, hlim⟩ := mat_subseq (n := n + 1) (m := m) (T := fun j i q => augT (P (ψ j)) i q - augT η i q) (c := C) (fun j i q hi hq => hentry (ψ j) i q hi hq)
  set p' := deT (fun i j => p i j + augT η i j) with hp'
  have haug : augT p' = fun i j => p i j + augT η i j := aug_de _
  have hT : ∀ i j, i < n + 1 → j < m → Tendsto (fun N => augT (P (ψ (φ N))) i j) atTop (𝓝 (augT p' i j)) := fun i j hi hj => by
    have := (hlim i j hi hj).add_const (augT η i j)
    simp only [sub_add_cancel] at this
    rw [haug]
    exact this
  have hsub : ThetaTendsto n m (fun N => P (ψ (φ N))) p' := ⟨fun j hj => hT 0 j (by omega) hj, fun i j hi hj => hT (i + 1) j (by omega) hj⟩
  have hlossT : Tendsto (fun N => epochLoss k n m K vs (P (ψ (φ N)))) atTop (𝓝 G) := by
    have h1 : Tendsto (fun N : Nat => G + 1 / ((φ N : ℝ) + 1)) atTop (𝓝 (G + 0)) := (tendsto_one_div_add_atTop_nhds_zero_nat.comp hφ.tendsto_atTop).const_add G
    rw [add_zero] at h1
    exact tendsto_of_tendsto_of_tendsto_of_le_of_le tendsto_const_nhds h1 (fun N => hη _) (fun N => by have := hψ2 (φ N); dsimp only; linarith)
  have hbestp : ∀ ζ, epochLoss k n m K vs p' ≤ epochLoss k n m K vs ζ := fun ζ => (epochLoss_lim hm hw hsub hlossT).trans (hη ζ)
  have hψφ : Tendsto (fun N => ψ (φ N)) atTop atTop := tendsto_atTop_mono (fun N => (hφ.id_le N).trans (hψ1 (φ N))) tendsto_id
  have hdz : Tendsto (fun e => (P e).dist2 n m p') atTop (𝓝 0) := by
    refine quasi_tendsto (hnn p') hr0 hrs (fun e => ?_) hψφ ?_
    · have h1 := hstep p' hbestp e
      have h2 : 0 ≤ rate e * (epochLoss k n m K vs (P e) - G) := mul_nonneg (hr e).le (sub_nonneg.2 (hη _))
      linarith
    · have h1 := dist2_tendsto hsub p'
      have e0 : p'.dist2 n m p' = 0 := by simp [Theta.dist2]
      rwa [e0] at h1
  have hconv : ∀ i j, i < n + 1 → j < m → Tendsto (fun e => augT (P e) i j) atTop (𝓝 (augT p' i j)) := fun i j hi hj => by
    have h1 : Tendsto (fun e => Real.sqrt ((P e).dist2 n m p')) atTop (𝓝 0) := by
      have := (Real.continuous_sqrt.tendsto 0).comp hdz
      rwa [Real.sqrt_zero] at this
    rw [tendsto_iff_dist_tendsto_zero]
    refine squeeze_zero (fun _ => dist_nonneg) (fun e => ?_) h1
    rw [Real.dist_eq, ← Real.sqrt_sq_eq_abs]
    refine Real.sqrt_le_sqrt ((nrm_entry (fun i j => augT (P e) i j - augT p' i j) hi hj).trans ?_)
    rw [nrm_aug]
  exact ⟨P, p', rfl, sched_spec hm hK hv hne rate h, ⟨fun j hj => hconv 0 j (by omega) hj, fun i j hi hj => hconv (i + 1) j (by omega) hj⟩, hbestp⟩

/-- Of the first `E` epochs, one starts with parameters whose total loss exceeds the best one by at most `(|start - best|² + 2 (2 K + 1) s G Σ rate²) / Σ rate`, where `G` is the best
total loss: for every number of epochs, without a condition on the sums of the rates. -/
theorem C132_some (k : FitKind) (n m : Nat) (hm : 0 < m) (θ : Theta) (l : FC ℝ) (h : l.IsFit k n m θ) (K : Nat) (hK : 0 < K)
    (vs : Fin K → List ((Nat → ℝ) × (Nat → ℝ))) (hne : ∀ q, vs q ≠ []) (hw : ∀ q, ∀ vw ∈ vs q, k.Target m vw.2) (hp : ∀ q, ∀ vw ∈ vs q, ∀ j, j < m → k = .cce → 0 ≤ vw.2 j)
    (σ : Nat → Equiv.Perm (Fin K)) (B : Nat → Nat → List (Ten ℝ × Ten ℝ)) (hv : ∀ e i, BatchIs (B e i) n m (vs (σ e ⟨i % K, Nat.mod_lt i hK⟩)))
    (rate : Nat → ℝ) (hr : ∀ e, 0 < rate e) (s : ℝ) (hs : ∀ q, meanSq n (vs q) ≤ s) (hsmall : ∀ e, rate e * s * (4 * K + 2) ≤ 1) :
    ∃ P : Nat → Theta, P 0 = θ ∧ (∀ E, Ok (l.fitEpochs k.loss rate B K E) (fun l' => l'.IsFit k n m (P E))) ∧
      ∀ η, (∀ θ, epochLoss k n m K vs η ≤ epochLoss k n m K vs θ) → ∀ E, 0 < E → ∃ e, e < E ∧
        epochLoss k n m K vs (P e) - epochLoss k n m K vs η ≤
          (θ.dist2 n m η + 2 * (2 * K + 1) * s * epochLoss k n m K vs η * ∑ i ∈ range E, rate i ^ 2) / ∑ i ∈ range E, rate i := by
  refine ⟨schedRun k n m hK rate vs σ θ, rfl, sched_spec hm hK hv hne rate h, fun η hη E hE => ?_⟩
  set P := schedRun k n m hK rate vs σ θ
  have h1 := quasi_sum (u := fun e => (P e).dist2 n m η) (b := fun e => rate e * (epochLoss k n m K vs (P e) - epochLoss k n m K vs η)) (fun e => dist2_nonneg n m _ _)
    (fun e => sched_step hm hK vs σ hne hw hp rate hr s hs hsmall θ η e (hη _)) 0 E
  simp only [Nat.zero_add, ← mul_sum] at h1
  have h0 : (P 0).dist2 n m η = θ.dist2 n m η := rfl
  have hE1 : (P E).dist2 n m η ≥ 0 := dist2_nonneg n m _ _
  by_contra hno
  push Not at hno
  have hpos : 0 < ∑ i ∈ range E, rate i := sum_pos (fun i _ => hr i) ⟨0, mem_range.2 hE⟩
  set c := (θ.dist2 n m η + 2 * (2 * K + 1) * s * epochLoss k n m K vs η * ∑ i ∈ range E, rate i ^ 2) / ∑ i ∈ range E, rate i with hc
  have h2 : (∑ i ∈ range E, rate i) * c < ∑ i ∈ range E, rate i * (epochLoss k n m K vs (P i) - epochLoss k n m K vs η) := by
    rw [sum_mul]
    exact sum_lt_sum_of_nonempty ⟨0, mem_range.2 hE⟩ (fun i hi => mul_lt_mul_of_pos_left (hno i (mem_range.1 hi)) (hr i))
  rw [hc, mul_div_cancel₀ _ hpos.ne'] at h2
  linarith

/-- Whether or not there are optimal parameters: the total loss comes arbitrarily near to, or below, that of any given parameters, again and again. -/
theorem C132_infimum (k : FitKind) (n m : Nat) (hm : 0 < m) (θ : Theta) (l : FC ℝ) (h : l.IsFit k n m θ) (K : Nat) (hK : 0 < K)
    (vs : Fin K → List ((Nat → ℝ) × (Nat → ℝ))) (hne : ∀ q, vs q ≠ []) (hw : ∀ q, ∀ vw ∈ vs q, k.Target m vw.2) (hp : ∀ q, ∀ vw ∈ vs q, ∀ j, j < m → k = .cce → 0 ≤ vw.2 j)
    (σ : Nat → Equiv.Perm (Fin K)) (B : Nat → Nat → List (Ten ℝ × Ten ℝ)) (hv : ∀ e i, BatchIs (B e i) n m (vs (σ e ⟨i % K, Nat.mod_lt i hK⟩)))
    (rate : Nat → ℝ) (hr : ∀ e, 0 < rate e) (hinf : ¬ Summable rate) (hsq : Summable (fun e => rate e ^ 2)) (s : ℝ) (hs : ∀ q, meanSq n (vs q) ≤ s)
    (hsmall : ∀ e, rate e * s * (4 * K + 2) ≤ 1) :
    ∃ P : Nat → Theta, P 0 = θ ∧ (∀ E, Ok (l.fitEpochs k.loss rate B K E) (fun l' => l'.IsFit k n m (P E))) ∧
      ∀ η ε, 0 < ε → ∀ N, ∃ e, N ≤ e ∧ epochLoss k n m K vs (P e) < epochLoss k n m K vs η + ε := by
  refine ⟨schedRun k n m hK rate vs σ θ, rfl, sched_spec hm hK hv hne rate h, fun η ε hε N => ?_⟩
  by_contra hno
  push Not at hno
  set P := schedRun k n m hK rate vs σ θ
  set G := epochLoss k n m K vs η
  have hs0 : 0 ≤ s := by
    have : 0 ≤ meanSq n (vs ⟨0, hK⟩) := by
      rw [← len2_aug]
      refine mul_nonneg (by positivity) (List.sum_nonneg (fun y hy => ?_))
      obtain ⟨uw, _, rfl⟩ := List.mem_map.1 hy
      exact sum_nonneg (fun _ _ => sq_nonneg _)
    exact this.trans (hs _)
  have hG0 : 0 ≤ G := sum_nonneg (fun q _ => by
    rw [fitMean_phi]
    refine mul_nonneg (by positivity) (List.sum_nonneg (fun y hy => ?_))
    obtain ⟨vw, hvw, rfl⟩ := List.mem_map.1 hy
    exact fitLoss_nonneg k hm (hw q vw hvw) (hp q vw hvw) _)
  obtain ⟨e, _, h1⟩ := small_gap (u := fun e => (P (e + N)).dist2 n m η) (r := fun e => 2 * (2 * K + 1) * s * G * rate (e + N) ^ 2) (rate := fun e => rate (e + N))
    (g := fun e => epochLoss k n m K vs (P (e + N)) - G) (fun e => dist2_nonneg n m _ _) (fun e => by positivity)
    (((summable_nat_add_iff N).2 hsq).mul_left _) (fun e => hr _) (fun hc => hinf ((summable_nat_add_iff N).1 hc))
    (fun e => by
      have := sched_step hm hK vs σ hne hw hp rate hr s hs hsmall θ η (e + N) (by linarith [hno (e + N) (Nat.le_add_left _ _)])
      rw [show e + 1 + N = e + N + 1 by omega]
      exact this) ε hε 0
  linarith [hno (e + N) (Nat.le_add_left _ _)]

/-- The order of the batches is reversed in every other epoch. -/
def schedFlip (e : Nat) : Equiv.Perm (Fin 2) := if e % 2 = 0 then 1 else Equiv.swap 0 1

theorem epochLoss_cy (θ : Theta) : epochLoss .mse 1 1 2 (fun q => cyBatch q) θ = ((θ.1 0) ^ 2 + (θ.1 0 - 1) ^ 2) / 2 := by
  norm_num [epochLoss, Fin.sum_univ_succ, cyBatch, fitMean, FitKind.fn, mseFn, FitKind.act, LibAct.fn, ActKind.fn, Theta.sums]
  ring

/-- Two contradictory samples, rates `1 / (10 (e + 1))`: the bias goes to their mean. -/
example : ∃ P : Nat → Theta, (P 0).1 0 = 0 ∧ (∀ E, Ok ((ftLayer .mse 1 1).fitEpochs MSE (fun e => 1 / 10 * (1 / ((e : ℝ) + 1))) (fun e i => ftBatch 1 1 (cyBatch (schedFlip e ⟨i % 2, Nat.mod_lt i (by decide)⟩))) 2 E)
    (fun l' => l'.IsFit .mse 1 1 (P E))) ∧ Tendsto (fun E => (P E).1 0) atTop (𝓝 (1 / 2)) := by
  have hsum : ¬ Summable (fun e : Nat => (1 / 10 : ℝ) * (1 / ((e : ℝ) + 1))) := by
    rw [summable_mul_left_iff (by norm_num)]
    intro h
    have h2 : Summable (fun e : Nat => (1 : ℝ) / ((e : ℝ))) := by
      rw [← summable_nat_add_iff 1]
      simpa using h
    exact Real.not_summable_one_div_natCast h2
  have hsq : Summable (fun e : Nat => ((1 / 10 : ℝ) * (1 / ((e : ℝ) + 1))) ^ 2) := by
    have h2 : Summable (fun e : Nat => (1 : ℝ) / ((e : ℝ) ^ 2)) := Real.summable_one_div_nat_pow.2 one_lt_two
    rw [← summable_nat_add_iff 1] at h2
    refine (h2.mul_left (1 / 100)).congr (fun e => ?_)
    push_cast
    field_simp
    norm_num
  obtain ⟨P, p, h0, h1, h2, h3⟩ := C132_optimum .mse 1 1 one_pos _ _ (ftLayer_IsFit .mse 1 1) 2 (by decide) (fun q => cyBatch q) (fun q => cyBatch_ne q) (fun _ _ _ => trivial)
    (fun _ _ _ _ _ h => by cases h) ⟨(fun _ => 1 / 2, fun _ _ => 0), fun θ => by
      rw [epochLoss_cy, epochLoss_cy]
      nlinarith [sq_nonneg (θ.1 0 - 1 / 2)]⟩ schedFlip _ (fun e i => ftBatch_Is _ _ _) (fun e => 1 / 10 * (1 / ((e : ℝ) + 1))) (fun e => by positivity) hsum hsq 1
    (fun q => by have := cyBatch_rate' q; linarith) (fun e => by
      have : (1 : ℝ) / ((e : ℝ) + 1) ≤ 1 := by rw [div_le_one (by positivity)]; linarith [(Nat.cast_nonneg e : (0 : ℝ) ≤ e)]
      push_cast
      linarith)
  refine ⟨P, by rw [h0], h1, ?_⟩
  have h4 := h3 (fun _ => 1 / 2, fun _ _ => 0)
  rw [epochLoss_cy, epochLoss_cy] at h4
  have h5 : (p.1 0 - 1 / 2) ^ 2 = 0 := le_antisymm (by norm_num at h4; nlinarith) (sq_nonneg _)
  have h6 : p.1 0 = 1 / 2 := by have := pow_eq_zero_iff (two_ne_zero) |>.1 h5; linarith
  rw [← h6]
  exact h2.1 0 one_pos

/-- The same two samples at the constant rate 1/10: after `E` epochs some total loss was within `(1/4 + 5/2 E/100) / (E/10)` of the best one, 1/4. -/
example : ∃ P : Nat → Theta, (∀ E, Ok ((ftLayer .mse 1 1).fitEpochs MSE (fun _ => 1 / 10) (fun e i => ftBatch 1 1 (cyBatch (schedFlip e ⟨i % 2, Nat.mod_lt i (by decide)⟩))) 2 E)
    (fun l' => l'.IsFit .mse 1 1 (P E))) ∧ ∃ e, e < 100 ∧ ((((P e).1 0) ^ 2 + ((P e).1 0 - 1) ^ 2) / 2 - 1 / 4 ≤ 11 / 40) := by
  obtain ⟨P, _, h1, h2⟩ := C132_some .mse 1 1 one_pos _ _ (ftLayer_IsFit .mse 1 1) 2 (by decide) (fun q => cyBatch q) (fun q => cyBatch_ne q) (fun _ _ _ => trivial)
    (fun _ _ _ _ _ h => by cases h) schedFlip _ (fun e i => ftBatch_Is _ _ _) (fun _ => 1 / 10) (fun e => by norm_num) 1
    (fun q => by have := cyBatch_rate' q; linarith) (fun e => by norm_num)
  refine ⟨P, h1, ?_⟩
  obtain ⟨e, he, h3⟩ := h2 (fun _ => 1 / 2, fun _ _ => 0) (fun θ => by
    rw [epochLoss_cy, epochLoss_cy]
    nlinarith [sq_nonneg (θ.1 0 - 1 / 2)]) 100 (by decide)
  refine ⟨e, he, ?_⟩
  rw [epochLoss_cy, epochLoss_cy] at h3
  norm_num [Theta.dist2] at h3 ⊢
  linarith

/-- Two samples of two classes, one per batch. -/
def twoBatch (q : Nat) : List ((Nat → ℝ) × (Nat → ℝ)) := if q % 2 = 0 then ftTwo.take 1 else ftTwo.drop 1

theorem twoBatch_hot (q : Nat) : ∀ vw ∈ twoBatch q, ∃ c, Hot 2 vw.2 c := fun vw hvw => ftTwo_hot vw (by
  unfold twoBatch at hvw
  split at hvw
  · exact List.mem_of_mem_take hvw
  · exact List.mem_of_mem_drop hvw)

/-- They can be separated, so there are no optimal parameters: with the rates `1 / (20 (e + 1))` the total loss of a softmax layer comes below that of every separating layer
`W = (r, -r)` plus any `ε`, again and again. -/
example : ∃ P : Nat → Theta, (∀ E, Ok ((ftLayer .nll 1 2).fitEpochs NLL (fun e => 1 / 20 * (1 / ((e : ℝ) + 1))) (fun e i => ftBatch 1 2 (twoBatch (schedFlip e ⟨i % 2, Nat.mod_lt i (by decide)⟩))) 2 E)
    (fun l' => l'.IsFit .nll 1 2 (P E))) ∧ ∀ r ε : ℝ, 0 < ε → ∀ N, ∃ e, N ≤ e ∧
      epochLoss .nll 1 2 2 (fun q => twoBatch q) (P e) < 2 * -Real.log (Real.exp r / (Real.exp r + Real.exp (-r))) + ε := by
  have hsum : ¬ Summable (fun e : Nat => (1 / 20 : ℝ) * (1 / ((e : ℝ) + 1))) := by
    rw [summable_mul_left_iff (by norm_num)]
    intro h
    have h2 : Summable (fun e : Nat => (1 : ℝ) / ((e : ℝ))) := by
      rw [← summable_nat_add_iff 1]
      simpa using h
    exact Real.not_summable_one_div_natCast h2
  have hsq : Summable (fun e : Nat => ((1 / 20 : ℝ) * (1 / ((e : ℝ) + 1))) ^ 2) := by
    have h2 : Summable (fun e : Nat => (1 : ℝ) / ((e : ℝ) ^ 2)) := Real.summable_one_div_nat_pow.2 one_lt_two
    rw [← summable_nat_add_iff 1] at h2
    refine (h2.mul_left (1 / 400)).congr (fun e => ?_)
    push_cast
    field_simp
    norm_num
  obtain ⟨P, _, h1, h2⟩ := C132_infimum .nll 1 2 (by decide) _ _ (ftLayer_IsFit .nll 1 2) 2 (by decide) (fun q => twoBatch q) (fun q => by unfold twoBatch; split <;> simp [ftTwo])
    (fun q => twoBatch_hot q) (fun _ _ _ _ _ h => by cases h) schedFlip _ (fun e i => ftBatch_Is _ _ _) (fun e => 1 / 20 * (1 / ((e : ℝ) + 1))) (fun e => by positivity) hsum hsq 2
    (fun q => by unfold twoBatch; split <;> norm_num [meanSq, ftTwo]) (fun e => by
      have : (1 : ℝ) / ((e : ℝ) + 1) ≤ 1 := by rw [div_le_one (by positivity)]; linarith [(Nat.cast_nonneg e : (0 : ℝ) ≤ e)]
      push_cast
      linarith)
  refine ⟨P, h1, fun r ε hε N => ?_⟩
  obtain ⟨e, he, h3⟩ := h2 (fun _ => 0, fun _ j => if j = 0 then r else -r) ε hε N
  refine ⟨e, he, h3.trans_eq ?_⟩
  congr 1
  simp [epochLoss, Fin.sum_univ_succ, twoBatch, ftTwo, fitMean, FitKind.fn, nllFn, FitKind.act, LibAct.fn, softmaxFn, Theta.sums, sum_range_succ]
  ring_nf

end Trixy
