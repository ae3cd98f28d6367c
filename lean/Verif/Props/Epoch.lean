import Verif.Proof.Epoch
import Verif.Props.Cycle
/- C131: losses after passes over mini-batches are within a factor of the best possible ones, and the factor goes to 1 with the learning rate. -/
namespace Trixy
set_option linter.unusedSectionVars false
open Finset Losses FitMath Filter Topology

/-- One pass over `K` batches, for the run of the parameters. -/
theorem epoch_pass (k : FitKind) (n m : Nat) (hm : 0 < m) (θ : Theta) (vs : Nat → List ((Nat → ℝ) × (Nat → ℝ))) (hne : ∀ i, vs i ≠ [])
    (hw : ∀ i, ∀ vw ∈ vs i, k.Target m vw.2) (hp : ∀ i, ∀ vw ∈ vs i, ∀ j, j < m → k = .cce → 0 ≤ vw.2 j) (K : Nat) (hK : 0 < K)
    (lr c : ℝ) (hlr : 0 < lr) (hL : ∀ i, lr * meanSq n (vs i) ≤ c) (hc1 : c ≤ 1) (η : Theta) (s : Nat) :
    (1 - c) * ∑ q ∈ range K, fitMean k n m (vs (s + q)) (fitRun k n m lr vs θ s) ≤ (1 + c * K) ^ 2 *
      (∑ q ∈ range K, fitMean k n m (vs (s + q)) η + ((fitRun k n m lr vs θ s).dist2 n m η - (fitRun k n m lr vs θ (s + K)).dist2 n m η) / (2 * lr)) := by
  have hlen : ∀ i, (0 : ℝ) < (vs i).length := fun i => by exact_mod_cast List.length_pos_iff.2 (hne i)
  have hl : ∀ i, 0 < len2 (n + 1) (augD (vs i)) := fun i => by
    obtain ⟨vw, L, e⟩ := List.exists_cons_of_ne_nil (hne i)
    rw [e]
    unfold len2 augD
    rw [List.map_cons, List.map_cons, List.sum_cons]
    have h1 : 0 ≤ ((L.map (fun vw => (augV vw.1, vw.2))).map (fun uw => ∑ i ∈ range (n + 1), uw.1 i ^ 2)).sum := List.sum_nonneg (fun x hx => by
      obtain ⟨uw, _, rfl⟩ := List.mem_map.1 hx
      exact sum_nonneg (fun _ _ => sq_nonneg _))
    have h2 : (1 : ℝ) ≤ ∑ i ∈ range (n + 1), augV vw.1 i ^ 2 := by
      rw [sum_range_succ']
      have : 0 ≤ ∑ i ∈ range n, augV vw.1 (i + 1) ^ 2 := sum_nonneg (fun _ _ => sq_nonneg _)
      have e1 : augV vw.1 0 ^ 2 = 1 := by simp [augV]
      linarith
    dsimp only
    linarith
  have h0 : ∀ N T, 0 ≤ tot k (n + 1) m (augD (vs N)) T := fun N T => List.sum_nonneg (fun x hx => by
    obtain ⟨uw, hu, rfl⟩ := List.mem_map.1 hx
    obtain ⟨vw, hvw, rfl⟩ := List.mem_map.1 hu
    exact fitLoss_nonneg k hm (hw N vw hvw) (hp N vw hvw) _)
  have hL' : ∀ i, lr * (1 / ((vs i).length : ℝ) * len2 (n + 1) (augD (vs i))) ≤ c := fun i => by rw [len2_aug]; exact hL i
  have hc : 0 < c := lt_of_lt_of_le (mul_pos hlr (mul_pos (one_div_pos.2 (hlen 0)) (hl 0))) (hL' 0)
  have hT : ∀ N, augT (fitRun k n m lr vs θ (N + 1)) = fun i j => augT (fitRun k n m lr vs θ N) i j +
      -(grd k (n + 1) m (augD (vs N)) (augT (fitRun k n m lr vs θ N)) i j * (1 / ((vs N).length : ℝ)) * lr) := fun N => (step_aug k n m lr (vs N) _).symm
  have h1 := run_regret (us := fun i => augD (vs i)) hm (fun N => target_aug (hw N)) h0 hl hlr (fun i => (one_div_pos.2 (hlen i)).le) hL'
    (T := fun N => augT (fitRun k n m lr vs θ N)) hT (augT η) s K
  have h2 := pass_bound (us := fun i => augD (vs i)) hm (fun N => target_aug (hw N)) h0 hl hlr (fun i => (one_div_pos.2 (hlen i)).le) hL'
    (T := fun N => augT (fitRun k n m lr vs θ N)) hT hc s K hK
  rw [nrm_aug, nrm_aug] at h1
  simp only [tot_aug] at h1 h2
  have h3 := mul_le_mul_of_nonneg_left h2 (sub_nonneg.2 hc1)
  have h4 : (1 - c) * ∑ q ∈ range K, fitMean k n m (vs (s + q)) (fitRun k n m lr vs θ (s + q)) ≤ ∑ q ∈ range K, fitMean k n m (vs (s + q)) η +
      ((fitRun k n m lr vs θ s).dist2 n m η - (fitRun k n m lr vs θ (s + K)).dist2 n m η) / (2 * lr) := by
    rw [← sub_le_iff_le_add', le_div_iff₀ (by linarith)]
    linarith
  have h5 := mul_le_mul_of_nonneg_left h4 (sq_nonneg (1 + c * K))
  linarith

/-! ### C131 -/

/-- Any stream of batches, in passes of `K` (say, epochs; each may have its own order and its own batches). The losses of the parameters held at the start of each pass,
on the batches of that pass, are together at most a factor `(1 + c K)² / (1 - c)` above those of any fixed parameters `η`, up to a constant that does not depend on the
number of passes; `c` is the largest `lr · mean (1 + |x|²)` of a batch. -/
theorem C131_passes (k : FitKind) (n m : Nat) (hm : 0 < m) (θ : Theta) (l : FC ℝ) (h : l.IsFit k n m θ) (B : Nat → List (Ten ℝ × Ten ℝ))
    (vs : Nat → List ((Nat → ℝ) × (Nat → ℝ))) (hv : ∀ i, BatchIs (B i) n m (vs i)) (hne : ∀ i, vs i ≠ []) (hw : ∀ i, ∀ vw ∈ vs i, k.Target m vw.2)
    (hp : ∀ i, ∀ vw ∈ vs i, ∀ j, j < m → k = .cce → 0 ≤ vw.2 j) (K : Nat) (hK : 0 < K) (lr c : ℝ) (hlr : 0 < lr) (hL : ∀ i, lr * meanSq n (vs i) ≤ c) (hc1 : c ≤ 1) :
    ∃ P : Nat → Theta, P 0 = θ ∧ (∀ N, Ok (l.fit k.loss lr B N) (fun l' => l'.IsFit k n m (P N))) ∧
      ∀ (E : Nat) (η : Theta), (1 - c) * ∑ e ∈ range E, ∑ q ∈ range K, fitMean k n m (vs (e * K + q)) (P (e * K)) ≤
        (1 + c * K) ^ 2 * (∑ e ∈ range E, ∑ q ∈ range K, fitMean k n m (vs (e * K + q)) η + θ.dist2 n m η / (2 * lr)) := by
  refine ⟨fitRun k n m lr vs θ, rfl, fit_spec hm hv hne lr h, fun E η => ?_⟩
  have key : (1 - c) * ∑ e ∈ range E, ∑ q ∈ range K, fitMean k n m (vs (e * K + q)) (fitRun k n m lr vs θ (e * K)) ≤
      (1 + c * K) ^ 2 * (∑ e ∈ range E, ∑ q ∈ range K, fitMean k n m (vs (e * K + q)) η + (θ.dist2 n m η - (fitRun k n m lr vs θ (E * K)).dist2 n m η) / (2 * lr)) := by
    induction E with
    | zero => simp [fitRun]
    | succ E ih =>
      have := epoch_pass k n m hm θ vs hne hw hp K hK lr c hlr hL hc1 η (E * K)
      rw [sum_range_succ, sum_range_succ, Nat.succ_mul, mul_add]
      refine (add_le_add ih this).trans (le_of_eq ?_)
      rw [← mul_add]
      congr 1
      ring
  refine key.trans (mul_le_mul_of_nonneg_left (add_le_add le_rfl (div_le_div_of_nonneg_right ?_ (by linarith))) (sq_nonneg _))
  have := dist2_nonneg n m (fitRun k n m lr vs θ (E * K)) η
  linarith

/-- Batches that come again in every pass, any losses: for every `ε` some pass starts with parameters whose losses, over all batches, are within that factor of those
of `η`, plus `ε`; and so does one among the first `E`, with `ε` of order `1 / E`. -/
theorem C131_some (k : FitKind) (n m : Nat) (hm : 0 < m) (θ : Theta) (l : FC ℝ) (h : l.IsFit k n m θ) (B : Nat → List (Ten ℝ × Ten ℝ))
    (vs : Nat → List ((Nat → ℝ) × (Nat → ℝ))) (hv : ∀ i, BatchIs (B i) n m (vs i)) (hne : ∀ i, vs i ≠ []) (hw : ∀ i, ∀ vw ∈ vs i, k.Target m vw.2)
    (hp : ∀ i, ∀ vw ∈ vs i, ∀ j, j < m → k = .cce → 0 ≤ vw.2 j) (K : Nat) (hK : 0 < K) (hper : ∀ i, vs (i + K) = vs i)
    (lr c : ℝ) (hlr : 0 < lr) (hL : ∀ i, lr * meanSq n (vs i) ≤ c) (hc1 : c ≤ 1) :
    ∃ P : Nat → Theta, P 0 = θ ∧ (∀ N, Ok (l.fit k.loss lr B N) (fun l' => l'.IsFit k n m (P N))) ∧
      ∀ (E : Nat) (η : Theta), 0 < E → ∃ e, e < E ∧ (1 - c) * ∑ q ∈ range K, fitMean k n m (vs q) (P (e * K)) ≤
        (1 + c * K) ^ 2 * (∑ q ∈ range K, fitMean k n m (vs q) η + θ.dist2 n m η / (2 * lr * E)) := by
  obtain ⟨P, h1, h2, h3⟩ := C131_passes k n m hm θ l h B vs hv hne hw hp K hK lr c hlr hL hc1
  refine ⟨P, h1, h2, fun E η hE => ?_⟩
  have hmod : ∀ e q, vs (e * K + q) = vs q := fun e q => by
    induction e with
    | zero => simp
    | succ e ih => rw [Nat.succ_mul, add_right_comm, hper, ih]
  by_contra hno
  push Not at hno
  have hE' : (0 : ℝ) < E := by exact_mod_cast hE
  have := h3 E η
  simp only [hmod] at this
  rw [mul_sum, sum_const, card_range, nsmul_eq_mul] at this
  have h4 : ∑ _e ∈ range E, (1 + c * K) ^ 2 * (∑ q ∈ range K, fitMean k n m (vs q) η + θ.dist2 n m η / (2 * lr * E)) <
      ∑ e ∈ range E, (1 - c) * ∑ q ∈ range K, fitMean k n m (vs q) (P (e * K)) :=
    sum_lt_sum_of_nonempty ⟨0, mem_range.2 hE⟩ (fun e he => hno e (mem_range.1 he))
  rw [sum_const, card_range, nsmul_eq_mul] at h4
  have e : (E : ℝ) * ((1 + c * K) ^ 2 * (∑ q ∈ range K, fitMean k n m (vs q) η + θ.dist2 n m η / (2 * lr * E))) =
      (1 + c * K) ^ 2 * (E * ∑ q ∈ range K, fitMean k n m (vs q) η + θ.dist2 n m η / (2 * lr)) := by
    field_simp
  linarith

theorem fitMean_tendsto {n m : Nat} (vs : List ((Nat → ℝ) × (Nat → ℝ))) {P : Nat → Theta} {p : Theta} (h : ThetaTendsto n m P p) :
    Tendsto (fun N => fitMean .mse n m vs (P N)) atTop (𝓝 (fitMean .mse n m vs p)) := by
  simp only [fitMean_phi]
  refine Tendsto.const_mul _ (tendsto_list_sum vs (fun vw _ => ?_))
  show Tendsto (fun N => 1 / 2 * ∑ j ∈ range m, ((P N).sums n vw.1 j - vw.2 j) ^ 2) atTop (𝓝 (1 / 2 * ∑ j ∈ range m, (p.sums n vw.1 j - vw.2 j) ^ 2))
  refine Tendsto.const_mul _ (tendsto_finsetSum _ (fun j hj => (Tendsto.sub_const ?_ _).pow 2))
  exact (tendsto_finsetSum _ (fun i hi => (h.2 i j (mem_range.1 hi) (mem_range.1 hj)).const_mul _)).add (h.1 j (mem_range.1 hj))

theorem dist2_tendsto {n m : Nat} {P : Nat → Theta} {p : Theta} (h : ThetaTendsto n m P p) (η : Theta) :
    Tendsto (fun N => (P N).dist2 n m η) atTop (𝓝 (p.dist2 n m η)) :=
  (tendsto_finsetSum _ (fun j hj => ((h.1 j (mem_range.1 hj)).sub_const _).pow 2)).add
    (tendsto_finsetSum _ (fun i hi => tendsto_finsetSum _ (fun j hj => ((h.2 i j (mem_range.1 hi) (mem_range.1 hj)).sub_const _).pow 2)))

/-- Linear regression with the same order of batches in every epoch: the parameters it converges to, in every phase, have a loss over all batches of at most
`(1 + c K)² / (1 - c)` times the best possible one. -/
theorem C131_cycle (n m : Nat) (hm : 0 < m) (θ : Theta) (l : FC ℝ) (h : l.IsFit .mse n m θ) (B : Nat → List (Ten ℝ × Ten ℝ))
    (vs : Nat → List ((Nat → ℝ) × (Nat → ℝ))) (hv : ∀ i, BatchIs (B i) n m (vs i)) (hne : ∀ i, vs i ≠ []) (K : Nat) (hK : 0 < K) (hper : ∀ i, vs (i + K) = vs i)
    (lr c : ℝ) (hlr : 0 < lr) (hL : ∀ i, lr * meanSq n (vs i) ≤ c) (hc1 : c ≤ 1) :
    ∃ P Q : Nat → Theta, P 0 = θ ∧ (∀ N, Ok (l.fit MSE lr B N) (fun l' => l'.IsFit .mse n m (P N))) ∧ (∀ r, ThetaTendsto n m (fun e => P (r + e * K)) (Q r)) ∧
      ∀ r η, (1 - c) * ∑ q ∈ range K, fitMean .mse n m (vs q) (Q r) ≤ (1 + c * K) ^ 2 * ∑ q ∈ range K, fitMean .mse n m (vs q) η := by
  obtain ⟨Q, _, _, _, _, hQ, _⟩ := cycle_fit n m hm θ B vs hv hne K hK hper lr hlr (fun i => (hL i).trans hc1)
  refine ⟨fitRun .mse n m lr vs θ, Q, rfl, fit_spec (k := .mse) hm hv hne lr h, hQ, fun r η => ?_⟩
  have hmod : ∀ e i, vs (i + e * K) = vs i := fun e i => by
    induction e with
    | zero => simp
    | succ e ih => rw [Nat.succ_mul, ← add_assoc, hper, ih]
  -- a sum over one period does not depend on where it starts
  have hrot : ∀ (f : List ((Nat → ℝ) × (Nat → ℝ)) → ℝ) (s : Nat), ∑ q ∈ range K, f (vs (s + q)) = ∑ q ∈ range K, f (vs q) := fun f s => by
    induction s with
    | zero => simp
    | succ s ih =>
      rw [← ih]
      have a1 := sum_range_succ (fun q => f (vs (s + q))) K
      have a2 := sum_range_succ' (fun q => f (vs (s + q))) K
      rw [hper, a2, add_zero] at a1
      have a3 := add_right_cancel a1
      rw [← a3]
      exact sum_congr rfl (fun q _ => by rw [add_right_comm, add_assoc])
  have step : ∀ e, (1 - c) * ∑ q ∈ range K, fitMean .mse n m (vs q) (fitRun .mse n m lr vs θ (r + e * K)) ≤ (1 + c * K) ^ 2 * (∑ q ∈ range K, fitMean .mse n m (vs q) η +
      ((fitRun .mse n m lr vs θ (r + e * K)).dist2 n m η - (fitRun .mse n m lr vs θ (r + (e + 1) * K)).dist2 n m η) / (2 * lr)) := fun e => by
    have := epoch_pass .mse n m hm θ vs hne (fun _ _ _ => trivial) (fun _ _ _ _ _ hk => by cases hk) K hK lr c hlr hL hc1 η (r + e * K)
    rw [hrot (fun v => fitMean .mse n m v (fitRun .mse n m lr vs θ (r + e * K))), hrot (fun v => fitMean .mse n m v η)] at this
    rw [Nat.succ_mul, ← add_assoc]
    exact this
  have t1 : Tendsto (fun e => (1 - c) * ∑ q ∈ range K, fitMean .mse n m (vs q) (fitRun .mse n m lr vs θ (r + e * K))) atTop
      (𝓝 ((1 - c) * ∑ q ∈ range K, fitMean .mse n m (vs q) (Q r))) :=
    (tendsto_finsetSum _ (fun q _ => fitMean_tendsto (vs q) (hQ r))).const_mul _
  have d1 := dist2_tendsto (hQ r) η
  have d2 := (tendsto_add_atTop_iff_nat 1).2 d1
  have t2 := (((d1.sub d2).div_const (2 * lr)).const_add (∑ q ∈ range K, fitMean .mse n m (vs q) η)).const_mul ((1 + c * K) ^ 2)
  rw [sub_self, zero_div, add_zero] at t2
  exact le_of_tendsto_of_tendsto' t1 t2 step

/-! Non-vacuity: the contradictory samples of C130, at a rate of 1/10: within a factor 1.6 of the optimum. -/

theorem cyBatch_rate' (i : Nat) : 1 / 10 * meanSq 1 (cyBatch i) ≤ 1 / 10 := by
  unfold cyBatch
  split <;> norm_num [meanSq]

example : ∃ P Q : Nat → Theta, (∀ N, Ok ((ftLayer .mse 1 1).fit MSE (1 / 10) (fun i => ftBatch 1 1 (cyBatch i)) N) (fun l' => l'.IsFit .mse 1 1 (P N))) ∧
    (∀ r, ThetaTendsto 1 1 (fun e => P (r + e * 2)) (Q r)) ∧ ∀ r, ∑ q ∈ range 2, fitMean .mse 1 1 (cyBatch q) (Q r) ≤ 8 / 5 * (1 / 4) := by
  obtain ⟨P, Q, _, h1, h2, h3⟩ := C131_cycle 1 1 one_pos _ _ (ftLayer_IsFit .mse 1 1) _ cyBatch (fun i => ftBatch_Is _ _ _) cyBatch_ne 2 (by decide) cyBatch_per
    (1 / 10) (1 / 10) (by norm_num) cyBatch_rate' (by norm_num)
  refine ⟨P, Q, h1, h2, fun r => ?_⟩
  have := h3 r (fun _ => 1 / 2, fun _ _ => 0)
  have e : ∑ q ∈ range 2, fitMean .mse 1 1 (cyBatch q) (fun _ => 1 / 2, fun _ _ => 0) = 1 / 4 := by
    norm_num [sum_range_succ, cyBatch, fitMean, FitKind.fn, mseFn, FitKind.act, LibAct.fn, ActKind.fn, Theta.sums]
  rw [e] at this
  norm_num at this ⊢
  linarith

/-- Contradictory classes, one sample at a time: softmax and NLL. -/
def cyClass (i : Nat) : List ((Nat → ℝ) × (Nat → ℝ)) := [(fun _ => 0, fun j => if j = i % 2 then 1 else 0)]

theorem cyClass_hot (i : Nat) : ∀ vw ∈ cyClass i, ∃ c, Hot 2 vw.2 c := fun vw hvw => by
  rw [cyClass, List.mem_singleton] at hvw
  rw [hvw]
  exact ⟨i % 2, Nat.mod_lt _ (by decide), by simp, fun j _ hj => by simp [hj]⟩

example : ∃ P : Nat → Theta, (∀ N, Ok ((ftLayer .nll 1 2).fit NLL (1 / 10) (fun i => ftBatch 1 2 (cyClass i)) N) (fun l' => l'.IsFit .nll 1 2 (P N))) ∧
    ∀ (E : Nat) (η : Theta), 0 < E → ∃ e, e < E ∧ (1 - 1 / 10 : ℝ) * ∑ q ∈ range 2, fitMean .nll 1 2 (cyClass q) (P (e * 2)) ≤
      (1 + 1 / 10 * (2 : Nat)) ^ 2 * (∑ q ∈ range 2, fitMean .nll 1 2 (cyClass q) η + (P 0).dist2 1 2 η / (2 * (1 / 10) * E)) := by
  obtain ⟨P, h0, h1, h2⟩ := C131_some .nll 1 2 (by decide) _ _ (ftLayer_IsFit .nll 1 2) _ cyClass (fun i => ftBatch_Is _ _ _) (fun i => by simp [cyClass]) cyClass_hot
    (fun _ _ _ _ _ h => by cases h) 2 (by decide) (fun i => by simp [cyClass]) (1 / 10) (1 / 10) (by norm_num) (fun i => by norm_num [meanSq, cyClass]) (by norm_num)
  exact ⟨P, h1, fun E η hE => by rw [h0]; exact h2 E η hE⟩

end Trixy
