import Verif.Proof.Cycle
import Verif.Proof.CycleRate
import Verif.Props.Interp
/- C130: mini-batches in a fixed cycle, squared error: training forgets the start and settles in a cycle, not at the optimum. -/
namespace Trixy
set_option linter.unusedSectionVars false
open Finset Losses FitMath Filter Topology

/-! ### C130 -/

/-- Linear regression in mini-batches, in any order (every sample at least once in any `K` steps): the predictions for the samples forget the initial parameters,
and the parameters differ, in the limit, by a constant. -/
theorem C130_forgets (n m : Nat) (hm : 0 < m) (θ₁ θ₂ : Theta) (l₁ l₂ : FC ℝ) (h₁ : l₁.IsFit .mse n m θ₁) (h₂ : l₂.IsFit .mse n m θ₂)
    (data : List ((Nat → ℝ) × (Nat → ℝ))) (B : Nat → List (Ten ℝ × Ten ℝ)) (vs : Nat → List ((Nat → ℝ) × (Nat → ℝ))) (hv : ∀ i, BatchIs (B i) n m (vs i))
    (hne : ∀ i, vs i ≠ []) (hsub : ∀ i, ∀ vw ∈ vs i, vw ∈ data) (M : Nat) (hM : ∀ i, (vs i).length ≤ M) (K : Nat)
    (hwin : ∀ vw ∈ data, ∀ N, ∃ i, N ≤ i ∧ i < N + K ∧ vw ∈ vs i) (lr : ℝ) (hlr : 0 < lr) (hL : ∀ i, lr * meanSq n (vs i) ≤ 1) :
    ∃ (P₁ P₂ : Nat → Theta) (p : Theta), P₁ 0 = θ₁ ∧ P₂ 0 = θ₂ ∧ (∀ N, Ok (l₁.fit MSE lr B N) (fun l' => l'.IsFit .mse n m (P₁ N))) ∧
      (∀ N, Ok (l₂.fit MSE lr B N) (fun l' => l'.IsFit .mse n m (P₂ N))) ∧
      (∀ vw ∈ data, ∀ j, j < m → Tendsto (fun N => (P₁ N).sums n vw.1 j - (P₂ N).sums n vw.1 j) atTop (𝓝 0)) ∧
      ThetaTendsto n m (fun N => (fun j => (P₁ N).1 j - (P₂ N).1 j, fun i j => (P₁ N).2 i j - (P₂ N).2 i j)) p := by
  have hlen : ∀ i, 0 < (vs i).length := fun i => List.length_pos_iff.2 (hne i)
  have hM0 : (0 : ℝ) < M := by exact_mod_cast (hlen 0).trans_le (hM 0)
  obtain ⟨p, hp, hc⟩ := forget (n := n + 1) (m := m) hm (augD data) (fun i => augD (vs i)) (fun i uw hu => by
      obtain ⟨vw, hvw, rfl⟩ := List.mem_map.1 hu
      exact List.mem_map.2 ⟨vw, hsub i vw hvw, rfl⟩) lr hlr (fun i => 1 / ((vs i).length : ℝ)) (1 / M) (by positivity) (fun i => by
      have h1 : (0 : ℝ) < (vs i).length := by exact_mod_cast hlen i
      have h2 : ((vs i).length : ℝ) ≤ M := by exact_mod_cast hM i
      exact one_div_le_one_div_of_le h1 h2) (fun i => by rw [len2_aug]; exact hL i) K (fun uw hu N => by
      obtain ⟨vw, hvw, rfl⟩ := List.mem_map.1 hu
      obtain ⟨i, h1, h2, h3⟩ := hwin vw hvw N
      exact ⟨i, h1, h2, List.mem_map.2 ⟨vw, h3, rfl⟩⟩) (fun N => augT (fitRun .mse n m lr vs θ₁ N)) (fun N => augT (fitRun .mse n m lr vs θ₂ N))
    (fun N => (step_aug .mse n m lr (vs N) _).symm) (fun N => (step_aug .mse n m lr (vs N) _).symm)
  refine ⟨fitRun .mse n m lr vs θ₁, fitRun .mse n m lr vs θ₂, deT p, rfl, rfl, fit_spec (k := .mse) hm hv hne lr h₁, fit_spec (k := .mse) hm hv hne lr h₂, fun vw hvw j hj => ?_,
    ⟨fun j hj => hc 0 j (by omega) hj, fun i j hi hj => hc (i + 1) j (by omega) hj⟩⟩
  have h0 := hp (augV vw.1, vw.2) (List.mem_map.2 ⟨vw, hvw, rfl⟩) j hj
  have ht : Tendsto (fun N => ∑ i ∈ range (n + 1), augV vw.1 i * (augT (fitRun .mse n m lr vs θ₁ N) i j - augT (fitRun .mse n m lr vs θ₂ N) i j)) atTop
      (𝓝 (∑ i ∈ range (n + 1), augV vw.1 i * p i j)) := tendsto_finsetSum _ (fun i hi => (hc i j (mem_range.1 hi) hj).const_mul _)
  have e0 : ∑ i ∈ range (n + 1), augV vw.1 i * p i j = 0 := h0
  rw [e0] at ht
  refine ht.congr (fun N => ?_)
  have e1 := congrFun (lin_aug n vw.1 (fitRun .mse n m lr vs θ₁ N)) j
  have e2 := congrFun (lin_aug n vw.1 (fitRun .mse n m lr vs θ₂ N)) j
  unfold lin at e1 e2
  rw [← e1, ← e2, ← sum_sub_distrib]
  exact sum_congr rfl (fun i _ => by ring)

/-- The cycle, for the run of the parameters. -/
theorem cycle_fit (n m : Nat) (hm : 0 < m) (θ : Theta) (B : Nat → List (Ten ℝ × Ten ℝ))
    (vs : Nat → List ((Nat → ℝ) × (Nat → ℝ))) (hv : ∀ i, BatchIs (B i) n m (vs i)) (hne : ∀ i, vs i ≠ []) (K : Nat) (hK : 0 < K) (hper : ∀ i, vs (i + K) = vs i)
    (lr : ℝ) (hlr : 0 < lr) (hL : ∀ i, lr * meanSq n (vs i) ≤ 1) :
    ∃ Q : Nat → Theta, (∀ N, Q N = fitRun .mse n m lr vs (Q 0) N) ∧
      (∀ i j, i < n + 1 → j < m → Tendsto (fun N => augT (fitRun .mse n m lr vs θ N) i j - augT (Q N) i j) atTop (𝓝 0)) ∧
      (∀ l₀ : FC ℝ, l₀.IsFit .mse n m (Q 0) → ∀ N, Ok (l₀.fit MSE lr B N) (fun l' => l'.IsFit .mse n m (Q N))) ∧
      (∀ N, (Q (N + K)).dist2 n m (Q N) = 0) ∧ (∀ r, ThetaTendsto n m (fun e => fitRun .mse n m lr vs θ (r + e * K)) (Q r)) ∧
      (∀ j, j < m → ∑ N ∈ range K, 1 / ((vs N).length : ℝ) * ((vs N).map (fun vw => (Q N).sums n vw.1 j - vw.2 j)).sum = 0) ∧
      ∀ i j, i < n → j < m → ∑ N ∈ range K, 1 / ((vs N).length : ℝ) * ((vs N).map (fun vw => vw.1 i * ((Q N).sums n vw.1 j - vw.2 j))).sum = 0 := by
  have hlen : ∀ i, 0 < (vs i).length := fun i => List.length_pos_iff.2 (hne i)
  have hmod : ∀ r N, vs (N + r * K) = vs N := fun r N => by
    induction r with
    | zero => simp
    | succ r ih => rw [Nat.succ_mul, ← add_assoc, hper, ih]
  -- batches are no longer than those of one cycle together
  set M := ∑ i ∈ range K, (vs i).length with hMd
  have hM : ∀ i, (vs i).length ≤ M := fun i => by
    have h1 : vs i = vs (i % K) := by rw [← hmod (i / K) (i % K), Nat.mul_comm, Nat.mod_add_div]
    rw [h1]
    exact single_le_sum (f := fun i => (vs i).length) (fun _ _ => Nat.zero_le _) (mem_range.2 (Nat.mod_lt _ hK))
  have hM0 : (0 : ℝ) < M := by exact_mod_cast (hlen 0).trans_le (hM 0)
  obtain ⟨Q, hQ, hQK, hQT⟩ := cycle_limit (n := n + 1) hm (fun i => augD (vs i)) lr hlr (fun i => 1 / ((vs i).length : ℝ)) (1 / M) (by positivity) (fun i => by
      have h1 : (0 : ℝ) < (vs i).length := by exact_mod_cast hlen i
      have h2 : ((vs i).length : ℝ) ≤ M := by exact_mod_cast hM i
      exact one_div_le_one_div_of_le h1 h2) (fun i => by rw [len2_aug]; exact hL i) K hK (fun i => by rw [hper]) (fun i => by rw [hper])
    (fun N => augT (fitRun .mse n m lr vs θ N)) (fun N => (step_aug .mse n m lr (vs N) _).symm)
  have hrun : ∀ N, deT (Q N) = fitRun .mse n m lr vs (deT (Q 0)) N := fun N => by
    induction N with
    | zero => rfl
    | succ N ih =>
      show _ = fitStep .mse n m lr (vs N) (fitRun .mse n m lr vs (deT (Q 0)) N)
      rw [← ih]
      have := step_aug .mse n m lr (vs N) (deT (Q N))
      rw [aug_de, ← hQ] at this
      rw [this]
      rfl
  have hmul : ∀ r e i j, i < n + 1 → j < m → Q (r + e * K) i j = Q r i j := fun r e i j hi hj => by
    induction e with
    | zero => simp
    | succ e ih => rw [Nat.succ_mul, ← add_assoc, hQK _ i j hi hj, ih]
  have hlim : ∀ r i j, i < n + 1 → j < m → Tendsto (fun e => augT (fitRun .mse n m lr vs θ (r + e * K)) i j) atTop (𝓝 (Q r i j)) := fun r i j hi hj => by
    have h1 : Tendsto (fun e : Nat => r + e * K) atTop atTop := tendsto_atTop_mono (fun e => by nlinarith : ∀ e : Nat, e ≤ r + e * K) tendsto_id
    have := ((hQT i j hi hj).comp h1).add_const (Q r i j)
    rw [zero_add] at this
    refine this.congr (fun e => ?_)
    show augT (fitRun .mse n m lr vs θ (r + e * K)) i j - Q (r + e * K) i j + Q r i j = _
    rw [hmul r e i j hi hj]
    ring
  have hsum : ∀ i j, i < n + 1 → j < m → ∑ N ∈ range K, 1 / ((vs N).length : ℝ) * grd .mse (n + 1) m (augD (vs N)) (Q N) i j = 0 := fun i j hi hj => by
    have key : ∀ N, Q N i j - Q 0 i j = -(lr * ∑ q ∈ range N, 1 / ((vs q).length : ℝ) * grd .mse (n + 1) m (augD (vs q)) (Q q) i j) := fun N => by
      induction N with
      | zero => simp
      | succ N ih =>
        have := congrFun (congrFun (hQ N) i) j
        rw [sum_range_succ, this]
        linear_combination ih
    have hz := key K
    have e0 := hQK 0 i j hi hj
    rw [Nat.zero_add] at e0
    rw [e0, sub_self] at hz
    have := mul_eq_zero.1 (neg_eq_zero.1 hz.symm)
    exact this.resolve_left hlr.ne'
  have hg : ∀ N i j, grd .mse (n + 1) m (augD (vs N)) (Q N) i j = ((vs N).map (fun vw => augV vw.1 i * ((deT (Q N)).sums n vw.1 j - vw.2 j))).sum := fun N i j => by
    unfold grd augD
    rw [List.map_map]
    congr 1
    refine List.map_congr_left (fun vw _ => ?_)
    show augV vw.1 i * (lin (n + 1) (augV vw.1) (Q N) j - vw.2 j) = _
    rw [← lin_aug, aug_de]
  refine ⟨fun N => deT (Q N), hrun, fun i j hi hj => by simp only [aug_de]; exact hQT i j hi hj, fun l₀ h₀ N => ?_, fun N => ?_, fun r => ⟨fun j hj => ?_, fun i j hi hj => ?_⟩, fun j hj => ?_, fun i j hi hj => ?_⟩
  · dsimp only
    rw [hrun N]
    exact fit_spec (k := .mse) hm hv hne lr h₀ N
  · rw [← nrm_aug, aug_de, aug_de]
    exact sum_eq_zero (fun i hi => sum_eq_zero (fun j hj => by
      dsimp only
      rw [hQK N i j (mem_range.1 hi) (mem_range.1 hj), sub_self, zero_pow (by decide)]))
  · exact hlim r 0 j (by omega) hj
  · exact hlim r (i + 1) j (by omega) hj
  · refine Eq.trans (sum_congr rfl (fun N _ => ?_)) (hsum 0 j (by omega) hj)
    rw [hg]
    simp [augV]
  · refine Eq.trans (sum_congr rfl (fun N _ => ?_)) (hsum (i + 1) j (by omega) hj)
    rw [hg]
    rfl

/-- Linear regression in mini-batches that come in a fixed cycle of `K` batches (the same order in every epoch), contradictory data included: for every phase of the
cycle all parameters converge. The limits `Q` are themselves a training run, one that returns to its parameters after each cycle; and over one cycle its gradients cancel. -/
theorem C130_cycle (n m : Nat) (hm : 0 < m) (θ : Theta) (l : FC ℝ) (h : l.IsFit .mse n m θ) (B : Nat → List (Ten ℝ × Ten ℝ))
    (vs : Nat → List ((Nat → ℝ) × (Nat → ℝ))) (hv : ∀ i, BatchIs (B i) n m (vs i)) (hne : ∀ i, vs i ≠ []) (K : Nat) (hK : 0 < K) (hper : ∀ i, vs (i + K) = vs i)
    (lr : ℝ) (hlr : 0 < lr) (hL : ∀ i, lr * meanSq n (vs i) ≤ 1) :
    ∃ P Q : Nat → Theta, P 0 = θ ∧ (∀ N, Ok (l.fit MSE lr B N) (fun l' => l'.IsFit .mse n m (P N))) ∧
      (∀ l₀ : FC ℝ, l₀.IsFit .mse n m (Q 0) → ∀ N, Ok (l₀.fit MSE lr B N) (fun l' => l'.IsFit .mse n m (Q N))) ∧
      (∀ N, (Q (N + K)).dist2 n m (Q N) = 0) ∧ (∀ r, ThetaTendsto n m (fun e => P (r + e * K)) (Q r)) ∧
      (∀ j, j < m → ∑ N ∈ range K, 1 / ((vs N).length : ℝ) * ((vs N).map (fun vw => (Q N).sums n vw.1 j - vw.2 j)).sum = 0) ∧
      ∀ i j, i < n → j < m → ∑ N ∈ range K, 1 / ((vs N).length : ℝ) * ((vs N).map (fun vw => vw.1 i * ((Q N).sums n vw.1 j - vw.2 j))).sum = 0 := by
  obtain ⟨Q, _, _, h1⟩ := cycle_fit n m hm θ B vs hv hne K hK hper lr hlr hL
  exact ⟨fitRun .mse n m lr vs θ, Q, rfl, fit_spec (k := .mse) hm hv hne lr h, h1⟩

/-- The approach to the cycle is exponential, at a rate `q < 1` that depends on the batches and the learning rate only, not on the initial parameters: the squared distance
between the run and its cycle is multiplied by at most `q` in every cycle of `K` batches. (`K = 1`: gradient descent on the whole data.) -/
theorem C130_rate (n m : Nat) (hm : 0 < m) (B : Nat → List (Ten ℝ × Ten ℝ))
    (vs : Nat → List ((Nat → ℝ) × (Nat → ℝ))) (hv : ∀ i, BatchIs (B i) n m (vs i)) (hne : ∀ i, vs i ≠ []) (K : Nat) (hK : 0 < K) (hper : ∀ i, vs (i + K) = vs i)
    (lr : ℝ) (hlr : 0 < lr) (hL : ∀ i, lr * meanSq n (vs i) ≤ 1) :
    ∃ q : ℝ, 0 ≤ q ∧ q < 1 ∧ ∀ (θ : Theta) (l : FC ℝ), l.IsFit .mse n m θ →
      ∃ P Q : Nat → Theta, P 0 = θ ∧ (∀ N, Ok (l.fit MSE lr B N) (fun l' => l'.IsFit .mse n m (P N))) ∧ (∀ N, (Q (N + K)).dist2 n m (Q N) = 0) ∧
        ∀ N, (P N).dist2 n m (Q N) ≤ q ^ (N / K) * θ.dist2 n m (Q 0) := by
  have hlen : ∀ i, 0 < (vs i).length := fun i => List.length_pos_iff.2 (hne i)
  obtain ⟨q, h0, h1, h2⟩ := cycle_rate (n := n + 1) hm (fun i => augD (vs i)) lr hlr (fun i => 1 / ((vs i).length : ℝ))
    (fun i => one_div_pos.2 (by exact_mod_cast hlen i)) (fun i => by rw [len2_aug]; exact hL i) K hK (fun i => by rw [hper]) (fun i => by rw [hper])
  refine ⟨q, h0, h1, fun θ l h => ?_⟩
  obtain ⟨Q, hQr, hlim, _, hQK, _⟩ := cycle_fit n m hm θ B vs hv hne K hK hper lr hlr hL
  refine ⟨fitRun .mse n m lr vs θ, Q, rfl, fit_spec (k := .mse) hm hv hne lr h, hQK, fun N => ?_⟩
  have := h2 (fun N => augT (fitRun .mse n m lr vs θ N)) (fun N => augT (Q N)) (fun N => (step_aug .mse n m lr (vs N) _).symm) (fun N => by
    rw [hQr (N + 1), hQr N]
    exact (step_aug .mse n m lr (vs N) _).symm) hlim N
  rw [nrm_aug, nrm_aug] at this
  exact this

/-! Two samples that contradict each other, in turn. -/

def cyData : List ((Nat → ℝ) × (Nat → ℝ)) := [(fun _ => 0, fun _ => 0), (fun _ => 0, fun _ => 1)]

def cyBatch (i : Nat) : List ((Nat → ℝ) × (Nat → ℝ)) := if i % 2 = 0 then [(fun _ => 0, fun _ => 0)] else [(fun _ => 0, fun _ => 1)]

theorem cyBatch_ne (i : Nat) : cyBatch i ≠ [] := by unfold cyBatch; split <;> simp

/-- The targets 0 and 1 for the input 0, one at a time in turn: whatever the learning rate, the predictions end up alternating between `1 / (2 - lr)` and
`(1 - lr) / (2 - lr)`, one above and one below the only optimal prediction, 1/2. -/
theorem C130_off (lr : ℝ) (hlr : 0 < lr) (hl1 : lr ≤ 1) (θ : Theta) (l : FC ℝ) (h : l.IsFit .mse 1 1 θ) (B : Nat → List (Ten ℝ × Ten ℝ)) (hv : ∀ i, BatchIs (B i) 1 1 (cyBatch i)) :
    ∃ P : Nat → Theta, P 0 = θ ∧ (∀ N, Ok (l.fit MSE lr B N) (fun l' => l'.IsFit .mse 1 1 (P N))) ∧
      Tendsto (fun e => (P (2 * e)).1 0) atTop (𝓝 (1 / (2 - lr))) ∧ Tendsto (fun e => (P (2 * e + 1)).1 0) atTop (𝓝 ((1 - lr) / (2 - lr))) ∧
      (1 - lr) / (2 - lr) < 1 / 2 ∧ 1 / 2 < 1 / (2 - lr) ∧ ∀ η, IsBest .mse 1 1 cyData η → η.1 0 = 1 / 2 := by
  have h2 : 0 < 2 - lr := by linarith
  set u : Nat → ℝ := fun N => (fitRun .mse 1 1 lr cyBatch θ N).1 0 with hu
  have even : ∀ e, u (2 * e + 1) = (1 - lr) * u (2 * e) := fun e => by
    show (fitStep .mse 1 1 lr (cyBatch (2 * e)) (fitRun .mse 1 1 lr cyBatch θ (2 * e))).1 0 = _
    rw [show cyBatch (2 * e) = [(fun _ => 0, fun _ => 0)] by simp [cyBatch]]
    simp [fitStep, fitGrad, zGrad, Theta.sums, hu]
    ring
  have odd : ∀ e, u (2 * (e + 1)) = (1 - lr) * u (2 * e + 1) + lr := fun e => by
    show (fitStep .mse 1 1 lr (cyBatch (2 * e + 1)) (fitRun .mse 1 1 lr cyBatch θ (2 * e + 1))).1 0 = _
    rw [show cyBatch (2 * e + 1) = [(fun _ => 0, fun _ => 1)] by simp [cyBatch, show (2 * e + 1) % 2 = 1 by omega]]
    simp [fitStep, fitGrad, zGrad, Theta.sums, hu]
    ring
  have closed : ∀ e, u (2 * e) = 1 / (2 - lr) + ((1 - lr) ^ 2) ^ e * (u 0 - 1 / (2 - lr)) := fun e => by
    induction e with
    | zero => simp
    | succ e ih =>
      rw [odd, even, ih, pow_succ]
      field_simp
      ring
  have hq : Tendsto (fun e : Nat => ((1 - lr) ^ 2) ^ e) atTop (𝓝 0) := tendsto_pow_atTop_nhds_zero_of_lt_one (sq_nonneg _) (by nlinarith)
  have t1 : Tendsto (fun e => u (2 * e)) atTop (𝓝 (1 / (2 - lr))) := by
    have := (hq.mul_const (u 0 - 1 / (2 - lr))).const_add (1 / (2 - lr))
    rw [zero_mul, add_zero] at this
    exact this.congr (fun e => (closed e).symm)
  refine ⟨fitRun .mse 1 1 lr cyBatch θ, rfl, fit_spec (k := .mse) one_pos hv cyBatch_ne lr h, t1, ?_, ?_, ?_, fun η hη => ?_⟩
  · have := t1.const_mul (1 - lr)
    rw [mul_one_div] at this
    exact this.congr (fun e => (even e).symm)
  · rw [div_lt_div_iff₀ h2 (by norm_num)]; linarith
  · rw [div_lt_div_iff₀ (by norm_num) h2]; linarith
  · have := hη (fun _ => 1 / 2, fun _ _ => 0)
    simp [fitMean, cyData, FitKind.fn, mseFn, FitKind.act, LibAct.fn, ActKind.fn, Theta.sums] at this
    have h3 : (η.1 0 - 1 / 2) ^ 2 ≤ 0 := by nlinarith
    have := pow_eq_zero_iff (n := 2) (by decide) |>.1 (le_antisymm h3 (sq_nonneg _))
    linarith

/-! Non-vacuity. -/

theorem cyBatch_rate (i : Nat) : 1 / 2 * meanSq 1 (cyBatch i) ≤ 1 := by
  unfold cyBatch
  split <;> norm_num [meanSq]

theorem cyBatch_per (i : Nat) : cyBatch (i + 2) = cyBatch i := by
  unfold cyBatch
  rw [Nat.add_mod_right]

/-- The contradictory samples have a cycle, though nothing fits them; its residuals cancel: the two predictions add up to 1. -/
example : ∃ P Q : Nat → Theta, (∀ N, Ok ((ftLayer .mse 1 1).fit MSE (1 / 2) (fun i => ftBatch 1 1 (cyBatch i)) N) (fun l' => l'.IsFit .mse 1 1 (P N))) ∧
    (∀ r, ThetaTendsto 1 1 (fun e => P (r + e * 2)) (Q r)) ∧ (Q 0).1 0 + (Q 1).1 0 = 1 := by
  obtain ⟨P, Q, _, h1, _, _, h2, h3, _⟩ := C130_cycle 1 1 one_pos _ _ (ftLayer_IsFit .mse 1 1) _ cyBatch (fun i => ftBatch_Is _ _ _) cyBatch_ne 2 (by decide) cyBatch_per
    (1 / 2) (by norm_num) cyBatch_rate
  refine ⟨P, Q, h1, h2, ?_⟩
  have := h3 0 one_pos
  simp [sum_range_succ, cyBatch, Theta.sums] at this
  linarith

example : ∃ P : Nat → Theta, (∀ N, Ok ((ftLayer .mse 1 1).fit MSE (1 / 2) (fun i => ftBatch 1 1 (cyBatch i)) N) (fun l' => l'.IsFit .mse 1 1 (P N))) ∧
    Tendsto (fun e => (P (2 * e)).1 0) atTop (𝓝 (2 / 3)) := by
  obtain ⟨P, _, h1, h2, _⟩ := C130_off (1 / 2) (by norm_num) (by norm_num) _ _ (ftLayer_IsFit .mse 1 1) _ (fun i => ftBatch_Is _ _ (cyBatch i))
  exact ⟨P, h1, by norm_num at h2 ⊢; exact h2⟩

/-- The same `q` for all initial parameters. -/
example : ∃ q : ℝ, 0 ≤ q ∧ q < 1 ∧ ∀ (θ : Theta) (l : FC ℝ), l.IsFit .mse 1 1 θ → ∃ P Q : Nat → Theta,
    (∀ N, Ok (l.fit MSE (1 / 2) (fun i => ftBatch 1 1 (cyBatch i)) N) (fun l' => l'.IsFit .mse 1 1 (P N))) ∧ ∀ N, (P N).dist2 1 1 (Q N) ≤ q ^ (N / 2) * θ.dist2 1 1 (Q 0) := by
  obtain ⟨q, h0, h1, h2⟩ := C130_rate 1 1 one_pos _ cyBatch (fun i => ftBatch_Is _ _ _) cyBatch_ne 2 (by decide) cyBatch_per (1 / 2) (by norm_num) cyBatch_rate
  exact ⟨q, h0, h1, fun θ l h => by obtain ⟨P, Q, _, h3, _, h4⟩ := h2 θ l h; exact ⟨P, Q, h3, h4⟩⟩

/-- Two different starts, and inputs 0 only: the biases forget the difference. -/
example (θ : Theta) (l : FC ℝ) (h : l.IsFit .mse 1 1 θ) : ∃ P₁ P₂ : Nat → Theta, P₂ 0 = θ ∧
    (∀ N, Ok ((ftLayer .mse 1 1).fit MSE (1 / 2) (fun i => ftBatch 1 1 (cyBatch i)) N) (fun l' => l'.IsFit .mse 1 1 (P₁ N))) ∧
    (∀ N, Ok (l.fit MSE (1 / 2) (fun i => ftBatch 1 1 (cyBatch i)) N) (fun l' => l'.IsFit .mse 1 1 (P₂ N))) ∧
    Tendsto (fun N => (P₁ N).1 0 - (P₂ N).1 0) atTop (𝓝 0) := by
  obtain ⟨P₁, P₂, _, _, e2, h1, h2, h3, _⟩ := C130_forgets 1 1 one_pos _ θ _ l (ftLayer_IsFit .mse 1 1) h cyData _ cyBatch (fun i => ftBatch_Is _ _ _) cyBatch_ne (fun i vw hvw => by
      unfold cyBatch at hvw
      split at hvw
      · exact List.mem_cons.2 (.inl (List.mem_singleton.1 hvw))
      · exact List.mem_cons_of_mem _ hvw) 1 (fun i => by unfold cyBatch; split <;> simp) 2 (fun vw hvw N => by
      simp only [cyData, List.mem_cons, List.not_mem_nil, or_false] at hvw
      rcases hvw with rfl | rfl
      · by_cases h : N % 2 = 0
        · exact ⟨N, le_rfl, by omega, by simp [cyBatch, h]⟩
        · exact ⟨N + 1, by omega, by omega, by simp [cyBatch, show (N + 1) % 2 = 0 by omega]⟩
      · by_cases h : N % 2 = 0
        · exact ⟨N + 1, by omega, by omega, by simp [cyBatch, show ¬ (N + 1) % 2 = 0 by omega]⟩
        · exact ⟨N, le_rfl, by omega, by simp [cyBatch, h]⟩) (1 / 2) (by norm_num) cyBatch_rate
  have := h3 (fun _ => 0, fun _ => 0) (by simp [cyData]) 0 one_pos
  simp [Theta.sums] at this
  exact ⟨P₁, P₂, e2, h1, h2, this⟩

end Trixy
