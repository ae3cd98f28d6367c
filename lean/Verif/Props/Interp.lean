import Verif.Spec.Interp
import Verif.Proof.Interp
import Verif.Props.Nearest
import Verif.Props.FitRate
/- C129: mini-batches in any order, when the data can be fitted exactly. -/
namespace Trixy
set_option linter.unusedSectionVars false
open Finset Losses FitMath Filter Topology

theorem gap_zero (k : FitKind) (p w : ℝ) : k.gap p w = 0 ↔ p = w := by
  cases k with
  | lc =>
    show Real.tanh (p - w) = 0 ↔ _
    rw [Real.tanh_eq_sinh_div_cosh, div_eq_zero_iff, or_iff_left (Real.cosh_pos _).ne', Real.sinh_eq_zero, sub_eq_zero]
  | mse => exact sub_eq_zero
  | nll => exact sub_eq_zero
  | cce => exact sub_eq_zero

theorem exact_aug {k : FitKind} {n m : Nat} {vs : List ((Nat → ℝ) × (Nat → ℝ))} {η : Theta} : Exact k (n + 1) m (augD vs) (augT η) ↔ ExactFit k n m vs η := by
  constructor
  · intro h vw hvw j hj
    have := h (augV vw.1, vw.2) (List.mem_map.2 ⟨vw, hvw, rfl⟩) j hj
    rw [lin_aug, zGrad_gap, gap_zero] at this
    exact this
  · intro h uw hu j hj
    obtain ⟨vw, hvw, rfl⟩ := List.mem_map.1 hu
    dsimp only
    rw [lin_aug, zGrad_gap, gap_zero]
    exact h vw hvw j hj

/-- One batch, when `η` predicts its targets. -/
theorem drop_fit (k : FitKind) {n m : Nat} (hm : 0 < m) (vs : List ((Nat → ℝ) × (Nat → ℝ))) (hw : ∀ vw ∈ vs, k.Target m vw.2) (lr : ℝ) (hlr : 0 < lr)
    (hL : lr * meanSq n vs ≤ 1) (θ η : Theta) (hη : ExactFit k n m vs η) :
    (fitStep k n m lr vs θ).dist2 n m η + 2 * lr * (fitMean k n m vs θ - fitMean k n m vs η) ≤ θ.dist2 n m η ∧ fitMean k n m vs η ≤ fitMean k n m vs θ := by
  have hT := target_aug hw
  have hE := exact_aug.2 hη
  have h1 := (drop hm (augD vs) hT lr (1 / (vs.length : ℝ)) hlr (by positivity) (by rw [len2_aug]; exact hL) (augT θ) (augT η) hE.grd).1
  have hs := step_aug k n m lr vs θ
  have e : (fun i j => augT θ i j + -(grd k (n + 1) m (augD vs) (augT θ) i j * (1 / (vs.length : ℝ)) * lr) - augT η i j) =
      fun i j => augT (fitStep k n m lr vs θ) i j - augT η i j := by
    funext i j
    rw [← hs]
  rw [e, nrm_aug, nrm_aug, mul_sub, tot_aug, tot_aug] at h1
  refine ⟨h1, ?_⟩
  have h2 := mul_le_mul_of_nonneg_left (hE.best hm hT (augT θ)) (show 0 ≤ 1 / (vs.length : ℝ) by positivity)
  rwa [tot_aug, tot_aug] at h2

/-! ### C129 -/

/-- Any stream of batches, never repeated or repeated in any order: no step increases the distance to parameters `η` that predict all targets. -/
theorem C129_distance (k : FitKind) (n m : Nat) (hm : 0 < m) (θ : Theta) (l : FC ℝ) (h : l.IsFit k n m θ) (B : Nat → List (Ten ℝ × Ten ℝ))
    (vs : Nat → List ((Nat → ℝ) × (Nat → ℝ))) (hv : ∀ i, BatchIs (B i) n m (vs i)) (hne : ∀ i, vs i ≠ []) (hw : ∀ i, ∀ vw ∈ vs i, k.Target m vw.2)
    (lr : ℝ) (hlr : 0 < lr) (hL : ∀ i, lr * meanSq n (vs i) ≤ 1) :
    ∃ P : Nat → Theta, P 0 = θ ∧ (∀ N, Ok (l.fit k.loss lr B N) (fun l' => l'.IsFit k n m (P N))) ∧
      ∀ (N : Nat) (η : Theta), ExactFit k n m (vs N) η → (P (N + 1)).dist2 n m η ≤ (P N).dist2 n m η := by
  refine ⟨fitRun k n m lr vs θ, rfl, fit_spec hm hv hne lr h, fun N η hη => ?_⟩
  obtain ⟨h1, h2⟩ := drop_fit k hm (vs N) (hw N) lr hlr (hL N) (fitRun k n m lr vs θ N) η hη
  have := mul_nonneg (by linarith : (0 : ℝ) ≤ 2 * lr) (sub_nonneg.2 h2)
  show (fitStep k n m lr (vs N) (fitRun k n m lr vs θ N)).dist2 n m η ≤ _
  linarith

/-- Any stream of batches that a regression model `η` predicts: the losses, each measured BEFORE the step made with the batch, sum up to at most |θ - η|² / (2 lr),
however many batches come. -/
theorem C129_total (k : FitKind) (hk : k = .mse ∨ k = .lc) (n m : Nat) (hm : 0 < m) (θ : Theta) (l : FC ℝ) (h : l.IsFit k n m θ) (B : Nat → List (Ten ℝ × Ten ℝ))
    (vs : Nat → List ((Nat → ℝ) × (Nat → ℝ))) (hv : ∀ i, BatchIs (B i) n m (vs i)) (hne : ∀ i, vs i ≠ []) (lr : ℝ) (hlr : 0 < lr) (hL : ∀ i, lr * meanSq n (vs i) ≤ 1) :
    ∃ P : Nat → Theta, P 0 = θ ∧ (∀ N, Ok (l.fit k.loss lr B N) (fun l' => l'.IsFit k n m (P N))) ∧
      ∀ η : Theta, (∀ i, ExactFit k n m (vs i) η) → ∀ N, ∑ i ∈ range N, fitMean k n m (vs i) (P i) ≤ θ.dist2 n m η / (2 * lr) := by
  have hw : ∀ i, ∀ vw ∈ vs i, k.Target m vw.2 := fun i vw _ => by rcases hk with rfl | rfl <;> trivial
  refine ⟨fitRun k n m lr vs θ, rfl, fit_spec hm hv hne lr h, fun η hη N => ?_⟩
  have hzero : ∀ i, fitMean k n m (vs i) η = 0 := fun i => by
    rw [fitMean_phi]
    have : ((vs i).map (fun vw => phi k m vw.2 (η.sums n vw.1))).sum = 0 := List.sum_eq_zero (fun x hx => by
      obtain ⟨vw, hvw, rfl⟩ := List.mem_map.1 hx
      have he := hη i vw hvw
      rcases hk with rfl | rfl
      · show 1 / 2 * ∑ j ∈ range m, (η.sums n vw.1 j - vw.2 j) ^ 2 = 0
        rw [sum_eq_zero (fun j hj => by
          have : η.sums n vw.1 j = vw.2 j := he j (mem_range.1 hj)
          rw [this, sub_self, zero_pow (by decide)]), mul_zero]
      · show ∑ j ∈ range m, Real.log (Real.cosh (η.sums n vw.1 j - vw.2 j)) = 0
        exact sum_eq_zero (fun j hj => by
          have : η.sums n vw.1 j = vw.2 j := he j (mem_range.1 hj)
          rw [this, sub_self, Real.cosh_zero, Real.log_one]))
    rw [this, mul_zero]
  have key : (fitRun k n m lr vs θ N).dist2 n m η + 2 * lr * ∑ i ∈ range N, fitMean k n m (vs i) (fitRun k n m lr vs θ i) ≤ θ.dist2 n m η := by
    induction N with
    | zero => simp [fitRun]
    | succ N ih =>
      rw [sum_range_succ, mul_add]
      have := (drop_fit k hm (vs N) (hw N) lr hlr (hL N) (fitRun k n m lr vs θ N) η (hη N)).1
      rw [hzero, sub_zero] at this
      have e : fitStep k n m lr (vs N) (fitRun k n m lr vs θ N) = fitRun k n m lr vs θ (N + 1) := rfl
      rw [e] at this
      linarith
  rw [le_div_iff₀ (by linarith)]
  have := dist2_nonneg n m (fitRun k n m lr vs θ N) η
  linarith

/-- A data set that some parameters fit exactly, trained in mini-batches of at most `M` samples, in any order and with any repetitions, as long as every sample comes at
least once in any `K` steps (say, once per epoch): all parameters converge, to those exact ones that are nearest to the initial ones. The learning rate stays fixed. -/
theorem C129_converges (k : FitKind) (n m : Nat) (hm : 0 < m) (θ : Theta) (l : FC ℝ) (h : l.IsFit k n m θ) (data : List ((Nat → ℝ) × (Nat → ℝ)))
    (hw : ∀ vw ∈ data, k.Target m vw.2) (hex : ∃ η, ExactFit k n m data η) (B : Nat → List (Ten ℝ × Ten ℝ)) (vs : Nat → List ((Nat → ℝ) × (Nat → ℝ)))
    (hv : ∀ i, BatchIs (B i) n m (vs i)) (hne : ∀ i, vs i ≠ []) (hsub : ∀ i, ∀ vw ∈ vs i, vw ∈ data) (M : Nat) (hM : ∀ i, (vs i).length ≤ M)
    (K : Nat) (hwin : ∀ vw ∈ data, ∀ N, ∃ i, N ≤ i ∧ i < N + K ∧ vw ∈ vs i) (lr : ℝ) (hlr : 0 < lr) (hL : ∀ i, lr * meanSq n (vs i) ≤ 1) :
    ∃ (P : Nat → Theta) (p : Theta), P 0 = θ ∧ (∀ N, Ok (l.fit k.loss lr B N) (fun l' => l'.IsFit k n m (P N))) ∧
      ThetaTendsto n m P p ∧ ExactFit k n m data p ∧ ∀ η, ExactFit k n m data η → θ.dist2 n m η = θ.dist2 n m p + p.dist2 n m η := by
  have hlen : ∀ i, 0 < (vs i).length := fun i => List.length_pos_iff.2 (hne i)
  have hM0 : (0 : ℝ) < M := by exact_mod_cast (hlen 0).trans_le (hM 0)
  obtain ⟨p, hp, hc, hd⟩ := interp (k := k) (n := n + 1) (m := m) hm (augD data) (target_aug hw) (fun i => augD (vs i)) (fun i uw hu => by
      obtain ⟨vw, hvw, rfl⟩ := List.mem_map.1 hu
      exact List.mem_map.2 ⟨vw, hsub i vw hvw, rfl⟩) lr hlr (fun i => 1 / ((vs i).length : ℝ)) (1 / M) (by positivity) (fun i => by
      have h1 : (0 : ℝ) < (vs i).length := by exact_mod_cast hlen i
      have h2 : ((vs i).length : ℝ) ≤ M := by exact_mod_cast hM i
      exact one_div_le_one_div_of_le h1 h2) (fun i => by rw [len2_aug]; exact hL i) K (fun uw hu N => by
      obtain ⟨vw, hvw, rfl⟩ := List.mem_map.1 hu
      obtain ⟨i, h1, h2, h3⟩ := hwin vw hvw N
      exact ⟨i, h1, h2, List.mem_map.2 ⟨vw, h3, rfl⟩⟩) (fun N => augT (fitRun k n m lr vs θ N)) (fun N => (step_aug k n m lr (vs N) _).symm)
    (hex.elim (fun η h => ⟨_, exact_aug.2 h⟩))
  refine ⟨fitRun k n m lr vs θ, deT p, rfl, fit_spec hm hv hne lr h, ⟨fun j hj => hc 0 j (by omega) hj, fun i j hi hj => hc (i + 1) j (by omega) hj⟩,
    exact_aug.1 (by rw [aug_de]; exact hp), fun η hη => ?_⟩
  have := hd (augT η) (exact_aug.2 hη)
  rw [← nrm_aug, ← nrm_aug, ← nrm_aug, aug_de]
  exact this

/-! Non-vacuity: the points (0, 1), (1, 3) of a line, one at a time in turn. -/

def inData : List ((Nat → ℝ) × (Nat → ℝ)) := [(fun _ => 0, fun _ => 1), (fun _ => 1, fun _ => 3)]

def inBatch (i : Nat) : List ((Nat → ℝ) × (Nat → ℝ)) := if i % 2 = 0 then [(fun _ => 0, fun _ => 1)] else [(fun _ => 1, fun _ => 3)]

theorem inData_exact : ExactFit .mse 1 1 inData (fun _ => 1, fun _ _ => 2) := by
  intro vw hvw j _
  simp only [inData, List.mem_cons, List.not_mem_nil, or_false] at hvw
  rcases hvw with rfl | rfl <;> norm_num [FitKind.act, LibAct.fn, ActKind.fn, Theta.sums]

theorem inBatch_sub (i : Nat) : ∀ vw ∈ inBatch i, vw ∈ inData := by
  intro vw hvw
  unfold inBatch at hvw
  split at hvw
  · exact List.mem_cons.2 (.inl (List.mem_singleton.1 hvw))
  · exact List.mem_cons_of_mem _ hvw

theorem inBatch_rate (i : Nat) : 1 / 2 * meanSq 1 (inBatch i) ≤ 1 := by
  unfold inBatch
  split <;> norm_num [meanSq]

/-- One sample at a time reaches the line 1 + 2 x; -/
example : ∃ P : Nat → Theta, (∀ N, Ok ((ftLayer .mse 1 1).fit MSE (1 / 2) (fun i => ftBatch 1 1 (inBatch i)) N) (fun l' => l'.IsFit .mse 1 1 (P N))) ∧
    Tendsto (fun N => (P N).1 0) atTop (𝓝 1) ∧ Tendsto (fun N => (P N).2 0 0) atTop (𝓝 2) := by
  obtain ⟨P, p, _, h1, h2, h3, _⟩ := C129_converges .mse 1 1 one_pos _ _ (ftLayer_IsFit .mse 1 1) inData (fun _ _ => trivial) ⟨_, inData_exact⟩ _ inBatch (fun i => ftBatch_Is _ _ _)
    (fun i => by unfold inBatch; split <;> simp) inBatch_sub 1 (fun i => by unfold inBatch; split <;> simp) 2 (fun vw hvw N => by
      simp only [inData, List.mem_cons, List.not_mem_nil, or_false] at hvw
      rcases hvw with rfl | rfl
      · by_cases h : N % 2 = 0
        · exact ⟨N, le_rfl, by omega, by simp [inBatch, h]⟩
        · exact ⟨N + 1, by omega, by omega, by simp [inBatch, show (N + 1) % 2 = 0 by omega]⟩
      · by_cases h : N % 2 = 0
        · exact ⟨N + 1, by omega, by omega, by simp [inBatch, show ¬ (N + 1) % 2 = 0 by omega]⟩
        · exact ⟨N, le_rfl, by omega, by simp [inBatch, h]⟩) (1 / 2) (by norm_num) inBatch_rate
  have e1 := h3 (fun _ => 0, fun _ => 1) (by simp [inData]) 0 one_pos
  have e2 := h3 (fun _ => 1, fun _ => 3) (by simp [inData]) 0 one_pos
  simp [FitKind.act, LibAct.fn, ActKind.fn, Theta.sums] at e1 e2
  have f1 := h2.1 0 one_pos
  have f2 := h2.2 0 0 one_pos one_pos
  rw [e1] at f1
  rw [show p.2 0 0 = 2 by linarith] at f2
  exact ⟨P, h1, f1, f2⟩

/-- the losses suffered on the way sum up to at most (1² + 2²) / (2 · 1/2) = 5. -/
example : ∃ P : Nat → Theta, (∀ N, Ok ((ftLayer .mse 1 1).fit MSE (1 / 2) (fun i => ftBatch 1 1 (inBatch i)) N) (fun l' => l'.IsFit .mse 1 1 (P N))) ∧
    ∀ N, ∑ i ∈ range N, fitMean .mse 1 1 (inBatch i) (P i) ≤ 5 := by
  obtain ⟨P, _, h1, h2⟩ := C129_total .mse (.inl rfl) 1 1 one_pos _ _ (ftLayer_IsFit .mse 1 1) _ inBatch (fun i => ftBatch_Is _ _ _)
    (fun i => by unfold inBatch; split <;> simp) (1 / 2) (by norm_num) inBatch_rate
  refine ⟨P, h1, fun N => (h2 _ (fun i vw hvw => inData_exact vw (inBatch_sub i vw hvw)) N).trans (le_of_eq ?_)⟩
  norm_num [Theta.dist2]

end Trixy
