import Verif.Spec.Decay
import Verif.Proof.Decay
import Verif.Props.Fit
import Verif.Props.Optim
/- C120: weight decay. -/
namespace Trixy
set_option linter.unusedSectionVars false
open Finset Losses FitMath

/-! ### What the program computes -/

theorem FC.updateWith_sgd {α : Type _} [Mul α] [Sub α] [_root_.One α] [DecidableEq α] (hone : ∀ a : α, a * 1 = a) {s : Sgd α} {alpha : α} {f : FC α} {n m : Nat}
    {b : Nat → α} {W : Nat → Nat → α} (hB : VecIs f.B m b) (hW : MatIs f.W n m W) {GB : Buf α} {GW : Mat α} {gB : Nat → α}
    {gW : Nat → Nat → α} (h1 : VecIs GB m gB) (h2 : MatIs GW n m gW) :
    Ok (FC.updateWith sgdUpdate s alpha f GB GW) (fun r => r.1 = s ∧ VecIs r.2.1 m (fun j => b j * s.alpha - gB j * alpha * s.lr) ∧
      VecIs r.2.2.1 m (fun j => gB j * alpha * s.lr) ∧
      VecIs r.2.2.2.1 (n * m) (fun k => W (k / m) (k % m) * s.alpha - gW (k / m) (k % m) * alpha * s.lr) ∧
      VecIs r.2.2.2.2 (n * m) (fun k => gW (k / m) (k % m) * alpha * s.lr)) := by
  unfold FC.updateWith
  refine (scaleUnlessOne_spec hone h1 alpha).bind (fun g1 q1 => ?_)
  refine (scaleUnlessOne_spec hone h2.flat alpha).bind (fun g2 q2 => ?_)
  refine (sgd_spec hB q1).bind (fun r1 s1 => ?_)
  obtain ⟨e1, s2, s3⟩ := s1
  dsimp only
  rw [e1]
  refine (sgd_spec hW.flat q2).bind (fun r2 t1 => ?_)
  exact Ok_ok.2 ⟨t1.1, s2, s3, t1.2.1, t1.2.2⟩

/-- One step: `al · θ - lr · mean gradient`. -/
noncomputable def decayStep (k : FitKind) (n m : Nat) (lr al : ℝ) (vs : List ((Nat → ℝ) × (Nat → ℝ))) (θ : Theta) : Theta :=
  (fun j => θ.1 j * al - (fitGrad k n m vs θ).1 j * (1 / (vs.length : ℝ)) * lr,
   fun i j => θ.2 i j * al - (fitGrad k n m vs θ).2 i j * (1 / (vs.length : ℝ)) * lr)

theorem decayBatch_spec {k : FitKind} {n m : Nat} (hm : 0 < m) {θ : Theta} {B : List (Ten ℝ × Ten ℝ)} {vs : List ((Nat → ℝ) × (Nat → ℝ))} (hv : BatchIs B n m vs)
    (hne : vs ≠ []) (s : Sgd ℝ) {l : FC ℝ} (h : l.IsFit k n m θ) : Ok (l.decayBatch k.loss s B) (fun l' => l'.IsFit k n m (decayStep k n m s.lr s.alpha vs θ)) := by
  unfold FC.decayBatch
  refine (FC.reset_spec h.1).bind (fun l1 ⟨w1, b1, W1, _, e1⟩ => ?_)
  refine (fitSamples_spec hm hv (θ := θ) ⟨w1, by rw [e1]; exact h.2⟩ b1 W1).bind (fun l2 ⟨h2, b2, W2, a2⟩ => ?_)
  have a2 := a2 (.inr hne)
  have hlen : B.length = vs.length := List.Forall₂.length_eq hv
  have : Ok (l2.update sgdUpdate s (1 / (B.length : ℝ))) (fun r => r.2.IsFit k n m (decayStep k n m s.lr s.alpha vs θ)) := by
    unfold FC.update
    rw [if_pos a2]
    refine (FC.updateWith_sgd (fun a => mul_one a) h2.1.B h2.1.W b2 W2).bind (fun r ⟨_, q1, q2, q3, q4⟩ => ?_)
    obtain ⟨s', B', gB, W, gW⟩ := r
    dsimp only at q1 q2 q3 q4
    have k1 := h2.1.W.of_data (g := fun i j => θ.2 i j * s.alpha - (0 + (fitGrad k n m vs θ).2 i j) * (1 / (B.length : ℝ)) * s.lr) q3
    have k2 := W2.of_data (g := fun i j => (0 + (fitGrad k n m vs θ).2 i j) * (1 / (B.length : ℝ)) * s.lr) q4
    refine Ok_ok.2 ⟨{ h2.1 with B := ?_, W := ?_, gradBs := ⟨_, q2⟩, gradWs := ⟨_, k2⟩ }, h2.2⟩
    · exact q1.congr (fun j _ => by simp [decayStep, hlen])
    · exact k1.congr (fun i j _ _ => by simp [decayStep, hlen])
  exact this.bind (fun r hr => Ok_ok.2 hr)

/-- The parameters after `N` batches. -/
noncomputable def decayRun (k : FitKind) (n m : Nat) (lr al : ℝ) (vs : Nat → List ((Nat → ℝ) × (Nat → ℝ))) (θ : Theta) : Nat → Theta
  | 0 => θ
  | N + 1 => decayStep k n m lr al (vs N) (decayRun k n m lr al vs θ N)

theorem decayFit_spec {k : FitKind} {n m : Nat} (hm : 0 < m) {θ : Theta} {B : Nat → List (Ten ℝ × Ten ℝ)} {vs : Nat → List ((Nat → ℝ) × (Nat → ℝ))}
    (hv : ∀ i, BatchIs (B i) n m (vs i)) (hne : ∀ i, vs i ≠ []) (s : Sgd ℝ) {l : FC ℝ} (h : l.IsFit k n m θ) (N : Nat) :
    Ok (l.decayFit k.loss s B N) (fun l' => l'.IsFit k n m (decayRun k n m s.lr s.alpha vs θ N)) :=
  forN_spec (fun i (l : FC ℝ) => l.IsFit k n m (decayRun k n m s.lr s.alpha vs θ i)) h (fun i _ _ hs => decayBatch_spec hm (hv i) (hne i) s hs)

/-! ### Distances -/

theorem step_decay (k : FitKind) (n m : Nat) (lr al : ℝ) (vs : List ((Nat → ℝ) × (Nat → ℝ))) (θ : Theta) (i j : Nat) :
    augT (decayStep k n m lr al vs θ) i j = augT θ i j * al - grd k (n + 1) m (augD vs) (augT θ) i j * (1 / (vs.length : ℝ)) * lr := by
  rw [grd_aug]
  cases i <;> rfl

theorem norm2_aug (n m : Nat) (θ : Theta) : nrm (n + 1) m (augT θ) = θ.norm2 n m := by
  unfold nrm Theta.norm2
  rw [sum_range_succ', add_comm]
  rfl

theorem aug_target {k : FitKind} {m : Nat} {vs : List ((Nat → ℝ) × (Nat → ℝ))} (hw : ∀ vw ∈ vs, k.Target m vw.2) : ∀ uw ∈ augD vs, k.Target m uw.2 := by
  intro uw h
  obtain ⟨vw, hv, rfl⟩ := List.mem_map.1 h
  exact hw vw hv

theorem meanSq_pos (n : Nat) {vs : List ((Nat → ℝ) × (Nat → ℝ))} (hne : vs ≠ []) : 0 < meanSq n vs := by
  unfold meanSq
  have hl : (0 : ℝ) < vs.length := by exact_mod_cast List.length_pos_of_ne_nil hne
  refine mul_pos (by positivity) (List.sum_pos _ (fun a ha => ?_) (by simpa using hne))
  obtain ⟨vw, _, rfl⟩ := List.mem_map.1 ha
  have : 0 ≤ ∑ i ∈ range n, vw.1 i ^ 2 := sum_nonneg (fun _ _ => sq_nonneg _)
  linarith

theorem al_pos {n : Nat} {vs : List ((Nat → ℝ) × (Nat → ℝ))} (hne : vs ≠ []) {lr al : ℝ} (hlr : 0 < lr) (hL : lr * meanSq n vs ≤ 2 * al) : 0 < al := by
  have := mul_pos hlr (meanSq_pos n hne)
  linarith

theorem step_close (k : FitKind) {n m : Nat} (hm : 0 < m) {vs : List ((Nat → ℝ) × (Nat → ℝ))} (hne : vs ≠ []) (hw : ∀ vw ∈ vs, k.Target m vw.2) {lr al : ℝ} (hlr : 0 < lr)
    (hL : lr * meanSq n vs ≤ 2 * al) (θ η : Theta) :
    (decayStep k n m lr al vs θ).dist2 n m (decayStep k n m lr al vs η) ≤ al ^ 2 * θ.dist2 n m η := by
  have hl : (0 : ℝ) < vs.length := by exact_mod_cast List.length_pos_of_ne_nil hne
  have := decay_contract k (n + 1) m hm (augD vs) (aug_target hw) lr (1 / (vs.length : ℝ)) al hlr (by positivity) (al_pos hne hlr hL) (by rw [len2_aug]; exact hL)
    (augT θ) (augT η)
  rw [nrm_aug] at this
  rw [← nrm_aug]
  simpa only [step_decay] using this

theorem dist2_congr {n m : Nat} {θ θ' η η' : Theta} (h1 : ∀ j, j < m → θ.1 j = θ'.1 j) (h2 : ∀ i j, i < n → j < m → θ.2 i j = θ'.2 i j)
    (h3 : ∀ j, j < m → η.1 j = η'.1 j) (h4 : ∀ i j, i < n → j < m → η.2 i j = η'.2 i j) : θ.dist2 n m η = θ'.dist2 n m η' := by
  unfold Theta.dist2
  congr 1
  · exact sum_congr rfl (fun j hj => by rw [h1 j (mem_range.1 hj), h3 j (mem_range.1 hj)])
  · exact sum_congr rfl (fun i hi => sum_congr rfl (fun j hj => by rw [h2 i j (mem_range.1 hi) (mem_range.1 hj), h4 i j (mem_range.1 hi) (mem_range.1 hj)]))

theorem dist2_bias {n m : Nat} (θ η : Theta) {j : Nat} (hj : j < m) : (θ.1 j - η.1 j) ^ 2 ≤ θ.dist2 n m η := by
  have h1 := single_le_sum (f := fun j => (θ.1 j - η.1 j) ^ 2) (fun j _ => sq_nonneg _) (mem_range.2 hj)
  have h2 : 0 ≤ ∑ i ∈ range n, ∑ j ∈ range m, (θ.2 i j - η.2 i j) ^ 2 := sum_nonneg (fun _ _ => sum_nonneg (fun _ _ => sq_nonneg _))
  unfold Theta.dist2
  linarith

theorem dist2_weight {n m : Nat} (θ η : Theta) {i j : Nat} (hi : i < n) (hj : j < m) : (θ.2 i j - η.2 i j) ^ 2 ≤ θ.dist2 n m η := by
  have h1 := single_le_sum (f := fun j => (θ.2 i j - η.2 i j) ^ 2) (fun j _ => sq_nonneg _) (mem_range.2 hj)
  have h2 := single_le_sum (f := fun i => ∑ j ∈ range m, (θ.2 i j - η.2 i j) ^ 2) (fun i _ => sum_nonneg (fun _ _ => sq_nonneg _)) (mem_range.2 hi)
  have h3 : 0 ≤ ∑ j ∈ range m, (θ.1 j - η.1 j) ^ 2 := sum_nonneg (fun _ _ => sq_nonneg _)
  unfold Theta.dist2
  linarith

theorem run_close (k : FitKind) {n m : Nat} (hm : 0 < m) {vs : Nat → List ((Nat → ℝ) × (Nat → ℝ))} (hne : ∀ i, vs i ≠ []) (hw : ∀ i, ∀ vw ∈ vs i, k.Target m vw.2)
    {lr al : ℝ} (hlr : 0 < lr) (hL : ∀ i, lr * meanSq n (vs i) ≤ 2 * al) (θ η : Theta) (N : Nat) :
    (decayRun k n m lr al vs θ N).dist2 n m (decayRun k n m lr al vs η N) ≤ al ^ (2 * N) * θ.dist2 n m η := by
  induction N with
  | zero => simp [decayRun]
  | succ N ih =>
    refine (step_close k hm (hne N) (hw N) hlr (hL N) _ _).trans ?_
    calc al ^ 2 * _ ≤ al ^ 2 * (al ^ (2 * N) * θ.dist2 n m η) := mul_le_mul_of_nonneg_left ih (sq_nonneg al)
      _ = _ := by ring

/-! ### C120 -/

/-- The initial parameters are forgotten: two layers trained on the same batches (any sequence of batches, one sample each, say) come closer by the factor
1 - lr · decay in every step. -/
theorem C120_forgets (k : FitKind) (n m : Nat) (hm : 0 < m) (θ η : Theta) (l l2 : FC ℝ) (h : l.IsFit k n m θ) (h2 : l2.IsFit k n m η) (B : Nat → List (Ten ℝ × Ten ℝ))
    (vs : Nat → List ((Nat → ℝ) × (Nat → ℝ))) (hv : ∀ i, BatchIs (B i) n m (vs i)) (hne : ∀ i, vs i ≠ []) (hw : ∀ i, ∀ vw ∈ vs i, k.Target m vw.2)
    (lr decay : ℝ) (hlr : 0 < lr) (hL : ∀ i, lr * meanSq n (vs i) ≤ 2 * (1 - lr * decay)) (N : Nat) :
    ∃ θ' η' : Theta, Ok (l.decayFit k.loss (Sgd.make lr decay) B N) (fun l' => l'.IsFit k n m θ') ∧
      Ok (l2.decayFit k.loss (Sgd.make lr decay) B N) (fun l' => l'.IsFit k n m η') ∧
      θ'.dist2 n m η' ≤ (1 - lr * decay) ^ (2 * N) * θ.dist2 n m η :=
  ⟨_, _, decayFit_spec hm hv hne (Sgd.make lr decay) h N, decayFit_spec hm hv hne (Sgd.make lr decay) h2 N, run_close k hm hne hw hlr hL θ η N⟩

open Filter Topology in
theorem run_limit (k : FitKind) {n m : Nat} (hm : 0 < m) {vs : List ((Nat → ℝ) × (Nat → ℝ))} (hne : vs ≠ []) (hw : ∀ vw ∈ vs, k.Target m vw.2) {lr al : ℝ} (hlr : 0 < lr)
    (hL : lr * meanSq n vs ≤ 2 * al) (h1 : al < 1) :
    ∃ θs : Theta, (∀ j, j < m → (decayStep k n m lr al vs θs).1 j = θs.1 j) ∧ ∀ i j, i < n → j < m → (decayStep k n m lr al vs θs).2 i j = θs.2 i j := by
  have h0 := al_pos hne hlr hL
  let P : Nat → Theta := decayRun k n m lr al (fun _ => vs) (fun _ => 0, fun _ _ => 0)
  have hstep : ∀ N, P (N + 1) = decayStep k n m lr al vs (P N) := fun N => rfl
  have hd : ∀ N, (P N).dist2 n m (P (N + 1)) ≤ al ^ (2 * N) * (P 0).dist2 n m (P 1) := by
    intro N
    induction N with
    | zero => simp
    | succ N ih =>
      rw [hstep N, hstep (N + 1), hstep N]
      refine (step_close k hm hne hw hlr hL _ _).trans ?_
      calc al ^ 2 * _ ≤ al ^ 2 * (al ^ (2 * N) * (P 0).dist2 n m (P 1)) := mul_le_mul_of_nonneg_left ih (sq_nonneg al)
        _ = _ := by ring
  set C := Real.sqrt ((P 0).dist2 n m (P 1)) with hC
  have conv : ∀ f : Theta → ℝ, (∀ θ η : Theta, (f θ - f η) ^ 2 ≤ θ.dist2 n m η) → ∃ L, Tendsto (fun N => f (P N)) atTop (𝓝 L) := fun f hf => by
    refine cauchySeq_tendsto_of_complete (cauchySeq_of_le_geometric al C h1 (fun N => ?_))
    rw [Real.dist_eq]
    refine abs_le_of_sq_le_sq ((hf _ _).trans ((hd N).trans (le_of_eq ?_))) (by positivity)
    rw [mul_pow, hC, Real.sq_sqrt (dist2_nonneg ..)]
    ring
  have hb : ∀ j, ∃ L, j < m → Tendsto (fun N => (P N).1 j) atTop (𝓝 L) := fun j => by
    by_cases hj : j < m
    · obtain ⟨L, hL⟩ := conv (fun θ => θ.1 j) (fun θ η => dist2_bias θ η hj)
      exact ⟨L, fun _ => hL⟩
    · exact ⟨0, fun h => absurd h hj⟩
  have hW : ∀ i j, ∃ L, i < n → j < m → Tendsto (fun N => (P N).2 i j) atTop (𝓝 L) := fun i j => by
    by_cases hij : i < n ∧ j < m
    · obtain ⟨L, hL⟩ := conv (fun θ => θ.2 i j) (fun θ η => dist2_weight θ η hij.1 hij.2)
      exact ⟨L, fun _ _ => hL⟩
    · exact ⟨0, fun h h' => absurd ⟨h, h'⟩ hij⟩
  choose b hb using hb
  choose W hW using hW
  let θs : Theta := (b, W)
  have hz : Tendsto (fun N => (P N).dist2 n m θs) atTop (𝓝 0) := by
    have e1 : Tendsto (fun N => ∑ j ∈ range m, ((P N).1 j - b j) ^ 2) atTop (𝓝 (∑ j ∈ range m, (b j - b j) ^ 2)) :=
      tendsto_finsetSum _ (fun j hj => ((hb j (mem_range.1 hj)).sub_const _).pow 2)
    have e2 : Tendsto (fun N => ∑ i ∈ range n, ∑ j ∈ range m, ((P N).2 i j - W i j) ^ 2) atTop (𝓝 (∑ i ∈ range n, ∑ j ∈ range m, (W i j - W i j) ^ 2)) :=
      tendsto_finsetSum _ (fun i hi => tendsto_finsetSum _ (fun j hj => ((hW i j (mem_range.1 hi) (mem_range.1 hj)).sub_const _).pow 2))
    have := e1.add e2
    simp only [sub_self, ne_eq, OfNat.ofNat_ne_zero, not_false_eq_true, zero_pow, sum_const_zero, add_zero] at this
    exact this
  have hz2 : Tendsto (fun N => (P (N + 1)).dist2 n m (decayStep k n m lr al vs θs)) atTop (𝓝 0) := by
    refine squeeze_zero (fun N => dist2_nonneg ..) (fun N => ?_) hz
    rw [hstep]
    refine (step_close k hm hne hw hlr hL _ _).trans ?_
    exact mul_le_of_le_one_left (dist2_nonneg ..) (pow_le_one₀ h0.le h1.le)
  have fin : ∀ f : Theta → ℝ, (∀ θ η : Theta, (f θ - f η) ^ 2 ≤ θ.dist2 n m η) → f (decayStep k n m lr al vs θs) = f θs := fun f hf => by
    have lim : ∀ (Q : Nat → Theta) (η : Theta), Tendsto (fun N => (Q N).dist2 n m η) atTop (𝓝 0) → Tendsto (fun N => f (Q N)) atTop (𝓝 (f η)) := fun Q η hQ => by
      have h2 : Tendsto (fun N => (f (Q N) - f η) ^ 2) atTop (𝓝 0) := squeeze_zero (fun _ => sq_nonneg _) (fun N => hf _ _) hQ
      have h3 := h2.sqrt
      simp only [Real.sqrt_sq_eq_abs, Real.sqrt_zero] at h3
      have h4 := (tendsto_zero_iff_abs_tendsto_zero _).2 h3
      simpa using h4.add_const (f η)
    exact tendsto_nhds_unique (lim _ _ hz2) ((lim _ _ hz).comp (tendsto_add_atTop_nat 1))
  exact ⟨θs, fun j hj => fin (fun θ => θ.1 j) (fun θ η => dist2_bias θ η hj), fun i j hi hj => fin (fun θ => θ.2 i j) (fun θ η => dist2_weight θ η hi hj)⟩

/-- Training on the whole data set converges geometrically, from any initial parameters, to the unique minimum of the regularised loss
mean loss + decay / 2 · |θ|². -/
theorem C120_optimum (k : FitKind) (n m : Nat) (hm : 0 < m) (B : List (Ten ℝ × Ten ℝ)) (vs : List ((Nat → ℝ) × (Nat → ℝ))) (hv : BatchIs B n m vs) (hne : vs ≠ [])
    (hw : ∀ vw ∈ vs, k.Target m vw.2) (lr decay : ℝ) (hlr : 0 < lr) (hd : 0 < decay) (hL : lr * meanSq n vs ≤ 2 * (1 - lr * decay)) :
    ∃ θs : Theta, (∀ η : Theta, ridge k n m decay vs θs + decay / 2 * η.dist2 n m θs ≤ ridge k n m decay vs η) ∧
      ∀ (θ : Theta) (l : FC ℝ), l.IsFit k n m θ → ∀ N, Ok (l.decayFit k.loss (Sgd.make lr decay) (fun _ => B) N) (fun l' =>
        ∃ θ' : Theta, l'.IsFit k n m θ' ∧ θ'.dist2 n m θs ≤ (1 - lr * decay) ^ (2 * N) * θ.dist2 n m θs) := by
  have h1 : 1 - lr * decay < 1 := by nlinarith
  obtain ⟨θs, hb, hW⟩ := run_limit k hm hne hw hlr hL h1
  refine ⟨θs, fun η => ?_, fun θ l hl N => ?_⟩
  · have hl : (0 : ℝ) < vs.length := by exact_mod_cast List.length_pos_of_ne_nil hne
    have hfix : ∀ i j, i < n + 1 → j < m → grd k (n + 1) m (augD vs) (augT θs) i j * (1 / (vs.length : ℝ)) = -(decay * augT θs i j) := fun i j hi hj => by
      have e := step_decay k n m lr (1 - lr * decay) vs θs i j
      have e2 : augT (decayStep k n m lr (1 - lr * decay) vs θs) i j = augT θs i j := by
        cases i with
        | zero => exact hb j hj
        | succ i => exact hW i j (by omega) hj
      rw [e2] at e
      have : lr * (grd k (n + 1) m (augD vs) (augT θs) i j * (1 / (vs.length : ℝ))) = lr * -(decay * augT θs i j) := by linarith
      exact mul_left_cancel₀ hlr.ne' this
    have := fixed_min k (n + 1) m hm (augD vs) (aug_target hw) (1 / (vs.length : ℝ)) decay (by positivity) (augT θs) (augT η) hfix
    rw [tot_aug, tot_aug, norm2_aug, norm2_aug, nrm_aug] at this
    exact this
  · refine (decayFit_spec hm (fun _ => hv) (fun _ => hne) (Sgd.make lr decay) hl N).mono (fun l' hl' => ⟨_, hl', ?_⟩)
    show (decayRun k n m lr (1 - lr * decay) (fun _ => vs) θ N).dist2 n m θs ≤ _
    clear hl'
    induction N with
    | zero => simp [decayRun]
    | succ N ih =>
      have := step_close k hm hne hw hlr hL (decayRun k n m lr (1 - lr * decay) (fun _ => vs) θ N) θs
      rw [dist2_congr (η := decayStep k n m lr (1 - lr * decay) vs θs) (η' := θs) (fun _ _ => rfl) (fun _ _ _ _ => rfl) hb hW] at this
      refine this.trans ?_
      calc (1 - lr * decay) ^ 2 * _ ≤ (1 - lr * decay) ^ 2 * ((1 - lr * decay) ^ (2 * N) * θ.dist2 n m θs) := mul_le_mul_of_nonneg_left ih (sq_nonneg _)
        _ = _ := by ring

/-! #### Influence of one sample -/

theorem outer_nrm (n m : Nat) (u g : Nat → ℝ) : nrm n m (fun i j => u i * g j) = (∑ i ∈ range n, u i ^ 2) * ∑ j ∈ range m, g j ^ 2 := by
  unfold nrm
  rw [sum_mul]
  refine sum_congr rfl (fun i _ => ?_)
  rw [mul_sum]
  exact sum_congr rfl (fun j _ => by ring)

theorem nrm_scale (n m : Nat) (c : ℝ) (S : Nat → Nat → ℝ) : nrm n m (fun i j => c * S i j) = c ^ 2 * nrm n m S := by
  unfold nrm
  simp only [mul_sum]
  exact sum_congr rfl (fun i _ => sum_congr rfl (fun j _ => by ring))

theorem influence (k : FitKind) {n m : Nat} {c : ℝ} (hk : Steep k m c) (hm : 0 < m) (pre post : List ((Nat → ℝ) × (Nat → ℝ))) (p q : (Nat → ℝ) × (Nat → ℝ))
    (hw : ∀ vw ∈ pre ++ p :: post, k.Target m vw.2) (hq : k.Target m q.2) {ρ : ℝ} (hp1 : 1 + ∑ i ∈ range n, p.1 i ^ 2 ≤ ρ) (hq1 : 1 + ∑ i ∈ range n, q.1 i ^ 2 ≤ ρ)
    {lr decay : ℝ} (hlr : 0 < lr) (hd : 0 < decay) (hL : lr * meanSq n (pre ++ p :: post) ≤ 2 * (1 - lr * decay)) (θ : Theta) (N : Nat) :
    (decayRun k n m lr (1 - lr * decay) (fun _ => pre ++ p :: post) θ N).dist2 n m (decayRun k n m lr (1 - lr * decay) (fun _ => pre ++ q :: post) θ N) ≤
      4 * c * ρ / (decay * (pre ++ p :: post).length) ^ 2 := by
  set vs := pre ++ p :: post with hvs
  set vs' := pre ++ q :: post with hvs'
  have hne : vs ≠ [] := by simp [hvs]
  have hlen : vs'.length = vs.length := by simp [hvs, hvs']
  have hl : (0 : ℝ) < vs.length := by exact_mod_cast List.length_pos_of_ne_nil hne
  have hal := al_pos hne hlr hL
  have hc0 : 0 ≤ c := by cases hk <;> positivity
  have hρ : 0 ≤ ρ := le_trans (by have : 0 ≤ ∑ i ∈ range n, p.1 i ^ 2 := sum_nonneg (fun _ _ => sq_nonneg _); linarith) hp1
  set S := Real.sqrt (c * ρ) with hS
  have hS0 : 0 ≤ S := Real.sqrt_nonneg _
  have hSS : S ^ 2 = c * ρ := Real.sq_sqrt (mul_nonneg hc0 hρ)
  set E := 2 * S / (decay * vs.length) with hE
  have hE0 : 0 ≤ E := by positivity
  -- one sample
  have one : ∀ (r : (Nat → ℝ) × (Nat → ℝ)), k.Target m r.2 → 1 + ∑ i ∈ range n, r.1 i ^ 2 ≤ ρ → ∀ T : Nat → Nat → ℝ,
      nrm (n + 1) m (fun i j => augV r.1 i * zGrad k m r.2 (lin (n + 1) (augV r.1) T) j) ≤ S ^ 2 := fun r hr h T => by
    rw [outer_nrm, hSS, mul_comm c ρ]
    refine mul_le_mul ?_ (zGrad_sq k m hk hr _) (sum_nonneg (fun _ _ => sq_nonneg _)) hρ
    rw [sum_range_succ', add_comm]
    simpa [augV] using h
  have hgd : ∀ (T : Nat → Nat → ℝ) (i j : Nat), grd k (n + 1) m (augD vs') T i j - grd k (n + 1) m (augD vs) T i j =
      augV q.1 i * zGrad k m q.2 (lin (n + 1) (augV q.1) T) j - augV p.1 i * zGrad k m p.2 (lin (n + 1) (augV p.1) T) j := fun T i j => by
    simp only [grd, augD, hvs, hvs', List.map_append, List.map_cons, List.sum_append, List.sum_cons]
    ring
  have hdiff : ∀ T : Nat → Nat → ℝ, nrm (n + 1) m (fun i j => grd k (n + 1) m (augD vs') T i j - grd k (n + 1) m (augD vs) T i j) ≤ (2 * S) ^ 2 := fun T => by
    have h1 := one q hq hq1 T
    have h2 := one p (hw p (by simp [hvs])) hp1 T
    have h3 : nrm (n + 1) m (fun i j => (-1) * (augV p.1 i * zGrad k m p.2 (lin (n + 1) (augV p.1) T) j)) ≤ S ^ 2 := by
      rw [nrm_scale]; norm_num; exact h2
    have h4 := nrm_add (n + 1) m hS0 hS0 h1 h3
    have e : (fun i j => grd k (n + 1) m (augD vs') T i j - grd k (n + 1) m (augD vs) T i j) =
        fun i j => augV q.1 i * zGrad k m q.2 (lin (n + 1) (augV q.1) T) j + (-1) * (augV p.1 i * zGrad k m p.2 (lin (n + 1) (augV p.1) T) j) := by
      funext i j; rw [hgd]; ring
    rw [e]
    calc _ ≤ (S + S) ^ 2 := h4
      _ = _ := by ring
  have hES : E ^ 2 = 4 * c * ρ / (decay * vs.length) ^ 2 := by
    rw [hE, div_pow, mul_pow, hSS]; ring
  rw [← hES]
  induction N with
  | zero =>
    show θ.dist2 n m θ ≤ E ^ 2
    have : θ.dist2 n m θ = 0 := by simp [Theta.dist2]
    rw [this]; positivity
  | succ N ih =>
    set P := decayRun k n m lr (1 - lr * decay) (fun _ => vs) θ N with hP
    set Q := decayRun k n m lr (1 - lr * decay) (fun _ => vs') θ N with hQ
    show (decayStep k n m lr (1 - lr * decay) vs P).dist2 n m (decayStep k n m lr (1 - lr * decay) vs' Q) ≤ E ^ 2
    have a1 := step_close k hm hne hw hlr hL P Q
    rw [← nrm_aug] at a1
    have a2 : nrm (n + 1) m (fun i j => augT (decayStep k n m lr (1 - lr * decay) vs P) i j - augT (decayStep k n m lr (1 - lr * decay) vs Q) i j) ≤
        ((1 - lr * decay) * E) ^ 2 := by
      refine a1.trans ?_
      rw [mul_pow]
      exact mul_le_mul_of_nonneg_left ih (sq_nonneg _)
    have a3 : nrm (n + 1) m (fun i j => (1 / (vs.length : ℝ) * lr) * (grd k (n + 1) m (augD vs') (augT Q) i j - grd k (n + 1) m (augD vs) (augT Q) i j)) ≤
        (1 / (vs.length : ℝ) * lr * (2 * S)) ^ 2 := by
      rw [nrm_scale, mul_pow (1 / (vs.length : ℝ) * lr)]
      exact mul_le_mul_of_nonneg_left (hdiff _) (sq_nonneg _)
    have a4 := nrm_add (n + 1) m (mul_nonneg hal.le hE0) (by positivity) a2 a3
    have e1 : (fun i j => augT (decayStep k n m lr (1 - lr * decay) vs P) i j - augT (decayStep k n m lr (1 - lr * decay) vs' Q) i j) = fun i j =>
        augT (decayStep k n m lr (1 - lr * decay) vs P) i j - augT (decayStep k n m lr (1 - lr * decay) vs Q) i j +
        (1 / (vs.length : ℝ) * lr) * (grd k (n + 1) m (augD vs') (augT Q) i j - grd k (n + 1) m (augD vs) (augT Q) i j) := by
      funext i j
      rw [step_decay k n m lr _ vs' Q, step_decay k n m lr _ vs Q, hlen]
      ring
    rw [← nrm_aug, e1]
    refine a4.trans (le_of_eq ?_)
    have e2 : (1 - lr * decay) * E + 1 / (vs.length : ℝ) * lr * (2 * S) = E := by
      rw [hE]; field_simp; ring
    rw [e2]

/-- Two data sets that differ in one sample: however long the training, the parameters differ by at most 2 √(c ρ) / (decay · size), and the weighted sums
of any input of the same size by at most √ρ times that; `c` bounds the squared gradient of the loss, `ρ` is 1 + |x|². -/
theorem C120_influence (k : FitKind) (n m : Nat) (hm : 0 < m) (c : ℝ) (hk : Steep k m c) (θ : Theta) (l : FC ℝ) (h : l.IsFit k n m θ)
    (B B' : List (Ten ℝ × Ten ℝ)) (pre post : List ((Nat → ℝ) × (Nat → ℝ))) (p q : (Nat → ℝ) × (Nat → ℝ)) (hv : BatchIs B n m (pre ++ p :: post))
    (hv' : BatchIs B' n m (pre ++ q :: post)) (hw : ∀ vw ∈ pre ++ p :: post, k.Target m vw.2) (hq : k.Target m q.2)
    (ρ : ℝ) (hp1 : 1 + ∑ i ∈ range n, p.1 i ^ 2 ≤ ρ) (hq1 : 1 + ∑ i ∈ range n, q.1 i ^ 2 ≤ ρ)
    (lr decay : ℝ) (hlr : 0 < lr) (hd : 0 < decay) (hL : lr * meanSq n (pre ++ p :: post) ≤ 2 * (1 - lr * decay)) (N : Nat) :
    ∃ θ1 θ2 : Theta, Ok (l.decayFit k.loss (Sgd.make lr decay) (fun _ => B) N) (fun l' => l'.IsFit k n m θ1) ∧
      Ok (l.decayFit k.loss (Sgd.make lr decay) (fun _ => B') N) (fun l' => l'.IsFit k n m θ2) ∧
      θ1.dist2 n m θ2 ≤ 4 * c * ρ / (decay * B.length) ^ 2 ∧
      ∀ v : Nat → ℝ, 1 + ∑ i ∈ range n, v i ^ 2 ≤ ρ → ∑ j ∈ range m, (θ1.sums n v j - θ2.sums n v j) ^ 2 ≤ ρ * (4 * c * ρ / (decay * B.length) ^ 2) := by
  have hlen : B.length = (pre ++ p :: post).length := List.Forall₂.length_eq hv
  have key := influence k hk hm pre post p q hw hq hp1 hq1 hlr hd hL θ N
  rw [← hlen] at key
  refine ⟨_, _, decayFit_spec hm (fun _ => hv) (fun _ => by simp) (Sgd.make lr decay) h N, decayFit_spec hm (fun _ => hv') (fun _ => by simp) (Sgd.make lr decay) h N, key, fun v hv => ?_⟩
  set θ1 := decayRun k n m (Sgd.make lr decay).lr (Sgd.make lr decay).alpha (fun _ => pre ++ p :: post) θ N
  set θ2 := decayRun k n m (Sgd.make lr decay).lr (Sgd.make lr decay).alpha (fun _ => pre ++ q :: post) θ N
  have hl := lin_sq (n + 1) m (augV v) (fun i j => augT θ1 i j - augT θ2 i j)
  rw [nrm_aug] at hl
  have e : ∀ j, lin (n + 1) (augV v) (fun i j => augT θ1 i j - augT θ2 i j) j = θ1.sums n v j - θ2.sums n v j := fun j => by
    rw [← lin_aug, ← lin_aug]
    unfold lin
    rw [← sum_sub_distrib]
    exact sum_congr rfl (fun i _ => by ring)
  simp only [e] at hl
  refine hl.trans (mul_le_mul ?_ key (dist2_nonneg ..) ?_)
  · rw [sum_range_succ', add_comm]
    simpa [augV] using hv
  · exact le_trans (by have : 0 ≤ ∑ i ∈ range n, v i ^ 2 := sum_nonneg (fun _ _ => sq_nonneg _); linarith) hv

/-- Whatever is trained (any network, any loss, any gradients): parameters updated by `StoGradDescent(lr, decay)` with gradients of at most `G` stay within
(1 - lr decay)^N |p| + (1 - (1 - lr decay)^N) G / decay. -/
theorem C120_bounded (lr decay G : ℝ) (hlr : 0 ≤ lr) (hd : 0 < decay) (ha : lr * decay ≤ 1) (k n : Nat) (P : Nat → Buf ℝ) (p : Nat → ℝ) (gs : List (Buf ℝ))
    (g : Nat → Nat → ℝ) (hp : VecIs (P k) n p) (hg : Grads gs n g) (hG : ∀ t i, t < gs.length → i < n → |g t i| ≤ G) :
    Ok (runUpd sgdUpdate (Sgd.make lr decay) P (gs.map (fun x => (k, x)))) (fun r => ∃ p' : Nat → ℝ, VecIs (r.2 k) n p' ∧
      ∀ i, i < n → |p' i| ≤ (1 - lr * decay) ^ gs.length * |p i| + (1 - (1 - lr * decay) ^ gs.length) * (G / decay)) := by
  refine (runUpd_single gs (fun t s b => s = Sgd.make lr decay ∧ ∃ p' : Nat → ℝ, VecIs b n p' ∧
    ∀ i, i < n → |p' i| ≤ (1 - lr * decay) ^ t * |p i| + (1 - (1 - lr * decay) ^ t) * (G / decay)) ?_ ?_).mono (fun r h => h.2)
  · exact ⟨rfl, p, hp, fun i _ => by simp⟩
  · rintro t ht s b ⟨rfl, p', hb, hp'⟩
    refine (sgd_spec hb (hg t ht)).mono (fun r hr => ⟨hr.1, _, hr.2.1, fun i hi => ?_⟩)
    show |p' i * (1 - lr * decay) - g t i * lr| ≤ _
    have h1 := hp' i hi
    have h2 := hG t i ht hi
    have ha' : 0 ≤ 1 - lr * decay := by linarith
    calc |p' i * (1 - lr * decay) - g t i * lr| ≤ |p' i * (1 - lr * decay)| + |g t i * lr| := abs_sub _ _
      _ = |p' i| * (1 - lr * decay) + |g t i| * lr := by rw [abs_mul, abs_mul, abs_of_nonneg ha', abs_of_nonneg hlr]
      _ ≤ ((1 - lr * decay) ^ t * |p i| + (1 - (1 - lr * decay) ^ t) * (G / decay)) * (1 - lr * decay) + G * lr := by gcongr
      _ = (1 - lr * decay) ^ (t + 1) * |p i| + (1 - (1 - lr * decay) ^ (t + 1)) * (G / decay) := by field_simp; ring

/-! Non-vacuity. -/

/-- Two layers with different weights, one sample at a time: after 100 steps the distance is at most (3/4)²⁰⁰ of the initial one. -/
example (l l2 : FC ℝ) (θ η : Theta) (h : l.IsFit .cce 1 2 θ) (h2 : l2.IsFit .cce 1 2 η) : ∃ θ' η' : Theta,
    Ok (l.decayFit Losses.CCE (Sgd.make (1 / 4) 1) (fun i => ftBatch 1 2 (if i % 2 = 0 then ftTwo.take 1 else ftTwo.drop 1)) 100) (fun l' => l'.IsFit .cce 1 2 θ') ∧
    Ok (l2.decayFit Losses.CCE (Sgd.make (1 / 4) 1) (fun i => ftBatch 1 2 (if i % 2 = 0 then ftTwo.take 1 else ftTwo.drop 1)) 100) (fun l' => l'.IsFit .cce 1 2 η') ∧
    θ'.dist2 1 2 η' ≤ (1 - 1 / 4 * 1) ^ (2 * 100) * θ.dist2 1 2 η :=
  C120_forgets .cce 1 2 (by decide) θ η l l2 h h2 _ (fun i => if i % 2 = 0 then ftTwo.take 1 else ftTwo.drop 1) (fun _ => ftBatch_Is _ _ _)
    (fun i => by split <;> simp [ftTwo]) (fun i vw hvw => by
      show ∑ j ∈ range 2, vw.2 j = 1
      have : vw ∈ ftTwo := by
        split at hvw
        · exact List.mem_of_mem_take hvw
        · exact List.mem_of_mem_drop hvw
      simp only [ftTwo, List.mem_cons, List.not_mem_nil, or_false] at this
      rcases this with rfl | rfl <;> simp [sum_range_succ]) (1 / 4) 1 (by norm_num) (fun i => by split <;> norm_num [meanSq, ftTwo]) 100

/-- The softmax layer and two samples: the regularised loss has a minimum, and training finds it. -/
example : ∃ θs : Theta, (∀ η : Theta, ridge .nll 1 2 1 ftTwo θs + 1 / 2 * η.dist2 1 2 θs ≤ ridge .nll 1 2 1 ftTwo η) ∧
      ∀ (θ : Theta) (l : FC ℝ), l.IsFit .nll 1 2 θ → ∀ N, Ok (l.decayFit Losses.NLL (Sgd.make (1 / 4) 1) (fun _ => ftBatch 1 2 ftTwo) N) (fun l' =>
        ∃ θ' : Theta, l'.IsFit .nll 1 2 θ' ∧ θ'.dist2 1 2 θs ≤ (1 - 1 / 4 * 1) ^ (2 * N) * θ.dist2 1 2 θs) :=
  C120_optimum .nll 1 2 (by decide) _ _ (ftBatch_Is _ _ _) (by simp [ftTwo]) ftTwo_hot (1 / 4) 1 (by norm_num) (by norm_num) (by rw [ftTwo_sq]; norm_num)

/-- One of the two samples moved from -1 to 0. -/
example (N : Nat) : ∃ θ1 θ2 : Theta,
    Ok ((ftLayer .nll 1 2).decayFit Losses.NLL (Sgd.make (1 / 4) 1) (fun _ => ftBatch 1 2 ftTwo) N) (fun l' => l'.IsFit .nll 1 2 θ1) ∧
    Ok ((ftLayer .nll 1 2).decayFit Losses.NLL (Sgd.make (1 / 4) 1)
      (fun _ => ftBatch 1 2 [(fun _ => 1, fun j => if j = 0 then 1 else 0), (fun _ => 0, fun j => if j = 0 then 0 else 1)]) N) (fun l' => l'.IsFit .nll 1 2 θ2) ∧
      θ1.dist2 1 2 θ2 ≤ 4 * 2 * 2 / (1 * (ftBatch 1 2 ftTwo).length) ^ 2 ∧
      ∀ v : Nat → ℝ, 1 + ∑ i ∈ range 1, v i ^ 2 ≤ 2 → ∑ j ∈ range 2, (θ1.sums 1 v j - θ2.sums 1 v j) ^ 2 ≤ 2 * (4 * 2 * 2 / (1 * (ftBatch 1 2 ftTwo).length) ^ 2) :=
  C120_influence .nll 1 2 (by decide) 2 (.nll 2) _ _ (ftLayer_IsFit _ _ _) _ _ [(fun _ => 1, fun j => if j = 0 then 1 else 0)] []
    (fun _ => -1, fun j => if j = 0 then 0 else 1) (fun _ => 0, fun j => if j = 0 then 0 else 1) (ftBatch_Is _ _ _) (ftBatch_Is _ _ _) ftTwo_hot
    ⟨1, by decide, by simp, fun j hj hne => by have : j = 0 := by omega
                                               simp [this]⟩ 2 (by norm_num) (by norm_num) (1 / 4) 1 (by norm_num) (by norm_num)
    (by have := ftTwo_sq; unfold ftTwo at this; simp only [List.cons_append, List.nil_append]; rw [this]; norm_num) N

/-- Two gradients of size at most 1. -/
example : Ok (runUpd sgdUpdate (Sgd.make (1 / 2 : ℝ) 1) (fun _ => [some 3]) ([[some 1], [some (-1)]].map (fun x => (0, x)))) (fun r => ∃ p' : Nat → ℝ, VecIs (r.2 0) 1 p' ∧
    ∀ i, i < 1 → |p' i| ≤ (1 - 1 / 2 * 1) ^ 2 * |3| + (1 - (1 - 1 / 2 * 1) ^ 2) * (1 / 1)) :=
  C120_bounded (1 / 2) 1 1 (by norm_num) (by norm_num) (by norm_num) 0 1 _ (fun _ => 3) [[some 1], [some (-1)]] (fun t _ => if t = 0 then 1 else -1)
    ⟨rfl, fun i hi => by interval_cases i; rfl⟩ (fun t ht => by
      have h2 : t < 2 := ht
      interval_cases t
      · exact ⟨rfl, fun i hi => by interval_cases i; simp⟩
      · exact ⟨rfl, fun i hi => by interval_cases i; simp⟩) (fun t i _ _ => by split <;> simp)

end Trixy
