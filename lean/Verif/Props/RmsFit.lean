import Verif.Proof.RmsFit
import Verif.Props.Momentum
import Verif.Proof.RuleLimit
import Mathlib.Analysis.Real.Cardinality
/- C124: RMSProp with a constant learning rate reaches a band around the optimum, and does not settle in it. -/
namespace Trixy
set_option linter.unusedSectionVars false
open Finset Losses FitMath

/-! ### What the program computes -/

/-- New running means of the squared gradients. -/
noncomputable def rmsMeans (k : FitKind) (n m : Nat) (beta : ℝ) (vs : List ((Nat → ℝ) × (Nat → ℝ))) (θ v : Theta) : Theta :=
  (fun j => v.1 j * beta + (fitGrad k n m vs θ).1 j * (1 / (vs.length : ℝ)) * ((fitGrad k n m vs θ).1 j * (1 / (vs.length : ℝ))) * (1 - beta),
   fun i j => v.2 i j * beta + (fitGrad k n m vs θ).2 i j * (1 / (vs.length : ℝ)) * ((fitGrad k n m vs θ).2 i j * (1 / (vs.length : ℝ))) * (1 - beta))

/-- New parameters, from the new means. -/
noncomputable def rmsPos (k : FitKind) (n m : Nat) (lr : ℝ) (vs : List ((Nat → ℝ) × (Nat → ℝ))) (θ v : Theta) : Theta :=
  (fun j => θ.1 j - invertSqrt (v.1 j) * ((fitGrad k n m vs θ).1 j * (1 / (vs.length : ℝ))) * lr,
   fun i j => θ.2 i j - invertSqrt (v.2 i j) * ((fitGrad k n m vs θ).2 i j * (1 / (vs.length : ℝ))) * lr)

/-- Parameters and means after `N` steps. -/
noncomputable def rmsRun (k : FitKind) (n m : Nat) (lr beta : ℝ) (vs : List ((Nat → ℝ) × (Nat → ℝ))) (θ : Theta) : Nat → Theta × Theta
  | 0 => (θ, (fun _ => 0, fun _ _ => 0))
  | N + 1 =>
    let s := rmsRun k n m lr beta vs θ N
    let v := rmsMeans k n m beta vs s.1 s.2
    (rmsPos k n m lr vs s.1 v, v)

/-- The optimizer holds these means for the parameters of the layer. -/
structure RmsHolds (s : Ada ℝ) (l : FC ℝ) (n m : Nat) (lr b : ℝ) (v : Theta) : Prop where
  lr : s.lr = lr
  beta : s.beta = b
  rbeta : s.rbeta = 1 - b
  keys : l.keyB ≠ l.keyW
  bB : (s.buff.get l.keyB m).length = m
  bW : (s.buff.get l.keyW (n * m)).length = n * m
  vB : VecIs (s.opt.get l.keyB m) m v.1
  vW : VecIs (s.opt.get l.keyW (n * m)) (n * m) (fun q => v.2 (q / m) (q % m))

theorem rmsUpd_spec {s : Ada ℝ} {k n : Nat} {P G : Buf ℝ} {p g v : Nat → ℝ}
    (hp : VecIs P n p) (hg : VecIs G n g) (hb : (s.buff.get k n).length = n) (hv : VecIs (s.opt.get k n) n v) :
    Ok (rmspropUpdate invertSqrt s k P G) (fun r => r.1.lr = s.lr ∧ r.1.beta = s.beta ∧ r.1.rbeta = s.rbeta ∧ (r.1.buff.get k n).length = n ∧
      VecIs (r.1.opt.get k n) n (fun i => v i * s.beta + g i * g i * s.rbeta) ∧ VecIs r.2.1 n (fun i => p i - invertSqrt (v i * s.beta + g i * g i * s.rbeta) * g i * s.lr) ∧ r.2.2 = G ∧
      ∀ k', k' ≠ k → r.1.buff k' = s.buff k' ∧ r.1.opt k' = s.opt k') := by
  obtain ⟨r, e, h1, h1b, h1c, h3, h4, h5, h6⟩ := rmsprop_spec (isq := invertSqrt) hp hg hb hv
  refine ⟨r, e, h1, h1b, h1c, h3, h4, h5, h6, fun k' hk' => ?_⟩
  have := (local_rmsprop invertSqrt).other _ _ _ _ _ e k' hk'
  simp only [Prod.mk.injEq] at this
  exact ⟨this.1, this.2.1⟩

theorem rmsBatch_spec {k : FitKind} {n m : Nat} (hm : 0 < m) {θ v : Theta} {B : List (Ten ℝ × Ten ℝ)} {vs : List ((Nat → ℝ) × (Nat → ℝ))} (hv : BatchIs B n m vs)
    (hne : vs ≠ []) {lr beta : ℝ} {s : Ada ℝ} {l : FC ℝ} (h : l.IsFit k n m θ) (hs : RmsHolds s l n m lr beta v) :
    Ok (FC.optBatch (rmspropUpdate invertSqrt) k.loss B (s, l)) (fun r => r.2.IsFit k n m (rmsPos k n m lr vs θ (rmsMeans k n m beta vs θ v)) ∧
      RmsHolds r.1 r.2 n m lr beta (rmsMeans k n m beta vs θ v)) := by
  unfold FC.optBatch
  refine (FC.reset_spec h.1).bind (fun l1 ⟨w1, b1, W1, _, e1⟩ => ?_)
  obtain ⟨l2, e2, h2, b2, W2, a2⟩ := fitSamples_spec hm hv (θ := θ) (k := k) (l := l1) ⟨w1, by rw [e1]; exact h.2⟩ b1 W1
  have kk := fitSamples_keys k.loss B l1 _ e2
  have a2 := a2 (.inr hne)
  have hlen : B.length = vs.length := List.Forall₂.length_eq hv
  rw [e2, bind_ok]
  have hkB : l2.keyB = l.keyB := kk.1.trans (by rw [e1])
  have hkW : l2.keyW = l.keyW := kk.2.trans (by rw [e1])
  unfold FC.update
  rw [if_pos a2]
  have hu : Ok (FC.updateWith (rmspropUpdate invertSqrt) s (1 / (B.length : ℝ)) l2 l2.gradBs l2.gradWs) (fun r =>
      VecIs r.2.1 m (rmsPos k n m lr vs θ (rmsMeans k n m beta vs θ v)).1 ∧ (∃ g, VecIs r.2.2.1 m g) ∧
      VecIs r.2.2.2.1 (n * m) (fun q => (rmsPos k n m lr vs θ (rmsMeans k n m beta vs θ v)).2 (q / m) (q % m)) ∧
      (∃ g : Nat → Nat → ℝ, VecIs r.2.2.2.2 (n * m) (fun q => g (q / m) (q % m))) ∧ RmsHolds r.1 l n m lr beta (rmsMeans k n m beta vs θ v)) := by
    unfold FC.updateWith
    refine (scaleUnlessOne_spec (fun a => mul_one a) b2 _).bind (fun g1 q1 => ?_)
    refine (scaleUnlessOne_spec (fun a => mul_one a) W2.flat _).bind (fun g2 q2 => ?_)
    rw [hkB, hkW]
    refine (rmsUpd_spec h2.1.B q1 hs.bB hs.vB).bind (fun r1 ⟨p1, p1b, p1c, p3, p4, p5, p6, p7⟩ => ?_)
    obtain ⟨s1, B1, gB1⟩ := r1
    dsimp only at p1 p1b p1c p3 p4 p5 p6 p7 ⊢
    have o1 := p7 l.keyW hs.keys.symm
    refine (rmsUpd_spec (v := fun q => v.2 (q / m) (q % m)) h2.1.W.flat q2 (by rw [getTab_congr o1.1]; exact hs.bW) (by rw [getTab_congr o1.2]; exact hs.vW)).bind (fun r2 ⟨t1, t1b, t1c, t3, t4, t5, t6, t7⟩ => ?_)
    obtain ⟨s2, W2', gW2⟩ := r2
    dsimp only at t1 t1b t1c t3 t4 t5 t6 t7 ⊢
    have o2 := t7 l.keyB hs.keys
    rw [p1, p1b, p1c, hs.lr, hs.beta, hs.rbeta] at t5
    rw [p1b, p1c, hs.beta, hs.rbeta] at t4
    rw [hs.lr, hs.beta, hs.rbeta] at p5
    rw [hs.beta, hs.rbeta] at p4
    refine Ok_ok.2 ⟨?_, ⟨_, by rw [p6]; exact q1⟩, ?_, ⟨fun i j => (0 + (fitGrad k n m vs θ).2 i j) * (1 / (B.length : ℝ)), by rw [t6]; exact q2⟩, ?_⟩
    · refine p5.congr (fun j _ => ?_)
      simp [rmsPos, rmsMeans, hlen]
    · refine t5.congr (fun q _ => ?_)
      simp [rmsPos, rmsMeans, hlen]
    · refine ⟨by rw [t1, p1, hs.lr], by rw [t1b, p1b, hs.beta], by rw [t1c, p1c, hs.rbeta], hs.keys, by rw [getTab_congr o2.1]; exact p3, t3, ?_, ?_⟩
      · rw [getTab_congr o2.2]
        exact p4.congr (fun j _ => by simp [rmsMeans, hlen])
      · exact t4.congr (fun j _ => by simp [rmsMeans, hlen])
  refine hu.bind (fun r ⟨q1, ⟨gb, q2⟩, q3, ⟨gw, q4⟩, q5⟩ => ?_)
  obtain ⟨s', B', gB, W, gW⟩ := r
  dsimp only at q1 q2 q3 q4 q5
  have k1 := h2.1.W.of_data (g := (rmsPos k n m lr vs θ (rmsMeans k n m beta vs θ v)).2) q3
  have k2 := W2.of_data (g := gw) q4
  refine Ok_ok.2 ⟨⟨{ h2.1 with B := q1, W := k1, gradBs := ⟨_, q2⟩, gradWs := ⟨_, k2⟩ }, h2.2⟩, ?_⟩
  obtain ⟨z1, z1b, z1c, z3, z4, z5, z6, z7⟩ := q5
  exact ⟨z1, z1b, z1c, by show l2.keyB ≠ l2.keyW; rw [hkB, hkW]; exact z3, by show (Table.get _ l2.keyB _).length = _; rw [hkB]; exact z4,
    by show (Table.get _ l2.keyW _).length = _; rw [hkW]; exact z5, by show VecIs (Table.get _ l2.keyB _) _ _; rw [hkB]; exact z6,
    by show VecIs (Table.get _ l2.keyW _) _ _; rw [hkW]; exact z7⟩

theorem rmsFit_spec {k : FitKind} {n m : Nat} (hm : 0 < m) {θ : Theta} {B : List (Ten ℝ × Ten ℝ)} {vs : List ((Nat → ℝ) × (Nat → ℝ))} (hv : BatchIs B n m vs)
    (hne : vs ≠ []) (lr beta : ℝ) {l : FC ℝ} (h : l.IsFit k n m θ) (hk : l.keyB ≠ l.keyW) (N : Nat) :
    Ok (l.optFit (rmspropUpdate invertSqrt) (Ada.make lr beta) k.loss B N) (fun r => r.2.IsFit k n m (rmsRun k n m lr beta vs θ N).1) :=
  Ok.mono (forN_spec (fun i (s : Ada ℝ × FC ℝ) => s.2.IsFit k n m (rmsRun k n m lr beta vs θ i).1 ∧ RmsHolds s.1 s.2 n m lr beta (rmsRun k n m lr beta vs θ i).2)
    ⟨h, rfl, rfl, rfl, hk, (Table.get_empty _ _).length, (Table.get_empty _ _).length, Table.get_empty _ _, Table.get_empty _ _⟩
    (fun _ _ _ hs => rmsBatch_spec hm hv hne hs.1 hs.2)) (fun _ h => h.1)

/-- The bias of an output, for one sample with input 0. -/
theorem rms_bias (n m : Nat) (lr beta : ℝ) (w : Nat → ℝ) (θ : Theta) (j t : Nat) :
    (rmsRun .mse n m lr beta [(fun _ => 0, w)] θ t).1.1 j = w j + (rmsSeq lr beta 1e-9 (θ.1 j - w j) t).1 ∧
    (rmsRun .mse n m lr beta [(fun _ => 0, w)] θ t).2.1 j = (rmsSeq lr beta 1e-9 (θ.1 j - w j) t).2 := by
  induction t with
  | zero => exact ⟨by show θ.1 j = w j + (θ.1 j - w j); ring, rfl⟩
  | succ t ih =>
    have hg : (fitGrad .mse n m [(fun _ => 0, w)] (rmsRun .mse n m lr beta [(fun _ => 0, w)] θ t).1).1 j * (1 / (([((fun _ => 0, w) : (Nat → ℝ) × (Nat → ℝ))].length : Nat) : ℝ)) =
        (rmsSeq lr beta 1e-9 (θ.1 j - w j) t).1 := by
      simp [fitGrad, zGrad, Theta.sums]
      rw [ih.1]; ring
    have h2 : (rmsRun .mse n m lr beta [(fun _ => 0, w)] θ (t + 1)).2.1 j = (rmsSeq lr beta 1e-9 (θ.1 j - w j) (t + 1)).2 := by
      show (rmsRun .mse n m lr beta [(fun _ => 0, w)] θ t).2.1 j * beta + _ * _ * (1 - beta) = _
      rw [hg, ih.2]
      rfl
    refine ⟨?_, h2⟩
    show (rmsRun .mse n m lr beta [(fun _ => 0, w)] θ t).1.1 j - invertSqrt ((rmsRun .mse n m lr beta [(fun _ => 0, w)] θ (t + 1)).2.1 j) * _ * lr = _
    rw [hg, ih.1, h2]
    show _ = w j + ((rmsSeq lr beta 1e-9 (θ.1 j - w j) t).1 - 1 / Real.sqrt (1e-9 + (rmsSeq lr beta 1e-9 (θ.1 j - w j) (t + 1)).2) * (rmsSeq lr beta 1e-9 (θ.1 j - w j) t).1 * lr)
    unfold invertSqrt
    ring

/-! ### C124 -/

/-- `RMSProp(lr, β)` on one sample with input 0 (a quadratic in the biases): from some step on every output is within `lr / √(1 - β)` of the target. -/
theorem C124_band (n m : Nat) (hm : 0 < m) (w : Nat → ℝ) (lr beta : ℝ) (hlr : 0 < lr) (hb : 0 ≤ beta) (hb1 : beta < 1) (θ : Theta) (l : FC ℝ) (h : l.IsFit .mse n m θ)
    (hk : l.keyB ≠ l.keyW) (B : List (Ten ℝ × Ten ℝ)) (hv : BatchIs B n m [(fun _ => 0, w)]) :
    ∃ P : Nat → Theta, P 0 = θ ∧ (∀ N, Ok (l.optFit (rmspropUpdate invertSqrt) (Ada.make lr beta) Losses.MSE B N) (fun r => r.2.IsFit .mse n m (P N))) ∧
      ∀ j, j < m → ∃ N0 : Nat, ∀ N, N0 ≤ N → |(P N).1 j - w j| ≤ lr / Real.sqrt (1 - beta) := by
  refine ⟨fun N => (rmsRun .mse n m lr beta [(fun _ => 0, w)] θ N).1, rfl, fun N => rmsFit_spec (k := .mse) hm hv (by simp) lr beta h hk N, fun j _ => ?_⟩
  obtain ⟨N0, hN0⟩ := rms_band (e := 1e-9) hb hb1 (by norm_num) hlr (θ.1 j - w j)
  refine ⟨N0, fun N hN => ?_⟩
  rw [(rms_bias n m lr beta w θ j N).1, add_sub_cancel_left]
  exact hN0 N hN

/-- It does not settle: but for countably many starting values every output comes back, again and again, to every distance below `√(lr²/4 - 1e-9)` from the target. -/
theorem C124_restless (lr beta : ℝ) (hlr : 0 < lr) (hb : 0 ≤ beta) (hb1 : beta < 1) (hr : lr ^ 2 ≠ 1e-9) :
    ∃ C : Set ℝ, C.Countable ∧ ∀ (n m : Nat) (w : Nat → ℝ) (θ : Theta) (l : FC ℝ) (B : List (Ten ℝ × Ten ℝ)), 0 < m → l.IsFit .mse n m θ → l.keyB ≠ l.keyW →
      BatchIs B n m [(fun _ => 0, w)] →
      ∃ P : Nat → Theta, P 0 = θ ∧ (∀ N, Ok (l.optFit (rmspropUpdate invertSqrt) (Ada.make lr beta) Losses.MSE B N) (fun r => r.2.IsFit .mse n m (P N))) ∧
        ∀ j, j < m → θ.1 j - w j ∉ C → ∀ δ : ℝ, δ ^ 2 < lr ^ 2 / 4 - 1e-9 → ∀ N0 : Nat, ∃ N, N0 ≤ N ∧ δ ≤ |(P N).1 j - w j| := by
  refine ⟨_, hits_countable (lr := lr) (e := 1e-9) hb hb1 (by norm_num) (fun e => hr (by rw [e, Real.sq_sqrt (by norm_num)])), fun n m w θ l B hm h hk hv =>
    ⟨fun N => (rmsRun .mse n m lr beta [(fun _ => 0, w)] θ N).1, rfl, fun N => rmsFit_spec (k := .mse) hm hv (by simp) lr beta h hk N, fun j _ hC δ hδ N0 => ?_⟩⟩
  obtain ⟨N, hN, hd⟩ := rms_repelled (e := 1e-9) hb hb1 (by norm_num) hlr (θ.1 j - w j) (fun t ht => hC ⟨t, ht⟩) δ hδ N0
  exact ⟨N, hN, by rw [(rms_bias n m lr beta w θ j N).1, add_sub_cancel_left]; exact hd⟩

/-- So, unlike with the other classes, the mean loss does not approach its infimum (here 0): but for countably many starting values it exceeds `lr²/8 - 1e-9` again
and again. -/
theorem C124_loss (lr beta : ℝ) (hlr : 4e-9 < lr ^ 2) (hlr0 : 0 < lr) (hb : 0 ≤ beta) (hb1 : beta < 1) :
    ∃ C : Set ℝ, C.Countable ∧ ∀ (n m : Nat) (w : Nat → ℝ) (θ : Theta) (l : FC ℝ) (B : List (Ten ℝ × Ten ℝ)), l.IsFit .mse n m θ → l.keyB ≠ l.keyW →
      BatchIs B n m [(fun _ => 0, w)] → (∃ j, j < m ∧ θ.1 j - w j ∉ C) →
      ∃ P : Nat → Theta, P 0 = θ ∧ (∀ N, Ok (l.optFit (rmspropUpdate invertSqrt) (Ada.make lr beta) Losses.MSE B N) (fun r => r.2.IsFit .mse n m (P N))) ∧
        fitMean .mse n m [(fun _ => 0, w)] (w, θ.2) = 0 ∧ ∀ N0 : Nat, ∃ N, N0 ≤ N ∧ lr ^ 2 / 8 - 1e-9 ≤ fitMean .mse n m [(fun _ => 0, w)] (P N) := by
  obtain ⟨C, hC, H⟩ := C124_restless lr beta hlr0 hb hb1 (fun e => by rw [e] at hlr; norm_num at hlr)
  refine ⟨C, hC, fun n m w θ l B h hk hv ⟨j, hj, hjC⟩ => ?_⟩
  obtain ⟨P, h0, hP, hd⟩ := H n m w θ l B (by omega) h hk hv
  refine ⟨P, h0, hP, ?_, fun N0 => ?_⟩
  · simp [fitMean, FitKind.fn, FitKind.act, LibAct.fn, ActKind.fn, mseFn, Theta.sums]
  · have hpos : 0 ≤ lr ^ 2 / 4 - 2e-9 ∨ lr ^ 2 / 4 - 2e-9 < 0 := le_or_gt _ _
    rcases hpos with hpos | hneg
    · obtain ⟨N, hN, hdN⟩ := hd j hj hjC (Real.sqrt (lr ^ 2 / 4 - 2e-9)) (by rw [Real.sq_sqrt hpos]; norm_num) N0
      refine ⟨N, hN, ?_⟩
      have hsq : lr ^ 2 / 4 - 2e-9 ≤ ((P N).1 j - w j) ^ 2 := by
        rw [← Real.sq_sqrt hpos, ← sq_abs ((P N).1 j - w j)]
        exact pow_le_pow_left₀ (Real.sqrt_nonneg _) hdN 2
      have hm : fitMean .mse n m [(fun _ => 0, w)] (P N) = 1 / 2 * ∑ i ∈ range m, ((P N).1 i - w i) ^ 2 := by
        simp [fitMean, FitKind.fn, FitKind.act, LibAct.fn, ActKind.fn, mseFn, Theta.sums]
      rw [hm]
      have := single_le_sum (f := fun i => ((P N).1 i - w i) ^ 2) (fun i _ => sq_nonneg _) (mem_range.2 hj)
      linarith
    · refine ⟨N0, le_rfl, ?_⟩
      have hm : 0 ≤ fitMean .mse n m [(fun _ => 0, w)] (P N0) := by
        simp [fitMean, FitKind.fn, FitKind.act, LibAct.fn, ActKind.fn, mseFn, Theta.sums]
        positivity
      linarith

/-! Non-vacuity. -/

/-- A layer with bias `b`. -/
noncomputable def rmsLayer (b : ℝ) : FC ℝ := { ftLayer .mse 1 1 with B := filled 1 b }

theorem rmsLayer_IsFit (b : ℝ) : (rmsLayer b).IsFit .mse 1 1 (fun _ => b, fun _ _ => 0) :=
  ⟨{ (ftLayer_IsFit .mse 1 1).1 with B := VecIs_filled 1 b }, rfl⟩

/-- `RMSProp(1/10, 9/10)` and target 3: almost every initial bias is covered, for instance one in (0, 1). -/
example : ∃ b : ℝ, 0 < b ∧ b < 1 ∧ ∃ P : Nat → Theta,
    (∀ N, Ok ((rmsLayer b).optFit (rmspropUpdate invertSqrt) (Ada.make (1 / 10) (9 / 10)) Losses.MSE (ftBatch 1 1 [(fun _ => 0, fun _ => 3)]) N) (fun r => r.2.IsFit .mse 1 1 (P N))) ∧
      ∀ N0 : Nat, ∃ N, N0 ≤ N ∧ (1 / 10 : ℝ) ^ 2 / 8 - 1e-9 ≤ fitMean .mse 1 1 [(fun _ => 0, fun _ => 3)] (P N) := by
  obtain ⟨C, hC, H⟩ := C124_loss (1 / 10) (9 / 10) (by norm_num) (by norm_num) (by norm_num) (by norm_num)
  have : ¬ (Set.Ioo (0 : ℝ) 1 ⊆ (fun c => c + 3) '' C) := fun hs => by
    have h1 := (hC.image (fun c => c + 3)).mono hs
    have h2 := Cardinal.mk_Ioo_real (zero_lt_one (α := ℝ))
    rw [← Cardinal.le_aleph0_iff_set_countable, h2] at h1
    exact absurd h1 (_root_.not_le.2 Cardinal.aleph0_lt_continuum)
  obtain ⟨b, hb, hbC⟩ := Set.not_subset.1 this
  obtain ⟨P, _, hP, _, hN⟩ := H 1 1 (fun _ => 3) (fun _ => b, fun _ _ => 0) (rmsLayer b) _ (rmsLayer_IsFit b) Nat.zero_ne_one (ftBatch_Is _ _ _)
    ⟨0, one_pos, fun hc => hbC ⟨b - 3, hc, by ring⟩⟩
  exact ⟨b, hb.1, hb.2, P, hP, hN⟩

/-- A new layer with that optimizer gets within 0.32 of the target and stays there. -/
example : ∃ P : Nat → Theta, P 0 = (fun _ => 0, fun _ _ => 0) ∧
    (∀ N, Ok ((ftLayer .mse 1 1).optFit (rmspropUpdate invertSqrt) (Ada.make (1 / 10) (9 / 10)) Losses.MSE (ftBatch 1 1 [(fun _ => 0, fun _ => 3)]) N) (fun r => r.2.IsFit .mse 1 1 (P N))) ∧
      ∀ j, j < 1 → ∃ N0 : Nat, ∀ N, N0 ≤ N → |(P N).1 j - 3| ≤ 1 / 10 / Real.sqrt (1 - 9 / 10) :=
  C124_band 1 1 one_pos (fun _ => 3) (1 / 10) (9 / 10) (by norm_num) (by norm_num) (by norm_num) _ _ (ftLayer_IsFit _ _ _) Nat.zero_ne_one _ (ftBatch_Is _ _ _)

end Trixy
