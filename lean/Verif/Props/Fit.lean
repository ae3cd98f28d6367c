import Verif.Spec.Fit
import Verif.Proof.Fit
import Verif.Props.Library
import Verif.Props.Regression
import Mathlib.LinearAlgebra.Basis.VectorSpace
import Mathlib.Topology.Algebra.Module.FiniteDimension
import Mathlib.Analysis.SpecificLimits.Basic
/- C116: linear models trained by gradient descent reach the optimum. -/
namespace Trixy
set_option linter.unusedSectionVars false
open Finset Losses FitMath

/-! ### What the program computes -/

/-- Sum of the gradients of the samples. -/
noncomputable def fitGrad (k : FitKind) (n m : Nat) (vs : List ((Nat → ℝ) × (Nat → ℝ))) (θ : Theta) : Theta :=
  (fun j => (vs.map (fun vw => zGrad k m vw.2 (θ.sums n vw.1) j)).sum,
   fun i j => (vs.map (fun vw => vw.1 i * zGrad k m vw.2 (θ.sums n vw.1) j)).sum)

/-- One step of gradient descent on the mean loss. -/
noncomputable def fitStep (k : FitKind) (n m : Nat) (lr : ℝ) (vs : List ((Nat → ℝ) × (Nat → ℝ))) (θ : Theta) : Theta :=
  (fun j => θ.1 j - (fitGrad k n m vs θ).1 j * (1 / (vs.length : ℝ)) * lr, fun i j => θ.2 i j - (fitGrad k n m vs θ).2 i j * (1 / (vs.length : ℝ)) * lr)

theorem FitKind.slope_eq (k : FitKind) (m : Nat) (hm : 0 < m) (w z : Nat → ℝ) :
    ∃ (L : (Nat → ℝ) → (Nat → ℝ) → ℝ) (dL : (Nat → ℝ) → (Nat → ℝ) → Nat → ℝ), k.loss.Is m L dL ∧ ∀ j, k.act.D z j * dL w (k.act.fn m z) j = zGrad k m w z j := by
  cases k
  · exact ⟨_, _, MSE_Is m, fun j => by simp [FitKind.act, LibAct.D, LibAct.fn, ActKind.cd, ActKind.fn, Fn.identityD, zGrad]⟩
  · exact ⟨_, _, LC_Is m, fun j => by simp [FitKind.act, LibAct.D, LibAct.fn, ActKind.cd, ActKind.fn, Fn.identityD, zGrad]⟩
  · exact ⟨_, _, NLL_Is m, fun j => by simp [FitKind.act, LibAct.D, LibAct.fn, zGrad]⟩
  · exact ⟨_, _, CCE_Is m, fun j => by simp [FitKind.act, LibAct.D, LibAct.fn, zGrad]⟩

theorem sums_eq (n : Nat) (θ : Theta) (v : Nat → ℝ) : affine n θ.2 θ.1 v = θ.sums n v := by
  rw [affine_real]; rfl

theorem fitSample_spec {k : FitKind} {n m : Nat} (hm : 0 < m) {θ : Theta} {l : FC ℝ} (h : l.IsFit k n m θ) {x y : Ten ℝ} {v w : Nat → ℝ}
    (hx : VecIs x.data n v) (hy : VecIs y.data m w) {gB : Nat → ℝ} {gW : Nat → Nat → ℝ} (hB : VecIs l.gradBs m gB) (hW : MatIs l.gradWs n m gW) :
    Ok (l.fitSample k.loss x y) (fun l' => l'.IsFit k n m θ ∧ VecIs l'.gradBs m (fun j => gB j + zGrad k m w (θ.sums n v) j) ∧
      MatIs l'.gradWs n m (fun i j => gW i j + v i * zGrad k m w (θ.sums n v) j) ∧ l'.accumulated = true) := by
  obtain ⟨L, dL, hL, hs⟩ := k.slope_eq m hm w (θ.sums n v)
  have ha := k.act.obj_Is m hm
  unfold FC.fitSample
  refine (FC.forward_spec h.1 (F := k.act.fn m) (D := k.act.D) (by rw [h.2]; exact ha) hx).bind (fun l1 ⟨w1, v1, b1, e1⟩ => ?_)
  rw [sums_eq] at v1 b1
  have act1 : l1.act = k.act.obj := by rw [e1]; exact h.2
  refine (hL.df (Buf.alloc l1.osize) y.data l1.value.data w _ (by rw [w1.osize]; simp [Buf.alloc]) hy v1.2.2.2).bind (fun d hd => ?_)
  refine (FC.backward_spec w1 (F := k.act.fn m) (D := k.act.D) (by rw [act1]; exact ha) hx (d := ⟨1, 1, l1.osize, d⟩) hd b1 false).bind (fun l2 ⟨w2, g2, G2, _, _, e2⟩ => ?_)
  have hB2 : VecIs l2.gradBs m gB := by rw [e2, e1]; exact hB
  have hW2 : MatIs l2.gradWs n m gW := by rw [e2, e1]; exact hW
  refine (FC.accumulate_spec w2 g2 hB2 G2 hW2).mono (fun l3 ⟨w3, g3, G3, a3, e3⟩ => ?_)
  refine ⟨⟨w3, by rw [e3, e2]; exact act1⟩, ?_, ?_, a3⟩
  · simpa only [hs] using g3
  · simpa only [hs] using G3

theorem fitSamples_spec {k : FitKind} {n m : Nat} (hm : 0 < m) {θ : Theta} {B : List (Ten ℝ × Ten ℝ)} {vs : List ((Nat → ℝ) × (Nat → ℝ))} (hv : BatchIs B n m vs) :
    ∀ {l : FC ℝ} {gB : Nat → ℝ} {gW : Nat → Nat → ℝ}, l.IsFit k n m θ → VecIs l.gradBs m gB → MatIs l.gradWs n m gW →
    Ok (l.fitSamples k.loss B) (fun l' => l'.IsFit k n m θ ∧ VecIs l'.gradBs m (fun j => gB j + (fitGrad k n m vs θ).1 j) ∧
      MatIs l'.gradWs n m (fun i j => gW i j + (fitGrad k n m vs θ).2 i j) ∧ (l.accumulated = true ∨ vs ≠ [] → l'.accumulated = true)) := by
  unfold BatchIs at hv
  induction hv with
  | nil =>
    intro l gB gW h hB hW
    exact Ok_ok.2 ⟨h, by simpa [fitGrad] using hB, by simpa [fitGrad] using hW, fun h => h.elim id (fun h => absurd rfl h)⟩
  | @cons xy vw B vs hxy _ ih =>
    intro l gB gW h hB hW
    obtain ⟨x, y⟩ := xy
    show Ok (l.fitSample k.loss x y >>= fun l => l.fitSamples k.loss B) _
    refine (fitSample_spec hm h hxy.1 hxy.2 hB hW).bind (fun l1 ⟨h1, b1, W1, a1⟩ => ?_)
    refine (ih h1 b1 W1).mono (fun l2 ⟨h2, b2, W2, a2⟩ => ⟨h2, ?_, ?_, ?_⟩)
    · refine b2.congr (fun j _ => ?_)
      simp only [fitGrad, List.map_cons, List.sum_cons]; ring
    · refine W2.congr (fun i j _ _ => ?_)
      simp only [fitGrad, List.map_cons, List.sum_cons]; ring
    · exact fun _ => a2 (.inl a1)

theorem fitBatch_spec {k : FitKind} {n m : Nat} (hm : 0 < m) {θ : Theta} {B : List (Ten ℝ × Ten ℝ)} {vs : List ((Nat → ℝ) × (Nat → ℝ))} (hv : BatchIs B n m vs)
    (hne : vs ≠ []) (lr : ℝ) {l : FC ℝ} (h : l.IsFit k n m θ) : Ok (l.fitBatch k.loss lr B) (fun l' => l'.IsFit k n m (fitStep k n m lr vs θ)) := by
  unfold FC.fitBatch
  refine (FC.reset_spec h.1).bind (fun l1 ⟨w1, b1, W1, _, e1⟩ => ?_)
  refine (fitSamples_spec hm hv (θ := θ) ⟨w1, by rw [e1]; exact h.2⟩ b1 W1).bind (fun l2 ⟨h2, b2, W2, a2⟩ => ?_)
  have a2 := a2 (.inr hne)
  have hlen : B.length = vs.length := List.Forall₂.length_eq hv
  have : Ok (l2.update gdUpdate lr (1 / (B.length : ℝ))) (fun r => r.2.IsFit k n m (fitStep k n m lr vs θ)) := by
    unfold FC.update
    rw [if_pos a2]
    refine (FC.updateWith_gd (fun a => mul_one a) h2.1.B h2.1.W b2 W2).bind (fun r ⟨_, q1, q2, q3, q4⟩ => ?_)
    obtain ⟨s, B', gB, W, gW⟩ := r
    dsimp only at q1 q2 q3 q4
    have k1 := h2.1.W.of_data (g := fun i j => θ.2 i j - (0 + (fitGrad k n m vs θ).2 i j) * (1 / (B.length : ℝ)) * lr) q3
    have k2 := W2.of_data (g := fun i j => (0 + (fitGrad k n m vs θ).2 i j) * (1 / (B.length : ℝ)) * lr) q4
    refine Ok_ok.2 ⟨{ h2.1 with B := ?_, W := ?_, gradBs := ⟨_, q2⟩, gradWs := ⟨_, k2⟩ }, h2.2⟩
    · exact q1.congr (fun j _ => by simp [fitStep, hlen])
    · exact k1.congr (fun i j _ _ => by simp [fitStep, hlen])
  exact this.bind (fun r hr => Ok_ok.2 hr)

/-- The parameters after `N` batches. -/
noncomputable def fitRun (k : FitKind) (n m : Nat) (lr : ℝ) (vs : Nat → List ((Nat → ℝ) × (Nat → ℝ))) (θ : Theta) : Nat → Theta
  | 0 => θ
  | N + 1 => fitStep k n m lr (vs N) (fitRun k n m lr vs θ N)

theorem fit_spec {k : FitKind} {n m : Nat} (hm : 0 < m) {θ : Theta} {B : Nat → List (Ten ℝ × Ten ℝ)} {vs : Nat → List ((Nat → ℝ) × (Nat → ℝ))}
    (hv : ∀ i, BatchIs (B i) n m (vs i)) (hne : ∀ i, vs i ≠ []) (lr : ℝ) {l : FC ℝ} (h : l.IsFit k n m θ) (N : Nat) :
    Ok (l.fit k.loss lr B N) (fun l' => l'.IsFit k n m (fitRun k n m lr vs θ N)) :=
  forN_spec (fun i (l : FC ℝ) => l.IsFit k n m (fitRun k n m lr vs θ i)) h (fun i _ _ hs => fitBatch_spec hm (hv i) (hne i) lr hs)

/-! ### The bias as weight of a constant input -/

def augV (v : Nat → ℝ) : Nat → ℝ
  | 0 => 1
  | i + 1 => v i

def augT (θ : Theta) : Nat → Nat → ℝ
  | 0 => θ.1
  | i + 1 => θ.2 i

def augD (vs : List ((Nat → ℝ) × (Nat → ℝ))) : List ((Nat → ℝ) × (Nat → ℝ)) := vs.map (fun vw => (augV vw.1, vw.2))

theorem lin_aug (n : Nat) (v : Nat → ℝ) (θ : Theta) : lin (n + 1) (augV v) (augT θ) = θ.sums n v := by
  funext j
  unfold lin Theta.sums
  rw [sum_range_succ']
  simp [augV, augT]

theorem nrm_aug (n m : Nat) (θ η : Theta) : nrm (n + 1) m (fun i j => augT θ i j - augT η i j) = θ.dist2 n m η := by
  unfold nrm Theta.dist2
  rw [sum_range_succ', add_comm]
  rfl

theorem tot_aug (k : FitKind) (n m : Nat) (vs : List ((Nat → ℝ) × (Nat → ℝ))) (θ : Theta) :
    1 / (vs.length : ℝ) * tot k (n + 1) m (augD vs) (augT θ) = fitMean k n m vs θ := by
  unfold tot fitMean augD phi
  rw [List.map_map]
  simp only [Function.comp_def, lin_aug]

theorem len2_aug (n : Nat) (vs : List ((Nat → ℝ) × (Nat → ℝ))) : 1 / (vs.length : ℝ) * len2 (n + 1) (augD vs) = meanSq n vs := by
  unfold len2 meanSq augD
  rw [List.map_map]
  congr 3
  funext vw
  simp only [Function.comp_def]
  rw [sum_range_succ', add_comm]
  simp [augV]

theorem grd_aug (k : FitKind) (n m : Nat) (vs : List ((Nat → ℝ) × (Nat → ℝ))) (θ : Theta) :
    grd k (n + 1) m (augD vs) (augT θ) = augT (fitGrad k n m vs θ) := by
  funext i j
  unfold grd augD
  rw [List.map_map]
  cases i <;> simp [Function.comp_def, lin_aug, augV, augT, fitGrad]

theorem step_aug (k : FitKind) (n m : Nat) (lr : ℝ) (vs : List ((Nat → ℝ) × (Nat → ℝ))) (θ : Theta) :
    (fun i j => augT θ i j + -(grd k (n + 1) m (augD vs) (augT θ) i j * (1 / (vs.length : ℝ)) * lr)) = augT (fitStep k n m lr vs θ) := by
  rw [grd_aug]
  funext i j
  cases i <;> simp [augT, fitStep, sub_eq_add_neg]

/-- One batch, compared with arbitrary parameters `η`. -/
theorem fit_step (k : FitKind) {n m : Nat} (hm : 0 < m) (vs : List ((Nat → ℝ) × (Nat → ℝ))) (hw : ∀ vw ∈ vs, k.Target m vw.2) (lr : ℝ) (hlr : 0 < lr)
    (hL : lr * meanSq n vs ≤ 1) (θ η : Theta) :
    fitMean k n m vs (fitStep k n m lr vs θ) ≤ fitMean k n m vs η + (θ.dist2 n m η - (fitStep k n m lr vs θ).dist2 n m η) / (2 * lr) ∧
    fitMean k n m vs (fitStep k n m lr vs θ) ≤ fitMean k n m vs θ := by
  have hs := step_aug k n m lr vs θ
  obtain ⟨a, b⟩ := step_bound k (n + 1) m hm (augD vs) (fun uw h => by
    obtain ⟨vw, hv, rfl⟩ := List.mem_map.1 h
    exact hw vw hv) lr (1 / (vs.length : ℝ)) hlr (by positivity) (by rw [len2_aug]; exact hL) (augT θ) (augT η)
  have e2 : (fun i j => augT θ i j + -(grd k (n + 1) m (augD vs) (augT θ) i j * (1 / (vs.length : ℝ)) * lr) - augT η i j) =
      fun i j => augT (fitStep k n m lr vs θ) i j - augT η i j := by
    funext i j
    rw [← hs]
  rw [e2, hs, nrm_aug, nrm_aug, tot_aug, tot_aug] at a
  rw [hs, tot_aug, tot_aug] at b
  exact ⟨a, b⟩

theorem dist2_nonneg (n m : Nat) (θ η : Theta) : 0 ≤ θ.dist2 n m η :=
  add_nonneg (sum_nonneg (fun _ _ => sq_nonneg _)) (sum_nonneg (fun _ _ => sum_nonneg (fun _ _ => sq_nonneg _)))

theorem fit_regret (k : FitKind) {n m : Nat} (hm : 0 < m) (vs : Nat → List ((Nat → ℝ) × (Nat → ℝ))) (hw : ∀ i, ∀ vw ∈ vs i, k.Target m vw.2) (lr : ℝ) (hlr : 0 < lr)
    (hL : ∀ i, lr * meanSq n (vs i) ≤ 1) (θ η : Theta) (N : Nat) :
    ∑ i ∈ range N, fitMean k n m (vs i) (fitRun k n m lr vs θ (i + 1)) ≤
      ∑ i ∈ range N, fitMean k n m (vs i) η + (θ.dist2 n m η - (fitRun k n m lr vs θ N).dist2 n m η) / (2 * lr) := by
  induction N with
  | zero => simp [fitRun]
  | succ N ih =>
    rw [sum_range_succ, sum_range_succ]
    have := (fit_step k hm (vs N) (hw N) lr hlr (hL N) (fitRun k n m lr vs θ N) η).1
    have e : fitStep k n m lr (vs N) (fitRun k n m lr vs θ N) = fitRun k n m lr vs θ (N + 1) := rfl
    rw [e] at this
    rw [sub_div] at this ih ⊢
    linarith

/-! ### C116 -/

/-- Any sequence of batches (a data set in one piece, in mini-batches, sample by sample, in any order): the losses of the batches, each measured after the step
made with it, exceed those of ANY fixed parameters `η` by at most |θ - η|² / (2 lr) in total, however long the training. -/
theorem C116_regret (k : FitKind) (n m : Nat) (hm : 0 < m) (θ : Theta) (l : FC ℝ) (h : l.IsFit k n m θ) (B : Nat → List (Ten ℝ × Ten ℝ))
    (vs : Nat → List ((Nat → ℝ) × (Nat → ℝ))) (hv : ∀ i, BatchIs (B i) n m (vs i)) (hne : ∀ i, vs i ≠ []) (hw : ∀ i, ∀ vw ∈ vs i, k.Target m vw.2)
    (lr : ℝ) (hlr : 0 < lr) (hL : ∀ i, lr * meanSq n (vs i) ≤ 1) :
    ∃ P : Nat → Theta, P 0 = θ ∧ (∀ N, Ok (l.fit k.loss lr B N) (fun l' => l'.IsFit k n m (P N))) ∧
      ∀ (N : Nat) (η : Theta), ∑ i ∈ range N, fitMean k n m (vs i) (P (i + 1)) ≤ ∑ i ∈ range N, fitMean k n m (vs i) η + θ.dist2 n m η / (2 * lr) := by
  refine ⟨fitRun k n m lr vs θ, rfl, fit_spec hm hv hne lr h, fun N η => (fit_regret k hm vs hw lr hlr hL θ η N).trans ?_⟩
  have := dist2_nonneg n m (fitRun k n m lr vs θ N) η
  gcongr
  linarith

/-- The whole data set in every step: the mean loss never increases, and after `N` steps it exceeds that of any parameters `η` by at most |θ - η|² / (2 lr N). -/
theorem C116_best (k : FitKind) (n m : Nat) (hm : 0 < m) (θ : Theta) (l : FC ℝ) (h : l.IsFit k n m θ) (B : List (Ten ℝ × Ten ℝ))
    (vs : List ((Nat → ℝ) × (Nat → ℝ))) (hv : BatchIs B n m vs) (hne : vs ≠ []) (hw : ∀ vw ∈ vs, k.Target m vw.2) (lr : ℝ) (hlr : 0 < lr) (hL : lr * meanSq n vs ≤ 1) :
    ∃ P : Nat → Theta, P 0 = θ ∧ (∀ N, Ok (l.fit k.loss lr (fun _ => B) N) (fun l' => l'.IsFit k n m (P N))) ∧
      (∀ N, fitMean k n m vs (P (N + 1)) ≤ fitMean k n m vs (P N)) ∧
      ∀ (N : Nat) (η : Theta), 0 < N → fitMean k n m vs (P N) ≤ fitMean k n m vs η + θ.dist2 n m η / (2 * lr * N) := by
  have mono : ∀ N, fitMean k n m vs (fitRun k n m lr (fun _ => vs) θ (N + 1)) ≤ fitMean k n m vs (fitRun k n m lr (fun _ => vs) θ N) :=
    fun N => (fit_step k hm vs hw lr hlr hL _ θ).2
  refine ⟨fitRun k n m lr (fun _ => vs) θ, rfl, fit_spec hm (fun _ => hv) (fun _ => hne) lr h, mono, fun N η hN => ?_⟩
  have anti : Antitone (fun N => fitMean k n m vs (fitRun k n m lr (fun _ => vs) θ N)) := antitone_nat_of_succ_le mono
  have hr := fit_regret k hm (fun _ => vs) (fun _ => hw) lr hlr (fun _ => hL) θ η N
  have hlow : (N : ℝ) * fitMean k n m vs (fitRun k n m lr (fun _ => vs) θ N) ≤ ∑ i ∈ range N, fitMean k n m vs (fitRun k n m lr (fun _ => vs) θ (i + 1)) := by
    have := Finset.card_nsmul_le_sum (range N) (fun i => fitMean k n m vs (fitRun k n m lr (fun _ => vs) θ (i + 1))) (fitMean k n m vs (fitRun k n m lr (fun _ => vs) θ N))
      (fun i hi => anti (by have := mem_range.1 hi; omega))
    simpa using this
  have hd := dist2_nonneg n m (fitRun k n m lr (fun _ => vs) θ N) η
  rw [sum_const, card_range, nsmul_eq_mul] at hr
  have hN' : (0 : ℝ) < N := by exact_mod_cast hN
  have h3 : (θ.dist2 n m η - (fitRun k n m lr (fun _ => vs) θ N).dist2 n m η) / (2 * lr) ≤ θ.dist2 n m η / (2 * lr) := by gcongr; linarith
  have h4 : (N : ℝ) * fitMean k n m vs (fitRun k n m lr (fun _ => vs) θ N) ≤ N * (fitMean k n m vs η + θ.dist2 n m η / (2 * lr * N)) := by
    have : (N : ℝ) * (θ.dist2 n m η / (2 * lr * N)) = θ.dist2 n m η / (2 * lr) := by field_simp
    rw [mul_add, this]
    linarith
  exact le_of_mul_le_mul_left h4 hN'

/-! #### Separable data -/

theorem least_pos : ∀ L : List ℝ, (∀ a ∈ L, 0 < a) → ∃ γ > 0, ∀ a ∈ L, γ ≤ a := by
  intro L
  induction L with
  | nil => intro _; exact ⟨1, one_pos, by simp⟩
  | cons a L ih =>
    intro h
    obtain ⟨γ, h1, h2⟩ := ih (fun b hb => h b (List.mem_cons_of_mem _ hb))
    refine ⟨min a γ, lt_min (h a (List.mem_cons_self ..)) h1, fun b hb => ?_⟩
    rcases List.mem_cons.1 hb with rfl | hb
    · exact min_le_left _ _
    · exact (min_le_right _ _).trans (h2 b hb)

theorem Hot.sum {m : Nat} {w : Nat → ℝ} {c : Nat} (h : Hot m w c) (u : Nat → ℝ) : ∑ i ∈ range m, w i * u i = u c := by
  rw [sum_eq_single_of_mem c (mem_range.2 h.1) (fun j hj hne => by rw [h.2.2 j (mem_range.1 hj) hne, zero_mul]), h.2.1, one_mul]

theorem margin {n m : Nat} {vs : List ((Nat → ℝ) × (Nat → ℝ))} (η : Theta)
    (h : ∀ vw ∈ vs, ∀ c, Hot m vw.2 c → ∀ j, j < m → j ≠ c → η.sums n vw.1 j < η.sums n vw.1 c) :
    ∃ γ > 0, ∀ vw ∈ vs, ∀ c, Hot m vw.2 c → ∀ j, j < m → j ≠ c → η.sums n vw.1 j + γ ≤ η.sums n vw.1 c := by
  classical
  let f : (Nat → ℝ) × (Nat → ℝ) → Nat → ℝ := fun vw j =>
    if ∃ c, Hot m vw.2 c ∧ j ≠ c then ∑ i ∈ range m, vw.2 i * η.sums n vw.1 i - η.sums n vw.1 j else 1
  obtain ⟨γ, h1, h2⟩ := least_pos (vs.flatMap (fun vw => (List.range m).map (f vw))) (fun a ha => by
    obtain ⟨vw, hv, ha⟩ := List.mem_flatMap.1 ha
    obtain ⟨j, hj, rfl⟩ := List.mem_map.1 ha
    show 0 < (if ∃ c, Hot m vw.2 c ∧ j ≠ c then ∑ i ∈ range m, vw.2 i * η.sums n vw.1 i - η.sums n vw.1 j else 1)
    split
    · rename_i hc
      obtain ⟨c, hc, hne⟩ := hc
      rw [hc.sum]
      linarith [h vw hv c hc j (List.mem_range.1 hj) hne]
    · exact one_pos)
  refine ⟨γ, h1, fun vw hv c hc j hj hne => ?_⟩
  have := h2 (f vw j) (List.mem_flatMap.2 ⟨vw, hv, List.mem_map.2 ⟨j, List.mem_range.2 hj, rfl⟩⟩)
  have e : f vw j = η.sums n vw.1 c - η.sums n vw.1 j := by
    show (if ∃ c, Hot m vw.2 c ∧ j ≠ c then _ else _) = _
    rw [if_pos ⟨c, hc, hne⟩, hc.sum]
  linarith

theorem sums_smul (n : Nat) (r : ℝ) (η : Theta) (v : Nat → ℝ) (j : Nat) :
    Theta.sums n (fun j => r * η.1 j, fun i j => r * η.2 i j) v j = r * η.sums n v j := by
  unfold Theta.sums
  rw [mul_add, mul_sum]
  congr 1
  exact sum_congr rfl (fun i _ => by ring)

theorem phi_nonneg {k : FitKind} (hk : k = .nll ∨ k = .cce) {m : Nat} {w z : Nat → ℝ} {c : Nat} (hw : k.Target m w) (hc : Hot m w c) : 0 ≤ phi k m w z := by
  have hm : 0 < m := Nat.lt_of_le_of_lt (Nat.zero_le _) hc.1
  rw [phi_soft hk hm hw, hc.sum]
  have : Real.exp (z c) ≤ expSum m z := single_le_sum (f := fun j => Real.exp (z j)) (fun _ _ => (Real.exp_pos _).le) (mem_range.2 hc.1)
  have := Real.log_le_log (Real.exp_pos _) this
  rw [Real.log_exp] at this
  linarith

theorem phi_small {k : FitKind} (hk : k = .nll ∨ k = .cce) {m : Nat} {w z : Nat → ℝ} {c : Nat} (hw : k.Target m w) (hc : Hot m w c) (h : phi k m w z < Real.log 2)
    {j : Nat} (hj : j < m) (hne : j ≠ c) : z j < z c := by
  have hm : 0 < m := Nat.lt_of_le_of_lt (Nat.zero_le _) hc.1
  rw [phi_soft hk hm hw, hc.sum] at h
  have h2 : Real.log (expSum m z) < Real.log (2 * Real.exp (z c)) := by
    rw [Real.log_mul (by norm_num) (Real.exp_pos _).ne', Real.log_exp]; linarith
  have h3 := (Real.log_lt_log_iff (expSum_pos hm z) (by positivity)).1 h2
  have h4 : Real.exp (z j) + Real.exp (z c) ≤ expSum m z := by
    have : ∑ i ∈ ({j, c} : Finset Nat), Real.exp (z i) ≤ ∑ i ∈ range m, Real.exp (z i) :=
      sum_le_sum_of_subset_of_nonneg (fun i hi => by
        rcases mem_insert.1 hi with rfl | hi
        · exact mem_range.2 hj
        · rw [mem_singleton.1 hi]; exact mem_range.2 hc.1) (fun _ _ _ => (Real.exp_pos _).le)
    rw [sum_pair hne] at this
    exact this
  exact Real.exp_lt_exp.1 (by linarith)

theorem phi_scaled {k : FitKind} (hk : k = .nll ∨ k = .cce) {m : Nat} {w z : Nat → ℝ} {c : Nat} (hw : k.Target m w) (hc : Hot m w c) {γ r : ℝ} (hr : 0 ≤ r)
    (h : ∀ j, j < m → j ≠ c → z j + γ ≤ z c) : phi k m w (fun j => r * z j) ≤ m * Real.exp (-(r * γ)) := by
  have hm : 0 < m := Nat.lt_of_le_of_lt (Nat.zero_le _) hc.1
  rw [phi_soft hk hm hw, hc.sum]
  have h1 : expSum m (fun j => r * z j) ≤ Real.exp (r * z c) * (1 + m * Real.exp (-(r * γ))) := by
    have : ∀ j ∈ range m, Real.exp (r * z j) ≤ Real.exp (r * z c) * ((if j = c then 1 else 0) + Real.exp (-(r * γ))) := fun j hj => by
      by_cases e : j = c
      · rw [if_pos e, e]
        nlinarith [Real.exp_pos (r * z c), Real.exp_pos (-(r * γ)), mul_pos (Real.exp_pos (r * z c)) (Real.exp_pos (-(r * γ)))]
      · rw [if_neg e, zero_add, ← Real.exp_add]
        refine Real.exp_le_exp.2 ?_
        have := mul_le_mul_of_nonneg_left (h j (mem_range.1 hj) e) hr
        linarith
    refine (sum_le_sum this).trans ?_
    rw [← mul_sum, sum_add_distrib, sum_ite_eq' (range m) c, if_pos (mem_range.2 hc.1), sum_const, card_range, nsmul_eq_mul]
  have h2 := Real.log_le_log (expSum_pos hm _) h1
  have hp : 0 < 1 + m * Real.exp (-(r * γ)) := by positivity
  rw [Real.log_mul (Real.exp_pos _).ne' hp.ne', Real.log_exp] at h2
  have h3 := Real.log_le_sub_one_of_pos hp
  linarith

theorem fitMean_phi (k : FitKind) (n m : Nat) (vs : List ((Nat → ℝ) × (Nat → ℝ))) (θ : Theta) :
    fitMean k n m vs θ = 1 / (vs.length : ℝ) * (vs.map (fun vw => phi k m vw.2 (θ.sums n vw.1))).sum := rfl

theorem listSum_le {β : Type} {c : ℝ} : ∀ {vs : List β} {f : β → ℝ}, (∀ v ∈ vs, f v ≤ c) → (vs.map f).sum ≤ vs.length * c := by
  intro vs f
  induction vs with
  | nil => intro _; simp
  | cons v vs ih =>
    intro h
    have h1 := ih (fun v hv => h v (List.mem_cons_of_mem _ hv))
    have h2 := h v (List.mem_cons_self ..)
    simp only [List.map_cons, List.sum_cons, List.length_cons, Nat.cast_add, Nat.cast_one]
    linarith

theorem term_le_listSum {β : Type} : ∀ {vs : List β} {f : β → ℝ}, (∀ v ∈ vs, 0 ≤ f v) → ∀ v ∈ vs, f v ≤ (vs.map f).sum := by
  intro vs f h v hv
  exact List.single_le_sum (by
    intro x hx
    obtain ⟨u, hu, rfl⟩ := List.mem_map.1 hx
    exact h u hu) _ (List.mem_map.2 ⟨v, hv, rfl⟩)

/-- From some step on the weighted sums of the class of a sample are the largest. -/
theorem learns_sums (k : FitKind) (hk : k = .nll ∨ k = .cce) (n m : Nat) (θ : Theta) (l : FC ℝ) (h : l.IsFit k n m θ) (B : List (Ten ℝ × Ten ℝ))
    (vs : List ((Nat → ℝ) × (Nat → ℝ))) (hv : BatchIs B n m vs) (hne : vs ≠ []) (hw : ∀ vw ∈ vs, ∃ c, Hot m vw.2 c) (hs : Separable n m vs) (lr : ℝ) (hlr : 0 < lr)
    (hL : lr * meanSq n vs ≤ 1) :
    ∃ P : Nat → Theta, (∀ N, Ok (l.fit k.loss lr (fun _ => B) N) (fun l' => l'.IsFit k n m (P N))) ∧ ∃ N0 : Nat, ∀ N, N0 ≤ N →
      ∀ vw ∈ vs, ∀ c, Hot m vw.2 c → ∀ j, j < m → j ≠ c → (P N).sums n vw.1 j < (P N).sums n vw.1 c := by
  have hlen : 0 < vs.length := List.length_pos_iff.2 hne
  have hm : 0 < m := by
    obtain ⟨c, hc⟩ := hw vs[0] (List.getElem_mem hlen)
    exact Nat.lt_of_le_of_lt (Nat.zero_le _) hc.1
  have hT : ∀ vw ∈ vs, k.Target m vw.2 := fun vw hvw => by
    obtain ⟨c, hc⟩ := hw vw hvw
    rcases hk with rfl | rfl
    · exact ⟨c, hc⟩
    · show ∑ j ∈ range m, vw.2 j = 1
      simpa using hc.sum (fun _ => 1)
  obtain ⟨η, hη⟩ := hs
  obtain ⟨γ, hγ, hmar⟩ := margin η hη
  have hlen' : (0 : ℝ) < vs.length := by exact_mod_cast hlen
  set ε : ℝ := Real.log 2 / (2 * vs.length) with hε
  have hε0 : 0 < ε := by have := Real.log_pos one_lt_two; positivity
  set r : ℝ := m / (ε * γ) with hr
  have hr0 : 0 ≤ r := by positivity
  have hsmall : (m : ℝ) * Real.exp (-(r * γ)) ≤ ε := by
    have h1 : r * γ = m / ε := by rw [hr]; field_simp
    rw [h1, Real.exp_neg, ← div_eq_mul_inv, div_le_iff₀ (Real.exp_pos _)]
    have := Real.add_one_le_exp ((m : ℝ) / ε)
    have h2 : (m : ℝ) = ε * (m / ε) := by field_simp
    nlinarith
  set ζ : Theta := (fun j => r * η.1 j, fun i j => r * η.2 i j) with hζ
  have hζm : fitMean k n m vs ζ ≤ ε := by
    rw [fitMean_phi]
    have : (vs.map (fun vw => phi k m vw.2 (ζ.sums n vw.1))).sum ≤ vs.length * ε := listSum_le (fun vw hvw => by
      obtain ⟨c, hc⟩ := hw vw hvw
      have e : ζ.sums n vw.1 = fun j => r * η.sums n vw.1 j := by funext j; exact sums_smul n r η vw.1 j
      rw [e]
      exact (phi_scaled hk (hT vw hvw) hc hr0 (hmar vw hvw c hc)).trans hsmall)
    rw [one_div, inv_mul_le_iff₀ hlen']
    exact this
  obtain ⟨P, _, hP, _, hb⟩ := C116_best k n m hm θ l h B vs hv hne hT lr hlr hL
  obtain ⟨N0, hN0⟩ := exists_nat_gt (θ.dist2 n m ζ / (2 * lr * ε))
  refine ⟨P, hP, N0 + 1, fun N hN => ?_⟩
  have hNpos : 0 < N := by omega
  have hNr : (N0 : ℝ) < N := by exact_mod_cast (by omega : N0 < N)
  have hN' : (0 : ℝ) < N := by exact_mod_cast hNpos
  have hlast : θ.dist2 n m ζ / (2 * lr * N) < ε := by
    rw [div_lt_iff₀ (by positivity)] at hN0 ⊢
    have := mul_lt_mul_of_pos_right hNr (show 0 < 2 * lr * ε by positivity)
    linarith
  have hmean : fitMean k n m vs (P N) < 2 * ε := by linarith [hb N ζ hNpos]
  have hsum : (vs.map (fun vw => phi k m vw.2 ((P N).sums n vw.1))).sum < Real.log 2 := by
    rw [fitMean_phi, one_div, inv_mul_lt_iff₀ hlen'] at hmean
    have : (vs.length : ℝ) * (2 * ε) = Real.log 2 := by rw [hε]; field_simp
    linarith
  intro vw hvw c hc' j hj hne
  have hphi : phi k m vw.2 ((P N).sums n vw.1) < Real.log 2 :=
    (term_le_listSum (f := fun vw => phi k m vw.2 ((P N).sums n vw.1)) (fun v hv' => by
      obtain ⟨c', hc'⟩ := hw v hv'
      exact phi_nonneg hk (hT v hv') hc') vw hvw).trans_lt hsum
  exact phi_small hk (hT vw hvw) hc' hphi hj hne

/-- Softmax regression learns every linearly separable data set: from some number of steps on, the trained layer gives the largest output to the class of every
training sample. -/
theorem C116_learns (k : FitKind) (hk : k = .nll ∨ k = .cce) (n m : Nat) (θ : Theta) (l : FC ℝ) (h : l.IsFit k n m θ) (B : List (Ten ℝ × Ten ℝ))
    (vs : List ((Nat → ℝ) × (Nat → ℝ))) (hv : BatchIs B n m vs) (hne : vs ≠ []) (hw : ∀ vw ∈ vs, ∃ c, Hot m vw.2 c) (hs : Separable n m vs) (lr : ℝ) (hlr : 0 < lr)
    (hL : lr * meanSq n vs ≤ 1) :
    ∃ N0 : Nat, ∀ N, N0 ≤ N → Ok (l.fit k.loss lr (fun _ => B) N) (fun l' =>
      ∀ (x y : Ten ℝ) (w : Nat → ℝ) (c : Nat), (x, y) ∈ B → VecIs y.data m w → Hot m w c →
        Ok (l'.forward x) (fun l'' => ∃ p : Nat → ℝ, RowIs l''.value m p ∧ ∀ j, j < m → j ≠ c → p j < p c)) := by
  obtain ⟨P, hP, N0, hN0⟩ := learns_sums k hk n m θ l h B vs hv hne hw hs lr hlr hL
  refine ⟨N0, fun N hN => (hP N).mono (fun l' hl' => ?_)⟩
  intro x y w c hxy hy hc
  obtain ⟨vw, hvw, hx, hy'⟩ : ∃ vw ∈ vs, VecIs x.data n vw.1 ∧ VecIs y.data m vw.2 := by
    obtain ⟨i, hi, e⟩ := List.getElem_of_mem hxy
    have hl : B.length = vs.length := List.Forall₂.length_eq hv
    have := List.Forall₂.get hv hi (by omega)
    simp only [List.get_eq_getElem, e] at this
    exact ⟨_, List.getElem_mem _, this⟩
  have hc' : Hot m vw.2 c := ⟨hc.1, by rw [← (VecIs.unique hy hy').2 c hc.1]; exact hc.2.1, fun j hj hne => by
    rw [← (VecIs.unique hy hy').2 j hj]; exact hc.2.2 j hj hne⟩
  have hm : 0 < m := Nat.lt_of_le_of_lt (Nat.zero_le _) hc.1
  refine (FC.forward_spec hl'.1 (F := k.act.fn m) (D := k.act.D) (by rw [hl'.2]; exact k.act.obj_Is m hm) hx).mono (fun l2 ⟨_, hv2, _, _⟩ => ?_)
  rw [sums_eq] at hv2
  refine ⟨_, hv2, fun j hj hne => ?_⟩
  have hz := hN0 N hN vw hvw c hc' j hj hne
  have hact : k.act = .softmax := by rcases hk with rfl | rfl <;> rfl
  rw [hact]
  show Real.exp _ / _ < Real.exp _ / _
  exact div_lt_div_of_pos_right (Real.exp_lt_exp.2 hz) (expSum_pos hm _)

/-! #### The same as the closed form -/

theorem listSum_range (h : Nat) (f : Nat → ℝ) : ((List.range h).map f).sum = ∑ i ∈ range h, f i := by
  induction h with
  | zero => rfl
  | succ h ih => rw [List.range_succ, List.map_append, List.sum_append, ih, sum_range_succ]; simp

open Filter Topology in
/-- A linear regression trained by `LinearRegression` (normal equations) and a single `Identity` neuron trained by gradient descent with `MSE` on the same data
arrive at the same weights, whatever the initial weights of the neuron. -/
theorem C116_regression (h k : Nat) (hh : 0 < h) (x : Nat → Nat → ℝ) (y : Nat → ℝ) (idata : Mat ℝ) (odata : Buf ℝ) (hx : MatIs idata h k x) (hy : VecIs odata h y)
    (hid : LinIdent h k x) (θ : Theta) (l : FC ℝ) (hl : l.IsFit .mse k 1 θ) (B : List (Ten ℝ × Ten ℝ))
    (hv : BatchIs B k 1 ((List.range h).map (fun i => (x i, fun _ => y i)))) (lr : ℝ) (hlr : 0 < lr)
    (hL : lr * meanSq k ((List.range h).map (fun i => (x i, fun _ => y i))) ≤ 1) :
    Ok ((Reg.make k).linTrain idata odata) (fun r => ∃ w, r.Is k w ∧ ∃ P : Nat → Theta,
      (∀ N, Ok (l.fit MSE lr (fun _ => B) N) (fun l' => l'.IsFit .mse k 1 (P N))) ∧
      Tendsto (fun N => (P N).1 0) atTop (𝓝 (w 0)) ∧ ∀ j, j < k → Tendsto (fun N => (P N).2 j 0) atTop (𝓝 (w (j + 1)))) := by
  set vs : List ((Nat → ℝ) × (Nat → ℝ)) := (List.range h).map (fun i => (x i, fun _ => y i)) with hvs
  have hne : vs ≠ [] := by
    intro e
    have := congrArg List.length e
    simp [hvs] at this
    omega
  obtain ⟨P, _, hP, _, hb⟩ := C116_best .mse k 1 one_pos θ l hl B vs hv hne (fun _ _ => trivial) lr hlr hL
  refine (C56_linear (Reg.make k) h k x y idata odata ⟨rfl, by simp [Reg.make, Buf.alloc]⟩ hx hy hid).mono (fun r ⟨w, hr, _, h0, hj⟩ => ⟨w, hr, P, hP, ?_⟩)
  -- weights as one vector
  let vec : Theta → Nat → ℝ := fun θ q => match q with | 0 => θ.1 0 | j + 1 => θ.2 j 0
  let η : Theta := (fun _ => w 0, fun j _ => w (j + 1))
  have hpred : ∀ (θ : Theta) (v : Nat → ℝ), θ.sums k v 0 = linPred k (vec θ) v := fun θ v => by
    unfold Theta.sums linPred; rw [add_comm]
  have hmean : ∀ θ : Theta, fitMean .mse k 1 vs θ = 1 / (h : ℝ) * (1 / 2 * ∑ i ∈ range h, (linPred k (vec θ) (x i) - y i) ^ 2) := fun θ => by
    unfold fitMean
    have e := listSum_range h (fun i => 1 / 2 * (linPred k (vec θ) (x i) - y i) ^ 2)
    rw [mul_sum, ← e, hvs, List.map_map, List.length_map, List.length_range]
    congr 3
    funext i
    show mseFn 1 (fun _ => y i) (fun j => θ.sums k (x i) j) = _
    simp [mseFn, hpred]
  have hsub : ∀ (u : Nat → ℝ) (v : Nat → ℝ), linPred k (fun q => u q - w q) v = linPred k u v - linPred k w v := fun u v => by
    unfold linPred
    rw [add_sub_add_comm, ← sum_sub_distrib]
    congr 1
    exact sum_congr rfl (fun j _ => by ring)
  have horth : ∀ u : Nat → ℝ, ∑ i ∈ range h, linPred k u (x i) * (y i - linPred k w (x i)) = 0 := fun u => by
    have e : ∀ i ∈ range h, linPred k u (x i) * (y i - linPred k w (x i)) =
        u 0 * (y i - linPred k w (x i)) + ∑ j ∈ range k, u (j + 1) * (x i j * (y i - linPred k w (x i))) := fun i _ => by
      show (u 0 + ∑ j ∈ range k, x i j * u (j + 1)) * _ = _
      rw [add_mul, sum_mul]
      congr 1
      exact sum_congr rfl (fun j _ => by ring)
    rw [sum_congr rfl e, sum_add_distrib, ← mul_sum, h0, mul_zero, zero_add, sum_comm]
    refine sum_eq_zero (fun j hj' => ?_)
    rw [← mul_sum, hj j (mem_range.1 hj'), mul_zero]
  have hpyth : ∀ u : Nat → ℝ, ∑ i ∈ range h, (linPred k u (x i) - y i) ^ 2 =
      ∑ i ∈ range h, (linPred k w (x i) - y i) ^ 2 + ∑ i ∈ range h, linPred k (fun q => u q - w q) (x i) ^ 2 := fun u => by
    have := horth (fun q => u q - w q)
    have e : ∑ i ∈ range h, (linPred k u (x i) - y i) ^ 2 = ∑ i ∈ range h, ((linPred k w (x i) - y i) ^ 2 + linPred k (fun q => u q - w q) (x i) ^ 2 -
        2 * (linPred k (fun q => u q - w q) (x i) * (y i - linPred k w (x i)))) :=
      sum_congr rfl (fun i _ => by rw [hsub]; ring)
    rw [e, sum_sub_distrib, ← mul_sum, this, mul_zero, sub_zero, sum_add_distrib]
  have hvη : ∀ v, linPred k (vec η) v = linPred k w v := fun v => rfl
  have hh' : (0 : ℝ) < h := by exact_mod_cast hh
  -- predictions converge
  have hbound : ∀ N, 0 < N → ∑ i ∈ range h, linPred k (fun q => vec (P N) q - w q) (x i) ^ 2 ≤ (h * θ.dist2 k 1 η / lr) * (1 / (N : ℝ)) := fun N hN => by
    have := hb N η hN
    have hN' : (0 : ℝ) < N := by exact_mod_cast hN
    rw [hmean, hmean, hpyth (vec (P N))] at this
    simp only [hvη] at this
    rw [mul_add, mul_add] at this
    have h5 : 1 / (h : ℝ) * (1 / 2 * ∑ i ∈ range h, linPred k (fun q => vec (P N) q - w q) (x i) ^ 2) ≤ θ.dist2 k 1 η / (2 * lr * N) := by linarith
    have h6 := mul_le_mul_of_nonneg_left h5 (show 0 ≤ 2 * (h : ℝ) by positivity)
    have e1 : 2 * (h : ℝ) * (1 / (h : ℝ) * (1 / 2 * ∑ i ∈ range h, linPred k (fun q => vec (P N) q - w q) (x i) ^ 2)) =
      ∑ i ∈ range h, linPred k (fun q => vec (P N) q - w q) (x i) ^ 2 := by field_simp
    have e2 : 2 * (h : ℝ) * (θ.dist2 k 1 η / (2 * lr * N)) = (h * θ.dist2 k 1 η / lr) * (1 / (N : ℝ)) := by field_simp
    rw [e1, e2] at h6
    exact h6
  have hsq : Tendsto (fun N => ∑ i ∈ range h, linPred k (fun q => vec (P N) q - w q) (x i) ^ 2) atTop (𝓝 0) := by
    have hup : Tendsto (fun N : Nat => (h * θ.dist2 k 1 η / lr) * (1 / (N : ℝ))) atTop (𝓝 0) := by
      simpa using tendsto_one_div_atTop_nhds_zero_nat.const_mul (h * θ.dist2 k 1 η / lr)
    refine tendsto_of_tendsto_of_tendsto_of_le_of_le' tendsto_const_nhds hup (Eventually.of_forall (fun N => sum_nonneg (fun _ _ => sq_nonneg _))) ?_
    filter_upwards [eventually_gt_atTop 0] with N hN using hbound N hN
  have hcomp : ∀ i, i < h → Tendsto (fun N => linPred k (fun q => vec (P N) q - w q) (x i)) atTop (𝓝 0) := fun i hi => by
    have : Tendsto (fun N => linPred k (fun q => vec (P N) q - w q) (x i) ^ 2) atTop (𝓝 0) :=
      squeeze_zero (fun _ => sq_nonneg _) (fun N => single_le_sum (f := fun i => linPred k (fun q => vec (P N) q - w q) (x i) ^ 2) (fun _ _ => sq_nonneg _) (mem_range.2 hi)) hsq
    have h2 := this.sqrt
    simp only [Real.sqrt_sq_eq_abs, Real.sqrt_zero] at h2
    exact (tendsto_zero_iff_abs_tendsto_zero _).2 h2
  -- the weights are a linear function of the predictions
  let ext : (Fin (k + 1) → ℝ) → Nat → ℝ := fun u q => if hq : q < k + 1 then u ⟨q, hq⟩ else 0
  let A : (Fin (k + 1) → ℝ) →ₗ[ℝ] (Fin h → ℝ) :=
    { toFun := fun u i => linPred k (ext u) (x i)
      map_add' := fun u v => by
        funext i
        show linPred k (ext (u + v)) (x i) = linPred k (ext u) (x i) + linPred k (ext v) (x i)
        unfold linPred
        rw [add_add_add_comm, ← sum_add_distrib]
        have : ∀ q, ext (u + v) q = ext u q + ext v q := fun q => by
          show (if hq : q < k + 1 then (u + v) ⟨q, hq⟩ else 0) = (if hq : q < k + 1 then u ⟨q, hq⟩ else 0) + (if hq : q < k + 1 then v ⟨q, hq⟩ else 0)
          split <;> simp
        simp only [this, mul_add]
      map_smul' := fun c u => by
        funext i
        show linPred k (ext (c • u)) (x i) = c * linPred k (ext u) (x i)
        have : ∀ q, ext (c • u) q = c * ext u q := fun q => by
          show (if hq : q < k + 1 then (c • u) ⟨q, hq⟩ else 0) = c * (if hq : q < k + 1 then u ⟨q, hq⟩ else 0)
          split <;> simp
        unfold linPred
        simp only [this]
        rw [mul_add, mul_sum]
        congr 1
        exact sum_congr rfl (fun j _ => by ring) }
  have hinj : LinearMap.ker A = ⊥ := by
    refine LinearMap.ker_eq_bot'.2 (fun u hu => ?_)
    have := hid (ext u) (fun i hi => congrFun hu ⟨i, hi⟩)
    funext q
    have := this q q.2
    have e : ext u q = u q := dif_pos q.2
    rw [e] at this
    exact this
  obtain ⟨L, hLA⟩ := A.exists_leftInverse_of_injective hinj
  have hcont : Continuous L := LinearMap.continuous_of_finiteDimensional L
  have hfin : Tendsto (fun N => L (A (fun q => vec (P N) q - w q))) atTop (𝓝 (L 0)) := by
    refine hcont.continuousAt.tendsto.comp (tendsto_pi_nhds.2 (fun i => ?_))
    refine (hcomp i i.2).congr (fun N => ?_)
    show _ = linPred k (ext (fun q => vec (P N) q - w q)) (x i)
    unfold linPred
    have e : ∀ q, q < k + 1 → ext (fun q => vec (P N) q - w q) q = vec (P N) q - w q := fun q hq => dif_pos hq
    rw [e 0 (by omega)]
    congr 1
    exact sum_congr rfl (fun j hj' => by rw [e (j + 1) (by have := mem_range.1 hj'; omega)])
  have hL2 : ∀ u, L (A u) = u := fun u => LinearMap.congr_fun hLA u
  simp only [hL2, map_zero] at hfin
  have hq : ∀ q, q < k + 1 → Tendsto (fun N => vec (P N) q) atTop (𝓝 (w q)) := fun q hq => by
    have := (tendsto_pi_nhds.1 hfin ⟨q, hq⟩).add_const (w q)
    simpa using this
  exact ⟨hq 0 (by omega), fun j hj' => hq (j + 1) (by omega)⟩

/-! Non-vacuity: the hypotheses are met by new layers and small data sets. -/

/-- The tensors of a data set. -/
noncomputable def ftBatch (n m : Nat) (vs : List ((Nat → ℝ) × (Nat → ℝ))) : List (Ten ℝ × Ten ℝ) :=
  vs.map (fun vw => (⟨1, 1, n, Buf.of ((List.range n).map vw.1)⟩, ⟨1, 1, m, Buf.of ((List.range m).map vw.2)⟩))

theorem ftBatch_Is (n m : Nat) (vs : List ((Nat → ℝ) × (Nat → ℝ))) : BatchIs (ftBatch n m vs) n m vs := by
  unfold BatchIs ftBatch
  induction vs with
  | nil => exact .nil
  | cons a vs ih => exact .cons ⟨VecIs_of' _ _, VecIs_of' _ _⟩ ih

/-- A new layer. -/
noncomputable def ftLayer (k : FitKind) (n m : Nat) : FC ℝ := FC.make n m k.act.obj 0 1

theorem ftLayer_IsFit (k : FitKind) (n m : Nat) : (ftLayer k n m).IsFit k n m (fun _ => 0, fun _ _ => 0) := ⟨FC.Wf_make n m _ 0 1, rfl⟩

/-- Two samples of two classes: 1 belongs to class 0, -1 to class 1. -/
def ftTwo : List ((Nat → ℝ) × (Nat → ℝ)) := [(fun _ => 1, fun j => if j = 0 then 1 else 0), (fun _ => -1, fun j => if j = 0 then 0 else 1)]

theorem ftTwo_hot : ∀ vw ∈ ftTwo, ∃ c, Hot 2 vw.2 c := by
  intro vw hvw
  simp only [ftTwo, List.mem_cons, List.not_mem_nil, or_false] at hvw
  rcases hvw with rfl | rfl
  · exact ⟨0, by decide, by simp, fun j hj hne => by simp [hne]⟩
  · exact ⟨1, by decide, by simp, fun j hj hne => by have : j = 0 := by omega
                                                     simp [this]⟩

theorem ftTwo_sep : Separable 1 2 ftTwo := by
  refine ⟨(fun _ => 0, fun _ j => if j = 0 then 1 else 0), fun vw hvw c hc j hj hne => ?_⟩
  obtain ⟨h1, h2, -⟩ := hc
  simp only [ftTwo, List.mem_cons, List.not_mem_nil, or_false] at hvw
  rcases hvw with rfl | rfl <;> interval_cases c <;> interval_cases j <;> simp [Theta.sums] at h2 hne ⊢

theorem ftTwo_sq : meanSq 1 ftTwo = 2 := by norm_num [meanSq, ftTwo]

/-- The softmax layer learns the two samples; -/
example : ∃ N0 : Nat, ∀ N, N0 ≤ N → Ok ((ftLayer .nll 1 2).fit Losses.NLL (1 / 2) (fun _ => ftBatch 1 2 ftTwo) N) (fun l' =>
      ∀ (x y : Ten ℝ) (w : Nat → ℝ) (c : Nat), (x, y) ∈ ftBatch 1 2 ftTwo → VecIs y.data 2 w → Hot 2 w c →
        Ok (l'.forward x) (fun l'' => ∃ p : Nat → ℝ, RowIs l''.value 2 p ∧ ∀ j, j < 2 → j ≠ c → p j < p c)) :=
  C116_learns .nll (.inl rfl) 1 2 _ _ (ftLayer_IsFit _ _ _) _ _ (ftBatch_Is _ _ _) (by simp [ftTwo]) ftTwo_hot ftTwo_sep (1 / 2) (by norm_num) (by rw [ftTwo_sq]; norm_num)

/-- its regret is bounded when the batches are single samples in turn; -/
example : ∃ P : Nat → Theta, P 0 = (fun _ => 0, fun _ _ => 0) ∧
    (∀ N, Ok ((ftLayer .cce 1 2).fit Losses.CCE (1 / 2) (fun i => ftBatch 1 2 (if i % 2 = 0 then ftTwo.take 1 else ftTwo.drop 1)) N) (fun l' => l'.IsFit .cce 1 2 (P N))) ∧
      ∀ (N : Nat) (η : Theta), ∑ i ∈ range N, fitMean .cce 1 2 (if i % 2 = 0 then ftTwo.take 1 else ftTwo.drop 1) (P (i + 1)) ≤
        ∑ i ∈ range N, fitMean .cce 1 2 (if i % 2 = 0 then ftTwo.take 1 else ftTwo.drop 1) η + Theta.dist2 1 2 (fun _ => 0, fun _ _ => 0) η / (2 * (1 / 2)) :=
  C116_regret .cce 1 2 (by decide) _ _ (ftLayer_IsFit _ _ _) _ (fun i => if i % 2 = 0 then ftTwo.take 1 else ftTwo.drop 1) (fun _ => ftBatch_Is _ _ _)
    (fun i => by split <;> simp [ftTwo]) (fun i vw hvw => by
      show ∑ j ∈ range 2, vw.2 j = 1
      have : vw ∈ ftTwo := by
        split at hvw
        · exact List.mem_of_mem_take hvw
        · exact List.mem_of_mem_drop hvw
      simp only [ftTwo, List.mem_cons, List.not_mem_nil, or_false] at this
      rcases this with rfl | rfl <;> simp [sum_range_succ]) (1 / 2) (by norm_num) (fun i => by split <;> norm_num [meanSq, ftTwo])

/-- and the identity neuron finds the line through (0, 1) and (1, 3). -/
example : Ok ((Reg.make 1).linTrain ⟨2, 1, Buf.of [(0 : ℝ), 1]⟩ (Buf.of [1, 3])) (fun r => ∃ w, r.Is 1 w ∧ ∃ P : Nat → Theta,
      (∀ N, Ok ((ftLayer .mse 1 1).fit MSE (1 / 2) (fun _ => ftBatch 1 1 ((List.range 2).map (fun i => (fun _ => (i : ℝ), fun _ => 1 + 2 * (i : ℝ))))) N)
        (fun l' => l'.IsFit .mse 1 1 (P N))) ∧
      Filter.Tendsto (fun N => (P N).1 0) Filter.atTop (nhds (w 0)) ∧ ∀ j, j < 1 → Filter.Tendsto (fun N => (P N).2 j 0) Filter.atTop (nhds (w (j + 1)))) := by
  refine C116_regression 2 1 (by decide) (fun i _ => (i : ℝ)) (fun i => 1 + 2 * (i : ℝ)) _ _ ⟨rfl, rfl, rfl, ?_⟩ ⟨rfl, ?_⟩ (fun u hu j hj => ?_) _ _ (ftLayer_IsFit _ _ _) _ (ftBatch_Is _ _ _)
    (1 / 2) (by norm_num) ?_
  · intro i j hi hj; interval_cases i <;> interval_cases j <;> simp [Buf.of]
  · intro i hi; interval_cases i <;> norm_num [Buf.of]
  · have h0 := hu 0 (by decide)
    have h1 := hu 1 (by decide)
    simp only [linPred, sum_range_one, Nat.cast_zero, zero_mul, add_zero, Nat.cast_one, one_mul] at h0 h1
    rw [h0, zero_add] at h1
    match j, hj with
    | 0, _ => exact h0
    | 1, _ => exact h1
  · norm_num [meanSq, List.range_succ]

end Trixy
