import Verif.Proof.AdaFit
import Verif.Props.Momentum
import Verif.Proof.RuleLimit
/- C123: linear models trained with AdaGrad reach the optimum with every learning rate. -/
namespace Trixy
set_option linter.unusedSectionVars false
open Finset Losses FitMath

/-! ### What the program computes -/

/-- New sums of squared gradients. -/
noncomputable def adaSums (k : FitKind) (n m : Nat) (vs : List ((Nat → ℝ) × (Nat → ℝ))) (θ v : Theta) : Theta :=
  (fun j => v.1 j + (fitGrad k n m vs θ).1 j * (1 / (vs.length : ℝ)) * ((fitGrad k n m vs θ).1 j * (1 / (vs.length : ℝ))),
   fun i j => v.2 i j + (fitGrad k n m vs θ).2 i j * (1 / (vs.length : ℝ)) * ((fitGrad k n m vs θ).2 i j * (1 / (vs.length : ℝ))))

/-- New parameters, from the new sums. -/
noncomputable def adaPos (k : FitKind) (n m : Nat) (lr : ℝ) (vs : List ((Nat → ℝ) × (Nat → ℝ))) (θ v : Theta) : Theta :=
  (fun j => θ.1 j - invertSqrt (v.1 j) * ((fitGrad k n m vs θ).1 j * (1 / (vs.length : ℝ))) * lr,
   fun i j => θ.2 i j - invertSqrt (v.2 i j) * ((fitGrad k n m vs θ).2 i j * (1 / (vs.length : ℝ))) * lr)

/-- Parameters and sums after `N` steps. -/
noncomputable def adaRun (k : FitKind) (n m : Nat) (lr : ℝ) (vs : List ((Nat → ℝ) × (Nat → ℝ))) (θ : Theta) : Nat → Theta × Theta
  | 0 => (θ, (fun _ => 0, fun _ _ => 0))
  | N + 1 =>
    let s := adaRun k n m lr vs θ N
    let v := adaSums k n m vs s.1 s.2
    (adaPos k n m lr vs s.1 v, v)

/-- The optimizer holds these sums for the parameters of the layer. -/
structure AdaHolds (s : Ada ℝ) (l : FC ℝ) (n m : Nat) (lr : ℝ) (v : Theta) : Prop where
  lr : s.lr = lr
  keys : l.keyB ≠ l.keyW
  bB : (s.buff.get l.keyB m).length = m
  bW : (s.buff.get l.keyW (n * m)).length = n * m
  vB : VecIs (s.opt.get l.keyB m) m v.1
  vW : VecIs (s.opt.get l.keyW (n * m)) (n * m) (fun q => v.2 (q / m) (q % m))

theorem adaUpd_spec {s : Ada ℝ} {k n : Nat} {P G : Buf ℝ} {p g v : Nat → ℝ}
    (hp : VecIs P n p) (hg : VecIs G n g) (hb : (s.buff.get k n).length = n) (hv : VecIs (s.opt.get k n) n v) :
    Ok (adagradUpdate invertSqrt s k P G) (fun r => r.1.lr = s.lr ∧ (r.1.buff.get k n).length = n ∧
      VecIs (r.1.opt.get k n) n (fun i => v i + g i * g i) ∧ VecIs r.2.1 n (fun i => p i - invertSqrt (v i + g i * g i) * g i * s.lr) ∧ r.2.2 = G ∧
      ∀ k', k' ≠ k → r.1.buff k' = s.buff k' ∧ r.1.opt k' = s.opt k') := by
  obtain ⟨r, e, h1, h3, h4, h5, h6⟩ := adagrad_spec (isq := invertSqrt) hp hg hb hv
  refine ⟨r, e, h1, h3, h4, h5, h6, fun k' hk' => ?_⟩
  have := (local_adagrad invertSqrt).other _ _ _ _ _ e k' hk'
  simp only [Prod.mk.injEq] at this
  exact ⟨this.1, this.2.1⟩

theorem adaBatch_spec {k : FitKind} {n m : Nat} (hm : 0 < m) {θ v : Theta} {B : List (Ten ℝ × Ten ℝ)} {vs : List ((Nat → ℝ) × (Nat → ℝ))} (hv : BatchIs B n m vs)
    (hne : vs ≠ []) {lr : ℝ} {s : Ada ℝ} {l : FC ℝ} (h : l.IsFit k n m θ) (hs : AdaHolds s l n m lr v) :
    Ok (FC.optBatch (adagradUpdate invertSqrt) k.loss B (s, l)) (fun r => r.2.IsFit k n m (adaPos k n m lr vs θ (adaSums k n m vs θ v)) ∧
      AdaHolds r.1 r.2 n m lr (adaSums k n m vs θ v)) := by
  unfold FC.optBatch
  refine (FC.reset_spec h.1).bind (fun l1 ⟨w1, b1, W1, _, e1⟩ => ?_)
  obtain ⟨l2, e2, h2, b2, W2, a2⟩ := fitSamples_spec hm hv (θ := θ) (k := k) (l := l1) ⟨w1, by rw [e1]; exact h.2⟩ b1 W1
  have kk := fitSamples_keys k.loss B l1 _ e2
  have a2 := a2 (.inr hne)
  have hlen : B.length = vs.length := List.Forall₂.length_eq hv
  rw [e2, bind_ok]
  have hkB : l2.keyB = l.keyB := kk.1.trans (by rw [e1])
  have hkW : l2.keyW = l.keyW := kk.2.trans (by rw [e1])
  unfold FC.update
  rw [if_pos a2]
  have hu : Ok (FC.updateWith (adagradUpdate invertSqrt) s (1 / (B.length : ℝ)) l2 l2.gradBs l2.gradWs) (fun r =>
      VecIs r.2.1 m (adaPos k n m lr vs θ (adaSums k n m vs θ v)).1 ∧ (∃ g, VecIs r.2.2.1 m g) ∧
      VecIs r.2.2.2.1 (n * m) (fun q => (adaPos k n m lr vs θ (adaSums k n m vs θ v)).2 (q / m) (q % m)) ∧
      (∃ g : Nat → Nat → ℝ, VecIs r.2.2.2.2 (n * m) (fun q => g (q / m) (q % m))) ∧ AdaHolds r.1 l n m lr (adaSums k n m vs θ v)) := by
    unfold FC.updateWith
    refine (scaleUnlessOne_spec (fun a => mul_one a) b2 _).bind (fun g1 q1 => ?_)
    refine (scaleUnlessOne_spec (fun a => mul_one a) W2.flat _).bind (fun g2 q2 => ?_)
    rw [hkB, hkW]
    refine (adaUpd_spec h2.1.B q1 hs.bB hs.vB).bind (fun r1 ⟨p1, p3, p4, p5, p6, p7⟩ => ?_)
    obtain ⟨s1, B1, gB1⟩ := r1
    dsimp only at p1 p3 p4 p5 p6 p7 ⊢
    have o1 := p7 l.keyW hs.keys.symm
    refine (adaUpd_spec (v := fun q => v.2 (q / m) (q % m)) h2.1.W.flat q2 (by rw [getTab_congr o1.1]; exact hs.bW) (by rw [getTab_congr o1.2]; exact hs.vW)).bind (fun r2 ⟨t1, t3, t4, t5, t6, t7⟩ => ?_)
    obtain ⟨s2, W2', gW2⟩ := r2
    dsimp only at t1 t3 t4 t5 t6 t7 ⊢
    have o2 := t7 l.keyB hs.keys
    rw [p1, hs.lr] at t5
    rw [hs.lr] at p5
    refine Ok_ok.2 ⟨?_, ⟨_, by rw [p6]; exact q1⟩, ?_, ⟨fun i j => (0 + (fitGrad k n m vs θ).2 i j) * (1 / (B.length : ℝ)), by rw [t6]; exact q2⟩, ?_⟩
    · refine p5.congr (fun j _ => ?_)
      simp [adaPos, adaSums, hlen]
    · refine t5.congr (fun q _ => ?_)
      simp [adaPos, adaSums, hlen]
    · refine ⟨by rw [t1, p1, hs.lr], hs.keys, by rw [getTab_congr o2.1]; exact p3, t3, ?_, ?_⟩
      · rw [getTab_congr o2.2]
        exact p4.congr (fun j _ => by simp [adaSums, hlen])
      · exact t4.congr (fun j _ => by simp [adaSums, hlen])
  refine hu.bind (fun r ⟨q1, ⟨gb, q2⟩, q3, ⟨gw, q4⟩, q5⟩ => ?_)
  obtain ⟨s', B', gB, W, gW⟩ := r
  dsimp only at q1 q2 q3 q4 q5
  have k1 := h2.1.W.of_data (g := (adaPos k n m lr vs θ (adaSums k n m vs θ v)).2) q3
  have k2 := W2.of_data (g := gw) q4
  refine Ok_ok.2 ⟨⟨{ h2.1 with B := q1, W := k1, gradBs := ⟨_, q2⟩, gradWs := ⟨_, k2⟩ }, h2.2⟩, ?_⟩
  obtain ⟨z1, z3, z4, z5, z6, z7⟩ := q5
  exact ⟨z1, by show l2.keyB ≠ l2.keyW; rw [hkB, hkW]; exact z3, by show (Table.get _ l2.keyB _).length = _; rw [hkB]; exact z4,
    by show (Table.get _ l2.keyW _).length = _; rw [hkW]; exact z5, by show VecIs (Table.get _ l2.keyB _) _ _; rw [hkB]; exact z6,
    by show VecIs (Table.get _ l2.keyW _) _ _; rw [hkW]; exact z7⟩

theorem adaFit_spec {k : FitKind} {n m : Nat} (hm : 0 < m) {θ : Theta} {B : List (Ten ℝ × Ten ℝ)} {vs : List ((Nat → ℝ) × (Nat → ℝ))} (hv : BatchIs B n m vs)
    (hne : vs ≠ []) (lr b : ℝ) {l : FC ℝ} (h : l.IsFit k n m θ) (hk : l.keyB ≠ l.keyW) (N : Nat) :
    Ok (l.optFit (adagradUpdate invertSqrt) (Ada.make lr b) k.loss B N) (fun r => r.2.IsFit k n m (adaRun k n m lr vs θ N).1) :=
  Ok.mono (forN_spec (fun i (s : Ada ℝ × FC ℝ) => s.2.IsFit k n m (adaRun k n m lr vs θ i).1 ∧ AdaHolds s.1 s.2 n m lr (adaRun k n m lr vs θ i).2)
    ⟨h, rfl, hk, (Table.get_empty _ _).length, (Table.get_empty _ _).length, Table.get_empty _ _, Table.get_empty _ _⟩
    (fun _ _ _ hs => adaBatch_spec hm hv hne hs.1 hs.2)) (fun _ h => h.1)

theorem ada_run (k : FitKind) (n m : Nat) (lr : ℝ) (vs : List ((Nat → ℝ) × (Nat → ℝ))) (θ : Theta) :
    AdaRun (fun T i j => grd k (n + 1) m (augD vs) T i j * (1 / (vs.length : ℝ))) lr 1e-9 (fun t => augT (adaRun k n m lr vs θ t).1)
      (fun t => augT (adaRun k n m lr vs θ t).2) := by
  refine ⟨?_, fun t => ?_, fun t => ?_⟩
  · funext i j; cases i <;> rfl
  · funext i j
    rw [sq, grd_aug]
    cases i <;> rfl
  · funext i j
    rw [grd_aug]
    cases i <;> rfl

/-! ### C123 -/

/-- Whatever the learning rate, `AdaGrad` brings the mean loss as close to its infimum as wanted: from some number of steps on it is below that of any given
parameters plus ε. -/
theorem C123_limit (k : FitKind) (n m : Nat) (hm : 0 < m) (θ : Theta) (l : FC ℝ) (h : l.IsFit k n m θ) (hk : l.keyB ≠ l.keyW) (B : List (Ten ℝ × Ten ℝ))
    (vs : List ((Nat → ℝ) × (Nat → ℝ))) (hv : BatchIs B n m vs) (hne : vs ≠ []) (hw : ∀ vw ∈ vs, k.Target m vw.2) (hp : ∀ vw ∈ vs, ∀ j, j < m → k = .cce → 0 ≤ vw.2 j)
    (lr b : ℝ) (hlr : 0 < lr) :
    ∃ P : Nat → Theta, P 0 = θ ∧ (∀ N, Ok (l.optFit (adagradUpdate invertSqrt) (Ada.make lr b) k.loss B N) (fun r => r.2.IsFit k n m (P N))) ∧
      ∀ (η : Theta) (ε : ℝ), 0 < ε → ∃ N0 : Nat, ∀ N, N0 ≤ N → fitMean k n m vs (P N) ≤ fitMean k n m vs η + ε := by
  refine ⟨fun N => (adaRun k n m lr vs θ N).1, rfl, fun N => adaFit_spec hm hv hne lr b h hk N, fun η ε hε => ?_⟩
  have hnn : ∀ ζ, 0 ≤ fitMean k n m vs ζ := fun ζ => by
    rw [fitMean_phi]
    refine mul_nonneg (by positivity) (List.sum_nonneg (fun a ha => ?_))
    obtain ⟨vw, hvw, rfl⟩ := List.mem_map.1 ha
    exact fitLoss_nonneg k hm (hw vw hvw) (hp vw hvw) _
  have := (ada_run k n m lr vs θ).limit (smooth_fit k hm vs hw) (meanSq_pos n hne) hlr (by norm_num) (mean_lower hnn) (augT η) ε hε
  simp only [tot_aug] at this
  exact this

/-- The squares of the lengths of all steps have a finite sum; in particular the steps go to 0. -/
theorem C123_steps (k : FitKind) (n m : Nat) (hm : 0 < m) (θ : Theta) (l : FC ℝ) (h : l.IsFit k n m θ) (hk : l.keyB ≠ l.keyW) (B : List (Ten ℝ × Ten ℝ))
    (vs : List ((Nat → ℝ) × (Nat → ℝ))) (hv : BatchIs B n m vs) (hne : vs ≠ []) (hw : ∀ vw ∈ vs, k.Target m vw.2) (hp : ∀ vw ∈ vs, ∀ j, j < m → k = .cce → 0 ≤ vw.2 j)
    (lr b : ℝ) (hlr : 0 < lr) :
    ∃ P : Nat → Theta, P 0 = θ ∧ (∀ N, Ok (l.optFit (adagradUpdate invertSqrt) (Ada.make lr b) k.loss B N) (fun r => r.2.IsFit k n m (P N))) ∧
      ∃ M : ℝ, ∀ N, ∑ t ∈ range N, (P (t + 1)).dist2 n m (P t) ≤ M := by
  have hnn : ∀ ζ, 0 ≤ fitMean k n m vs ζ := fun ζ => by
    rw [fitMean_phi]
    refine mul_nonneg (by positivity) (List.sum_nonneg (fun a ha => ?_))
    obtain ⟨vw, hvw, rfl⟩ := List.mem_map.1 ha
    exact fitLoss_nonneg k hm (hw vw hvw) (hp vw hvw) _
  have hr := ada_run k n m lr vs θ
  obtain ⟨M, hM0, hM⟩ := hr.bounded (smooth_fit k hm vs hw) (meanSq_pos n hne) hlr (by norm_num) (mean_lower hnn)
  refine ⟨fun N => (adaRun k n m lr vs θ N).1, rfl, fun N => adaFit_spec hm hv hne lr b h hk N, lr ^ 2 / 1e-9 * M, fun N => ?_⟩
  refine le_trans ?_ (mul_le_mul_of_nonneg_left (hM N) (by positivity))
  rw [mul_sum]
  refine sum_le_sum (fun t _ => ?_)
  rw [← nrm_aug]
  exact hr.step_sq (by norm_num) t

/-- Softmax classifiers learn every linearly separable data set, whatever the learning rate. -/
theorem C123_learns (k : FitKind) (hk : k = .nll ∨ k = .cce) (n m : Nat) (θ : Theta) (l : FC ℝ) (h : l.IsFit k n m θ) (hkey : l.keyB ≠ l.keyW)
    (B : List (Ten ℝ × Ten ℝ)) (vs : List ((Nat → ℝ) × (Nat → ℝ))) (hv : BatchIs B n m vs) (hne : vs ≠ []) (hw : ∀ vw ∈ vs, ∃ c, Hot m vw.2 c) (hs : Separable n m vs)
    (lr b : ℝ) (hlr : 0 < lr) :
    ∃ N0 : Nat, ∀ N, N0 ≤ N → Ok (l.optFit (adagradUpdate invertSqrt) (Ada.make lr b) k.loss B N) (fun r =>
      ∀ (x y : Ten ℝ) (w : Nat → ℝ) (c : Nat), (x, y) ∈ B → VecIs y.data m w → Hot m w c →
        Ok (r.2.forward x) (fun l'' => ∃ p : Nat → ℝ, RowIs l''.value m p ∧ ∀ j, j < m → j ≠ c → p j < p c)) := by
  have hlen : 0 < vs.length := List.length_pos_iff.2 hne
  have hlen' : (0 : ℝ) < vs.length := by exact_mod_cast hlen
  have hm : 0 < m := by
    obtain ⟨c, hc⟩ := hw vs[0] (List.getElem_mem hlen)
    exact Nat.lt_of_le_of_lt (Nat.zero_le _) hc.1
  have hT : ∀ vw ∈ vs, k.Target m vw.2 := fun vw hvw => (target_hot hk (hw vw hvw)).1
  obtain ⟨P, _, hP, hlim⟩ := C123_limit k n m hm θ l h hkey B vs hv hne hT (fun vw hvw j hj _ => (target_hot hk (hw vw hvw)).2 j hj) lr b hlr
  obtain ⟨η, hη⟩ := hs
  obtain ⟨γ, hγ, hmar⟩ := margin η hη
  set ε : ℝ := Real.log 2 / (3 * vs.length) with hε
  have hε0 : 0 < ε := by have := Real.log_pos one_lt_two; positivity
  set r : ℝ := m / (ε * γ) with hr'
  have hr0 : 0 ≤ r := by positivity
  have hsmall : (m : ℝ) * Real.exp (-(r * γ)) ≤ ε := by
    have h1 : r * γ = m / ε := by rw [hr']; field_simp
    rw [h1, Real.exp_neg, ← div_eq_mul_inv, div_le_iff₀ (Real.exp_pos _)]
    have := Real.add_one_le_exp ((m : ℝ) / ε)
    have h2 : (m : ℝ) = ε * (m / ε) := by field_simp
    nlinarith
  set ζ : Theta := (fun j => r * η.1 j, fun i j => r * η.2 i j) with hζ
  have hζm : fitMean k n m vs ζ ≤ ε := by
    rw [fitMean_phi]
    have : (vs.map (fun vw => phi k m vw.2 (ζ.sums n vw.1))).sum ≤ vs.length * ε := listSum_le (fun vw hvw => by
      obtain ⟨c, hc⟩ := hw vw hvw
      have e : ζ.sums n vw.1 = fun j => r * η.sums n vw.1 j := by funext j; exact sums_smul n r η vw.1 j
      rw [e]
      exact (phi_scaled hk (hT vw hvw) hc hr0 (hmar vw hvw c hc)).trans hsmall)
    rw [one_div, inv_mul_le_iff₀ hlen']
    exact this
  obtain ⟨N0, hN0⟩ := hlim ζ ε hε0
  refine ⟨N0, fun N hN => (hP N).mono (fun s hl' => ?_)⟩
  have hmean := hN0 N hN
  have hsum : (vs.map (fun vw => phi k m vw.2 ((P N).sums n vw.1))).sum < Real.log 2 := by
    have h2 : fitMean k n m vs (P N) ≤ 2 * ε := by linarith
    rw [fitMean_phi, one_div, inv_mul_le_iff₀ hlen'] at h2
    have : (vs.length : ℝ) * (2 * ε) = 2 / 3 * Real.log 2 := by rw [hε]; field_simp
    have := Real.log_pos one_lt_two
    linarith
  intro x y w c hxy hy hc
  obtain ⟨vw, hvw, hx, hy'⟩ : ∃ vw ∈ vs, VecIs x.data n vw.1 ∧ VecIs y.data m vw.2 := by
    obtain ⟨i, hi, e⟩ := List.getElem_of_mem hxy
    have hl : B.length = vs.length := List.Forall₂.length_eq hv
    have := List.Forall₂.get hv hi (by omega)
    simp only [List.get_eq_getElem, e] at this
    exact ⟨_, List.getElem_mem _, this⟩
  have hc' : Hot m vw.2 c := ⟨hc.1, by rw [← (VecIs.unique hy hy').2 c hc.1]; exact hc.2.1, fun j hj hne => by
    rw [← (VecIs.unique hy hy').2 j hj]; exact hc.2.2 j hj hne⟩
  refine (FC.forward_spec hl'.1 (F := k.act.fn m) (D := k.act.D) (by rw [hl'.2]; exact k.act.obj_Is m hm) hx).mono (fun l2 ⟨_, hv2, _, _⟩ => ?_)
  rw [sums_eq] at hv2
  refine ⟨_, hv2, fun j hj hne => ?_⟩
  have hphi : phi k m vw.2 ((P N).sums n vw.1) < Real.log 2 :=
    (term_le_listSum (f := fun vw => phi k m vw.2 ((P N).sums n vw.1)) (fun v hv' => by
      obtain ⟨c', hc'⟩ := hw v hv'
      exact phi_nonneg hk (hT v hv') hc') vw hvw).trans_lt hsum
  have hz := phi_small hk (hT vw hvw) hc' hphi hj hne
  have hact : k.act = .softmax := by rcases hk with rfl | rfl <;> rfl
  rw [hact]
  show Real.exp _ / _ < Real.exp _ / _
  exact div_lt_div_of_pos_right (Real.exp_lt_exp.2 hz) (expSum_pos hm _)

/-! Non-vacuity. -/

/-- A new softmax layer learns the two samples of `ftTwo` with `AdaGrad(1000)` and with `AdaGrad(1/1000)`; -/
example (lr : ℝ) (h : lr = 1000 ∨ lr = 1 / 1000) :
    ∃ N0 : Nat, ∀ N, N0 ≤ N → Ok ((ftLayer .nll 1 2).optFit (adagradUpdate invertSqrt) (Ada.make lr 0) Losses.NLL (ftBatch 1 2 ftTwo) N) (fun r =>
      ∀ (x y : Ten ℝ) (w : Nat → ℝ) (c : Nat), (x, y) ∈ ftBatch 1 2 ftTwo → VecIs y.data 2 w → Hot 2 w c →
        Ok (r.2.forward x) (fun l'' => ∃ p : Nat → ℝ, RowIs l''.value 2 p ∧ ∀ j, j < 2 → j ≠ c → p j < p c)) :=
  C123_learns .nll (.inl rfl) 1 2 _ _ (ftLayer_IsFit _ _ _) Nat.zero_ne_one _ _ (ftBatch_Is _ _ _) (by simp [ftTwo]) ftTwo_hot ftTwo_sep lr 0
    (by rcases h with rfl | rfl <;> norm_num)

/-- a neuron with `MSE` learns that the answer is 3. -/
example : ∃ P : Nat → Theta, P 0 = (fun _ => 0, fun _ _ => 0) ∧
    (∀ N, Ok ((ftLayer .mse 1 1).optFit (adagradUpdate invertSqrt) (Ada.make 50 0) Losses.MSE (ftBatch 1 1 [(fun _ => 0, fun _ => 3)]) N) (fun r => r.2.IsFit .mse 1 1 (P N))) ∧
      ∀ (η : Theta) (ε : ℝ), 0 < ε → ∃ N0 : Nat, ∀ N, N0 ≤ N → fitMean .mse 1 1 [(fun _ => 0, fun _ => 3)] (P N) ≤ fitMean .mse 1 1 [(fun _ => 0, fun _ => 3)] η + ε :=
  C123_limit .mse 1 1 one_pos _ _ (ftLayer_IsFit _ _ _) Nat.zero_ne_one _ _ (ftBatch_Is _ _ _) (by simp) (fun _ _ => trivial) (fun _ _ _ _ h => nomatch h) 50 0 (by norm_num)

end Trixy
