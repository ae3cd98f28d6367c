import Verif.Spec.Online
import Verif.Props.Accuracy
import Mathlib.Analysis.SpecialFunctions.Pow.Asymptotics
/- C121: learning from a stream of samples. -/
namespace Trixy
set_option linter.unusedSectionVars false
open Finset Losses FitMath

/-- One step, measured before it is made: the squared gradient of a non-negative smooth loss is at most proportional to the loss. -/
theorem self_bound (k : FitKind) (n m : Nat) (hm : 0 < m) (us : List ((Nat → ℝ) × (Nat → ℝ))) (hw : ∀ uw ∈ us, k.Target m uw.2) (T : Nat → Nat → ℝ)
    (h0 : ∀ T, 0 ≤ tot k n m us T) (hl : 0 < len2 n us) : nrm n m (grd k n m us T) ≤ 2 * len2 n us * tot k n m us T := by
  set L := len2 n us with hL
  set G := grd k n m us T with hG
  obtain ⟨_, up⟩ := tot_bounds k n m hm us hw T (fun i j => -(G i j / L))
  have e1 : ∑ i ∈ range n, ∑ j ∈ range m, G i j * -(G i j / L) = -(nrm n m G / L) := by
    unfold nrm
    rw [sum_div, ← sum_neg_distrib]
    refine sum_congr rfl (fun i _ => ?_)
    rw [sum_div, ← sum_neg_distrib]
    exact sum_congr rfl (fun j _ => by ring)
  have e2 : nrm n m (fun i j => -(G i j / L)) = nrm n m G / L ^ 2 := by
    unfold nrm
    rw [sum_div]
    refine sum_congr rfl (fun i _ => ?_)
    rw [sum_div]
    exact sum_congr rfl (fun j _ => by field_simp)
  rw [← hG, e1, ← hL, e2] at up
  have h3 : L * (nrm n m G / L ^ 2) / 2 = nrm n m G / L / 2 := by field_simp
  have h4 := h0 (fun i j => T i j + -(G i j / L))
  have h5 : nrm n m G / L ≤ 2 * tot k n m us T := by linarith
  rw [div_le_iff₀ hl] at h5
  linarith

/-- The round, compared with arbitrary parameters `η`. -/
theorem online_step (k : FitKind) {n m : Nat} (hm : 0 < m) (v w : Nat → ℝ) (hw : k.Target m w) (h0 : ∀ z, 0 ≤ phi k m w z) (lr ρ : ℝ) (hlr : 0 < lr)
    (hL : lr * (1 + ∑ i ∈ range n, v i ^ 2) ≤ ρ) (θ η : Theta) :
    (1 - ρ) * fitLoss k n m v w θ ≤ fitLoss k n m v w η + (θ.dist2 n m η - (fitStep k n m lr [(v, w)] θ).dist2 n m η) / (2 * lr) := by
  have hs := step_aug k n m lr [(v, w)] θ
  have hw' : ∀ uw ∈ augD [(v, w)], k.Target m uw.2 := fun uw h => by
    simp only [augD, List.map_cons, List.map_nil, List.mem_singleton] at h
    rw [h]; exact hw
  have e0 : ∀ θ : Theta, tot k (n + 1) m (augD [(v, w)]) (augT θ) = fitLoss k n m v w θ := fun θ => by
    have := tot_aug k n m [(v, w)] θ
    simpa [fitMean, fitLoss] using this
  have el : len2 (n + 1) (augD [(v, w)]) = 1 + ∑ i ∈ range n, v i ^ 2 := by
    have := len2_aug n [(v, w)]
    simpa [meanSq] using this
  have hl : 0 < len2 (n + 1) (augD [(v, w)]) := by
    rw [el]
    have : 0 ≤ ∑ i ∈ range n, v i ^ 2 := sum_nonneg (fun _ _ => sq_nonneg _)
    linarith
  have hsb := self_bound k (n + 1) m hm (augD [(v, w)]) hw' (augT θ) (fun T => by simp [tot, augD]; exact h0 _) hl
  obtain ⟨low, _⟩ := tot_bounds k (n + 1) m hm (augD [(v, w)]) hw' (augT θ) (fun i j => augT η i j - augT θ i j)
  have eR : (fun i j => augT θ i j + (augT η i j - augT θ i j)) = augT η := by funext i j; ring
  rw [eR, e0, e0] at low
  rw [e0, el] at hsb
  set G := grd k (n + 1) m (augD [(v, w)]) (augT θ) with hG
  set P := ∑ i ∈ range (n + 1), ∑ j ∈ range m, G i j * (augT η i j - augT θ i j) with hP
  have eM : (fitStep k n m lr [(v, w)] θ).dist2 n m η = θ.dist2 n m η + 2 * lr * P + lr ^ 2 * nrm (n + 1) m G := by
    rw [← nrm_aug, ← nrm_aug, ← hs, hP]
    unfold nrm
    simp only [mul_sum, ← sum_add_distrib]
    exact sum_congr rfl (fun i _ => sum_congr rfl (fun j _ => by simp; ring))
  have e5 : (θ.dist2 n m η - (fitStep k n m lr [(v, w)] θ).dist2 n m η) / (2 * lr) = -P - lr * nrm (n + 1) m G / 2 := by
    rw [eM]; field_simp; ring
  rw [e5]
  have hq : lr * nrm (n + 1) m G / 2 ≤ ρ * fitLoss k n m v w θ := by
    have h1 := mul_le_mul_of_nonneg_left hsb hlr.le
    have h2 := mul_le_mul_of_nonneg_right hL (show 0 ≤ fitLoss k n m v w θ from h0 _)
    linarith
  linarith

/-- The stream as batches of one sample. -/
theorem online_regret (k : FitKind) {n m : Nat} (hm : 0 < m) (v w : Nat → Nat → ℝ) (hw : ∀ t, k.Target m (w t)) (h0 : ∀ t z, 0 ≤ phi k m (w t) z) (lr ρ : ℝ) (hlr : 0 < lr)
    (hL : ∀ t, lr * (1 + ∑ i ∈ range n, v t i ^ 2) ≤ ρ) (θ η : Theta) (N : Nat) :
    (1 - ρ) * ∑ t ∈ range N, fitLoss k n m (v t) (w t) (fitRun k n m lr (fun t => [(v t, w t)]) θ t) ≤
      ∑ t ∈ range N, fitLoss k n m (v t) (w t) η + (θ.dist2 n m η - (fitRun k n m lr (fun t => [(v t, w t)]) θ N).dist2 n m η) / (2 * lr) := by
  induction N with
  | zero => simp [fitRun]
  | succ N ih =>
    rw [sum_range_succ, sum_range_succ, mul_add]
    have := online_step k hm (v N) (w N) (hw N) (h0 N) lr ρ hlr (hL N) (fitRun k n m lr (fun t => [(v t, w t)]) θ N) η
    have e : fitStep k n m lr [(v N, w N)] (fitRun k n m lr (fun t => [(v t, w t)]) θ N) = fitRun k n m lr (fun t => [(v t, w t)]) θ (N + 1) := rfl
    rw [e] at this
    rw [sub_div] at this ih ⊢
    linarith

theorem fitLoss_nonneg (k : FitKind) {m : Nat} (hm : 0 < m) {w : Nat → ℝ} (hw : k.Target m w) (hp : ∀ j, j < m → k = .cce → 0 ≤ w j) (z : Nat → ℝ) : 0 ≤ phi k m w z := by
  cases k with
  | mse => exact mul_nonneg (by norm_num) (sum_nonneg (fun _ _ => sq_nonneg _))
  | lc =>
    show 0 ≤ ∑ i ∈ range m, Real.log (Real.cosh (z i - w i))
    exact sum_nonneg (fun _ _ => Real.log_nonneg (Real.one_le_cosh _))
  | nll =>
    obtain ⟨c, hc⟩ := hw
    exact phi_nonneg (.inl rfl) ⟨c, hc⟩ hc
  | cce =>
    show 0 ≤ -∑ i ∈ range m, w i * Real.log (softmaxFn m z i + 0)
    rw [← sum_neg_distrib]
    refine sum_nonneg (fun i hi => ?_)
    have h1 : softmaxFn m z i ≤ 1 := by
      show Real.exp (z i) / expSum m z ≤ 1
      rw [div_le_one (expSum_pos hm z)]
      exact single_le_sum (f := fun j => Real.exp (z j)) (fun _ _ => (Real.exp_pos _).le) hi
    have h2 : 0 < softmaxFn m z i := div_pos (Real.exp_pos _) (expSum_pos hm z)
    have := Real.log_nonpos h2.le h1
    rw [add_zero]
    have := hp i (mem_range.1 hi) rfl
    nlinarith

theorem wrong_loss {k : FitKind} (hk : k = .nll ∨ k = .cce) {m : Nat} {w z : Nat → ℝ} {c : Nat} (hw : k.Target m w) (hc : Hot m w c)
    (h : ¬SameArgmax m w (k.act.fn m z)) : Real.log 2 ≤ phi k m w z := by
  by_contra hlt
  refine h (sameArgmax_of hc (fun j hj hne => ?_))
  have hz := phi_small hk hw hc (not_le.1 hlt) hj hne
  have hact : k.act = .softmax := by rcases hk with rfl | rfl <;> rfl
  rw [hact]
  show Real.exp _ / _ < Real.exp _ / _
  exact div_lt_div_of_pos_right (Real.exp_lt_exp.2 hz) (expSum_pos (Nat.lt_of_le_of_lt (Nat.zero_le _) hc.1) _)

open Classical in
/-- What the program computes: the layer after the rounds, and the number of rounds in which the largest component of the prediction, made before the step,
was not that of the target. -/
theorem online_spec {k : FitKind} {n m : Nat} (hm : 0 < m) {θ : Theta} {l : FC ℝ} (h : l.IsFit k n m θ) {x y : Nat → Ten ℝ} {v w : Nat → Nat → ℝ}
    (hx : ∀ t, VecIs (x t).data n (v t)) (hy : ∀ t, VecIs (y t).data m (w t)) (lr : ℝ) (N : Nat) :
    Ok (l.online k.loss lr x y N) (fun s => s.1.IsFit k n m (fitRun k n m lr (fun t => [(v t, w t)]) θ N) ∧
      s.2 = ∑ t ∈ range N, if SameArgmax m (w t) (k.act.fn m ((fitRun k n m lr (fun t => [(v t, w t)]) θ t).sums n (v t))) then 0 else 1) := by
  refine forN_spec (fun i (s : FC ℝ × Nat) => s.1.IsFit k n m (fitRun k n m lr (fun t => [(v t, w t)]) θ i) ∧
      s.2 = ∑ t ∈ range i, if SameArgmax m (w t) (k.act.fn m ((fitRun k n m lr (fun t => [(v t, w t)]) θ t).sums n (v t))) then 0 else 1) ⟨h, by simp⟩
    (fun i _ s ⟨hs1, hs2⟩ => ?_)
  unfold FC.onlineRound
  refine (FC.forward_spec hs1.1 (F := k.act.fn m) (D := k.act.D) (by rw [hs1.2]; exact k.act.obj_Is m hm) (hx i)).bind (fun l1 ⟨w1, v1, _, e1⟩ => ?_)
  rw [sums_eq] at v1
  have hg := guide_normal_spec (hy i) v1.2.2.2 hm
  unfold asCount at hg
  cases hgn : Guide.normal (y i).data l1.value.data with
  | error e => rw [hgn] at hg; exact nomatch hg
  | ok b =>
    rw [hgn] at hg
    have hb : (if b = true then 1 else 0) = if SameArgmax m (w i) (k.act.fn m ((fitRun k n m lr (fun t => [(v t, w t)]) θ i).sums n (v i))) then 1 else 0 := Except.ok.inj hg
    rw [bind_ok]
    have hbat : BatchIs [(x i, y i)] n m [(v i, w i)] := .cons ⟨hx i, hy i⟩ .nil
    refine (fitBatch_spec hm hbat (by simp) lr (l := l1) ⟨w1, by rw [e1]; exact hs1.2⟩).bind (fun l2 h2 => Ok_ok.2 ⟨h2, ?_⟩)
    dsimp only
    rw [sum_range_succ, ← hs2]
    by_cases hS : SameArgmax m (w i) (k.act.fn m ((fitRun k n m lr (fun t => [(v t, w t)]) θ i).sums n (v i)))
    · rw [if_pos hS] at hb ⊢
      have : b = true := by by_contra hb'; simp [hb'] at hb
      simp [this]
    · rw [if_neg hS] at hb ⊢
      have : b = false := by
        cases b
        · rfl
        · simp at hb
      simp [this]

/-! ### C121 -/

/-- The losses of the predictions, each made before the layer has seen the sample, add up to at most 1 / (1 - ρ) times what any fixed parameters `η` lose in hindsight
plus |θ - η|² / (2 lr): for regression and classification, for any stream of samples with lr (1 + |x|²) ≤ ρ. -/
theorem C121_regret (k : FitKind) (n m : Nat) (hm : 0 < m) (θ : Theta) (l : FC ℝ) (h : l.IsFit k n m θ) (x y : Nat → Ten ℝ) (v w : Nat → Nat → ℝ)
    (hx : ∀ t, VecIs (x t).data n (v t)) (hy : ∀ t, VecIs (y t).data m (w t)) (hw : ∀ t, k.Target m (w t)) (hp : ∀ t j, j < m → k = .cce → 0 ≤ w t j)
    (lr ρ : ℝ) (hlr : 0 < lr) (hL : ∀ t, lr * (1 + ∑ i ∈ range n, v t i ^ 2) ≤ ρ) :
    ∃ P : Nat → Theta, P 0 = θ ∧ (∀ N, Ok (l.online k.loss lr x y N) (fun s => s.1.IsFit k n m (P N))) ∧
      ∀ (N : Nat) (η : Theta), (1 - ρ) * ∑ t ∈ range N, fitLoss k n m (v t) (w t) (P t) ≤ ∑ t ∈ range N, fitLoss k n m (v t) (w t) η + θ.dist2 n m η / (2 * lr) := by
  refine ⟨fitRun k n m lr (fun t => [(v t, w t)]) θ, rfl, fun N => (online_spec hm h hx hy lr N).mono (fun s hs => hs.1), fun N η => ?_⟩
  refine (online_regret k hm v w hw (fun t z => fitLoss_nonneg k hm (hw t) (hp t) z) lr ρ hlr hL θ η N).trans ?_
  have := dist2_nonneg n m (fitRun k n m lr (fun t => [(v t, w t)]) θ N) η
  gcongr
  linarith

theorem target_hot {k : FitKind} (hk : k = .nll ∨ k = .cce) {m : Nat} {w : Nat → ℝ} (hw : ∃ c, Hot m w c) : k.Target m w ∧ ∀ j, j < m → 0 ≤ w j := by
  obtain ⟨c, hc⟩ := hw
  refine ⟨?_, fun j hj => ?_⟩
  · rcases hk with rfl | rfl
    · exact ⟨c, hc⟩
    · show ∑ j ∈ range m, w j = 1
      simpa using hc.sum (fun _ => 1)
  · by_cases e : j = c
    · rw [e, hc.2.1]; exact zero_le_one
    · rw [hc.2.2 j hj e]

/-- Number of wrong predictions of a softmax classifier on ANY stream of samples, chosen by anybody: bounded by the total loss of any fixed linear model. -/
theorem C121_mistakes (k : FitKind) (hk : k = .nll ∨ k = .cce) (n m : Nat) (θ : Theta) (l : FC ℝ) (h : l.IsFit k n m θ) (x y : Nat → Ten ℝ) (v w : Nat → Nat → ℝ)
    (hx : ∀ t, VecIs (x t).data n (v t)) (hy : ∀ t, VecIs (y t).data m (w t)) (hw : ∀ t, ∃ c, Hot m (w t) c)
    (lr ρ : ℝ) (hlr : 0 < lr) (hρ : ρ < 1) (hL : ∀ t, lr * (1 + ∑ i ∈ range n, v t i ^ 2) ≤ ρ) (N : Nat) :
    Ok (l.online k.loss lr x y N) (fun s => ∀ η : Theta, (1 - ρ) * Real.log 2 * s.2 ≤ ∑ t ∈ range N, fitLoss k n m (v t) (w t) η + θ.dist2 n m η / (2 * lr)) := by
  classical
  have hm : 0 < m := by obtain ⟨c, hc⟩ := hw 0; exact Nat.lt_of_le_of_lt (Nat.zero_le _) hc.1
  refine (online_spec hm h hx hy lr N).mono (fun s ⟨_, hs⟩ η => ?_)
  have hT := fun t => target_hot hk (hw t)
  have hn : ∀ t z, 0 ≤ phi k m (w t) z := fun t z => fitLoss_nonneg k hm (hT t).1 (fun j hj _ => (hT t).2 j hj) z
  have hr := online_regret k hm v w (fun t => (hT t).1) hn lr ρ hlr hL θ η N
  have hd := dist2_nonneg n m (fitRun k n m lr (fun t => [(v t, w t)]) θ N) η
  have h3 : (θ.dist2 n m η - (fitRun k n m lr (fun t => [(v t, w t)]) θ N).dist2 n m η) / (2 * lr) ≤ θ.dist2 n m η / (2 * lr) := by gcongr; linarith
  have h4 : Real.log 2 * (s.2 : ℝ) ≤ ∑ t ∈ range N, fitLoss k n m (v t) (w t) (fitRun k n m lr (fun t => [(v t, w t)]) θ t) := by
    rw [hs, Nat.cast_sum, mul_sum]
    refine sum_le_sum (fun t _ => ?_)
    by_cases hS : SameArgmax m (w t) (k.act.fn m ((fitRun k n m lr (fun t => [(v t, w t)]) θ t).sums n (v t)))
    · rw [if_pos hS, Nat.cast_zero, mul_zero]; exact hn t _
    · rw [if_neg hS, Nat.cast_one, mul_one]
      obtain ⟨c, hc⟩ := hw t
      exact wrong_loss hk (hT t).1 hc hS
  have h5 := mul_le_mul_of_nonneg_left h4 (sub_nonneg.2 hρ.le)
  rw [← mul_assoc] at h5
  linarith

/-- Samples separated by some linear model with margin `γ`: a new layer (zero parameters) makes at most (m + (log N)² |η|² / (2 lr γ²)) / ((1 - ρ) log 2) wrong
predictions in the first `N` rounds. -/
theorem C121_margin (k : FitKind) (hk : k = .nll ∨ k = .cce) (n m : Nat) (l : FC ℝ) (h : l.IsFit k n m (fun _ => 0, fun _ _ => 0)) (x y : Nat → Ten ℝ)
    (v w : Nat → Nat → ℝ) (hx : ∀ t, VecIs (x t).data n (v t)) (hy : ∀ t, VecIs (y t).data m (w t)) (hw : ∀ t, ∃ c, Hot m (w t) c)
    (lr ρ : ℝ) (hlr : 0 < lr) (hρ : ρ < 1) (hL : ∀ t, lr * (1 + ∑ i ∈ range n, v t i ^ 2) ≤ ρ) (γ : ℝ) (hγ : 0 < γ) (η : Theta) (hη : ∀ t, Margin n m γ η (v t) (w t))
    (N : Nat) (hN : 0 < N) :
    Ok (l.online k.loss lr x y N) (fun s => (1 - ρ) * Real.log 2 * s.2 ≤ m + Real.log N ^ 2 * Theta.dist2 n m η (fun _ => 0, fun _ _ => 0) / (2 * lr * γ ^ 2)) := by
  refine (C121_mistakes k hk n m _ l h x y v w hx hy hw lr ρ hlr hρ hL N).mono (fun s hs => ?_)
  have hN' : (0 : ℝ) < N := by exact_mod_cast hN
  have hlog : 0 ≤ Real.log N := Real.log_nonneg (by exact_mod_cast hN)
  set r : ℝ := Real.log N / γ with hr
  have hr0 : 0 ≤ r := by positivity
  have hrg : r * γ = Real.log N := by rw [hr]; field_simp
  refine (hs (fun j => r * η.1 j, fun i j => r * η.2 i j)).trans (add_le_add ?_ (le_of_eq ?_))
  · have : ∀ t ∈ range N, fitLoss k n m (v t) (w t) (fun j => r * η.1 j, fun i j => r * η.2 i j) ≤ m * (1 / (N : ℝ)) := fun t _ => by
      obtain ⟨c, hc⟩ := hw t
      have e : Theta.sums n (fun j => r * η.1 j, fun i j => r * η.2 i j) (v t) = fun j => r * η.sums n (v t) j := by funext j; exact sums_smul n r η (v t) j
      have := phi_scaled hk (target_hot hk (hw t)).1 hc hr0 (hη t c hc)
      rw [hrg, Real.exp_neg, Real.exp_log hN', ← one_div] at this
      unfold fitLoss
      rw [e]
      exact this
    refine (sum_le_sum this).trans (le_of_eq ?_)
    rw [sum_const, card_range, nsmul_eq_mul]
    field_simp
  · have : Theta.dist2 n m (fun _ => 0, fun _ _ => 0) (fun j => r * η.1 j, fun i j => r * η.2 i j) = r ^ 2 * Theta.dist2 n m η (fun _ => 0, fun _ _ => 0) := by
      unfold Theta.dist2
      simp only [zero_sub, sub_zero, neg_sq, mul_pow, mul_add, mul_sum]
    rw [this, hr]
    field_simp

open Filter Topology in
/-- Its error rate tends to 0: for every ε > 0, from some number of rounds on, at most the fraction ε of the predictions made was wrong. -/
theorem C121_rate (k : FitKind) (hk : k = .nll ∨ k = .cce) (n m : Nat) (l : FC ℝ) (h : l.IsFit k n m (fun _ => 0, fun _ _ => 0)) (x y : Nat → Ten ℝ)
    (v w : Nat → Nat → ℝ) (hx : ∀ t, VecIs (x t).data n (v t)) (hy : ∀ t, VecIs (y t).data m (w t)) (hw : ∀ t, ∃ c, Hot m (w t) c)
    (lr ρ : ℝ) (hlr : 0 < lr) (hρ : ρ < 1) (hL : ∀ t, lr * (1 + ∑ i ∈ range n, v t i ^ 2) ≤ ρ) (γ : ℝ) (hγ : 0 < γ) (η : Theta) (hη : ∀ t, Margin n m γ η (v t) (w t))
    (ε : ℝ) (hε : 0 < ε) : ∃ N0 : Nat, ∀ N, N0 ≤ N → Ok (l.online k.loss lr x y N) (fun s => (s.2 : ℝ) ≤ ε * N) := by
  set C := (1 - ρ) * Real.log 2 with hC
  have hC0 : 0 < C := mul_pos (by linarith) (Real.log_pos one_lt_two)
  set D := Theta.dist2 n m η (fun _ => 0, fun _ _ => 0) / (2 * lr * γ ^ 2) with hD
  have hlim : Tendsto (fun N : Nat => (m : ℝ) / N + Real.log N ^ 2 / N * D) atTop (𝓝 0) := by
    have h1 : Tendsto (fun N : Nat => (m : ℝ) / N) atTop (𝓝 0) := tendsto_const_nhds.div_atTop tendsto_natCast_atTop_atTop
    have h2 : Tendsto (fun N : Nat => Real.log N ^ 2 / (N : ℝ)) atTop (𝓝 0) := by
      have := (Real.isLittleO_pow_log_id_atTop (n := 2)).tendsto_div_nhds_zero
      exact this.comp tendsto_natCast_atTop_atTop
    have := h1.add (h2.mul_const D)
    simpa using this
  have hev := (hlim.eventually (gt_mem_nhds (show (0 : ℝ) < C * ε by positivity))).and (eventually_gt_atTop 0)
  obtain ⟨N0, hN0⟩ := eventually_atTop.1 hev
  refine ⟨N0, fun N hN => ?_⟩
  obtain ⟨h1, h2⟩ := hN0 N hN
  have hN' : (0 : ℝ) < N := by exact_mod_cast h2
  refine (C121_margin k hk n m l h x y v w hx hy hw lr ρ hlr hρ hL γ hγ η hη N h2).mono (fun s hs => ?_)
  have e : (m : ℝ) / N + Real.log N ^ 2 / N * D = (m + Real.log N ^ 2 * D) / N := by field_simp
  rw [e, div_lt_iff₀ hN'] at h1
  have e2 : Real.log N ^ 2 * Theta.dist2 n m η (fun _ => 0, fun _ _ => 0) / (2 * lr * γ ^ 2) = Real.log N ^ 2 * D := by rw [hD]; ring
  rw [← hC, e2] at hs
  have : C * (s.2 : ℝ) ≤ C * (ε * N) := by linarith
  exact le_of_mul_le_mul_left this hC0

/-! Non-vacuity: the two samples of `ftTwo` in turn. -/

/-- The sample of round `t`. -/
noncomputable def onV (t : Nat) : (Nat → ℝ) × (Nat → ℝ) := if t % 2 = 0 then (fun _ => 1, fun j => if j = 0 then 1 else 0) else (fun _ => -1, fun j => if j = 0 then 0 else 1)

theorem onV_mem (t : Nat) : onV t ∈ ftTwo := by
  unfold onV ftTwo
  split <;> simp

theorem onV_margin (t : Nat) : Margin 1 2 1 (fun _ => 0, fun _ j => if j = 0 then 1 else 0) (onV t).1 (onV t).2 := by
  intro c hc j hj hne
  obtain ⟨h1, h2, -⟩ := hc
  unfold onV at h2 ⊢
  split at h2
  · rename_i e
    rw [if_pos e] 
    interval_cases c <;> interval_cases j <;> simp [Theta.sums] at h2 hne ⊢
  · rename_i e
    rw [if_neg e] 
    interval_cases c <;> interval_cases j <;> simp [Theta.sums] at h2 hne ⊢

/-- A new softmax layer learns the alternating stream: its error rate falls below one percent. -/
example : ∃ N0 : Nat, ∀ N, N0 ≤ N → Ok ((ftLayer .nll 1 2).online Losses.NLL (1 / 4) (fun t => ⟨1, 1, 1, Buf.of ((List.range 1).map (onV t).1)⟩)
    (fun t => ⟨1, 1, 2, Buf.of ((List.range 2).map (onV t).2)⟩) N) (fun s => (s.2 : ℝ) ≤ 1 / 100 * N) :=
  C121_rate .nll (.inl rfl) 1 2 _ (ftLayer_IsFit _ _ _) _ _ (fun t => (onV t).1) (fun t => (onV t).2) (fun _ => VecIs_of' _ _) (fun _ => VecIs_of' _ _)
    (fun t => ftTwo_hot _ (onV_mem t)) (1 / 4) (1 / 2) (by norm_num) (by norm_num) (fun t => by unfold onV; split <;> norm_num) 1 one_pos _ onV_margin (1 / 100) (by norm_num)

end Trixy
