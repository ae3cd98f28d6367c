import Verif.Spec.FitRate
import Verif.Props.Fit
import Mathlib.Analysis.SpecificLimits.Basic
import Mathlib.Topology.Algebra.InfiniteSum.Real
/- C128: which learning rates are safe for a linear model, and what the gradient vanishing means for its predictions. -/
namespace Trixy
set_option linter.unusedSectionVars false
open Finset Losses FitMath Filter Topology

theorem zGrad_gap (k : FitKind) (m : Nat) (w z : Nat → ℝ) (j : Nat) : zGrad k m w z j = k.gap (k.act.fn m z j) (w j) := by
  cases k <;> rfl

/-- One step with any rate. -/
theorem step_descends (k : FitKind) {n m : Nat} (hm : 0 < m) (vs : List ((Nat → ℝ) × (Nat → ℝ))) (hne : vs ≠ []) (hw : ∀ vw ∈ vs, k.Target m vw.2) (lr : ℝ) (hlr : 0 < lr) (θ : Theta) :
    fitMean k n m vs (fitStep k n m lr vs θ) + (1 - lr * meanSq n vs / 2) / lr * θ.dist2 n m (fitStep k n m lr vs θ) ≤ fitMean k n m vs θ := by
  set a : ℝ := 1 / (vs.length : ℝ) with ha
  have ha0 : 0 < a := by
    have : (0 : ℝ) < vs.length := by exact_mod_cast List.length_pos_iff.2 hne
    positivity
  have hs := step_aug k n m lr vs θ
  set G := grd k (n + 1) m (augD vs) (augT θ) with hG
  have up := (tot_bounds k (n + 1) m hm (augD vs) (fun uw h => by
    obtain ⟨vw, hv, rfl⟩ := List.mem_map.1 h
    exact hw vw hv) (augT θ) (fun i j => -(G i j * a * lr))).2
  rw [hs] at up
  have e1 : ∑ i ∈ range (n + 1), ∑ j ∈ range m, G i j * -(G i j * a * lr) = -(a * lr * nrm (n + 1) m G) := by
    unfold nrm
    simp only [mul_sum, ← sum_neg_distrib]
    exact sum_congr rfl (fun i _ => sum_congr rfl (fun j _ => by ring))
  have e2 : nrm (n + 1) m (fun i j => -(G i j * a * lr)) = (a * lr) ^ 2 * nrm (n + 1) m G := by
    unfold nrm
    simp only [mul_sum]
    exact sum_congr rfl (fun i _ => sum_congr rfl (fun j _ => by ring))
  have e3 : θ.dist2 n m (fitStep k n m lr vs θ) = (a * lr) ^ 2 * nrm (n + 1) m G := by
    rw [← nrm_aug, ← e2, ← hs]
    unfold nrm
    exact sum_congr rfl (fun i _ => sum_congr rfl (fun j _ => by ring))
  rw [← hG, e1, e2] at up
  have hl := len2_aug n vs
  rw [← ha] at hl
  rw [e3, ← tot_aug, ← tot_aug, ← ha, ← hl]
  have up2 := mul_le_mul_of_nonneg_left up ha0.le
  refine le_trans (add_le_add_left up2 _) (le_of_eq ?_)
  field_simp
  ring

theorem fitMean_nonneg (k : FitKind) (n : Nat) {m : Nat} (hm : 0 < m) (vs : List ((Nat → ℝ) × (Nat → ℝ))) (hw : ∀ vw ∈ vs, k.Target m vw.2)
    (hpos : k = .cce → ∀ vw ∈ vs, ∀ j, j < m → 0 ≤ vw.2 j) (θ : Theta) : 0 ≤ fitMean k n m vs θ := by
  rw [fitMean_phi]
  refine mul_nonneg (by positivity) (List.sum_nonneg (fun x hx => ?_))
  obtain ⟨vw, hvw, rfl⟩ := List.mem_map.1 hx
  set z := θ.sums n vw.1
  have hwv := hw vw hvw
  cases k with
  | mse => exact mul_nonneg (by norm_num) (sum_nonneg (fun _ _ => sq_nonneg _))
  | lc =>
    show 0 ≤ ∑ j ∈ range m, Real.log (Real.cosh (z j - vw.2 j))
    exact sum_nonneg (fun _ _ => Real.log_nonneg (Real.one_le_cosh _))
  | nll =>
    obtain ⟨c, hc⟩ := id hwv
    exact phi_nonneg (.inl rfl) hwv hc
  | cce =>
    rw [phi_soft (.inr rfl) hm hwv]
    have h1 : ∑ j ∈ range m, vw.2 j = 1 := hwv
    have e : Real.log (expSum m z) - ∑ i ∈ range m, vw.2 i * z i = ∑ i ∈ range m, vw.2 i * (Real.log (expSum m z) - z i) := by
      simp only [mul_sub, sum_sub_distrib, ← sum_mul, h1, one_mul]
    rw [e]
    refine sum_nonneg (fun i hi => mul_nonneg (hpos rfl vw hvw i (mem_range.1 hi)) ?_)
    have : Real.exp (z i) ≤ expSum m z := single_le_sum (f := fun j => Real.exp (z j)) (fun _ _ => (Real.exp_pos _).le) hi
    have := Real.log_le_log (Real.exp_pos _) this
    rw [Real.log_exp] at this
    linarith

/-! ### C128 -/

/-- Every step lowers the mean loss, by at least (1 - lr·mean(1+|x|²)/2)/lr times the squared length of the step: with lr·mean(1+|x|²) < 2 the loss never grows
and stays the same only if the parameters stay the same. -/
theorem C128_descends (k : FitKind) (n m : Nat) (hm : 0 < m) (θ : Theta) (l : FC ℝ) (h : l.IsFit k n m θ) (B : List (Ten ℝ × Ten ℝ))
    (vs : List ((Nat → ℝ) × (Nat → ℝ))) (hv : BatchIs B n m vs) (hne : vs ≠ []) (hw : ∀ vw ∈ vs, k.Target m vw.2) (lr : ℝ) (hlr : 0 < lr) :
    ∃ P : Nat → Theta, P 0 = θ ∧ (∀ N, Ok (l.fit k.loss lr (fun _ => B) N) (fun l' => l'.IsFit k n m (P N))) ∧
      ∀ N, fitMean k n m vs (P (N + 1)) + (1 - lr * meanSq n vs / 2) / lr * (P N).dist2 n m (P (N + 1)) ≤ fitMean k n m vs (P N) :=
  ⟨fitRun k n m lr (fun _ => vs) θ, rfl, fit_spec hm (fun _ => hv) (fun _ => hne) lr h, fun _ => step_descends k hm vs hne hw lr hlr _⟩

/-- With lr·mean(1+|x|²) < 2 predictions and targets balance in the limit: at every output the gaps (prediction minus target; for `LC` their hyperbolic tangents)
sum to 0 over the samples, and so do the gaps weighted with any input. No assumption on the data: this holds whether or not the parameters converge. -/
theorem C128_balance (k : FitKind) (n m : Nat) (hm : 0 < m) (θ : Theta) (l : FC ℝ) (h : l.IsFit k n m θ) (B : List (Ten ℝ × Ten ℝ))
    (vs : List ((Nat → ℝ) × (Nat → ℝ))) (hv : BatchIs B n m vs) (hne : vs ≠ []) (hw : ∀ vw ∈ vs, k.Target m vw.2) (hpos : k = .cce → ∀ vw ∈ vs, ∀ j, j < m → 0 ≤ vw.2 j)
    (lr : ℝ) (hlr : 0 < lr) (hL : lr * meanSq n vs < 2) :
    ∃ P : Nat → Theta, P 0 = θ ∧ (∀ N, Ok (l.fit k.loss lr (fun _ => B) N) (fun l' => l'.IsFit k n m (P N))) ∧
      ∀ j, j < m → Tendsto (fun N => (vs.map (fun vw => k.gap (k.act.fn m ((P N).sums n vw.1) j) (vw.2 j))).sum) atTop (𝓝 0) ∧
        ∀ i, i < n → Tendsto (fun N => (vs.map (fun vw => vw.1 i * k.gap (k.act.fn m ((P N).sums n vw.1) j) (vw.2 j))).sum) atTop (𝓝 0) := by
  set P := fitRun k n m lr (fun _ => vs) θ with hP
  refine ⟨P, rfl, fit_spec hm (fun _ => hv) (fun _ => hne) lr h, ?_⟩
  have hlen : (0 : ℝ) < vs.length := by exact_mod_cast List.length_pos_iff.2 hne
  set c : ℝ := (1 - lr * meanSq n vs / 2) / lr with hc
  have hc0 : 0 < c := div_pos (by linarith) hlr
  have hsum : ∀ N, ∑ i ∈ range N, (P i).dist2 n m (P (i + 1)) ≤ fitMean k n m vs θ / c := fun N => by
    have : fitMean k n m vs (P N) + c * ∑ i ∈ range N, (P i).dist2 n m (P (i + 1)) ≤ fitMean k n m vs θ := by
      induction N with
      | zero => simp [hP, fitRun]
      | succ N ih =>
        rw [sum_range_succ, mul_add]
        have : fitMean k n m vs (P (N + 1)) + c * (P N).dist2 n m (P (N + 1)) ≤ fitMean k n m vs (P N) := step_descends k hm vs hne hw lr hlr (P N)
        linarith
    rw [le_div_iff₀ hc0]
    have := fitMean_nonneg k n hm vs hw hpos (P N)
    linarith
  have hd0 : Tendsto (fun N => (P N).dist2 n m (P (N + 1))) atTop (𝓝 0) :=
    (summable_of_sum_range_le (fun N => dist2_nonneg n m _ _) hsum).tendsto_atTop_zero
  have hsq : Tendsto (fun N => Real.sqrt ((P N).dist2 n m (P (N + 1)))) atTop (𝓝 0) := by
    have := (Real.continuous_sqrt.tendsto 0).comp hd0
    rwa [Real.sqrt_zero] at this
  -- a sequence whose scaled square is bounded by the step
  have lim : ∀ g : Nat → ℝ, (∀ N, (g N * (1 / (vs.length : ℝ)) * lr) ^ 2 ≤ (P N).dist2 n m (P (N + 1))) → Tendsto g atTop (𝓝 0) := fun g hg => by
    have h1 : Tendsto (fun N => g N * (1 / (vs.length : ℝ)) * lr) atTop (𝓝 0) := by
      refine (tendsto_zero_iff_abs_tendsto_zero _).2 (squeeze_zero (fun _ => abs_nonneg _) (fun N => ?_) hsq)
      show |g N * (1 / (vs.length : ℝ)) * lr| ≤ _
      rw [← Real.sqrt_sq_eq_abs]
      exact Real.sqrt_le_sqrt (hg N)
    have h2 := h1.mul_const (vs.length / lr)
    rw [zero_mul] at h2
    refine h2.congr (fun N => ?_)
    field_simp
  have hstep1 : ∀ N j, (P N).1 j - (P (N + 1)).1 j = (fitGrad k n m vs (P N)).1 j * (1 / (vs.length : ℝ)) * lr := fun N j => by
    show (P N).1 j - ((P N).1 j - _) = _
    ring
  have hstep2 : ∀ N i j, (P N).2 i j - (P (N + 1)).2 i j = (fitGrad k n m vs (P N)).2 i j * (1 / (vs.length : ℝ)) * lr := fun N i j => by
    show (P N).2 i j - ((P N).2 i j - _) = _
    ring
  have hg1 : ∀ N j, (vs.map (fun vw => k.gap (k.act.fn m ((P N).sums n vw.1) j) (vw.2 j))).sum = (fitGrad k n m vs (P N)).1 j := fun N j => by
    simp only [← zGrad_gap]; rfl
  have hg2 : ∀ N i j, (vs.map (fun vw => vw.1 i * k.gap (k.act.fn m ((P N).sums n vw.1) j) (vw.2 j))).sum = (fitGrad k n m vs (P N)).2 i j := fun N i j => by
    simp only [← zGrad_gap]; rfl
  intro j hj
  simp only [hg1, hg2]
  refine ⟨lim _ (fun N => ?_), fun i hi => lim _ (fun N => ?_)⟩
  · rw [← hstep1]
    have h1 := single_le_sum (f := fun j => ((P N).1 j - (P (N + 1)).1 j) ^ 2) (fun _ _ => sq_nonneg _) (mem_range.2 hj)
    have h2 : 0 ≤ ∑ i ∈ range n, ∑ j ∈ range m, ((P N).2 i j - (P (N + 1)).2 i j) ^ 2 := sum_nonneg (fun _ _ => sum_nonneg (fun _ _ => sq_nonneg _))
    unfold Theta.dist2
    linarith
  · rw [← hstep2]
    have h1 := (single_le_sum (f := fun j => ((P N).2 i j - (P (N + 1)).2 i j) ^ 2) (fun _ _ => sq_nonneg _) (mem_range.2 hj)).trans
      (single_le_sum (f := fun i => ∑ j ∈ range m, ((P N).2 i j - (P (N + 1)).2 i j) ^ 2) (fun _ _ => sum_nonneg (fun _ _ => sq_nonneg _)) (mem_range.2 hi))
    have h2 : 0 ≤ ∑ j ∈ range m, ((P N).1 j - (P (N + 1)).1 j) ^ 2 := sum_nonneg (fun _ _ => sq_nonneg _)
    unfold Theta.dist2
    linarith

/-- Averages: with `MSE`, `NLL` or `CCE` the mean prediction of every output tends to the mean target; for classes, the mean predicted probability of a class tends
to its frequency. -/
theorem C128_mean (k : FitKind) (hk : k ≠ .lc) (n m : Nat) (hm : 0 < m) (θ : Theta) (l : FC ℝ) (h : l.IsFit k n m θ) (B : List (Ten ℝ × Ten ℝ))
    (vs : List ((Nat → ℝ) × (Nat → ℝ))) (hv : BatchIs B n m vs) (hne : vs ≠ []) (hw : ∀ vw ∈ vs, k.Target m vw.2) (hpos : k = .cce → ∀ vw ∈ vs, ∀ j, j < m → 0 ≤ vw.2 j)
    (lr : ℝ) (hlr : 0 < lr) (hL : lr * meanSq n vs < 2) :
    ∃ P : Nat → Theta, P 0 = θ ∧ (∀ N, Ok (l.fit k.loss lr (fun _ => B) N) (fun l' => l'.IsFit k n m (P N))) ∧
      ∀ j, j < m → Tendsto (fun N => (vs.map (fun vw => k.act.fn m ((P N).sums n vw.1) j)).sum / vs.length) atTop (𝓝 ((vs.map (fun vw => vw.2 j)).sum / vs.length)) := by
  obtain ⟨P, h0, hP, hb⟩ := C128_balance k n m hm θ l h B vs hv hne hw hpos lr hlr hL
  refine ⟨P, h0, hP, fun j hj => ?_⟩
  refine Tendsto.div_const ?_ _
  have h1 := (hb j hj).1.add_const ((vs.map (fun vw => vw.2 j)).sum)
  rw [zero_add] at h1
  refine h1.congr (fun N => ?_)
  have e : ∀ p w : ℝ, k.gap p w = p - w := fun p w => by cases k <;> first | rfl | exact absurd rfl hk
  simp only [e]
  clear h1 hb hP hv hne hw hpos hL
  induction vs with
  | nil => simp
  | cons a vs ih => simp only [List.map_cons, List.sum_cons] at ih ⊢; linarith

/-- One sample with `MSE`: after `N` steps the error of every output is exactly the initial error times (1 - lr (1 + |x|²))^N. -/
theorem C128_single (n m : Nat) (hm : 0 < m) (θ : Theta) (l : FC ℝ) (h : l.IsFit .mse n m θ) (x y : Ten ℝ) (v w : Nat → ℝ) (hx : VecIs x.data n v) (hy : VecIs y.data m w)
    (lr : ℝ) :
    ∃ P : Nat → Theta, P 0 = θ ∧ (∀ N, Ok (l.fit MSE lr (fun _ => [(x, y)]) N) (fun l' => l'.IsFit .mse n m (P N))) ∧
      ∀ N j, (P N).sums n v j - w j = (1 - lr * (1 + ∑ i ∈ range n, v i ^ 2)) ^ N * (θ.sums n v j - w j) := by
  refine ⟨fitRun .mse n m lr (fun _ => [(v, w)]) θ, rfl, fit_spec hm (fun _ => .cons ⟨hx, hy⟩ .nil) (fun _ => by simp) lr h, fun N j => ?_⟩
  induction N with
  | zero => simp [fitRun]
  | succ N ih =>
    rw [pow_succ, mul_right_comm, ← ih]
    set ζ := fitRun .mse n m lr (fun _ => [(v, w)]) θ N
    show (fitStep .mse n m lr [(v, w)] ζ).sums n v j - w j = _
    have e : (fitStep .mse n m lr [(v, w)] ζ).sums n v j = ζ.sums n v j - lr * (1 + ∑ i ∈ range n, v i ^ 2) * (ζ.sums n v j - w j) := by
      have e1 : (fitStep .mse n m lr [(v, w)] ζ).1 j = ζ.1 j - (ζ.sums n v j - w j) * lr := by simp [fitStep, fitGrad, zGrad]
      have e2 : ∀ i, (fitStep .mse n m lr [(v, w)] ζ).2 i j = ζ.2 i j - v i * (ζ.sums n v j - w j) * lr := fun i => by simp [fitStep, fitGrad, zGrad]
      set s := ζ.sums n v j with hs
      have e3 : (fitStep .mse n m lr [(v, w)] ζ).sums n v j = ∑ i ∈ range n, v i * (ζ.2 i j - v i * (s - w j) * lr) + (ζ.1 j - (s - w j) * lr) := by
        unfold Theta.sums
        rw [e1]
        simp only [e2]
      rw [e3]
      have e4 : ∑ i ∈ range n, v i * (ζ.2 i j - v i * (s - w j) * lr) = ∑ i ∈ range n, v i * ζ.2 i j - (s - w j) * lr * ∑ i ∈ range n, v i ^ 2 := by
        rw [mul_sum, ← sum_sub_distrib]
        exact sum_congr rfl (fun i _ => by ring)
      have e5 : s = ∑ i ∈ range n, v i * ζ.2 i j + ζ.1 j := hs
      rw [e4]
      linear_combination (0 : ℝ) * e5 - e5
    rw [e]
    ring

/-- The bound is exact: for one sample that the initial layer does not predict, the error vanishes if lr (1 + |x|²) < 2, keeps its size for ever at 2 and grows
beyond every bound above 2. -/
theorem C128_sharp (n m : Nat) (hm : 0 < m) (θ : Theta) (l : FC ℝ) (h : l.IsFit .mse n m θ) (x y : Ten ℝ) (v w : Nat → ℝ) (hx : VecIs x.data n v) (hy : VecIs y.data m w)
    (lr : ℝ) (hlr : 0 < lr) :
    ∃ P : Nat → Theta, P 0 = θ ∧ (∀ N, Ok (l.fit MSE lr (fun _ => [(x, y)]) N) (fun l' => l'.IsFit .mse n m (P N))) ∧
      ∀ j, j < m → θ.sums n v j ≠ w j →
        (lr * meanSq n [(v, w)] < 2 → Tendsto (fun N => (P N).sums n v j) atTop (𝓝 (w j))) ∧
        (lr * meanSq n [(v, w)] = 2 → ∀ N, |(P N).sums n v j - w j| = |θ.sums n v j - w j|) ∧
        (2 < lr * meanSq n [(v, w)] → Tendsto (fun N => |(P N).sums n v j - w j|) atTop atTop) := by
  obtain ⟨P, h0, hP, hf⟩ := C128_single n m hm θ l h x y v w hx hy lr
  refine ⟨P, h0, hP, fun j hj hne => ?_⟩
  have hq : meanSq n [(v, w)] = 1 + ∑ i ∈ range n, v i ^ 2 := by simp [meanSq]
  have hq1 : 1 ≤ meanSq n [(v, w)] := by rw [hq]; linarith [sum_nonneg (fun i (_ : i ∈ range n) => sq_nonneg (v i))]
  rw [← hq] at hf
  set L := meanSq n [(v, w)]
  have hpos : 0 < lr * L := by positivity
  refine ⟨fun hL => ?_, fun hL N => ?_, fun hL => ?_⟩
  · have h1 : Tendsto (fun N : Nat => (1 - lr * L) ^ N * (θ.sums n v j - w j)) atTop (𝓝 (0 * (θ.sums n v j - w j))) :=
      (tendsto_pow_atTop_nhds_zero_of_abs_lt_one (abs_lt.2 ⟨by linarith, by linarith⟩)).mul_const _
    rw [zero_mul] at h1
    have h2 := h1.add_const (w j)
    rw [zero_add] at h2
    exact h2.congr (fun N => by rw [← hf]; ring)
  · rw [hf, abs_mul, abs_pow, hL]
    norm_num
  · have h1 : Tendsto (fun N : Nat => |1 - lr * L| ^ N * |θ.sums n v j - w j|) atTop atTop := by
      refine (tendsto_pow_atTop_atTop_of_one_lt ?_).atTop_mul_const (abs_pos.2 (sub_ne_zero.2 hne))
      rw [abs_sub_comm, abs_of_pos (by linarith)]
      linarith
    refine h1.congr (fun N => ?_)
    rw [hf, abs_mul, abs_pow]

/-! Non-vacuity. -/

/-- The mean predicted probabilities of the two classes of `ftTwo` tend to 1/2; -/
example : ∃ P : Nat → Theta, P 0 = (fun _ => 0, fun _ _ => 0) ∧
    (∀ N, Ok ((ftLayer .nll 1 2).fit NLL (9 / 10) (fun _ => ftBatch 1 2 ftTwo) N) (fun l' => l'.IsFit .nll 1 2 (P N))) ∧
      ∀ j, j < 2 → Tendsto (fun N => (ftTwo.map (fun vw => softmaxFn 2 ((P N).sums 1 vw.1) j)).sum / ftTwo.length) atTop (𝓝 ((ftTwo.map (fun vw => vw.2 j)).sum / ftTwo.length)) :=
  C128_mean .nll (by intro h; cases h) 1 2 (by decide) _ _ (ftLayer_IsFit _ _ _) _ _ (ftBatch_Is _ _ _) (by simp [ftTwo]) ftTwo_hot (by simp) (9 / 10) (by norm_num)
    (by rw [ftTwo_sq]; norm_num)

/-- learning rate 3/2 for the sample 1 ↦ 1 (1 + |x|² = 2): the error grows beyond every bound; -/
example : ∃ P : Nat → Theta, (∀ N, Ok ((ftLayer .mse 1 1).fit MSE (3 / 2) (fun _ => ftBatch 1 1 [(fun _ => 1, fun _ => 1)]) N) (fun l' => l'.IsFit .mse 1 1 (P N))) ∧
    Tendsto (fun N => |(P N).sums 1 (fun _ => 1) 0 - 1|) atTop atTop := by
  obtain ⟨P, _, h1, h2⟩ := C128_sharp 1 1 one_pos _ _ (ftLayer_IsFit .mse 1 1)
    ⟨1, 1, 1, Buf.of ((List.range 1).map (fun _ => 1))⟩ ⟨1, 1, 1, Buf.of ((List.range 1).map (fun _ => 1))⟩ (fun _ => 1) (fun _ => 1) (VecIs_of' _ 1) (VecIs_of' _ 1) (3 / 2) (by norm_num)
  exact ⟨P, h1, (h2 0 one_pos (by simp [Theta.sums])).2.2 (by norm_num [meanSq])⟩

/-- every step of logistic training with soft targets lowers the loss. -/
example : ∃ P : Nat → Theta, P 0 = (fun _ => 0, fun _ _ => 0) ∧
    (∀ N, Ok ((ftLayer .lc 1 2).fit LC (9 / 10) (fun _ => ftBatch 1 2 ftTwo) N) (fun l' => l'.IsFit .lc 1 2 (P N))) ∧
      ∀ N, fitMean .lc 1 2 ftTwo (P (N + 1)) + (1 - 9 / 10 * meanSq 1 ftTwo / 2) / (9 / 10) * (P N).dist2 1 2 (P (N + 1)) ≤ fitMean .lc 1 2 ftTwo (P N) :=
  C128_descends .lc 1 2 (by decide) _ _ (ftLayer_IsFit _ _ _) _ _ (ftBatch_Is _ _ _) (by simp [ftTwo]) (fun _ _ => trivial) (9 / 10) (by norm_num)

end Trixy
