import Mathlib.Analysis.SpecialFunctions.Sqrt
import Mathlib.Analysis.Analytic.Order
import Mathlib.Topology.Bases
import Mathlib.Topology.DiscreteSubset
import Mathlib.Analysis.SpecificLimits.Basic
import Mathlib.Algebra.Order.Archimedean.Basic
import Mathlib.Tactic.Linarith
/- RMSProp with a constant learning rate on a single quadratic: the minimum repels. -/
namespace Trixy.FitMath
open Set
open scoped ContDiff

/-- Distance to the minimum and running mean of the squares. -/
noncomputable def rmsSeq (lr beta e p0 : ℝ) : Nat → ℝ × ℝ
  | 0 => (p0, 0)
  | t + 1 =>
    let s := rmsSeq lr beta e p0 t
    (s.1 - 1 / Real.sqrt (e + (s.2 * beta + s.1 * s.1 * (1 - beta))) * s.1 * lr, s.2 * beta + s.1 * s.1 * (1 - beta))

variable {lr beta e : ℝ}

theorem rms_nonneg (hb : 0 ≤ beta) (hb1 : beta < 1) (p0 : ℝ) (t : Nat) : 0 ≤ (rmsSeq lr beta e p0 t).2 := by
  induction t with
  | zero => exact le_rfl
  | succ t ih =>
    show 0 ≤ (rmsSeq lr beta e p0 t).2 * beta + (rmsSeq lr beta e p0 t).1 * (rmsSeq lr beta e p0 t).1 * (1 - beta)
    have := mul_self_nonneg (rmsSeq lr beta e p0 t).1
    have : 0 ≤ 1 - beta := by linarith
    positivity

/-- The factor of one step. -/
noncomputable def rmsFac (lr beta e p0 : ℝ) (t : Nat) : ℝ := 1 - lr / Real.sqrt (e + (rmsSeq lr beta e p0 (t + 1)).2)

theorem rms_step (p0 : ℝ) (t : Nat) : (rmsSeq lr beta e p0 (t + 1)).1 = (rmsSeq lr beta e p0 t).1 * rmsFac lr beta e p0 t := by
  show (rmsSeq lr beta e p0 t).1 - 1 / Real.sqrt (e + (rmsSeq lr beta e p0 (t + 1)).2) * (rmsSeq lr beta e p0 t).1 * lr = _
  unfold rmsFac
  ring

theorem rms_acc (p0 : ℝ) (t : Nat) :
    (rmsSeq lr beta e p0 (t + 1)).2 = (rmsSeq lr beta e p0 t).2 * beta + (rmsSeq lr beta e p0 t).1 ^ 2 * (1 - beta) := by
  rw [sq]; rfl

theorem rms_zero (t : Nat) : rmsSeq lr beta e 0 t = (0, 0) := by
  induction t with
  | zero => rfl
  | succ t ih =>
    show (_, _) = _
    rw [ih]
    simp

/-- Everything is analytic in the starting point. -/
theorem rms_smooth (hb : 0 ≤ beta) (hb1 : beta < 1) (he : 0 < e) (t : Nat) :
    ContDiff ℝ ω (fun p0 => (rmsSeq lr beta e p0 t).1) ∧ ContDiff ℝ ω (fun p0 => (rmsSeq lr beta e p0 t).2) := by
  induction t with
  | zero => exact ⟨contDiff_id, contDiff_const⟩
  | succ t ih =>
    have hS : ContDiff ℝ ω (fun p0 => (rmsSeq lr beta e p0 (t + 1)).2) := by
      have : (fun p0 => (rmsSeq lr beta e p0 (t + 1)).2) = fun p0 => (rmsSeq lr beta e p0 t).2 * beta + (rmsSeq lr beta e p0 t).1 ^ 2 * (1 - beta) :=
        funext (fun p0 => rms_acc p0 t)
      rw [this]
      exact (ih.2.mul contDiff_const).add ((ih.1.pow 2).mul contDiff_const)
    refine ⟨?_, hS⟩
    have : (fun p0 => (rmsSeq lr beta e p0 (t + 1)).1) = fun p0 => (rmsSeq lr beta e p0 t).1 * (1 - lr / Real.sqrt (e + (rmsSeq lr beta e p0 (t + 1)).2)) :=
      funext (fun p0 => rms_step p0 t)
    rw [this]
    have hpos : ∀ p0, e + (rmsSeq lr beta e p0 (t + 1)).2 ≠ 0 := fun p0 => by
      have := rms_nonneg (lr := lr) (e := e) hb hb1 p0 (t + 1); positivity
    exact ih.1.mul (contDiff_const.sub (contDiff_const.div ((contDiff_const.add hS).sqrt hpos) (fun p0 => by
      have := rms_nonneg (lr := lr) (e := e) hb hb1 p0 (t + 1)
      exact (Real.sqrt_pos.2 (by positivity)).ne')))

theorem fac_smooth (hb : 0 ≤ beta) (hb1 : beta < 1) (he : 0 < e) (t : Nat) : ContDiff ℝ ω (fun p0 => rmsFac lr beta e p0 t) := by
  unfold rmsFac
  have hS := (rms_smooth (lr := lr) hb hb1 he (t + 1)).2
  exact contDiff_const.sub (contDiff_const.div ((contDiff_const.add hS).sqrt (fun p0 => by
      have := rms_nonneg (lr := lr) (e := e) hb hb1 p0 (t + 1); positivity)) (fun p0 => by
      have := rms_nonneg (lr := lr) (e := e) hb hb1 p0 (t + 1)
      exact (Real.sqrt_pos.2 (by positivity)).ne'))

/-- An analytic function that is not 0 everywhere has countably many zeros. -/
theorem zeros_countable {f : ℝ → ℝ} (hf : ContDiff ℝ ω f) {x : ℝ} (hx : f x ≠ 0) : {y | f y = 0}.Countable := by
  have h := (contDiff_omega_iff_analyticOnNhd.1 hf).preimage_zero_mem_codiscrete hx
  rw [mem_codiscrete'] at h
  have e : (f ⁻¹' {0}ᶜ)ᶜ = {y | f y = 0} := by ext y; simp
  rw [e] at h
  have := h.2.to_subtype
  exact Set.countable_coe_iff.1 (TopologicalSpace.separableSpace_iff_countable.1 inferInstance)

/-- The starting points from which the minimum is hit exactly. -/
theorem hits_countable (hb : 0 ≤ beta) (hb1 : beta < 1) (he : 0 < e) (hlr : lr ≠ Real.sqrt e) : {p0 | ∃ t, (rmsSeq lr beta e p0 t).1 = 0}.Countable := by
  have h1 : ∀ t, {p0 | rmsFac lr beta e p0 t = 0}.Countable := fun t =>
    zeros_countable (x := 0) (fac_smooth hb hb1 he t) (by
      unfold rmsFac
      rw [rms_zero]
      simp only [add_zero]
      intro h
      have hs := Real.sqrt_pos.2 he
      rw [sub_eq_zero, eq_comm, div_eq_one_iff_eq hs.ne'] at h
      exact hlr h)
  refine ((Set.countable_singleton (0 : ℝ)).union (Set.countable_iUnion h1)).mono (fun p0 ⟨t, ht⟩ => ?_)
  induction t with
  | zero => exact .inl ht
  | succ t ih =>
    rw [rms_step] at ht
    rcases mul_eq_zero.1 ht with h | h
    · exact ih h
    · exact .inr (Set.mem_iUnion.2 ⟨t, h⟩)

/-- A run that does not hit the minimum keeps coming back to every distance below `√(lr²/4 - e)`. -/
theorem rms_repelled (hb : 0 ≤ beta) (hb1 : beta < 1) (he : 0 < e) (hlr : 0 < lr) (p0 : ℝ) (hp : ∀ t, (rmsSeq lr beta e p0 t).1 ≠ 0) (δ : ℝ) (hδ : δ ^ 2 < lr ^ 2 / 4 - e)
    (N : Nat) : ∃ t, N ≤ t ∧ δ ≤ |(rmsSeq lr beta e p0 t).1| := by
  by_contra hcon
  push Not at hcon
  set p := fun t => (rmsSeq lr beta e p0 t).1 with hpd
  set S := fun t => (rmsSeq lr beta e p0 t).2 with hSd
  have hS0 : ∀ t, 0 ≤ S t := rms_nonneg hb hb1 p0
  obtain ⟨ρ, hρ1, hρ2⟩ := exists_between hδ
  have hρ0 : 0 < ρ := (sq_nonneg δ).trans_lt hρ1
  have hps : ∀ t, N ≤ t → p t ^ 2 ≤ δ ^ 2 := fun t ht => by
    have h1 := hcon t ht
    have : 0 ≤ |p t| := abs_nonneg _
    rw [← sq_abs (p t)]
    nlinarith
  have hS1 : ∀ k, S (N + k) ≤ δ ^ 2 + beta ^ k * S N := fun k => by
    induction k with
    | zero => simp; positivity
    | succ k ih =>
      have h1 : S (N + k + 1) = S (N + k) * beta + p (N + k) ^ 2 * (1 - beta) := rms_acc p0 (N + k)
      show S (N + k + 1) ≤ _
      rw [h1, pow_succ]
      have h2 := mul_le_mul_of_nonneg_right (hps (N + k) (by omega)) (show 0 ≤ 1 - beta by linarith)
      have h3 := mul_le_mul_of_nonneg_right ih hb
      refine (add_le_add h3 h2).trans (le_of_eq ?_)
      ring
  obtain ⟨K, hK⟩ : ∃ K, ∀ k, K ≤ k → S (N + k) ≤ ρ := by
    have ht : Filter.Tendsto (fun k => beta ^ k * S N) Filter.atTop (nhds 0) := by
      have := (tendsto_pow_atTop_nhds_zero_of_lt_one hb hb1).mul_const (S N)
      rwa [zero_mul] at this
    have := (ht.eventually (gt_mem_nhds (show 0 < ρ - δ ^ 2 by linarith)))
    obtain ⟨K, hK⟩ := Filter.eventually_atTop.1 this
    exact ⟨K, fun k hk => by have := hS1 k; have := hK k hk; linarith⟩
  have hq : 2 < lr / Real.sqrt (e + ρ) := by
    have hs : 0 < Real.sqrt (e + ρ) := Real.sqrt_pos.2 (by linarith)
    rw [lt_div_iff₀ hs]
    have : Real.sqrt (e + ρ) < lr / 2 := by
      rw [Real.sqrt_lt' (by linarith)]
      nlinarith
    linarith
  set κ := lr / Real.sqrt (e + ρ) - 1 with hκ
  have grow : ∀ k, K ≤ k → κ * |p (N + k)| ≤ |p (N + k + 1)| := fun k hk => by
    have h1 : p (N + k + 1) = p (N + k) * rmsFac lr beta e p0 (N + k) := rms_step p0 (N + k)
    rw [h1, abs_mul, mul_comm]
    refine mul_le_mul_of_nonneg_left ?_ (abs_nonneg _)
    unfold rmsFac
    have h2 : (rmsSeq lr beta e p0 (N + k + 1)).2 ≤ ρ := hK (k + 1) (by omega)
    have h3 := hS0 (N + k + 1)
    have hs : 0 < Real.sqrt (e + (rmsSeq lr beta e p0 (N + k + 1)).2) := Real.sqrt_pos.2 (by
      have : 0 ≤ (rmsSeq lr beta e p0 (N + k + 1)).2 := h3
      linarith)
    have h4 : lr / Real.sqrt (e + ρ) ≤ lr / Real.sqrt (e + (rmsSeq lr beta e p0 (N + k + 1)).2) :=
      div_le_div_of_nonneg_left hlr.le hs (Real.sqrt_le_sqrt (by linarith))
    rw [abs_sub_comm]
    exact (sub_le_sub_right h4 1).trans (le_abs_self _)
  have grow2 : ∀ k, κ ^ k * |p (N + K)| ≤ |p (N + (K + k))| := fun k => by
    induction k with
    | zero => simp
    | succ k ih =>
      have := grow (K + k) (by omega)
      have h2 := mul_le_mul_of_nonneg_left ih (show 0 ≤ κ by linarith)
      calc κ ^ (k + 1) * |p (N + K)| = κ * (κ ^ k * |p (N + K)|) := by ring
        _ ≤ _ := h2
        _ ≤ _ := this
  have hpos : 0 < |p (N + K)| := abs_pos.2 (hp _)
  obtain ⟨k, hk⟩ := pow_unbounded_of_one_lt (δ / |p (N + K)|) (show 1 < κ by linarith)
  rw [div_lt_iff₀ hpos] at hk
  have h1 := grow2 k
  have h2 := hcon (N + (K + k)) (by omega)
  linarith

/-- One step: closer, or within `lr / √(1 - β)`. -/
theorem rms_inner (hb : 0 ≤ beta) (hb1 : beta < 1) (he : 0 < e) (hlr : 0 < lr) (p0 : ℝ) (t : Nat) :
    |(rmsSeq lr beta e p0 (t + 1)).1| ≤ lr / Real.sqrt (1 - beta) ∨
      |(rmsSeq lr beta e p0 (t + 1)).1| = |(rmsSeq lr beta e p0 t).1| - lr / Real.sqrt (e + (rmsSeq lr beta e p0 (t + 1)).2) * |(rmsSeq lr beta e p0 t).1| := by
  have h1 : 0 < 1 - beta := by linarith
  have hS := rms_nonneg (lr := lr) (e := e) hb hb1 p0 (t + 1)
  have hs : 0 < Real.sqrt (e + (rmsSeq lr beta e p0 (t + 1)).2) := Real.sqrt_pos.2 (by linarith)
  rw [rms_step, abs_mul]
  by_cases hc : 0 ≤ rmsFac lr beta e p0 t
  · right
    rw [abs_of_nonneg hc]
    unfold rmsFac
    ring
  · left
    rw [abs_of_neg (not_le.1 hc)]
    unfold rmsFac
    have h2 : |(rmsSeq lr beta e p0 t).1| * Real.sqrt (1 - beta) ≤ Real.sqrt (e + (rmsSeq lr beta e p0 (t + 1)).2) := by
      refine Real.le_sqrt_of_sq_le ?_
      rw [mul_pow, sq_abs, Real.sq_sqrt h1.le, rms_acc]
      have := mul_nonneg (rms_nonneg (lr := lr) (e := e) hb hb1 p0 t) hb
      linarith
    have h3 : |(rmsSeq lr beta e p0 t).1| * (lr / Real.sqrt (e + (rmsSeq lr beta e p0 (t + 1)).2)) ≤ lr / Real.sqrt (1 - beta) := by
      rw [mul_div_assoc', div_le_div_iff₀ hs (Real.sqrt_pos.2 h1)]
      nlinarith
    have := abs_nonneg (rmsSeq lr beta e p0 t).1
    nlinarith

/-- From some step on the distance is at most `lr / √(1 - β)`. -/
theorem rms_band (hb : 0 ≤ beta) (hb1 : beta < 1) (he : 0 < e) (hlr : 0 < lr) (p0 : ℝ) :
    ∃ N, ∀ t, N ≤ t → |(rmsSeq lr beta e p0 t).1| ≤ lr / Real.sqrt (1 - beta) := by
  have h1 : 0 < 1 - beta := by linarith
  set D := lr / Real.sqrt (1 - beta) with hD
  have hD0 : 0 < D := div_pos hlr (Real.sqrt_pos.2 h1)
  set p := fun t => (rmsSeq lr beta e p0 t).1 with hpd
  have pos : ∀ t, 0 < lr / Real.sqrt (e + (rmsSeq lr beta e p0 t).2) := fun t =>
    div_pos hlr (Real.sqrt_pos.2 (by have := rms_nonneg (lr := lr) (e := e) hb hb1 p0 t; linarith))
  have keep : ∀ t, |p t| ≤ D → |p (t + 1)| ≤ D := fun t ht => by
    rcases rms_inner hb hb1 he hlr p0 t with h | h
    · exact h
    · have := mul_nonneg (pos (t + 1)).le (abs_nonneg (p t))
      show |(rmsSeq lr beta e p0 (t + 1)).1| ≤ D
      rw [h]
      have h2 : 0 ≤ lr / Real.sqrt (e + (rmsSeq lr beta e p0 (t + 1)).2) * |(rmsSeq lr beta e p0 t).1| := this
      have h3 : |(rmsSeq lr beta e p0 t).1| ≤ D := ht
      linarith
  by_cases hin : ∃ N, |p N| ≤ D
  · obtain ⟨N, hN⟩ := hin
    refine ⟨N, fun t ht => ?_⟩
    obtain ⟨k, rfl⟩ := Nat.exists_eq_add_of_le ht
    induction k with
    | zero => exact hN
    | succ k ih => exact keep _ (ih (by omega))
  · push Not at hin
    exfalso
    have dec : ∀ t, |p (t + 1)| = |p t| - lr / Real.sqrt (e + (rmsSeq lr beta e p0 (t + 1)).2) * |p t| := fun t => by
      rcases rms_inner hb hb1 he hlr p0 t with h | h
      · exact absurd h (not_le.2 (hin (t + 1)))
      · exact h
    have le0 : ∀ t, |p t| ≤ |p0| := fun t => by
      induction t with
      | zero => exact le_rfl
      | succ t ih => rw [dec]; have := mul_nonneg (pos (t + 1)).le (abs_nonneg (p t)); linarith
    have S0 : ∀ t, (rmsSeq lr beta e p0 t).2 ≤ p0 ^ 2 := fun t => by
      induction t with
      | zero => show (0 : ℝ) ≤ _; positivity
      | succ t ih =>
        rw [rms_acc]
        have h2 : (rmsSeq lr beta e p0 t).1 ^ 2 ≤ p0 ^ 2 := sq_le_sq.2 (le0 t)
        have h3 := mul_le_mul_of_nonneg_right ih hb
        have h4 := mul_le_mul_of_nonneg_right h2 h1.le
        nlinarith
    set q := lr / Real.sqrt (e + p0 ^ 2) * D with hq
    have hq0 : 0 < q := mul_pos (div_pos hlr (Real.sqrt_pos.2 (by positivity))) hD0
    have fall : ∀ t : Nat, |p t| ≤ |p0| - t * q := fun t => by
      induction t with
      | zero => simp; exact le_rfl
      | succ t ih =>
        rw [dec]
        have h2 : lr / Real.sqrt (e + p0 ^ 2) ≤ lr / Real.sqrt (e + (rmsSeq lr beta e p0 (t + 1)).2) :=
          div_le_div_of_nonneg_left hlr.le (Real.sqrt_pos.2 (by have := rms_nonneg (lr := lr) (e := e) hb hb1 p0 (t + 1); linarith))
            (Real.sqrt_le_sqrt (by have := S0 (t + 1); linarith))
        have h3 : q ≤ lr / Real.sqrt (e + (rmsSeq lr beta e p0 (t + 1)).2) * |p t| := mul_le_mul h2 (hin t).le hD0.le (pos _).le
        push_cast
        linarith
    obtain ⟨t, ht⟩ := exists_nat_gt (|p0| / q)
    rw [div_lt_iff₀ hq0] at ht
    have := fall t
    have := abs_nonneg (p t)
    linarith

end Trixy.FitMath
