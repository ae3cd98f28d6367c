import Verif.Spec.Rule
import Verif.Spec.Optim
import Mathlib.Analysis.SpecificLimits.Basic
import Mathlib.Analysis.PSeries
/- Sequences of single numbers moved by the rules of the optimizers: if the numbers and the gradients converge, the limit of the gradients is zero. -/
namespace Trixy
open Filter Topology

/-- If the numbers `p` moved by the rule with gradients `g` converge to `a` and the gradients converge to `h`, then `φ a h`. -/
def Rule.Settles {μ : Type} (R : Rule ℝ μ) (φ : ℝ → ℝ → Prop) : Prop :=
  ∀ (T : Nat → Nat) (c : Nat → μ) (p g : Nat → ℝ) (a h : ℝ), Tendsto T atTop atTop → c 0 = R.start →
    (∀ N, (c (N + 1), p (N + 1)) = R.step (T N) (c N) (p N) (g N)) → Tendsto p atTop (𝓝 a) → Tendsto g atTop (𝓝 h) → φ a h

theorem tends_diff {p : Nat → ℝ} {a : ℝ} (h : Tendsto p atTop (𝓝 a)) : Tendsto (fun N => p (N + 1) - p N) atTop (𝓝 0) := by
  have := (h.comp (tendsto_add_atTop_nat 1)).sub h
  rw [sub_self] at this
  exact this

theorem lin_rec_zero {r : ℝ} (h0 : 0 ≤ r) (h1 : r < 1) {x e : Nat → ℝ} (hx : ∀ N, x (N + 1) = r * x N + e N) (he : Tendsto e atTop (𝓝 0)) : Tendsto x atTop (𝓝 0) := by
  rw [Metric.tendsto_atTop] at he ⊢
  intro ε hε
  have h1r : 0 < 1 - r := by linarith
  obtain ⟨N0, hN0⟩ := he (ε / 2 * (1 - r)) (by positivity)
  have hb : ∀ k, |x (N0 + k)| ≤ ε / 2 + r ^ k * |x N0| := by
    intro k
    induction k with
    | zero => simp; linarith
    | succ k ih =>
      have h2 := hN0 (N0 + k) (by omega)
      rw [Real.dist_eq, sub_zero] at h2
      have h3 : |x (N0 + (k + 1))| ≤ r * |x (N0 + k)| + |e (N0 + k)| := by
        rw [show N0 + (k + 1) = N0 + k + 1 by omega, hx]
        refine (abs_add_le _ _).trans ?_
        rw [abs_mul, abs_of_nonneg h0]
      have h4 := mul_le_mul_of_nonneg_left ih h0
      calc |x (N0 + (k + 1))| ≤ r * (ε / 2 + r ^ k * |x N0|) + ε / 2 * (1 - r) := by linarith
        _ = ε / 2 + r ^ (k + 1) * |x N0| := by ring
  have hp : Tendsto (fun k : Nat => r ^ k * |x N0|) atTop (𝓝 0) := by
    have := (tendsto_pow_atTop_nhds_zero_of_lt_one h0 h1).mul_const |x N0|
    rwa [zero_mul] at this
  rw [Metric.tendsto_atTop] at hp
  obtain ⟨K, hK⟩ := hp (ε / 2) (by positivity)
  refine ⟨N0 + K, fun N hN => ?_⟩
  obtain ⟨k, rfl⟩ : ∃ k, N = N0 + k := ⟨N - N0, by omega⟩
  have h5 := hK k (by omega)
  rw [Real.dist_eq, sub_zero] at h5 ⊢
  have := hb k
  have := le_abs_self (r ^ k * |x N0|)
  linarith

theorem ewma_lim {r : ℝ} (h0 : 0 ≤ r) (h1 : r < 1) {x e : Nat → ℝ} {h : ℝ} (hx : ∀ N, x (N + 1) = r * x N + (1 - r) * e N) (he : Tendsto e atTop (𝓝 h)) :
    Tendsto x atTop (𝓝 h) := by
  have := lin_rec_zero h0 h1 (x := fun N => x N - h) (e := fun N => (1 - r) * (e N - h)) (fun N => by rw [hx]; ring) (by
    have := (he.sub_const h).const_mul (1 - r)
    rwa [sub_self, mul_zero] at this)
  have := this.add_const h
  simpa using this

theorem ruleStep_inv {μ : Type} {a b : μ} {x y : ℝ} (h : (a, x) = (b, y)) : a = b ∧ x = y := by injection h with h1 h2; exact ⟨h1, h2⟩

theorem settles_gd (lr : ℝ) (hlr : lr ≠ 0) : (Rule.gd lr).Settles (fun _ h => h = 0) := by
  intro T c p g a h _ _ hs hp hg
  have e : (fun N => p (N + 1) - p N) = fun N => -(lr * g N) := by
    funext N
    rw [(ruleStep_inv (hs N)).2]; ring
  have h1 := tends_diff hp
  rw [e] at h1
  have := tendsto_nhds_unique h1 (hg.const_mul lr).neg
  simpa [hlr] using this.symm

theorem settles_sgd (lr decay : ℝ) (hlr : lr ≠ 0) : (Rule.sgd lr decay).Settles (fun a h => h = -(decay * a)) := by
  intro T c p g a h _ _ hs hp hg
  have e : (fun N => p (N + 1) - p N) = fun N => -(lr * (decay * p N + g N)) := by
    funext N
    rw [(ruleStep_inv (hs N)).2]; ring
  have h1 := tends_diff hp
  rw [e] at h1
  have h2 := tendsto_nhds_unique h1 (((hp.const_mul decay).add hg).const_mul lr).neg
  have h3 : lr * (decay * a + h) = 0 := by linarith
  rcases mul_eq_zero.1 h3 with h4 | h4
  · exact absurd h4 hlr
  · linarith

theorem settles_momentum (lr mu : ℝ) (hlr : lr ≠ 0) : (Rule.momentum lr mu).Settles (fun _ h => h = 0) := by
  intro T v p g a h _ _ hs hp hg
  have hv1 : Tendsto (fun N => v (N + 1)) atTop (𝓝 0) := by
    have e : (fun N => p (N + 1) - p N) = fun N => v (N + 1) := by
      funext N
      rw [(ruleStep_inv (hs N)).2, (ruleStep_inv (hs N)).1]; ring
    rw [← e]; exact tends_diff hp
  have hv : Tendsto v atTop (𝓝 0) := (tendsto_add_atTop_iff_nat 1).1 hv1
  have e : (fun N => v (N + 1)) = fun N => mu * v N - lr * g N := by
    funext N; exact (ruleStep_inv (hs N)).1
  rw [e] at hv1
  have := tendsto_nhds_unique hv1 ((hv.const_mul mu).sub (hg.const_mul lr))
  simpa [hlr] using this

theorem settles_nestorov (lr mu : ℝ) (hlr : lr ≠ 0) (hmu : 0 ≤ mu) : (Rule.nestorov lr mu).Settles (fun _ h => h = 0) := by
  intro T v p g a h _ _ hs hp hg
  have e1 : ∀ N, v (N + 1) = mu * v N - lr * g N := fun N => (ruleStep_inv (hs N)).1
  have hpos : 0 < 1 + mu := by linarith
  have hv : Tendsto v atTop (𝓝 0) := by
    refine lin_rec_zero (r := mu / (1 + mu)) (by positivity) (by rw [div_lt_one hpos]; linarith) (e := fun N => (p (N + 1) - p N) / (1 + mu)) (fun N => ?_) (by
      have := (tends_diff hp).div_const (1 + mu)
      rwa [zero_div] at this)
    have e2 : p (N + 1) = p N - lr * g N + mu * (mu * v N - lr * g N) := (ruleStep_inv (hs N)).2
    have e3 := e1 N
    field_simp
    rw [e2, ← e3]
    linarith
  have hv1 : Tendsto (fun N => v (N + 1)) atTop (𝓝 0) := (tendsto_add_atTop_iff_nat 1).2 hv
  rw [show (fun N => v (N + 1)) = fun N => mu * v N - lr * g N from funext e1] at hv1
  have := tendsto_nhds_unique hv1 ((hv.const_mul mu).sub (hg.const_mul lr))
  simpa [hlr] using this

theorem invertSqrt_pos {x : ℝ} (hx : 0 ≤ x) : 0 < invertSqrt x := by
  unfold invertSqrt
  have : 0 < Real.sqrt (1e-9 + x) := Real.sqrt_pos.2 (by norm_num; linarith)
  positivity

theorem invertSqrt_cont {x : ℝ} (hx : 0 ≤ x) : ContinuousAt invertSqrt x := by
  unfold invertSqrt
  have : 0 < Real.sqrt (1e-9 + x) := Real.sqrt_pos.2 (by norm_num; linarith)
  exact continuousAt_const.div (Real.continuous_sqrt.comp (continuous_const.add continuous_id)).continuousAt this.ne'

theorem settles_rmsprop (lr beta : ℝ) (hlr : lr ≠ 0) (h0 : 0 ≤ beta) (h1 : beta < 1) : (Rule.rmsprop invertSqrt lr beta).Settles (fun _ h => h = 0) := by
  intro T c p g a h _ _ hs hp hg
  have hc : Tendsto c atTop (𝓝 (h ^ 2)) := ewma_lim h0 h1 (fun N => (ruleStep_inv (hs N)).1) (hg.pow 2)
  have hc1 : Tendsto (fun N => c (N + 1)) atTop (𝓝 (h ^ 2)) := (tendsto_add_atTop_iff_nat 1).2 hc
  have e : (fun N => p (N + 1) - p N) = fun N => -(lr * (invertSqrt (c (N + 1)) * g N)) := by
    funext N
    rw [(ruleStep_inv (hs N)).2, (ruleStep_inv (hs N)).1]; ring
  have h2 := tends_diff hp
  rw [e] at h2
  have h3 := tendsto_nhds_unique h2 ((((invertSqrt_cont (sq_nonneg h)).tendsto.comp hc1).mul hg).const_mul lr).neg
  have := (invertSqrt_pos (sq_nonneg h)).ne'
  simpa [hlr, this] using h3.symm

theorem settles_adam (lr beta1 beta2 : ℝ) (hlr : lr ≠ 0) (h0 : 0 ≤ beta1) (h1 : beta1 < 1) (k0 : 0 ≤ beta2) (k1 : beta2 < 1) :
    (Rule.adam invertSqrt lr beta1 beta2).Settles (fun _ h => h = 0) := by
  intro T c p g a h hT _ hs hp hg
  have em : ∀ N, (c (N + 1)).1 = beta1 * (c N).1 + (1 - beta1) * g N := fun N => congrArg Prod.fst (ruleStep_inv (hs N)).1
  have es : ∀ N, (c (N + 1)).2 = beta2 * (c N).2 + (1 - beta2) * g N ^ 2 := fun N => congrArg Prod.snd (ruleStep_inv (hs N)).1
  have hm : Tendsto (fun N => (c N).1) atTop (𝓝 h) := ewma_lim h0 h1 em hg
  have hss : Tendsto (fun N => (c N).2) atTop (𝓝 (h ^ 2)) := ewma_lim k0 k1 es (hg.pow 2)
  have hm1 := (tendsto_add_atTop_iff_nat 1).2 hm
  have hs1 := (tendsto_add_atTop_iff_nat 1).2 hss
  have hT1 : Tendsto (fun N => T N + 1) atTop atTop := (tendsto_add_atTop_nat 1).comp hT
  have b1 : Tendsto (fun N => 1 - beta1 ^ (T N + 1)) atTop (𝓝 1) := by
    have := ((tendsto_pow_atTop_nhds_zero_of_lt_one h0 h1).comp hT1).const_sub 1
    simpa using this
  have b2 : Tendsto (fun N => 1 - beta2 ^ (T N + 1)) atTop (𝓝 1) := by
    have := ((tendsto_pow_atTop_nhds_zero_of_lt_one k0 k1).comp hT1).const_sub 1
    simpa using this
  have e : (fun N => p (N + 1) - p N) = fun N => -(lr / (1 - beta1 ^ (T N + 1)) * (invertSqrt ((c (N + 1)).2 / (1 - beta2 ^ (T N + 1))) * (c (N + 1)).1)) := by
    funext N
    have e2 : p (N + 1) = p N - lr / (1 - beta1 ^ (T N + 1)) * (invertSqrt ((beta2 * (c N).2 + (1 - beta2) * g N ^ 2) / (1 - beta2 ^ (T N + 1))) *
      (beta1 * (c N).1 + (1 - beta1) * g N)) := (ruleStep_inv (hs N)).2
    rw [e2, em, es]; ring
  have h2 := tends_diff hp
  rw [e] at h2
  have q : Tendsto (fun N => (c (N + 1)).2 / (1 - beta2 ^ (T N + 1))) atTop (𝓝 (h ^ 2)) := by
    have := hs1.div b2 one_ne_zero
    rw [div_one] at this
    exact this
  have l : Tendsto (fun N => lr / (1 - beta1 ^ (T N + 1))) atTop (𝓝 lr) := by
    have := (tendsto_const_nhds (x := lr)).div b1 one_ne_zero
    rw [div_one] at this
    exact this
  have h3 := tendsto_nhds_unique h2 (l.mul (((invertSqrt_cont (sq_nonneg h)).tendsto.comp q).mul hm1)).neg
  have := (invertSqrt_pos (sq_nonneg h)).ne'
  simpa [hlr, this] using h3.symm

/-- Harmonic decrease does not converge. -/
theorem harmonic_down {q : Nat → ℝ} {C : ℝ} (hC : 0 < C) {N0 : Nat} (h : ∀ N, N0 ≤ N → q (N + 1) ≤ q N - C / (N + 1)) (a : ℝ) : ¬ Tendsto q atTop (𝓝 a) := by
  intro ha
  let H : Nat → ℝ := fun N => ∑ i ∈ Finset.range N, 1 / ((i : ℝ) + 1)
  have hH : Tendsto H atTop atTop := Real.tendsto_sum_range_one_div_nat_succ_atTop
  have hb : ∀ k, q (N0 + k) ≤ q N0 + C * H N0 - C * H (N0 + k) := by
    intro k
    induction k with
    | zero => simp
    | succ k ih =>
      have h1 := h (N0 + k) (by omega)
      have h2 : H (N0 + (k + 1)) = H (N0 + k) + 1 / (((N0 + k : Nat) : ℝ) + 1) := Finset.sum_range_succ _ _
      rw [h2, show N0 + (k + 1) = N0 + k + 1 by omega]
      have : C / (((N0 + k : Nat) : ℝ) + 1) = C * (1 / (((N0 + k : Nat) : ℝ) + 1)) := by ring
      rw [this] at h1
      linarith
  have hbd : Tendsto (fun N => C * H N + q N) atTop atTop := Tendsto.atTop_add (hH.const_mul_atTop hC) ha
  have hev := hbd.eventually (eventually_gt_atTop (q N0 + C * H N0))
  obtain ⟨M, hM⟩ := eventually_atTop.1 hev
  have h1 := hM (N0 + M) (by omega)
  have h2 := hb M
  linarith

theorem settles_adagrad (lr : ℝ) (hlr : lr ≠ 0) : (Rule.adagrad invertSqrt lr).Settles (fun _ h => h = 0) := by
  intro T c p g a h _ hc0 hs hp hg
  have hc0 : c 0 = 0 := hc0
  have ec : ∀ N, c (N + 1) = c N + g N ^ 2 := fun N => (ruleStep_inv (hs N)).1
  have ep : ∀ N, p (N + 1) = p N - lr * (invertSqrt (c (N + 1)) * g N) := fun N => by
    rw [ec]; exact (ruleStep_inv (hs N)).2
  by_contra hne
  -- a bound of the gradients
  obtain ⟨K, hK⟩ := hg.abs.bddAbove_range
  have hK : ∀ N, |g N| ≤ K := fun N => hK ⟨N, rfl⟩
  have hK0 : 0 ≤ K := (abs_nonneg _).trans (hK 0)
  have hcb : ∀ N, 0 ≤ c N ∧ c N ≤ N * K ^ 2 := by
    intro N
    induction N with
    | zero => simp [hc0]
    | succ N ih =>
      have h1 : g N ^ 2 ≤ K ^ 2 := sq_le_sq' (by linarith [abs_le.1 (hK N)]) (abs_le.1 (hK N)).2
      rw [ec]
      push_cast
      exact ⟨add_nonneg ih.1 (sq_nonneg _), by nlinarith [ih.2]⟩
  -- the moving parameter in the direction of the limit
  have hsgn : Tendsto (fun N => h * g N) atTop (𝓝 (h * h)) := hg.const_mul h
  have hh : 0 < h * h := mul_self_pos.2 hne
  obtain ⟨N0, hN0⟩ := eventually_atTop.1 (hsgn.eventually (lt_mem_nhds (show h * h / 2 < h * h by linarith)))
  have hq : Tendsto (fun N => lr * h * p N) atTop (𝓝 (lr * h * a)) := hp.const_mul _
  refine harmonic_down (q := fun N => lr * h * p N) (C := lr ^ 2 * (h * h / 2) / (2 + K ^ 2)) (by positivity) (N0 := N0) (fun N hN => ?_) _ hq
  have h1 := hN0 N hN
  have hinv : 1 / ((N + 1) * (2 + K ^ 2)) ≤ invertSqrt (c (N + 1)) := by
    unfold invertSqrt
    have hcN := hcb (N + 1)
    push_cast at hcN
    have hpos : 0 < Real.sqrt (1e-9 + c (N + 1)) := Real.sqrt_pos.2 (by norm_num; linarith [hcN.1])
    refine one_div_le_one_div_of_le hpos (Real.sqrt_le_iff.2 ⟨by positivity, ?_⟩)
    have hN1 : (0 : ℝ) ≤ N := Nat.cast_nonneg N
    have hle : (1e-9 : ℝ) + c (N + 1) ≤ (N + 1) * (2 + K ^ 2) := by
      norm_num
      nlinarith [hcN.2]
    have hge : (1 : ℝ) ≤ (N + 1) * (2 + K ^ 2) := by nlinarith [sq_nonneg K]
    nlinarith
  show lr * h * p (N + 1) ≤ lr * h * p N - lr ^ 2 * (h * h / 2) / (2 + K ^ 2) / (N + 1)
  rw [ep]
  have hl2 : 0 < lr ^ 2 := by positivity
  have hk2 : (0 : ℝ) < (N + 1) * (2 + K ^ 2) := by positivity
  have h4 : lr ^ 2 * (h * h / 2) / (2 + K ^ 2) / (N + 1) = lr ^ 2 * (1 / ((N + 1) * (2 + K ^ 2)) * (h * h / 2)) := by
    field_simp
  have h5 : 1 / ((N + 1) * (2 + K ^ 2)) * (h * h / 2) ≤ invertSqrt (c (N + 1)) * (h * g N) :=
    mul_le_mul hinv h1.le (by positivity) ((one_div_pos.2 hk2).le.trans hinv)
  have h6 := mul_le_mul_of_nonneg_left h5 hl2.le
  rw [h4]
  nlinarith

end Trixy
