import Verif.Props.Optim
import Mathlib.Tactic
/- C77: no update moves a parameter further than a fixed bound, whatever tensors were updated before, in whatever order. -/
namespace Trixy
set_option linter.unusedSectionVars false

/-- From a fresh optimizer, after any history of updates of any number of tensors (`size k` is the size of the tensor stored at `k`)
with gradient components all satisfying `good`, one more such update moves no component of the updated tensor by more than `B`. -/
def StepsBounded {σ : Type} (u : Upd σ ℝ) (fresh : σ) (good : ℝ → Prop) (B : ℝ) : Prop :=
  ∀ (size : Nat → Nat) (P : Nat → Buf ℝ) (ops : List (Nat × Buf ℝ)) (k : Nat) (G : Buf ℝ),
    (∀ k, ∃ p, VecIs (P k) (size k) p) → (∀ o ∈ ops ++ [(k, G)], ∃ g, VecIs o.2 (size o.1) g ∧ ∀ i, i < size o.1 → good (g i)) →
    ∃ r r' q q', runUpd u fresh P ops = .ok r ∧ runUpd u fresh P (ops ++ [(k, G)]) = .ok r' ∧
      VecIs (r.2 k) (size k) q ∧ VecIs (r'.2 k) (size k) q' ∧ ∀ i, i < size k → |q' i - q i| ≤ B

theorem steps_of {σ : Type} {u : Upd σ ℝ} {fresh : σ} {good : ℝ → Prop} {B : ℝ} (Inv : (Nat → Nat) → σ → Prop)
    (h0 : ∀ size, Inv size fresh)
    (hs : ∀ size s k P G p g, Inv size s → VecIs P (size k) p → VecIs G (size k) g → (∀ i, i < size k → good (g i)) →
      Ok (u s k P G) (fun r => Inv size r.1 ∧ ∃ p', VecIs r.2.1 (size k) p' ∧ ∀ i, i < size k → |p' i - p i| ≤ B)) :
    StepsBounded u fresh good B := by
  intro size P ops k G hP hops
  have gen : ∀ (ops : List (Nat × Buf ℝ)) (s : σ) (P : Nat → Buf ℝ), Inv size s → (∀ k, ∃ p, VecIs (P k) (size k) p) →
      (∀ o ∈ ops ++ [(k, G)], ∃ g, VecIs o.2 (size o.1) g ∧ ∀ i, i < size o.1 → good (g i)) →
      ∃ r r' q q', runUpd u s P ops = .ok r ∧ runUpd u s P (ops ++ [(k, G)]) = .ok r' ∧
        VecIs (r.2 k) (size k) q ∧ VecIs (r'.2 k) (size k) q' ∧ ∀ i, i < size k → |q' i - q i| ≤ B := by
    intro ops
    induction ops with
    | nil =>
      intro s P hI hP hg
      obtain ⟨p, hp⟩ := hP k
      obtain ⟨g, hg1, hg2⟩ := hg (k, G) (by simp)
      obtain ⟨r, e, _, p', hp', hb⟩ := hs size s k (P k) G p g hI hp hg1 hg2
      refine ⟨(s, P), (r.1, fun k' => if k' = k then r.2.1 else P k'), p, p', rfl, ?_, hp, ?_, hb⟩
      · simp only [List.nil_append]
        unfold runUpd
        rw [e, bind_ok]
        rfl
      · simpa using hp'
    | cons o ops ih =>
      obtain ⟨k0, G0⟩ := o
      intro s P hI hP hg
      obtain ⟨p, hp⟩ := hP k0
      obtain ⟨g, hg1, hg2⟩ := hg (k0, G0) (by simp)
      obtain ⟨r, e, hr, p', hp', hb⟩ := hs size s k0 (P k0) G0 p g hI hp hg1 hg2
      simp only [List.cons_append]
      unfold runUpd
      rw [e, bind_ok]
      refine ih _ _ hr (fun k' => ?_) (fun o ho => hg o (by simp only [List.cons_append, List.mem_cons]; exact Or.inr ho))
      by_cases hk : k' = k0
      · subst hk; exact ⟨p', by simpa using hp'⟩
      · simpa [hk] using hP k'
  exact gen ops fresh P (h0 size) hP hops

/-- A table whose entries all satisfy `Q`. -/
def TabAll (size : Nat → Nat) (Q : ℝ → Prop) (t : Table ℝ) : Prop :=
  ∀ k, ∃ v, VecIs (t.get k (size k)) (size k) v ∧ ∀ i, i < size k → Q (v i)

theorem TabAll.empty {size : Nat → Nat} {Q : ℝ → Prop} (h : Q 0) : TabAll size Q (fun _ => none : Table ℝ) :=
  fun k => ⟨_, Table.get_empty k _, fun _ _ => h⟩

theorem TabAll.of {size : Nat → Nat} {Q : ℝ → Prop} {t t' : Table ℝ} (h : TabAll size Q t) {k : Nat} {v : Nat → ℝ}
    (hk : VecIs (t'.get k (size k)) (size k) v) (hv : ∀ i, i < size k → Q (v i)) (ho : ∀ k', k' ≠ k → t' k' = t k') :
    TabAll size Q t' := by
  intro k'
  by_cases e : k' = k
  · subst e; exact ⟨v, hk, hv⟩
  · rw [getTab_congr (ho k' e)]; exact h k'

theorem vel_step {lr mu C v g : ℝ} (h0 : 0 ≤ mu) (h1 : mu < 1) (hv : |v| ≤ |lr| * (C / (1 - mu))) (hg : |g| ≤ C) :
    |v * mu - lr * g| ≤ |lr| * (C / (1 - mu)) := by
  have hp : 0 < 1 - mu := by linarith
  calc |v * mu - lr * g| ≤ |v * mu| + |lr * g| := abs_sub _ _
    _ ≤ |lr| * (C / (1 - mu)) * mu + |lr| * C := by
        rw [abs_mul, abs_mul, abs_of_nonneg h0]
        exact add_le_add (mul_le_mul_of_nonneg_right hv h0) (mul_le_mul_of_nonneg_left hg (abs_nonneg _))
    _ = |lr| * (C / (1 - mu)) := by field_simp; ring

theorem isq_step {lr K g s : ℝ} (hs : 0 ≤ s) (hK : 0 < K) (h : K * g ^ 2 ≤ s) :
    |invertSqrt s * g * lr| ≤ |lr| / Real.sqrt K := by
  have hp : (0 : ℝ) < 1e-9 + s := by norm_num; linarith
  unfold invertSqrt
  rw [abs_mul, abs_mul, mul_comm, le_div_iff₀ (Real.sqrt_pos.2 hK), mul_assoc]
  refine mul_le_of_le_one_right (abs_nonneg _) ?_
  rw [abs_of_pos (by have := Real.sqrt_pos.2 hp; positivity), one_div, inv_mul_eq_div, div_mul_eq_mul_div, div_le_one (Real.sqrt_pos.2 hp),
    ← Real.sqrt_sq_eq_abs, ← Real.sqrt_mul (sq_nonneg _)]
  refine Real.sqrt_le_sqrt ?_
  have : (0 : ℝ) ≤ 1e-9 := by norm_num
  linarith

/-! ## C77 -/

/-- `GradDescent`: at most the learning rate times the bound on the gradient. -/
theorem C77_gd (lr C : ℝ) : StepsBounded gdUpdate lr (fun x => |x| ≤ C) (|lr| * C) := by
  refine steps_of (fun _ s => s = lr) (fun _ => rfl) ?_
  rintro size s k P G p g rfl hp hg hC
  refine (C44_gd s k _ P G p g hp hg).mono (fun r hr => ⟨hr.1, _, hr.2.1, fun i hi => ?_⟩)
  rw [show p i - s * g i - p i = -(s * g i) by ring, abs_neg, abs_mul]
  exact mul_le_mul_of_nonneg_left (hC i hi) (abs_nonneg _)

/-- Momentum: with gradients bounded by `C`, at most `lr * C / (1-μ)`, the bound of a geometric series. -/
theorem C77_momentum (lr mu C : ℝ) (h0 : 0 ≤ mu) (h1 : mu < 1) (hC : 0 ≤ C) :
    StepsBounded momUpdate (Mom.make lr mu) (fun x => |x| ≤ C) (|lr| * (C / (1 - mu))) := by
  have hp1 : 0 < 1 - mu := by linarith
  refine steps_of (fun size s => s.lr = lr ∧ s.mu = mu ∧ (∀ k, (s.buff.get k (size k)).length = size k) ∧
    TabAll size (fun x => |x| ≤ |lr| * (C / (1 - mu))) s.opt)
    (fun size => ⟨rfl, rfl, fun k => (Table.get_empty k _).length, TabAll.empty (by rw [abs_zero]; positivity)⟩) ?_
  rintro size s k P G p g ⟨rfl, rfl, hb, ht⟩ hp hg hG
  obtain ⟨v, hv, hv'⟩ := ht k
  obtain ⟨r, e, q1, q2, q3, q4, q5, _⟩ := mom_spec hp hg (hb k) hv
  have ho := local_mom.other s k P G r e
  simp only [Prod.mk.injEq] at ho
  have hstep : ∀ i, i < size k → |v i * s.mu - s.lr * g i| ≤ |s.lr| * (C / (1 - s.mu)) :=
    fun i hi => vel_step h0 h1 (hv' i hi) (hG i hi)
  refine ⟨r, e, ⟨q1, q2, len_of hb q3 (fun k' hk' => (ho k' hk').1), ht.of q4 hstep (fun k' hk' => (ho k' hk').2.1)⟩, _, q5,
    fun i hi => ?_⟩
  rw [add_sub_cancel_left]
  exact hstep i hi

/-- Nestorov: the same bound. -/
theorem C77_nestorov (lr mu C : ℝ) (h0 : 0 ≤ mu) (h1 : mu < 1) (hC : 0 ≤ C) :
    StepsBounded nesUpdate (Mom.make lr mu) (fun x => |x| ≤ C) (|lr| * (C / (1 - mu))) := by
  have hp1 : 0 < 1 - mu := by linarith
  refine steps_of (fun size s => s.lr = lr ∧ s.mu = mu ∧ (∀ k, (s.buff.get k (size k)).length = size k) ∧
    TabAll size (fun x => |x| ≤ |lr| * (C / (1 - mu))) s.opt)
    (fun size => ⟨rfl, rfl, fun k => (Table.get_empty k _).length, TabAll.empty (by rw [abs_zero]; positivity)⟩) ?_
  rintro size s k P G p g ⟨rfl, rfl, hb, ht⟩ hp hg hG
  obtain ⟨v, hv, hv'⟩ := ht k
  obtain ⟨r, e, q1, q2, q3, q4, q5, _⟩ := nes_spec hp hg (hb k) hv
  have ho := local_nes.other s k P G r e
  simp only [Prod.mk.injEq] at ho
  have hstep : ∀ i, i < size k → |v i * s.mu - s.lr * g i| ≤ |s.lr| * (C / (1 - s.mu)) :=
    fun i hi => vel_step h0 h1 (hv' i hi) (hG i hi)
  refine ⟨r, e, ⟨q1, q2, len_of hb q3 (fun k' hk' => (ho k' hk').1), ht.of q4 hstep (fun k' hk' => (ho k' hk').2.1)⟩, _, q5,
    fun i hi => ?_⟩
  rw [show p i - s.lr * g i + s.mu * (v i * s.mu - s.lr * g i) - p i = (v i * s.mu - s.lr * g i) * s.mu - s.lr * g i by ring]
  exact vel_step h0 h1 (hstep i hi) (hG i hi)

/-- AdaGrad: at most the learning rate, whatever the gradients. -/
theorem C77_adagrad (lr beta : ℝ) : StepsBounded (adagradUpdate invertSqrt) (Ada.make lr beta) (fun _ => True) |lr| := by
  refine steps_of (fun size s => s.lr = lr ∧ (∀ k, (s.buff.get k (size k)).length = size k) ∧ TabAll size (fun x => 0 ≤ x) s.opt)
    (fun size => ⟨rfl, fun k => (Table.get_empty k _).length, TabAll.empty (le_refl _)⟩) ?_
  rintro size s k P G p g ⟨rfl, hb, ht⟩ hp hg _
  obtain ⟨v, hv, hv'⟩ := ht k
  obtain ⟨r, e, q1, q3, q4, q5, _⟩ := adagrad_spec (isq := invertSqrt) hp hg (hb k) hv
  have ho := (local_adagrad invertSqrt).other s k P G r e
  simp only [Prod.mk.injEq] at ho
  have hn : ∀ i, i < size k → 0 ≤ v i + g i * g i := fun i hi => add_nonneg (hv' i hi) (mul_self_nonneg _)
  refine ⟨r, e, ⟨q1, len_of hb q3 (fun k' hk' => (ho k' hk').1), ht.of q4 hn (fun k' hk' => (ho k' hk').2.1)⟩, _, q5,
    fun i hi => ?_⟩
  rw [sub_sub_cancel_left, abs_neg]
  have := isq_step (lr := s.lr) (hn i hi) one_pos (g := g i) (by have := hv' i hi; nlinarith)
  simpa using this

/-- RMSProp: at most `lr / sqrt(1-β)`, whatever the gradients. -/
theorem C77_rmsprop (lr beta : ℝ) (h0 : 0 ≤ beta) (h1 : beta < 1) :
    StepsBounded (rmspropUpdate invertSqrt) (Ada.make lr beta) (fun _ => True) (|lr| / Real.sqrt (1 - beta)) := by
  refine steps_of (fun size s => s.lr = lr ∧ s.beta = beta ∧ s.rbeta = 1 - beta ∧ (∀ k, (s.buff.get k (size k)).length = size k) ∧
    TabAll size (fun x => 0 ≤ x) s.opt)
    (fun size => ⟨rfl, rfl, rfl, fun k => (Table.get_empty k _).length, TabAll.empty (le_refl _)⟩) ?_
  rintro size s k P G p g ⟨rfl, rfl, hr, hb, ht⟩ hp hg _
  obtain ⟨v, hv, hv'⟩ := ht k
  obtain ⟨r, e, q1, q2, q2', q3, q4, q5, _⟩ := rmsprop_spec (isq := invertSqrt) hp hg (hb k) hv
  have ho := (local_rmsprop invertSqrt).other s k P G r e
  simp only [Prod.mk.injEq] at ho
  have hp1 : 0 < 1 - s.beta := by linarith
  have hn : ∀ i, i < size k → (1 - s.beta) * g i ^ 2 ≤ v i * s.beta + g i * g i * s.rbeta := fun i hi => by
    have := mul_nonneg (hv' i hi) h0
    rw [hr]; nlinarith
  have hn0 : ∀ i, i < size k → 0 ≤ v i * s.beta + g i * g i * s.rbeta := fun i hi =>
    (mul_nonneg hp1.le (sq_nonneg _)).trans (hn i hi)
  refine ⟨r, e, ⟨q1, q2, q2'.trans hr, len_of hb q3 (fun k' hk' => (ho k' hk').1), ht.of q4 hn0 (fun k' hk' => (ho k' hk').2.1)⟩, _,
    q5, fun i hi => ?_⟩
  rw [sub_sub_cancel_left, abs_neg]
  exact isq_step (hn0 i hi) hp1 (hn i hi)

/-- Two tables related entry by entry. -/
def TabRel (size : Nat → Nat) (Q : ℝ → ℝ → Prop) (t u : Table ℝ) : Prop :=
  ∀ k, ∃ v w, VecIs (t.get k (size k)) (size k) v ∧ VecIs (u.get k (size k)) (size k) w ∧ ∀ i, i < size k → Q (v i) (w i)

/-- Adam, with any number of tensors updated in any order: at most `lr / sqrt((1-β₂)(1-β₁²/β₂))`, whatever the gradients, for
`β₁² < β₂` (the defaults 0.9 and 0.999 qualify). -/
theorem C77_adam (lr b1 b2 : ℝ) (h1 : 0 ≤ b1) (h1' : b1 < 1) (h2' : b2 < 1) (hb12 : b1 ^ 2 < b2) :
    StepsBounded (adamUpdate invertSqrt) (AdamS.make lr b1 b2) (fun _ => True)
      (|lr| / Real.sqrt ((1 - b2) * (1 - b1 ^ 2 / b2))) := by
  have h2p : 0 < b2 := lt_of_le_of_lt (sq_nonneg _) hb12
  have hq : b1 ^ 2 / b2 < 1 := (div_lt_one h2p).2 hb12
  have hq0 : 0 ≤ b1 ^ 2 / b2 := div_nonneg (sq_nonneg _) h2p.le
  set D := (1 - b2) * (1 - b1 ^ 2 / b2) with hDdef
  have hD : 0 < D := mul_pos (by linarith) (by linarith)
  have key : ∀ m v x : ℝ, m ^ 2 * D ≤ (1 - b1) ^ 2 * v →
      (m * b1 + (1 - b1) * x) ^ 2 * D ≤ (1 - b1) ^ 2 * (v * b2 + x * x * (1 - b2)) := by
    intro m v x hm
    have e : m ^ 2 * D * b2 + (1 - b1) ^ 2 * x ^ 2 * (1 - b2) - (m * b1 + (1 - b1) * x) ^ 2 * D =
        (1 - b2) / b2 * ((1 - b1 ^ 2 / b2) * b2 * m - (1 - b1) * b1 * x) ^ 2 := by
      rw [hDdef]; field_simp; ring
    have hmb : m ^ 2 * D * b2 ≤ (1 - b1) ^ 2 * v * b2 := mul_le_mul_of_nonneg_right hm h2p.le
    have hsq : 0 ≤ (1 - b2) / b2 * ((1 - b1 ^ 2 / b2) * b2 * m - (1 - b1) * b1 * x) ^ 2 :=
      mul_nonneg (div_nonneg (by linarith) h2p.le) (sq_nonneg _)
    nlinarith
  refine steps_of (fun size s => s.lr = lr ∧ s.beta1 = b1 ∧ s.beta2 = b2 ∧ s.rbeta1 = 1 - b1 ∧ s.rbeta2 = 1 - b2 ∧
    (∃ t : Nat, s.tbeta1 = b1 ^ t ∧ s.tbeta2 = b2 ^ t) ∧ (∀ k, (s.buff.get k (size k)).length = size k) ∧
    TabRel size (fun m v => 0 ≤ v ∧ m ^ 2 * D ≤ (1 - b1) ^ 2 * v) s.m s.s)
    (fun size => ⟨rfl, rfl, rfl, rfl, rfl, ⟨0, by simp [AdamS.make], by simp [AdamS.make]⟩, fun k => (Table.get_empty k _).length,
      fun k => ⟨_, _, Table.get_empty k _, Table.get_empty k _, fun i _ => by simp⟩⟩) ?_
  rintro size s k P G p g ⟨rfl, rfl, rfl, hr1, hr2, ⟨t, ht1, ht2⟩, hb, hT⟩ hp hg _
  obtain ⟨m, v, hm, hv, hmv⟩ := hT k
  have e1 : s.tbeta1 * s.beta1 = s.beta1 ^ (t + 1) := by rw [ht1, pow_succ]
  have e2 : s.tbeta2 * s.beta2 = s.beta2 ^ (t + 1) := by rw [ht2, pow_succ]
  have l1 : s.beta1 ^ (t + 1) ≤ s.beta1 := by
    calc s.beta1 ^ (t + 1) ≤ s.beta1 ^ 1 := pow_le_pow_of_le_one h1 h1'.le (by omega)
      _ = s.beta1 := pow_one _
  have l2 : s.beta2 ^ (t + 1) < 1 := pow_lt_one₀ h2p.le h2' (by omega)
  have l2' : 0 ≤ s.beta2 ^ (t + 1) := pow_nonneg h2p.le _
  obtain ⟨r, e, q1, q2, q3, q4, q5, q6, q7, q8, q9, q10, q11, q12, _⟩ :=
    adam_spec (isq := invertSqrt) hp hg (hb k) hm hv (by rw [e1]; linarith) (by rw [e2]; linarith)
  have hnew : ∀ i, i < size k → 0 ≤ v i * s.beta2 + g i * g i * s.rbeta2 ∧
      (m i * s.beta1 + s.rbeta1 * g i) ^ 2 * D ≤ (1 - s.beta1) ^ 2 * (v i * s.beta2 + g i * g i * s.rbeta2) := by
    intro i hi
    rw [hr1, hr2]
    exact ⟨add_nonneg (mul_nonneg (hmv i hi).1 h2p.le) (mul_nonneg (mul_self_nonneg _) (by linarith)), key _ _ _ (hmv i hi).2⟩
  refine ⟨r, e, ⟨q1, q2, q3, q4.trans hr1, q5.trans hr2, ⟨t + 1, q6.trans e1, q7.trans e2⟩, len_of hb q9 (fun k' hk' => (q8 k' hk').1),
    fun k' => ?_⟩, _, q12, fun i hi => ?_⟩
  · by_cases hk : k' = k
    · subst hk; exact ⟨_, _, q10, q11, hnew⟩
    · rw [getTab_congr (q8 k' hk).2.1, getTab_congr (q8 k' hk).2.2]; exact hT k'
  · obtain ⟨hv0, hle⟩ := hnew i hi
    rw [sub_sub_cancel_left, abs_neg, e1, e2]
    set M := m i * s.beta1 + s.rbeta1 * g i
    set V := v i * s.beta2 + g i * g i * s.rbeta2
    have hp1 : 0 < 1 - s.beta1 ^ (t + 1) := by linarith
    have hp2 : 0 < 1 - s.beta2 ^ (t + 1) := by linarith
    have hVt : V ≤ 1 / (1 - s.beta2 ^ (t + 1)) * V := by
      rw [one_div_mul_eq_div, le_div_iff₀ hp2]
      nlinarith
    have := isq_step (lr := s.lr) (K := D) (g := M / (1 - s.beta1 ^ (t + 1))) (s := 1 / (1 - s.beta2 ^ (t + 1)) * V)
      (hv0.trans hVt) hD (by
        refine le_trans ?_ hVt
        rw [div_pow, mul_div_assoc', div_le_iff₀ (by positivity)]
        have hle2 : (1 - s.beta1) ^ 2 ≤ (1 - s.beta1 ^ (t + 1)) ^ 2 := pow_le_pow_left₀ (by linarith) (by linarith) 2
        calc D * M ^ 2 = M ^ 2 * D := mul_comm _ _
          _ ≤ (1 - s.beta1) ^ 2 * V := hle
          _ ≤ (1 - s.beta1 ^ (t + 1)) ^ 2 * V := mul_le_mul_of_nonneg_right hle2 hv0
          _ = V * (1 - s.beta1 ^ (t + 1)) ^ 2 := mul_comm _ _)
    rw [show invertSqrt (1 / (1 - s.beta2 ^ (t + 1)) * V) * M * (s.lr / (1 - s.beta1 ^ (t + 1))) =
      invertSqrt (1 / (1 - s.beta2 ^ (t + 1)) * V) * (M / (1 - s.beta1 ^ (t + 1))) * s.lr by ring]
    exact this

/-- Non-vacuity: two tensors of sizes 2 and 1, updated in turn; the default constants. -/
example : (∀ k, ∃ p, VecIs ((fun k => if k = 7 then Buf.of [(1 : ℝ), 2] else Buf.of [3]) k) ((fun k => if k = 7 then 2 else 1) k) p) ∧
    (∀ o ∈ [(7, Buf.of [(1 : ℝ), -2]), (8, Buf.of [5])] ++ [(7, Buf.of [0, 3])], ∃ g,
      VecIs o.2 ((fun k => if k = 7 then 2 else 1) o.1) g ∧ ∀ i, i < (fun k => if k = 7 then 2 else 1) o.1 → |g i| ≤ 5) ∧
    ((0.9 : ℝ) ^ 2 < 0.999) := by
  have v2 : ∀ a b : ℝ, VecIs (Buf.of [a, b]) 2 (fun i => [a, b].getD i 0) := fun a b => VecIs_of _ _ (fun i hi => by
    rcases i with _ | _ | i
    · rfl
    · rfl
    · simp at hi)
  have v1 : ∀ a : ℝ, VecIs (Buf.of [a]) 1 (fun i => [a].getD i 0) := fun a => VecIs_of _ _ (fun i hi => by
    rcases i with _ | i
    · rfl
    · simp at hi)
  refine ⟨fun k => ?_, fun o ho => ?_, by norm_num⟩
  · by_cases hk : k = 7
    · simp only [hk, if_true]; exact ⟨_, v2 _ _⟩
    · simp only [if_neg hk]; exact ⟨_, v1 _⟩
  · simp only [List.cons_append, List.nil_append, List.mem_cons, List.not_mem_nil, or_false] at ho
    rcases ho with rfl | rfl | rfl
    · refine ⟨_, v2 _ _, fun i hi => ?_⟩
      have : i = 0 ∨ i = 1 := by simp at hi; omega
      rcases this with rfl | rfl <;> norm_num
    · refine ⟨_, v1 _, fun i hi => ?_⟩
      have : i = 0 := by simp at hi; omega
      subst this; norm_num
    · refine ⟨_, v2 _ _, fun i hi => ?_⟩
      have : i = 0 ∨ i = 1 := by simp at hi; omega
      rcases this with rfl | rfl <;> norm_num

end Trixy
