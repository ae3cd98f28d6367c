import Verif.Proof.Optim
import Verif.Spec.Optim
import Mathlib.Tactic.Ring
import Mathlib.Tactic.FieldSimp
import Mathlib.Tactic.Linarith
import Mathlib.Tactic.Positivity
/- Properties C44–C48, C66. -/
namespace Trixy
open Finset

variable {α : Type _}

/-- A sequence of updates of one tensor. -/
theorem runUpd_single {σ : Type _} {upd : Upd σ α} {k : Nat} (gs : List (Buf α)) : ∀ {s : σ} {P : Nat → Buf α}
    (Q : Nat → σ → Buf α → Prop), Q 0 s (P k) →
    (∀ t (h : t < gs.length) s p, Q t s p → Ok (upd s k p gs[t]) (fun r => Q (t + 1) r.1 r.2.1)) →
    Ok (runUpd upd s P (gs.map (fun g => (k, g)))) (fun r => Q gs.length r.1 (r.2 k)) := by
  induction gs with
  | nil => intro s P Q h0 _; exact Ok_ok.2 h0
  | cons g gs ih =>
    intro s P Q h0 hs
    rw [List.map_cons]
    unfold runUpd
    refine (hs 0 (by simp) s (P k) h0).bind (fun r hr => ?_)
    have := ih (s := r.1) (P := fun k' => if k' = k then r.2.1 else P k') (fun t => Q (t + 1)) (by simpa using hr)
      (fun t h s p hq => hs (t + 1) (by simpa using h) s p hq)
    exact this

/-! ## C44 gradient descent -/

/-- `GradDescent::update(p, g)`: `p ← p - lr·g`, `g ← lr·g`, for any commutative element arithmetic; the optimizer
state (learning rate) is unchanged, whatever the address. -/
theorem C44_gd [CommRing α] (lr : α) (k n : Nat) (P G : Buf α) (p g : Nat → α) (hp : VecIs P n p) (hg : VecIs G n g) :
    Ok (gdUpdate lr k P G) (fun r => r.1 = lr ∧ VecIs r.2.1 n (fun i => p i - lr * g i) ∧
      VecIs r.2.2 n (fun i => lr * g i)) :=
  (gd_spec hp hg).mono (fun _ h => ⟨h.1, h.2.1.congr (fun i _ => by rw [mul_comm]), h.2.2.congr (fun i _ => by rw [mul_comm])⟩)

/-- `StoGradDescent(lr0, decay)` with the learning rate later set to `lr`. -/
theorem C44_sgd [CommRing α] (lr0 decay lr : α) (k n : Nat) (P G : Buf α) (p g : Nat → α) (hp : VecIs P n p) (hg : VecIs G n g) :
    Ok (sgdUpdate { Sgd.make lr0 decay with lr := lr } k P G) (fun r => r.1 = { Sgd.make lr0 decay with lr := lr } ∧
      VecIs r.2.1 n (fun i => (1 - lr0 * decay) * p i - lr * g i) ∧ VecIs r.2.2 n (fun i => lr * g i)) :=
  (sgd_spec hp hg).mono (fun _ h => ⟨h.1, h.2.1.congr (fun i _ => by simp only [Sgd.make]; ring),
    h.2.2.congr (fun i _ => by rw [mul_comm])⟩)

/-- A whole sequence of gradient descent steps. -/
theorem C44_gd_sequence [CommRing α] (lr : α) (k n : Nat) (P : Nat → Buf α) (p : Nat → α) (gs : List (Buf α))
    (g : Nat → Nat → α) (hp : VecIs (P k) n p) (hg : Grads gs n g) :
    Ok (runUpd gdUpdate lr P (gs.map (fun G => (k, G)))) (fun r =>
      VecIs (r.2 k) n (fun i => p i - lr * ∑ τ ∈ range gs.length, g τ i)) := by
  refine (runUpd_single gs (fun t s b => s = lr ∧ VecIs b n (fun i => p i - lr * ∑ τ ∈ range t, g τ i)) ?_ ?_).mono
    (fun r h => h.2)
  · exact ⟨rfl, hp.congr (fun i _ => by simp)⟩
  · rintro t ht s b ⟨rfl, hb⟩
    refine (C44_gd s k n b _ _ _ hb (hg t ht)).mono (fun r hr => ⟨hr.1, hr.2.1.congr (fun i _ => ?_)⟩)
    rw [sum_range_succ]; ring

example : gdUpdate (2 : Int) 0 (Buf.of [10, 20]) (Buf.of [1, 3]) = .ok (2, Buf.of [8, 14], Buf.of [2, 6]) := by decide

/-! ## C45 isolation -/

/-- The claim for one optimizer: in every interleaving of updates the parameter at address `k` ends up exactly as when
only its own updates are performed with an optimizer of its own. -/
def Isolated {σ : Type _} (upd : Upd σ α) (fresh : σ) : Prop :=
  ∀ (k : Nat) (ops : List (Nat × Buf α)) (P Q : Nat → Buf α) (r : σ × (Nat → Buf α)), P k = Q k →
    runUpd upd fresh P ops = .ok r →
    ∃ r', runUpd upd fresh Q (ops.filter (fun o => o.1 == k)) = .ok r' ∧ r'.2 k = r.2 k

/-- … and no update fails if gradients and parameters have matching sizes. -/
def AlwaysOk {σ : Type _} (upd : Upd σ α) (fresh : σ) : Prop :=
  ∀ (size : Nat → Nat) (P : Nat → Buf α) (ops : List (Nat × Buf α)),
    (∀ k, ∃ p, VecIs (P k) (size k) p) → (∀ o ∈ ops, ∃ g, VecIs o.2 (size o.1) g) →
    ∃ r, runUpd upd fresh P ops = .ok r

theorem alwaysOk_of {σ : Type _} {upd : Upd σ α} {fresh : σ} (Inv : (Nat → Nat) → σ → Prop)
    (h0 : ∀ size, Inv size fresh)
    (hs : ∀ size s k P G p g, Inv size s → VecIs P (size k) p → VecIs G (size k) g →
      Ok (upd s k P G) (fun r => Inv size r.1 ∧ ∃ p', VecIs r.2.1 (size k) p')) : AlwaysOk upd fresh := by
  intro size P ops
  have : ∀ (ops : List (Nat × Buf α)) (s : σ) (P : Nat → Buf α), Inv size s →
      (∀ k, ∃ p, VecIs (P k) (size k) p) → (∀ o ∈ ops, ∃ g, VecIs o.2 (size o.1) g) →
      ∃ r, runUpd upd s P ops = .ok r := by
    intro ops
    induction ops with
    | nil => intro s P _ _ _; exact ⟨_, rfl⟩
    | cons o ops ih =>
      obtain ⟨k, G⟩ := o
      intro s P hI hP hg
      obtain ⟨p, hp⟩ := hP k
      obtain ⟨g, hg'⟩ := hg (k, G) (by simp)
      obtain ⟨r, e, hr, p', hp'⟩ := hs size s k (P k) G p g hI hp hg'
      unfold runUpd
      rw [e, bind_ok]
      refine ih _ _ hr (fun k' => ?_) (fun o ho => hg o (by simp [ho]))
      by_cases hk : k' = k
      · subst hk; exact ⟨p', by simpa using hp'⟩
      · simpa [hk] using hP k'
  exact this ops fresh P (h0 size)

/-- Table entries have the size of their tensor. -/
def TabOk [Zero α] (size : Nat → Nat) (t : Table α) : Prop := ∀ k, ∃ v, VecIs (t.get k (size k)) (size k) v

theorem TabOk.empty [Zero α] (size : Nat → Nat) : TabOk size (fun _ => none : Table α) :=
  fun k => ⟨_, Table.get_empty k _⟩

theorem TabOk.of [Zero α] {size : Nat → Nat} {t t' : Table α} (h : TabOk size t) {k : Nat}
    (hk : ∃ v, VecIs (t'.get k (size k)) (size k) v) (ho : ∀ k', k' ≠ k → t' k' = t k') : TabOk size t' := by
  intro k'
  by_cases e : k' = k
  · subst e; exact hk
  · rw [getTab_congr (ho k' e)]; exact h k'

/-- Invariant of the table optimizers: every table entry has the size of its tensor. -/
def MomOk [Zero α] (size : Nat → Nat) (s : Mom α) : Prop :=
  (∀ k, (s.buff.get k (size k)).length = size k) ∧ TabOk size s.opt
def AdaOk [Zero α] (size : Nat → Nat) (s : Ada α) : Prop :=
  (∀ k, (s.buff.get k (size k)).length = size k) ∧ TabOk size s.opt

theorem len_of [Zero α] {size : Nat → Nat} {t t' : Table α} (h : ∀ k, (t.get k (size k)).length = size k) {k : Nat}
    (hk : (t'.get k (size k)).length = size k) (ho : ∀ k', k' ≠ k → t' k' = t k') :
    ∀ k, (t'.get k (size k)).length = size k := by
  intro k'
  by_cases e : k' = k
  · subst e; exact hk
  · rw [getTab_congr (ho k' e)]; exact h k'

/-- C45 for Momentum. -/
theorem C45_momentum [Zero α] [Add α] [Mul α] [Sub α] (lr mu : α) :
    Isolated momUpdate (Mom.make lr mu) ∧ AlwaysOk momUpdate (Mom.make lr mu) := by
  refine ⟨fun k ops P Q r hP h => ?_, alwaysOk_of MomOk (fun size => ⟨fun k => (Table.get_empty k _).length, TabOk.empty _⟩) ?_⟩
  · obtain ⟨r', h1, h2, _⟩ := local_run local_mom k ops _ (Mom.make lr mu) P Q r rfl hP h
    exact ⟨r', h1, h2⟩
  · intro size s k P G p g hI hp hg
    obtain ⟨v, hv⟩ := hI.2 k
    obtain ⟨r, e, _, _, h3, h4, h5, _⟩ := mom_spec hp hg (hI.1 k) hv
    have ho := local_mom.other s k P G r e
    simp only [Prod.mk.injEq] at ho
    exact ⟨r, e, ⟨len_of hI.1 h3 (fun k' hk' => (ho k' hk').1), hI.2.of ⟨_, h4⟩ (fun k' hk' => (ho k' hk').2.1)⟩, _, h5⟩

/-- C45 for Nestorov. -/
theorem C45_nestorov [Zero α] [Add α] [Mul α] [Sub α] (lr mu : α) :
    Isolated nesUpdate (Mom.make lr mu) ∧ AlwaysOk nesUpdate (Mom.make lr mu) := by
  refine ⟨fun k ops P Q r hP h => ?_, alwaysOk_of MomOk (fun size => ⟨fun k => (Table.get_empty k _).length, TabOk.empty _⟩) ?_⟩
  · obtain ⟨r', h1, h2, _⟩ := local_run local_nes k ops _ (Mom.make lr mu) P Q r rfl hP h
    exact ⟨r', h1, h2⟩
  · intro size s k P G p g hI hp hg
    obtain ⟨v, hv⟩ := hI.2 k
    obtain ⟨r, e, _, _, h3, h4, h5, _⟩ := nes_spec hp hg (hI.1 k) hv
    have ho := local_nes.other s k P G r e
    simp only [Prod.mk.injEq] at ho
    exact ⟨r, e, ⟨len_of hI.1 h3 (fun k' hk' => (ho k' hk').1), hI.2.of ⟨_, h4⟩ (fun k' hk' => (ho k' hk').2.1)⟩, _, h5⟩

/-- C45 for AdaGrad. -/
theorem C45_adagrad [Zero α] [One α] [Add α] [Mul α] [Sub α] (isq : α → α) (lr beta : α) :
    Isolated (adagradUpdate isq) (Ada.make lr beta) ∧ AlwaysOk (adagradUpdate isq) (Ada.make lr beta) := by
  refine ⟨fun k ops P Q r hP h => ?_, alwaysOk_of AdaOk (fun size => ⟨fun k => (Table.get_empty k _).length, TabOk.empty _⟩) ?_⟩
  · obtain ⟨r', h1, h2, _⟩ := local_run (local_adagrad isq) k ops _ (Ada.make lr beta) P Q r rfl hP h
    exact ⟨r', h1, h2⟩
  · intro size s k P G p g hI hp hg
    obtain ⟨v, hv⟩ := hI.2 k
    obtain ⟨r, e, _, h3, h4, h5, _⟩ := adagrad_spec (isq := isq) hp hg (hI.1 k) hv
    have ho := (local_adagrad isq).other s k P G r e
    simp only [Prod.mk.injEq] at ho
    exact ⟨r, e, ⟨len_of hI.1 h3 (fun k' hk' => (ho k' hk').1), hI.2.of ⟨_, h4⟩ (fun k' hk' => (ho k' hk').2.1)⟩, _, h5⟩

/-- C45 for RMSProp. -/
theorem C45_rmsprop [Zero α] [One α] [Add α] [Mul α] [Sub α] (isq : α → α) (lr beta : α) :
    Isolated (rmspropUpdate isq) (Ada.make lr beta) ∧ AlwaysOk (rmspropUpdate isq) (Ada.make lr beta) := by
  refine ⟨fun k ops P Q r hP h => ?_, alwaysOk_of AdaOk (fun size => ⟨fun k => (Table.get_empty k _).length, TabOk.empty _⟩) ?_⟩
  · obtain ⟨r', h1, h2, _⟩ := local_run (local_rmsprop isq) k ops _ (Ada.make lr beta) P Q r rfl hP h
    exact ⟨r', h1, h2⟩
  · intro size s k P G p g hI hp hg
    obtain ⟨v, hv⟩ := hI.2 k
    obtain ⟨r, e, _, _, _, h3, h4, h5, _⟩ := rmsprop_spec (isq := isq) hp hg (hI.1 k) hv
    have ho := (local_rmsprop isq).other s k P G r e
    simp only [Prod.mk.injEq] at ho
    exact ⟨r, e, ⟨len_of hI.1 h3 (fun k' hk' => (ho k' hk').1), hI.2.of ⟨_, h4⟩ (fun k' hk' => (ho k' hk').2.1)⟩, _, h5⟩

/-- Non-vacuity: two tensors updated alternately. -/
example : ((runUpd momUpdate (Mom.make (1 : Int) 2) (fun _ => Buf.of [0]) [(7, Buf.of [1]), (8, Buf.of [5]), (7, Buf.of [1])]).toOption.map
    (fun r => (r.2 7, r.2 8))) = some (Buf.of [-4], Buf.of [-5]) := by decide

/-! ## C46 Momentum and Nestorov -/

theorem velocity_succ {K : Type _} [CommRing K] (lr mu : K) (g : Nat → Nat → K) (t i : Nat) :
    velocity lr mu g (t + 1) i = velocity lr mu g t i * mu - lr * g t i := by
  unfold velocity
  have : ∑ τ ∈ range (t + 1), mu ^ (t + 1 - 1 - τ) * g τ i = mu * ∑ τ ∈ range t, mu ^ (t - 1 - τ) * g τ i + g t i := by
    rw [sum_range_succ, mul_sum]
    congr 1
    · refine sum_congr rfl (fun τ hτ => ?_)
      have := mem_range.1 hτ
      rw [← mul_assoc, ← pow_succ', show t - 1 - τ + 1 = t + 1 - 1 - τ by omega]
    · simp
  rw [this]; ring

/-- After the gradients `g 0 … g (t-1)` the stored velocity is `-lr Σ μ^(t-1-τ) g_τ` and the parameter is the initial
value plus all velocities so far. -/
theorem C46_momentum {K : Type _} [CommRing K] (lr mu : K) (k n : Nat) (P : Nat → Buf K) (p : Nat → K) (gs : List (Buf K))
    (g : Nat → Nat → K) (hp : VecIs (P k) n p) (hg : Grads gs n g) :
    Ok (runUpd momUpdate (Mom.make lr mu) P (gs.map (fun G => (k, G)))) (fun r =>
      VecIs (r.1.opt.get k n) n (velocity lr mu g gs.length) ∧
      VecIs (r.2 k) n (fun i => p i + ∑ τ ∈ range gs.length, velocity lr mu g (τ + 1) i)) := by
  refine (runUpd_single gs (fun t s b => s.lr = lr ∧ s.mu = mu ∧ (s.buff.get k n).length = n ∧
    VecIs (s.opt.get k n) n (velocity lr mu g t) ∧
    VecIs b n (fun i => p i + ∑ τ ∈ range t, velocity lr mu g (τ + 1) i)) ?_ ?_).mono (fun r h => h.2.2.2)
  · exact ⟨rfl, rfl, (Table.get_empty k n).length, (Table.get_empty k n).congr (fun i _ => by simp [velocity]),
      hp.congr (fun i _ => by simp)⟩
  · rintro t ht s b ⟨rfl, rfl, h3, h4, h5⟩
    refine (mom_spec h5 (hg t ht) h3 h4).mono (fun r hr => ⟨hr.1, hr.2.1, hr.2.2.1, hr.2.2.2.1.congr (fun i _ => ?_),
      hr.2.2.2.2.1.congr (fun i _ => ?_)⟩)
    · rw [velocity_succ]
    · rw [sum_range_succ, velocity_succ]; ring

theorem C46_nestorov {K : Type _} [CommRing K] (lr mu : K) (k n : Nat) (P : Nat → Buf K) (p : Nat → K) (gs : List (Buf K))
    (g : Nat → Nat → K) (hp : VecIs (P k) n p) (hg : Grads gs n g) :
    Ok (runUpd nesUpdate (Mom.make lr mu) P (gs.map (fun G => (k, G)))) (fun r =>
      VecIs (r.1.opt.get k n) n (velocity lr mu g gs.length) ∧
      VecIs (r.2 k) n (fun i => p i + ∑ τ ∈ range gs.length, (mu * velocity lr mu g (τ + 1) i - lr * g τ i))) := by
  refine (runUpd_single gs (fun t s b => s.lr = lr ∧ s.mu = mu ∧ (s.buff.get k n).length = n ∧
    VecIs (s.opt.get k n) n (velocity lr mu g t) ∧
    VecIs b n (fun i => p i + ∑ τ ∈ range t, (mu * velocity lr mu g (τ + 1) i - lr * g τ i))) ?_ ?_).mono (fun r h => h.2.2.2)
  · exact ⟨rfl, rfl, (Table.get_empty k n).length, (Table.get_empty k n).congr (fun i _ => by simp [velocity]),
      hp.congr (fun i _ => by simp)⟩
  · rintro t ht s b ⟨rfl, rfl, h3, h4, h5⟩
    refine (nes_spec h5 (hg t ht) h3 h4).mono (fun r hr => ⟨hr.1, hr.2.1, hr.2.2.1, hr.2.2.2.1.congr (fun i _ => ?_),
      hr.2.2.2.2.1.congr (fun i _ => ?_)⟩)
    · rw [velocity_succ]
    · rw [sum_range_succ, velocity_succ]; ring

/-- Non-vacuity of `Grads`. -/
example : Grads [Buf.of [(1 : Int)], Buf.of [5]] 1 (fun t _ => if t = 0 then 1 else 5) := by
  intro t h
  have : t = 0 ∨ t = 1 := by simp at h; omega
  rcases this with rfl | rfl <;> exact ⟨rfl, fun i hi => by (have : i = 0 := by omega); subst this; rfl⟩

/-! ## C47 AdaGrad and RMSProp -/

theorem C47_adagrad (lr : ℝ) (k n : Nat) (P : Nat → Buf ℝ) (p : Nat → ℝ) (gs : List (Buf ℝ))
    (g : Nat → Nat → ℝ) (hp : VecIs (P k) n p) (hg : Grads gs n g) (beta : ℝ) :
    Ok (runUpd (adagradUpdate invertSqrt) (Ada.make lr beta) P (gs.map (fun G => (k, G)))) (fun r =>
      VecIs (r.1.opt.get k n) n (sumSq g gs.length) ∧
      VecIs (r.2 k) n (fun i => p i - ∑ τ ∈ range gs.length, lr * g τ i / Real.sqrt (1e-9 + sumSq g (τ + 1) i))) := by
  refine (runUpd_single gs (fun t s b => s.lr = lr ∧ (s.buff.get k n).length = n ∧
    VecIs (s.opt.get k n) n (sumSq g t) ∧
    VecIs b n (fun i => p i - ∑ τ ∈ range t, lr * g τ i / Real.sqrt (1e-9 + sumSq g (τ + 1) i))) ?_ ?_).mono (fun r h => h.2.2)
  · exact ⟨rfl, (Table.get_empty k n).length, (Table.get_empty k n).congr (fun i _ => by simp [sumSq]),
      hp.congr (fun i _ => by simp)⟩
  · rintro t ht s b ⟨rfl, h3, h4, h5⟩
    have hsq : ∀ i, sumSq g (t + 1) i = sumSq g t i + g t i * g t i := fun i => by
      unfold sumSq; rw [sum_range_succ]; ring
    refine (adagrad_spec h5 (hg t ht) h3 h4).mono (fun r hr => ⟨hr.1, hr.2.1, hr.2.2.1.congr (fun i _ => ?_),
      hr.2.2.2.1.congr (fun i _ => ?_)⟩)
    · rw [hsq]
    · rw [sum_range_succ, hsq, invertSqrt]; ring

/-- The argument of the inverse square root is positive and each AdaGrad step is at most `|lr|`. -/
theorem C47_adagrad_bound (lr : ℝ) (g : Nat → Nat → ℝ) (t i : Nat) :
    0 < 1e-9 + sumSq g (t + 1) i ∧ |lr * g t i / Real.sqrt (1e-9 + sumSq g (t + 1) i)| ≤ |lr| := by
  have h0 : 0 ≤ sumSq g t i := sum_nonneg (fun _ _ => sq_nonneg _)
  have hs : sumSq g (t + 1) i = sumSq g t i + g t i ^ 2 := by unfold sumSq; rw [sum_range_succ]
  have hpos : (0 : ℝ) < 1e-9 + sumSq g (t + 1) i := by rw [hs]; have := sq_nonneg (g t i); norm_num; linarith
  refine ⟨hpos, ?_⟩
  have hle : |g t i| ≤ Real.sqrt (1e-9 + sumSq g (t + 1) i) := by
    rw [← Real.sqrt_sq_eq_abs]
    apply Real.sqrt_le_sqrt
    rw [hs]; norm_num; linarith
  rw [abs_div, abs_mul, abs_of_pos (Real.sqrt_pos.2 hpos), div_le_iff₀ (Real.sqrt_pos.2 hpos)]
  exact mul_le_mul_of_nonneg_left hle (abs_nonneg _)

theorem ewma_succ (beta : ℝ) (x : Nat → ℝ) (t : Nat) : ewma beta x (t + 1) = ewma beta x t * beta + (1 - beta) * x t := by
  unfold ewma
  have : ∑ τ ∈ range (t + 1), beta ^ (t + 1 - 1 - τ) * x τ = beta * ∑ τ ∈ range t, beta ^ (t - 1 - τ) * x τ + x t := by
    rw [sum_range_succ, mul_sum]
    congr 1
    · refine sum_congr rfl (fun τ hτ => ?_)
      have := mem_range.1 hτ
      rw [← mul_assoc, ← pow_succ', show t - 1 - τ + 1 = t + 1 - 1 - τ by omega]
    · simp
  rw [this]; ring

theorem ewma_nonneg {beta : ℝ} (h0 : 0 ≤ beta) (h1 : beta ≤ 1) {x : Nat → ℝ} (hx : ∀ t, 0 ≤ x t) (t : Nat) :
    0 ≤ ewma beta x t :=
  mul_nonneg (by linarith) (sum_nonneg (fun τ _ => mul_nonneg (pow_nonneg h0 _) (hx τ)))

theorem C47_rmsprop (lr beta : ℝ) (k n : Nat) (P : Nat → Buf ℝ) (p : Nat → ℝ) (gs : List (Buf ℝ))
    (g : Nat → Nat → ℝ) (hp : VecIs (P k) n p) (hg : Grads gs n g) :
    Ok (runUpd (rmspropUpdate invertSqrt) (Ada.make lr beta) P (gs.map (fun G => (k, G)))) (fun r =>
      VecIs (r.1.opt.get k n) n (fun i => ewma beta (fun τ => g τ i ^ 2) gs.length) ∧
      VecIs (r.2 k) n (fun i => p i - ∑ τ ∈ range gs.length,
        lr * g τ i / Real.sqrt (1e-9 + ewma beta (fun τ => g τ i ^ 2) (τ + 1)))) := by
  refine (runUpd_single gs (fun t s b => s.lr = lr ∧ s.beta = beta ∧ s.rbeta = 1 - beta ∧ (s.buff.get k n).length = n ∧
    VecIs (s.opt.get k n) n (fun i => ewma beta (fun τ => g τ i ^ 2) t) ∧
    VecIs b n (fun i => p i - ∑ τ ∈ range t, lr * g τ i / Real.sqrt (1e-9 + ewma beta (fun τ => g τ i ^ 2) (τ + 1)))) ?_ ?_).mono
      (fun r h => h.2.2.2.2)
  · exact ⟨rfl, rfl, rfl, (Table.get_empty k n).length, (Table.get_empty k n).congr (fun i _ => by simp [ewma]),
      hp.congr (fun i _ => by simp)⟩
  · rintro t ht s b ⟨rfl, rfl, h2, h3, h4, h5⟩
    refine (rmsprop_spec h5 (hg t ht) h3 h4).mono (fun r hr => ⟨hr.1, hr.2.1, hr.2.2.1.trans h2, hr.2.2.2.1,
      hr.2.2.2.2.1.congr (fun i _ => ?_), hr.2.2.2.2.2.1.congr (fun i _ => ?_)⟩)
    · rw [ewma_succ, h2]; ring
    · rw [sum_range_succ, ewma_succ, invertSqrt, h2,
        show ewma s.beta (fun τ => g τ i ^ 2) t * s.beta + g t i * g t i * (1 - s.beta) =
          ewma s.beta (fun τ => g τ i ^ 2) t * s.beta + (1 - s.beta) * g t i ^ 2 by ring]
      ring

/-- RMSProp never takes the square root of a non-positive number. -/
theorem C47_rmsprop_positive (beta : ℝ) (h0 : 0 ≤ beta) (h1 : beta ≤ 1) (g : Nat → Nat → ℝ) (t i : Nat) :
    0 < 1e-9 + ewma beta (fun τ => g τ i ^ 2) t := by
  have := ewma_nonneg h0 h1 (x := fun τ => g τ i ^ 2) (fun _ => sq_nonneg _) t
  norm_num; linarith

/-! ## C48 Adam -/

/-- Adam with a single parameter tensor: the moments are exponentially weighted averages and the `t`-th step
(counting from 1) uses the bias corrections `1-β₁^t`, `1-β₂^t`. -/
theorem C48_adam_partial (lr b1 b2 : ℝ) (k n : Nat) (P : Nat → Buf ℝ) (p : Nat → ℝ) (gs : List (Buf ℝ))
    (g : Nat → Nat → ℝ) (hp : VecIs (P k) n p) (hg : Grads gs n g) (h1 : 0 ≤ b1) (h1' : b1 < 1) (h2 : 0 ≤ b2) (h2' : b2 < 1) :
    Ok (runUpd (adamUpdate invertSqrt) (AdamS.make lr b1 b2) P (gs.map (fun G => (k, G)))) (fun r =>
      VecIs (r.1.m.get k n) n (fun i => ewma b1 (fun τ => g τ i) gs.length) ∧
      VecIs (r.1.s.get k n) n (fun i => ewma b2 (fun τ => g τ i ^ 2) gs.length) ∧
      VecIs (r.2 k) n (fun i => p i - ∑ τ ∈ range gs.length,
        lr * (ewma b1 (fun τ => g τ i) (τ + 1) / (1 - b1 ^ (τ + 1))) /
          Real.sqrt (1e-9 + ewma b2 (fun τ => g τ i ^ 2) (τ + 1) / (1 - b2 ^ (τ + 1))))) := by
  refine (runUpd_single gs (fun t s b => s.lr = lr ∧ s.beta1 = b1 ∧ s.beta2 = b2 ∧ s.rbeta1 = 1 - b1 ∧ s.rbeta2 = 1 - b2 ∧
    s.tbeta1 = b1 ^ t ∧ s.tbeta2 = b2 ^ t ∧ (s.buff.get k n).length = n ∧
    VecIs (s.m.get k n) n (fun i => ewma b1 (fun τ => g τ i) t) ∧
    VecIs (s.s.get k n) n (fun i => ewma b2 (fun τ => g τ i ^ 2) t) ∧
    VecIs b n (fun i => p i - ∑ τ ∈ range t, lr * (ewma b1 (fun τ => g τ i) (τ + 1) / (1 - b1 ^ (τ + 1))) /
          Real.sqrt (1e-9 + ewma b2 (fun τ => g τ i ^ 2) (τ + 1) / (1 - b2 ^ (τ + 1))))) ?_ ?_).mono
      (fun r h => h.2.2.2.2.2.2.2.2)
  · exact ⟨rfl, rfl, rfl, rfl, rfl, by simp [AdamS.make], by simp [AdamS.make], (Table.get_empty k n).length,
      (Table.get_empty k n).congr (fun i _ => by simp [ewma]), (Table.get_empty k n).congr (fun i _ => by simp [ewma]),
      hp.congr (fun i _ => by simp)⟩
  · rintro t ht s b ⟨rfl, rfl, rfl, hr1, hr2, ht1, ht2, h3, h4, h5, h6⟩
    have e1 : s.tbeta1 * s.beta1 = s.beta1 ^ (t + 1) := by rw [ht1, pow_succ]
    have e2 : s.tbeta2 * s.beta2 = s.beta2 ^ (t + 1) := by rw [ht2, pow_succ]
    have l1 : s.beta1 ^ (t + 1) < 1 := pow_lt_one₀ h1 h1' (by omega)
    have l2 : s.beta2 ^ (t + 1) < 1 := pow_lt_one₀ h2 h2' (by omega)
    refine (adam_spec h6 (hg t ht) h3 h4 h5 (by rw [e1]; linarith) (by rw [e2]; linarith)).mono (fun r hr => ?_)
    obtain ⟨q1, q2, q3, q4, q5, q6, q7, _, q8, q9, q10, q11, _⟩ := hr
    refine ⟨q1, q2, q3, q4.trans hr1, q5.trans hr2, q6.trans e1, q7.trans e2, q8, q9.congr (fun i _ => ?_),
      q10.congr (fun i _ => ?_), q11.congr (fun i _ => ?_)⟩
    · rw [ewma_succ, hr1]
    · rw [ewma_succ, hr2]; ring
    · rw [sum_range_succ, e1, e2, hr1, hr2, invertSqrt,
        show ewma s.beta2 (fun τ => g τ i ^ 2) t * s.beta2 + g t i * g t i * (1 - s.beta2) =
          ewma s.beta2 (fun τ => g τ i ^ 2) (t + 1) by rw [ewma_succ]; ring,
        show ewma s.beta1 (fun τ => g τ i) t * s.beta1 + (1 - s.beta1) * g t i = ewma s.beta1 (fun τ => g τ i) (t + 1) by
          rw [ewma_succ]]
      rw [one_div_mul_eq_div]
      ring

/-- First update of the tensor at `k` after `others` (updates of tensors at other addresses): the bias corrections
use the total number of update calls. -/
theorem C48_adam_counts_all_calls (lr b1 b2 : ℝ) (h1 : 0 ≤ b1) (h1' : b1 < 1) (h2 : 0 ≤ b2) (h2' : b2 < 1)
    (k : Nat) (size : Nat → Nat) (others : List (Nat × Buf ℝ)) (hk : ∀ o ∈ others, o.1 ≠ k) (P : Nat → Buf ℝ)
    (hP : ∀ k', ∃ p, VecIs (P k') (size k') p) (ho : ∀ o ∈ others, ∃ g, VecIs o.2 (size o.1) g)
    (p g : Nat → ℝ) (G : Buf ℝ) (hp : VecIs (P k) (size k) p) (hg : VecIs G (size k) g) :
    Ok (runUpd (adamUpdate invertSqrt) (AdamS.make lr b1 b2) P (others ++ [(k, G)])) (fun r =>
      VecIs (r.2 k) (size k) (fun i => p i -
        lr * ((1 - b1) * g i / (1 - b1 ^ (others.length + 1))) /
          Real.sqrt (1e-9 + (1 - b2) * g i ^ 2 / (1 - b2 ^ (others.length + 1))))) := by
  have gen : ∀ (others : List (Nat × Buf ℝ)) (c : Nat) (st : AdamS ℝ) (P : Nat → Buf ℝ), (∀ o ∈ others, o.1 ≠ k) →
      (∀ k', ∃ p, VecIs (P k') (size k') p) → (∀ o ∈ others, ∃ g, VecIs o.2 (size o.1) g) → VecIs (P k) (size k) p →
      st.lr = lr → st.beta1 = b1 → st.beta2 = b2 → st.rbeta1 = 1 - b1 → st.rbeta2 = 1 - b2 →
      st.tbeta1 = b1 ^ c → st.tbeta2 = b2 ^ c → (∀ k, (st.buff.get k (size k)).length = size k) →
      TabOk size st.m → TabOk size st.s → st.m k = none → st.s k = none →
      Ok (runUpd (adamUpdate invertSqrt) st P (others ++ [(k, G)])) (fun r =>
      VecIs (r.2 k) (size k) (fun i => p i -
        lr * ((1 - b1) * g i / (1 - b1 ^ (c + others.length + 1))) /
          Real.sqrt (1e-9 + (1 - b2) * g i ^ 2 / (1 - b2 ^ (c + others.length + 1))))) := by
    intro others
    induction others with
    | nil =>
      intro c st P _ _ _ hp e1 e2 e3 e4 e5 e6 e7 hb _ _ hm hs
      have l1 : b1 ^ (c + 1) < 1 := pow_lt_one₀ h1 h1' (by omega)
      have l2 : b2 ^ (c + 1) < 1 := pow_lt_one₀ h2 h2' (by omega)
      have t1 : st.tbeta1 * st.beta1 = b1 ^ (c + 1) := by rw [e6, e2, pow_succ]
      have t2 : st.tbeta2 * st.beta2 = b2 ^ (c + 1) := by rw [e7, e3, pow_succ]
      have hm0 : VecIs (st.m.get k (size k)) (size k) (fun _ => 0) := by
        unfold Table.get; rw [hm]; exact VecIs_filled _ _
      have hs0 : VecIs (st.s.get k (size k)) (size k) (fun _ => 0) := by
        unfold Table.get; rw [hs]; exact VecIs_filled _ _
      rw [List.nil_append]
      unfold runUpd
      refine (adam_spec (isq := invertSqrt) hp hg (hb k) hm0 hs0 (by rw [t1]; linarith) (by rw [t2]; linarith)).bind (fun r hr => ?_)
      unfold runUpd
      obtain ⟨_, _, _, _, _, _, _, _, _, _, _, q11, _⟩ := hr
      refine Ok_ok.2 ?_
      simp only [if_true]
      refine q11.congr (fun i _ => ?_)
      rw [t1, t2, e1, e4, e5, invertSqrt, List.length_nil, Nat.add_zero, one_div_mul_eq_div,
        show 0 * st.beta2 + g i * g i * (1 - b2) = (1 - b2) * g i ^ 2 by ring]
      ring
    | cons o others ih =>
      obtain ⟨k0, G0⟩ := o
      intro c st P hk hP ho hp e1 e2 e3 e4 e5 e6 e7 hb hM hS hm hs
      have hk0 : k0 ≠ k := hk (k0, G0) (by simp)
      obtain ⟨p0, hp0⟩ := hP k0
      obtain ⟨g0, hg0⟩ := ho (k0, G0) (by simp)
      obtain ⟨m0, hm0⟩ := hM k0
      obtain ⟨s0, hs0⟩ := hS k0
      have l1 : b1 ^ (c + 1) < 1 := pow_lt_one₀ h1 h1' (by omega)
      have l2 : b2 ^ (c + 1) < 1 := pow_lt_one₀ h2 h2' (by omega)
      have t1 : st.tbeta1 * st.beta1 = b1 ^ (c + 1) := by rw [e6, e2, pow_succ]
      have t2 : st.tbeta2 * st.beta2 = b2 ^ (c + 1) := by rw [e7, e3, pow_succ]
      rw [List.cons_append]
      unfold runUpd
      refine (adam_spec (isq := invertSqrt) hp0 hg0 (hb k0) hm0 hs0 (by rw [t1]; linarith) (by rw [t2]; linarith)).bind (fun r hr => ?_)
      obtain ⟨q1, q2, q3, q4, q5, q6, q7, qo, q8, q9, q10, q11, _⟩ := hr
      have := ih (c + 1) r.1 (fun k' => if k' = k0 then r.2.1 else P k') (fun o h => hk o (by simp [h])) (fun k' => by
          by_cases e : k' = k0
          · subst e; simp only [if_true]; exact ⟨_, q11⟩
          · simp only [if_neg e]; exact hP k') (fun o h => ho o (by simp [h]))
        (by simp only [if_neg hk0.symm]; exact hp)
        (q1.trans e1) (q2.trans e2) (q3.trans e3) (q4.trans e4) (q5.trans e5) (q6.trans t1) (q7.trans t2)
        (len_of hb q8 (fun k' h => (qo k' h).1)) (hM.of ⟨_, q9⟩ (fun k' h => (qo k' h).2.1))
        (hS.of ⟨_, q10⟩ (fun k' h => (qo k' h).2.2)) ((qo k hk0.symm).2.1.trans hm) ((qo k hk0.symm).2.2.trans hs)
      rw [show c + (((k0, G0) :: others).length) + 1 = c + 1 + others.length + 1 by simp; omega]
      exact this
  have := gen others 0 (AdamS.make lr b1 b2) P hk hP ho hp rfl rfl rfl rfl rfl (by simp [AdamS.make]) (by simp [AdamS.make])
    (fun k => (Table.get_empty k _).length) (TabOk.empty _) (TabOk.empty _) rfl rfl
  simpa using this

/-- The value C48 demands for the first update of a parameter. -/
noncomputable def adamFirst (lr p g : ℝ) : ℝ := p - lr * g / Real.sqrt (1e-9 + g ^ 2)

/-- Violation: after at least one update of another tensor, the first update of a tensor differs from the demanded
value in every component with a non-zero gradient (for all decay rates with `(1-β₁)²(1-β₂^N) ≤ (1-β₂)(1-β₁^N)²`,
`N` the number of calls; the defaults 0.9 and 0.999 satisfy this for `N = 2`). -/
theorem C48_adam_violated (lr b1 b2 : ℝ) (hlr : lr ≠ 0) (h1 : 0 < b1) (h1' : b1 < 1) (h2 : 0 ≤ b2) (h2' : b2 < 1)
    (k : Nat) (size : Nat → Nat) (others : List (Nat × Buf ℝ)) (hk : ∀ o ∈ others, o.1 ≠ k) (hne : others ≠ [])
    (hb : (1 - b1) ^ 2 * (1 - b2 ^ (others.length + 1)) ≤ (1 - b2) * (1 - b1 ^ (others.length + 1)) ^ 2) (P : Nat → Buf ℝ)
    (hP : ∀ k', ∃ p, VecIs (P k') (size k') p) (ho : ∀ o ∈ others, ∃ g, VecIs o.2 (size o.1) g)
    (p g : Nat → ℝ) (G : Buf ℝ) (hp : VecIs (P k) (size k) p) (hg : VecIs G (size k) g) :
    Ok (runUpd (adamUpdate invertSqrt) (AdamS.make lr b1 b2) P (others ++ [(k, G)])) (fun r =>
      ∀ q, VecIs (r.2 k) (size k) q → ∀ i, i < size k → g i ≠ 0 → q i ≠ adamFirst lr (p i) (g i)) := by
  refine (C48_adam_counts_all_calls lr b1 b2 h1.le h1' h2 h2' k size others hk P hP ho p g G hp hg).mono
    (fun r hr q hq i hi hgi he => ?_)
  rw [(hq.unique hr).2 i hi] at he
  have hN : 1 ≤ others.length := List.length_pos_iff.2 hne
  have l1 : b1 ^ (others.length + 1) < b1 := by
    calc b1 ^ (others.length + 1) < b1 ^ 1 := pow_lt_pow_right_of_lt_one₀ h1 h1' (by omega)
      _ = b1 := pow_one _
  have l2 : b2 ^ (others.length + 1) < 1 := pow_lt_one₀ h2 h2' (by omega)
  generalize b1 ^ (others.length + 1) = B1 at *
  generalize b2 ^ (others.length + 1) = B2 at *
  unfold adamFirst at he
  have hB1 : 0 < 1 - B1 := by linarith
  have hB2 : 0 < 1 - B2 := by linarith
  have hg2 : 0 < g i ^ 2 := by positivity
  have hX : (0 : ℝ) < 1e-9 + (1 - b2) * g i ^ 2 / (1 - B2) := by
    have : 0 < (1 - b2) * g i ^ 2 / (1 - B2) := div_pos (mul_pos (by linarith) hg2) hB2
    norm_num; linarith
  have hY : (0 : ℝ) < 1e-9 + g i ^ 2 := by norm_num; linarith
  have sX := Real.sqrt_pos.2 hX
  have sY := Real.sqrt_pos.2 hY
  have e1 : (1 - b1) * Real.sqrt (1e-9 + g i ^ 2) = (1 - B1) * Real.sqrt (1e-9 + (1 - b2) * g i ^ 2 / (1 - B2)) := by
    have e2 : lr * ((1 - b1) * g i / (1 - B1)) / Real.sqrt (1e-9 + (1 - b2) * g i ^ 2 / (1 - B2)) =
        lr * g i / Real.sqrt (1e-9 + g i ^ 2) := by linarith
    rw [div_eq_div_iff sX.ne' sY.ne'] at e2
    have e3 : lr * g i * ((1 - b1) * Real.sqrt (1e-9 + g i ^ 2)) =
        lr * g i * ((1 - B1) * Real.sqrt (1e-9 + (1 - b2) * g i ^ 2 / (1 - B2))) := by
      have : lr * ((1 - b1) * g i / (1 - B1)) = lr * g i * (1 - b1) / (1 - B1) := by ring
      rw [this, div_mul_eq_mul_div, div_eq_iff hB1.ne'] at e2
      linarith
    exact mul_left_cancel₀ (mul_ne_zero hlr hgi) e3
  have e4 : (1 - b1) ^ 2 * (1e-9 + g i ^ 2) = (1 - B1) ^ 2 * (1e-9 + (1 - b2) * g i ^ 2 / (1 - B2)) := by
    have := congrArg (fun x => x ^ 2) e1
    simp only [mul_pow, Real.sq_sqrt hX.le, Real.sq_sqrt hY.le] at this
    exact this
  have h3 : (1 - b1) ^ 2 * g i ^ 2 ≤ (1 - B1) ^ 2 * ((1 - b2) * g i ^ 2 / (1 - B2)) := by
    rw [← mul_div_assoc, le_div_iff₀ hB2]
    nlinarith [mul_le_mul_of_nonneg_right hb hg2.le]
  have h4 : (1 - b1) ^ 2 < (1 - B1) ^ 2 := pow_lt_pow_left₀ (by linarith) (by linarith) (by norm_num)
  have h5 : (1 - b1) ^ 2 * (1e-9 : ℝ) < (1 - B1) ^ 2 * 1e-9 := mul_lt_mul_of_pos_right h4 (by norm_num)
  nlinarith

/-- The default decay rates satisfy the hypothesis for a net with two tensors. -/
example : ((1 : ℝ) - 0.9) ^ 2 * (1 - 0.999 ^ (1 + 1)) ≤ (1 - 0.999) * (1 - 0.9 ^ (1 + 1)) ^ 2 := by norm_num
example : VecIs (Buf.of [(3 : ℝ)]) 1 (fun _ => 3) := ⟨rfl, fun i hi => by (have : i = 0 := by omega); subst this; rfl⟩

/-! ## C66 address reuse -/

/-- Violation: once a tensor of `n` components was updated at an address, updating a tensor of a different size at the
same address (a new tensor allocated where a destroyed one was) accesses memory outside an allocation. -/
theorem C66_address_reuse_violated [Zero α] [Add α] [Mul α] [Sub α] (lr mu : α) (k n n' : Nat) (hne : n ≠ n')
    (P G P' G' : Buf α) (p g p' g' : Nat → α) (hp : VecIs P n p) (hg : VecIs G n g) (hp' : VecIs P' n' p') (hg' : VecIs G' n' g') :
    Ok (momUpdate (Mom.make lr mu) k P G) (fun r => momUpdate r.1 k P' G' = .error .oob) := by
  have hn : Ok (momUpdate (Mom.make lr mu) k P G) (fun r => (∃ b v, r.1.buff k = some b ∧ VecIs b n v) ∧
      ∃ o v, r.1.opt k = some o ∧ VecIs o n v) := by
    unfold momUpdate
    rw [hp.length]
    refine (scaleInto_spec (Table.get_empty k n) _).bind (fun o ho => ?_)
    refine (scaleTo_spec (Table.get_empty k n).length hg (Nat.le_refl _) _).bind (fun b hb' => ?_)
    refine (zipInto_spec ho hb' (Nat.le_refl _)).bind (fun o' ho' => ?_)
    refine (zipInto_spec hp ho' (Nat.le_refl _)).bind (fun P' hP' => ?_)
    exact Ok_ok.2 ⟨⟨b, _, by simp [Table.put], hb'⟩, ⟨o', _, by simp [Table.put], ho'⟩⟩
  refine hn.mono (fun r hr => ?_)
  obtain ⟨⟨b, vb, hb, hb'⟩, ⟨o, vo, ho, ho'⟩⟩ := hr
  unfold momUpdate
  rw [show r.1.buff.get k P'.length = b by simp [Table.get, hb], show r.1.opt.get k P'.length = o by simp [Table.get, ho]]
  obtain ⟨o1, eo1, ho1⟩ := scaleInto_spec ho' r.1.mu
  dsimp only
  rw [eo1, bind_ok]
  rcases Nat.lt_or_gt_of_ne hne with h | h
  · obtain ⟨b1, eb1, hb1⟩ := scaleTo_spec hb'.length hg' (Nat.le_of_lt h) r.1.lr
    obtain ⟨o2, eo2, ho2⟩ := zipInto_spec (op := (· - ·)) ho1 hb1 (Nat.le_refl _)
    rw [eb1, bind_ok, eo2, bind_ok]
    have : zipInto (· + ·) P' o2 = .error .oob := by
      unfold zipInto
      rw [hp'.length]
      refine forN_err (k := n) (fun j r => BufIs r n' (fun i => if i < j then some (p' i + (vo i * mu - 0)) else some (p' i)) ∨
        ∃ q, VecIs r n' q) h (Or.inr ⟨p', hp'⟩) (fun i hi s hs => ?_) (fun s hs => ?_)
      · have hs' : ∃ q, VecIs s n' q := by
          rcases hs with hs | hs
          · exact ⟨_, hs.congr (g := fun j => some (if j < i then p' j + (vo j * mu - 0) else p' j)) (fun j _ => by split <;> rfl)⟩
          · exact hs
        obtain ⟨q, hq⟩ := hs'
        rw [hq.get (by omega), bind_ok, ho2.get hi, bind_ok]
        exact (hq.set (by omega) _).mono (fun _ h => Or.inr ⟨_, h⟩)
      · have hs' : ∃ q, VecIs s n' q := by
          rcases hs with hs | hs
          · exact ⟨_, hs.congr (g := fun j => some (if j < n then p' j + (vo j * mu - 0) else p' j)) (fun j _ => by split <;> rfl)⟩
          · exact hs
        obtain ⟨q, hq⟩ := hs'
        rw [hq.get h, bind_ok, BufIs.get_oob ho2 (Nat.le_refl _)]; rfl
    rw [this]; rfl
  · have : scaleTo b r.1.lr G' = .error .oob := by
      unfold scaleTo
      rw [hb'.length]
      refine forN_err (k := n') (fun j r => ∃ q, VecIs r n q) h ⟨vb, hb'⟩ (fun i hi s hs => ?_) (fun s hs => ?_)
      · obtain ⟨q, hq⟩ := hs
        rw [hg'.get hi, bind_ok]
        exact (hq.set (by omega) _).mono (fun _ h => ⟨_, h⟩)
      · rw [BufIs.get_oob hg' (Nat.le_refl _)]; rfl
    rw [this]; rfl

/-- Same size: no memory error, but the new tensor inherits the old tensor's velocity instead of starting from zero. -/
theorem C66_address_reuse_same_size_partial {K : Type _} [CommRing K] (lr mu : K) (k n : Nat)
    (P G P' G' : Buf K) (p g p' g' : Nat → K) (hp : VecIs P n p) (hg : VecIs G n g) (hp' : VecIs P' n p') (hg' : VecIs G' n g') :
    Ok (momUpdate (Mom.make lr mu) k P G) (fun r => Ok (momUpdate r.1 k P' G') (fun r' =>
      VecIs r'.2.1 n (fun i => p' i - lr * g' i - lr * mu * g i))) := by
  refine (mom_spec hp hg (Table.get_empty k n).length (Table.get_empty k n)).mono (fun r hr => ?_)
  obtain ⟨h1, h2, h3, h4, _⟩ := hr
  refine (mom_spec hp' hg' h3 h4).mono (fun r' hr' => hr'.2.2.2.2.1.congr (fun i _ => ?_))
  rw [h1, h2]; simp only [Mom.make]; ring

end Trixy
