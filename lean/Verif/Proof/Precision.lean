import Verif.Spec.Precision
import Verif.Proof.Scalar
import Verif.Props.Library
import Verif.Props.NaN
import Verif.Props.Fused
/- Limits of computations in growing precision. -/
namespace Trixy
set_option linter.unusedSectionVars false
open Filter Topology

namespace Digits
variable {α : Nat → Type} [∀ p, Flt (α p)] [∀ p, NatCast (α p)] {D : Digits α}

theorem Tends.of {r : ∀ p, α p} {c : Nat → ℝ} {z : ℝ} (h : D.Refine) (hc : Tendsto c atTop (𝓝 z)) (hr : ∀ᶠ p in atTop, D.Rounds p (r p) (c p)) : D.Tends r z := by
  have hM : ∀ᶠ p in atTop, |c p| ≤ D.M p := by
    have h1 : ∀ᶠ p in atTop, |c p| ≤ |z| + 1 := by
      have := hc.abs.eventually (Iio_mem_nhds (show |z| < |z| + 1 by linarith))
      exact this.mono (fun p hp => le_of_lt hp)
    filter_upwards [h1, h.M.eventually_ge_atTop (|z| + 1)] with p a b using a.trans b
  have hb : ∀ᶠ p in atTop, D.fin p (r p) ∧ |D.val p (r p) - c p| ≤ D.u p * |c p| + D.η p := by
    filter_upwards [hM, hr] with p a b using b a
  refine ⟨hb.mono (fun p a => a.1), ?_⟩
  have h0 : Tendsto (fun p => D.u p * |c p| + D.η p) atTop (𝓝 0) := by
    have := (h.u.mul hc.abs).add h.η
    simpa using this
  have h1 : Tendsto (fun p => D.val p (r p) - c p) atTop (𝓝 0) :=
    squeeze_zero_norm' (hb.mono (fun p a => by rw [Real.norm_eq_abs]; exact a.2)) h0
  have := h1.add hc
  simpa using this

theorem Tends.zero (h : D.Refine) : D.Tends (fun p => (0 : α p)) 0 :=
  ⟨Eventually.of_forall (fun p => (h.zero p).1), by simp only [(h.zero _).2]; exact tendsto_const_nhds⟩

theorem Tends.one (h : D.Refine) : D.Tends (fun p => (1 : α p)) 1 :=
  ⟨Eventually.of_forall (fun p => (h.one p).1), by simp only [(h.one _).2]; exact tendsto_const_nhds⟩

theorem Tends.lit (h : D.Refine) (q : ℚ) {x : ℝ} (e : (q : ℝ) = x) : D.Tends (fun p => (Flt.lit q : α p)) x :=
  Tends.of h (e ▸ tendsto_const_nhds) (Eventually.of_forall (fun p => h.lit p q))

theorem Tends.nat (h : D.Refine) (n : Nat) : D.Tends (fun p => (n : α p)) n := Tends.of h tendsto_const_nhds (Eventually.of_forall (fun p => h.nat p n))

variable {a b : ∀ p, α p} {x y : ℝ}

theorem Tends.congr (ha : D.Tends a x) (e : ∀ᶠ p in atTop, b p = a p) : D.Tends b x :=
  ⟨by filter_upwards [ha.1, e] with p h1 h2; rw [h2]; exact h1, ha.2.congr' (e.mono (fun p h => by dsimp only; rw [h]))⟩

theorem Tends.neg (h : D.Refine) (ha : D.Tends a x) : D.Tends (fun p => -a p) (-x) :=
  Tends.of h ha.2.neg (ha.1.mono (fun p h1 => h.neg p _ h1))
theorem Tends.add (h : D.Refine) (ha : D.Tends a x) (hb : D.Tends b y) : D.Tends (fun p => a p + b p) (x + y) :=
  Tends.of h (ha.2.add hb.2) (by filter_upwards [ha.1, hb.1] with p h1 h2 using h.add p _ _ h1 h2)
theorem Tends.sub (h : D.Refine) (ha : D.Tends a x) (hb : D.Tends b y) : D.Tends (fun p => a p - b p) (x - y) :=
  Tends.of h (ha.2.sub hb.2) (by filter_upwards [ha.1, hb.1] with p h1 h2 using h.sub p _ _ h1 h2)
theorem Tends.mul (h : D.Refine) (ha : D.Tends a x) (hb : D.Tends b y) : D.Tends (fun p => a p * b p) (x * y) :=
  Tends.of h (ha.2.mul hb.2) (by filter_upwards [ha.1, hb.1] with p h1 h2 using h.mul p _ _ h1 h2)
theorem Tends.div (h : D.Refine) (ha : D.Tends a x) (hb : D.Tends b y) (hy : y ≠ 0) : D.Tends (fun p => a p / b p) (x / y) :=
  Tends.of h (ha.2.div hb.2 hy) (by filter_upwards [ha.1, hb.1, hb.2.eventually_ne hy] with p h1 h2 h3 using h.div p _ _ h1 h2 h3)
theorem Tends.exp (h : D.Refine) (ha : D.Tends a x) : D.Tends (fun p => Flt.exp (a p)) (Real.exp x) :=
  Tends.of h (Real.continuous_exp.continuousAt.tendsto.comp ha.2) (ha.1.mono (fun p h1 => h.exp p _ h1))
theorem Tends.expm1 (h : D.Refine) (ha : D.Tends a x) : D.Tends (fun p => Flt.expm1 (a p)) (Real.exp x - 1) :=
  Tends.of h ((Real.continuous_exp.continuousAt.tendsto.comp ha.2).sub_const 1) (ha.1.mono (fun p h1 => h.expm1 p _ h1))
theorem Tends.log (h : D.Refine) (ha : D.Tends a x) (hx : 0 < x) : D.Tends (fun p => Flt.log (a p)) (Real.log x) :=
  Tends.of h ((Real.continuousAt_log hx.ne').tendsto.comp ha.2) (by
    filter_upwards [ha.1, ha.2.eventually (lt_mem_nhds hx)] with p h1 h2 using h.log p _ h1 h2)
theorem Tends.log1p (h : D.Refine) (ha : D.Tends a x) (hx : -1 < x) : D.Tends (fun p => Flt.log1p (a p)) (Real.log (1 + x)) :=
  Tends.of h (((Real.continuousAt_log (by linarith : (0 : ℝ) < 1 + x).ne')).tendsto.comp (ha.2.const_add 1)) (by
    filter_upwards [ha.1, ha.2.eventually (lt_mem_nhds hx)] with p h1 h2 using h.log1p p _ h1 h2)
theorem Tends.tanh (h : D.Refine) (ha : D.Tends a x) : D.Tends (fun p => Flt.tanh (a p)) (Real.tanh x) :=
  Tends.of h ((hasDerivAt_tanh' x).continuousAt.tendsto.comp ha.2) (ha.1.mono (fun p h1 => h.tanh p _ h1))
theorem Tends.cosh (h : D.Refine) (ha : D.Tends a x) : D.Tends (fun p => Flt.cosh (a p)) (Real.cosh x) :=
  Tends.of h (Real.continuous_cosh.continuousAt.tendsto.comp ha.2) (ha.1.mono (fun p h1 => h.cosh p _ h1))
theorem Tends.fabs (h : D.Refine) (ha : D.Tends a x) : D.Tends (fun p => Flt.fabs (a p)) |x| :=
  Tends.of h ha.2.abs (ha.1.mono (fun p h1 => h.fabs p _ h1))

theorem Tends.lt (h : D.Refine) (ha : D.Tends a x) (hb : D.Tends b y) (e : x < y) : ∀ᶠ p in atTop, a p < b p := by
  filter_upwards [ha.1, hb.1, ha.2.eventually_lt hb.2 e] with p h1 h2 h3 using (h.lt p _ _ h1 h2).2 h3
theorem Tends.not_lt (h : D.Refine) (ha : D.Tends a x) (hb : D.Tends b y) (e : y < x) : ∀ᶠ p in atTop, ¬ a p < b p := by
  filter_upwards [ha.1, hb.1, hb.2.eventually_lt ha.2 e] with p h1 h2 h3 h4
  exact absurd ((h.lt p _ _ h1 h2).1 h4) (_root_.not_lt.2 h3.le)

/-- A choice between two numbers with the same limit. -/
theorem Tends.either {c : Nat → Prop} [∀ p, Decidable (c p)] (ha : D.Tends a x) (hb : D.Tends b x) : D.Tends (fun p => if c p then a p else b p) x := by
  refine ⟨by filter_upwards [ha.1, hb.1] with p h1 h2; split <;> assumption, ?_⟩
  rw [Metric.tendsto_atTop]
  intro e he
  obtain ⟨N1, h1⟩ := Metric.tendsto_atTop.1 ha.2 e he
  obtain ⟨N2, h2⟩ := Metric.tendsto_atTop.1 hb.2 e he
  refine ⟨max N1 N2, fun p hp => ?_⟩
  dsimp only
  split
  · exact h1 p (le_trans (le_max_left ..) hp)
  · exact h2 p (le_trans (le_max_right ..) hp)

/-- A choice made by comparing with a number of a different limit, or between numbers of the same limit: the choice of the reals. -/
theorem Tends.ite (h : D.Refine) {s t : ∀ p, α p} {S T : ℝ} (hs : D.Tends s S) (ht : D.Tends t T) {X Y : ℝ} (ha : D.Tends a X) (hb : D.Tends b Y) (e : S = T → X = Y) :
    D.Tends (fun p => if s p < t p then a p else b p) (if S < T then X else Y) := by
  rcases lt_trichotomy S T with hl | he | hg
  · rw [if_pos hl]
    exact ha.congr ((Tends.lt h hs ht hl).mono (fun p hp => if_pos hp))
  · rw [if_neg (by rw [he]; exact lt_irrefl _)]
    exact Tends.either (e he ▸ ha) hb
  · rw [if_neg hg.not_gt]
    exact hb.congr ((Tends.not_lt h hs ht hg).mono (fun p hp => if_neg hp))

theorem VecTends.foldSum (h : D.Refine) {i0 : ∀ p, α p} {z : ℝ} (h0 : D.Tends i0 z) {n : Nat} {v : ∀ p, Nat → α p} {w : Nat → ℝ} (hv : D.VecTends n v w) :
    D.Tends (fun p => foldSum (i0 p) n (v p)) (foldSum z n w) := by
  induction n with
  | zero => exact h0
  | succ n ih => exact Tends.add h (ih (fun i hi => hv i (by omega))) (hv n (by omega))

theorem VecTends.affine (h : D.Refine) {n m : Nat} {W : ∀ p, Nat → Nat → α p} {W' : Nat → Nat → ℝ} {b : ∀ p, Nat → α p} {b' : Nat → ℝ} {v : ∀ p, Nat → α p} {w : Nat → ℝ}
    (hW : ∀ i j, i < n → j < m → D.Tends (fun p => W p i j) (W' i j)) (hb : D.VecTends m b b') (hv : D.VecTends n v w) :
    D.VecTends m (fun p => affine n (W p) (b p) (v p)) (affine n W' b' w) :=
  fun j hj => Tends.add h (VecTends.foldSum h (Tends.zero h) (fun i hi => Tends.mul h (hv i hi) (hW i j hi hj))) (hb j hj)

theorem exp_one_ne (x : ℝ) : Real.exp x + 1 ≠ 0 := by positivity
theorem cosh_ne (x : ℝ) : Real.cosh x ≠ 0 := (Real.cosh_pos x).ne'
theorem cosh_one_ne (x : ℝ) : Real.cosh x + 1 ≠ 0 := by have := Real.cosh_pos x; positivity
theorem abs_one_ne (x : ℝ) : |x| + 1 ≠ 0 := by positivity

theorem act_tends (h : D.Refine) (k : ActKind) (ha : D.Tends a x) : D.Tends (fun p => k.flt (a p)) (k.cf x) := by
  cases k
  case identity => exact ha
  case relu => exact Tends.ite h (Tends.zero h) ha ha (Tends.zero h) (fun e => e.symm)
  case elu =>
    refine Tends.ite h (Tends.zero h) ha ha (Tends.mul h (Tends.lit h _ (by norm_num)) (Tends.expm1 h ha)) (fun e => ?_)
    subst e; simp [Fn.expm1]
  case lrelu =>
    refine Tends.ite h (Tends.zero h) ha ha (Tends.mul h (Tends.lit h _ (by norm_num)) ha) (fun e => ?_)
    subst e; simp
  case selu =>
    refine Tends.ite h (Tends.zero h) ha (Tends.mul h (Tends.lit h _ (by norm_num)) ha) (Tends.mul h (Tends.lit h _ (by norm_num)) (Tends.expm1 h ha)) (fun e => ?_)
    subst e; simp [Fn.expm1]
  case gelu =>
    exact Tends.mul h (Tends.mul h (Tends.lit h _ (by norm_num)) ha) (Tends.add h (Tends.tanh h (Tends.add h (Tends.mul h ha (Tends.lit h _ (by norm_num)))
      (Tends.mul h (Tends.mul h (Tends.mul h ha ha) ha) (Tends.lit h _ (by norm_num))))) (Tends.one h))
  case sigmoid => exact Tends.div h (Tends.one h) (Tends.add h (Tends.exp h (Tends.neg h ha)) (Tends.one h)) (exp_one_ne _)
  case tanh => exact Tends.tanh h ha
  case softsign => exact Tends.div h ha (Tends.add h (Tends.fabs h ha) (Tends.one h)) (abs_one_ne _)
  case softplus => exact Tends.log h (Tends.add h (Tends.exp h ha) (Tends.one h)) (by positivity)
  case swish => exact Tends.div h ha (Tends.add h (Tends.exp h (Tends.neg h ha)) (Tends.one h)) (exp_one_ne _)
  case modRelu =>
    refine Tends.ite h ha (Tends.zero h) (Tends.mul h (Tends.lit h _ (by norm_num)) ha)
      (Tends.ite h (Tends.one h) ha (Tends.add h (Tends.lit h _ (by norm_num)) (Tends.mul h (Tends.lit h _ (by norm_num)) ha)) ha (fun e => ?_)) (fun e => ?_)
    · subst e; norm_num
    · subst e; norm_num
  case modTanh =>
    refine Tends.ite h ha (Tends.zero h) (Tends.mul h (Tends.lit h _ (by norm_num)) (Tends.tanh h ha)) (Tends.tanh h ha) (fun e => ?_)
    subst e; simp

theorem actD_tends (h : D.Refine) (k : ActKind) (ha : D.Tends a x) (hk : x ∉ k.kinks) : D.Tends (fun p => k.fltD (a p)) (k.cd x) := by
  have one_cosh : ∀ {b : ∀ p, α p} {y : ℝ}, D.Tends b y → D.Tends (fun p => 1 / Flt.cosh (b p)) (1 / Real.cosh y) :=
    fun hb => Tends.div h (Tends.one h) (Tends.cosh h hb) (cosh_ne _)
  cases k
  case identity => exact Tends.one h
  case relu => exact Tends.ite h (Tends.zero h) ha (Tends.one h) (Tends.zero h) (fun e => absurd e.symm hk)
  case elu => exact Tends.ite h (Tends.zero h) ha (Tends.one h) (Tends.mul h (Tends.lit h _ (by norm_num)) (Tends.exp h ha)) (fun e => absurd e.symm hk)
  case lrelu => exact Tends.ite h (Tends.zero h) ha (Tends.one h) (Tends.lit h _ (by norm_num)) (fun e => absurd e.symm hk)
  case selu => exact Tends.ite h (Tends.zero h) ha (Tends.lit h _ (by norm_num)) (Tends.mul h (Tends.lit h _ (by norm_num)) (Tends.exp h ha)) (fun e => absurd e.symm hk)
  case gelu =>
    have h3 := Tends.mul h (Tends.mul h ha ha) ha
    have hy : D.Tends _ (0.797885 * (x * x * x) + 0.0356774 * x) :=
      Tends.add h (Tends.mul h (Tends.lit h 0.797885 (by norm_num)) h3) (Tends.mul h (Tends.lit h 0.0356774 (by norm_num)) ha)
    have hs := one_cosh hy
    exact Tends.add h (Tends.add h (Tends.mul h (Tends.lit h _ (by norm_num)) (Tends.tanh h hy)) (Tends.mul h (Tends.mul h
      (Tends.add h (Tends.mul h (Tends.lit h _ (by norm_num)) h3) (Tends.mul h (Tends.lit h _ (by norm_num)) ha)) hs) hs)) (Tends.lit h _ (by norm_num))
  case sigmoid => exact Tends.div h (Tends.lit h _ (by norm_num)) (Tends.add h (Tends.cosh h ha) (Tends.one h)) (cosh_one_ne _)
  case tanh => exact Tends.mul h (one_cosh ha) (one_cosh ha)
  case softsign =>
    have := Tends.div h (Tends.one h) (Tends.add h (Tends.fabs h ha) (Tends.one h)) (abs_one_ne x)
    exact Tends.mul h this this
  case softplus => exact Tends.div h (Tends.one h) (Tends.add h (Tends.exp h (Tends.neg h ha)) (Tends.one h)) (exp_one_ne _)
  case swish =>
    have he := Tends.exp h (Tends.neg h ha)
    have hb := Tends.add h he (Tends.one h)
    exact Tends.div h (Tends.add h (Tends.mul h he ha) hb) (Tends.mul h hb hb) (mul_ne_zero (exp_one_ne _) (exp_one_ne _))
  case modRelu =>
    have h0 : x ≠ 0 := fun e => hk (Or.inl e)
    have h1 : x ≠ 1 := fun e => hk (Or.inr e)
    show D.Tends (fun p => if a p < 0 ∨ a p > 1 then Flt.lit 0.01 else 1) (if x < 0 ∨ x > 1 then 0.01 else 1)
    by_cases hx : x < 0 ∨ x > 1
    · rw [if_pos hx]
      refine (Tends.lit h 0.01 (by norm_num)).congr ?_
      rcases hx with hx | hx
      · exact (Tends.lt h ha (Tends.zero h) hx).mono (fun p hp => if_pos (Or.inl hp))
      · exact (Tends.lt h (Tends.one h) ha hx).mono (fun p hp => if_pos (Or.inr hp))
    · rw [if_neg hx]
      rw [not_or] at hx
      have g0 := Tends.not_lt h ha (Tends.zero h) (lt_of_le_of_ne (_root_.not_lt.1 hx.1) (Ne.symm h0))
      have g1 := Tends.not_lt h (Tends.one h) ha (lt_of_le_of_ne (_root_.not_lt.1 hx.2) h1)
      refine (Tends.one h).congr ?_
      filter_upwards [g0, g1] with p p0 p1 using if_neg (not_or.2 ⟨p0, p1⟩)
  case modTanh =>
    have h2 := Tends.mul h (one_cosh ha) (one_cosh ha)
    exact Tends.ite h ha (Tends.zero h) (Tends.mul h (Tends.lit h _ (by norm_num)) h2) h2 (fun e => absurd e hk)

end Digits

/-! ### Loss objects over a floating-point type -/
section
variable {α : Type} [Flt α]

/-- The values of the loss classes, in the order of evaluation of the code. -/
def LossKind.fltVal (m : Nat) : LossKind → (Nat → α) → (Nat → α) → α
  | .mse => fun t y => iter m 0 (fun i s => s + (t i - y i) * (t i - y i)) * Flt.lit 0.5
  | .mae => fun t y => iter m 0 (fun i s => s + Flt.fabs (y i - t i))
  | .cce => fun t y => iter m 0 (fun i s => s - t i * Flt.log (y i + FltLoss.eps))
  | .bce => fun t y => iter m 0 (fun i s => s - (t i * Flt.log (y i + FltLoss.eps) + (1 - t i) * Flt.log1p (FltLoss.eps - y i)))
  | .msle => fun t y => iter m 0 (fun i s => s + Flt.log ((y i + 1) / (t i + 1)) * Flt.log ((y i + 1) / (t i + 1))) * Flt.lit 0.5
  | .nll => fun t y => -Flt.log (iter m 0 (fun i s => s + t i * y i))
  | .lc => fun t y => iter m 0 (fun i s => s + Flt.log (Flt.cosh (y i - t i)))

/-- The derivatives the loss classes compute. -/
def LossKind.fltDL : LossKind → (Nat → α) → (Nat → α) → Nat → α
  | .mse => fun t y i => y i - t i
  | .mae => fun t y i => if t i - y i < 0 then -1 else if t i - y i > 0 then 1 else 0
  | .cce => fun t y i => y i - t i
  | .bce => fun t y i => t i * (y i - 1) + y i * (1 - t i)
  | .msle => fun t y i => Flt.log ((y i + 1) / (t i + 1)) / (y i + 1)
  | .nll => fun t y i => y i - t i
  | .lc => fun t y i => Flt.tanh (y i - t i)

theorem iter_loop {β : Type} {m n : Nat} (hn : n = m) {s0 : β} {body : Nat → β → Res β} (f : Nat → β → β) (hb : ∀ i, i < m → ∀ s, body i s = .ok (f i s)) :
    forN n s0 body = .ok (iter m s0 f) := by
  subst hn
  exact Ok.eq (forN_spec (fun i s => s = iter i s0 f) rfl (fun i hi s hs => by rw [hb i hi s]; exact Ok_ok.2 (by rw [iter_succ, hs])))

theorem write_loop' {r : Buf α} {m : Nat} (hr : r.length = m) (term : Nat → α) (body : Nat → Buf α → Res (Buf α))
    (hb : ∀ i, i < m → ∀ (s : Buf α) (g : Nat → Option α), BufIs s m g →
      Ok (body i s) (fun s' => BufIs s' m (fun j => if j = i then some (term i) else g j))) :
    Ok (forN r.length r body) (fun r' => VecIs r' m term) := by
  subst hr
  exact forN_vec (BufIs_self r) (fun j hj r' g hg _ => hb j hj r' g hg)

theorem LossKind.fltObj_Is (k : LossKind) (m : Nat) : (k.fltObj : Loss α).Is m (k.fltVal m) k.fltDL := by
  refine ⟨fun t y vt vy ht hy => ?_, fun r t y vt vy hr ht hy => ?_⟩
  · cases k
    case mse =>
      show FltLoss.mse t y = _
      unfold FltLoss.mse
      rw [iter_loop ht.length _ (fun i hi s => by rw [ht.get hi, bind_ok, hy.get hi, bind_ok]; rfl), bind_ok]
      rfl
    case mae => exact iter_loop ht.length _ (fun i hi s => by rw [hy.get hi, bind_ok, ht.get hi, bind_ok]; rfl)
    case cce => exact iter_loop ht.length _ (fun i hi s => by rw [ht.get hi, bind_ok, hy.get hi, bind_ok]; rfl)
    case bce => exact iter_loop ht.length _ (fun i hi s => by rw [ht.get hi, bind_ok, hy.get hi, bind_ok]; rfl)
    case msle =>
      show FltLoss.msle t y = _
      unfold FltLoss.msle
      rw [iter_loop ht.length _ (fun i hi s => by rw [hy.get hi, bind_ok, ht.get hi, bind_ok]; rfl), bind_ok]
      rfl
    case nll =>
      show FltLoss.nll t y = _
      unfold FltLoss.nll
      rw [iter_loop ht.length _ (fun i hi s => by rw [ht.get hi, bind_ok, hy.get hi, bind_ok]; rfl), bind_ok]
      rfl
    case lc => exact iter_loop ht.length _ (fun i hi s => by rw [hy.get hi, bind_ok, ht.get hi, bind_ok]; rfl)
  · have diff : Ok (FltLoss.mseD r t y) (fun r' => VecIs r' m (fun i => vy i - vt i)) :=
      write_loop' hr _ _ (fun i hi s g hg => by rw [hy.get hi, bind_ok, ht.get hi, bind_ok]; exact hg.set hi _)
    cases k
    case mse => exact diff
    case cce => exact diff
    case nll => exact diff
    case mae =>
      exact write_loop' hr _ _ (fun i hi s g hg => by
        rw [ht.get hi, bind_ok, hy.get hi, bind_ok]
        obtain ⟨s1, e1, h1⟩ := hg.set hi (vt i - vy i)
        have e2 : s1.get i = .ok (vt i - vy i) := h1.get hi (if_pos rfl)
        rw [e1, bind_ok, e2, bind_ok]
        exact (h1.set hi _).mono (fun s' h' => h'.congr (fun j _ => by by_cases e : j = i <;> simp [e, LossKind.fltDL])))
    case bce => exact write_loop' hr _ _ (fun i hi s g hg => by rw [ht.get hi, bind_ok, hy.get hi, bind_ok]; exact hg.set hi _)
    case msle =>
      exact write_loop' hr _ _ (fun i hi s g hg => by
        rw [hy.get hi, bind_ok]
        obtain ⟨s1, e1, h1⟩ := hg.set hi (vy i + 1)
        have e2 : s1.get i = .ok (vy i + 1) := h1.get hi (if_pos rfl)
        rw [e1, bind_ok, e2, bind_ok, ht.get hi, bind_ok]
        dsimp only
        rw [bind_ok]
        exact (h1.set hi _).mono (fun s' h' => h'.congr (fun j _ => by by_cases e : j = i <;> simp [e, LossKind.fltDL])))
    case lc => exact write_loop' hr _ _ (fun i hi s g hg => by rw [hy.get hi, bind_ok, ht.get hi, bind_ok]; exact hg.set hi _)

/-! ### Layers over a floating-point type -/

/-- The function of an activation class on vectors. -/
def LibAct.flt (m : Nat) : LibAct → (Nat → α) → Nat → α
  | .elem k => fun v i => k.flt (v i)
  | .softmax => fltSm m
/-- Its derivative. -/
def LibAct.fltD : LibAct → (Nat → α) → Nat → α
  | .elem k => fun v i => k.fltD (v i)
  | .softmax => fun _ _ => 1

theorem LibAct.fltObj_Is (a : LibAct) (m : Nat) (hm : 0 < m) : (a.fltObj : Act α).Is m (a.flt m) a.fltD := by
  cases a with
  | softmax => exact fltSoftMax_Is m hm
  | elem k => exact Act.Is.elementwise k.flt k.fltD m

def FltLayer.dense (l : FltLayer α) : Dense α := ⟨l.n, l.m, l.b, l.W, l.act.flt l.m, l.act.fltD⟩

/-- A gradient-descent step on one layer. -/
def FltLayer.gd (lr alpha : α) (p : FltLayer α) (g : Grad α) : FltLayer α :=
  { p with b := fun j => p.b j - g.1 j * alpha * lr, W := fun i j => p.W i j - g.2 i j * alpha * lr }

theorem FltLayer.gdStep (lr alpha : α) (ls : List (FltLayer α)) (gs : List (Grad α)) :
    Trixy.gdStep lr alpha (ls.map FltLayer.dense) gs = (List.zipWith (FltLayer.gd lr alpha) ls gs).map FltLayer.dense := by
  unfold Trixy.gdStep
  rw [List.map_zipWith, List.zipWith_map_left]
  rfl

theorem fltFits_chain (ls : List (FltLayer α)) {n m : Nat} (h : fltFits n ls m) : Chain n (ls.map FltLayer.dense) m := by
  induction ls generalizing n with
  | nil => exact h
  | cons l ls ih => exact ⟨h.1, ih h.2⟩

theorem IsFlt.dense {net : Net α} {ls : List (FltLayer α)} (h : net.IsFlt ls) (hp : ∀ l ∈ ls, 0 < l.m) : net.IsDense (ls.map FltLayer.dense) := by
  unfold Net.IsFlt at h
  unfold Net.IsDense
  induction h with
  | nil => exact .nil
  | @cons a b net ls hab _ ih =>
    obtain ⟨f, e, hw, ha⟩ := hab
    refine .cons ⟨f, e, hw, ?_⟩ (ih (fun l hl => hp l (List.mem_cons_of_mem _ hl)))
    rw [ha]
    exact b.act.fltObj_Is _ (hp b (List.mem_cons_self ..))

theorem IsFlt.toIs {t : Train α} {ls : List (FltLayer α)} {n m : Nat} {k : LossKind} (h : t.IsFlt ls n m k.fltObj) : t.Is (ls.map FltLayer.dense) n m k.fltDL :=
  ⟨IsFlt.dense h.net h.pos, by simpa using h.two, by simpa using h.word, fltFits_chain ls h.fits, h.delta, ⟨_, _, h.loss, k.fltObj_Is m⟩⟩

theorem fltParams_of {net : Net α} {ls : List (FltLayer α)} (h : net.IsDense (ls.map FltLayer.dense)) : net.FltParams ls := by
  unfold Net.IsDense at h
  unfold Net.FltParams
  rw [List.forall₂_map_right_iff] at h
  exact h.imp (fun l a ⟨f, e, hw, _⟩ => ⟨f, e, hw⟩)

end

/-! ### The same over the reals -/

noncomputable def LossKind.dL : LossKind → (Nat → ℝ) → (Nat → ℝ) → Nat → ℝ := @LossKind.fltDL ℝ realFlt

theorem LossKind.obj_Is (k : LossKind) (hk : k ≠ .msle) (m : Nat) : ∃ L, k.obj.Is m L k.dL := by
  cases k
  case mse => exact ⟨_, MSE_Is m⟩
  case mae => exact ⟨maeFn m, fun t y vt vy ht hy => (C52_values m).2.1 t y vt vy ht hy trivial, fun _ _ _ _ _ hr ht hy => maeD_writes hr ht hy⟩
  case cce => exact ⟨_, CCE_Is m⟩
  case bce =>
    exact ⟨bceFn 1e-9 m, fun t y vt vy ht hy => (C52_values m).2.2.2.2.2.1 t y vt vy ht hy trivial, fun _ _ _ _ _ hr ht hy =>
      write_loop hr _ _ (fun i hi s g hg => by rw [ht.get hi, bind_ok, hy.get hi, bind_ok]; exact hg.set hi _)⟩
  case msle => exact absurd rfl hk
  case nll => exact ⟨_, NLL_Is m⟩
  case lc => exact ⟨_, LC_Is m⟩

noncomputable def LibLayer.gd (lr alpha : ℝ) (p : LibLayer) (g : Grad ℝ) : LibLayer :=
  { p with b := fun j => p.b j - g.1 j * alpha * lr, W := fun i j => p.W i j - g.2 i j * alpha * lr }

theorem LibLayer.gdStep (lr alpha : ℝ) (ls : List LibLayer) (gs : List (Grad ℝ)) :
    Trixy.gdStep lr alpha (ls.map LibLayer.dense) gs = (List.zipWith (LibLayer.gd lr alpha) ls gs).map LibLayer.dense := by
  unfold Trixy.gdStep
  rw [List.map_zipWith, List.zipWith_map_left]
  rfl


/-! ### Networks -/
namespace Digits
variable {α : Nat → Type} [∀ p, Flt (α p)] [∀ p, NatCast (α p)] {D : Digits α}

theorem softmax_tends (h : D.Refine) {n : Nat} (hn : 0 < n) {v : ∀ p, Nat → α p} {w : Nat → ℝ} (hv : D.VecTends n v w) : D.VecTends n (fun p => fltSm n (v p)) (softmaxFn n w) := by
  have key : ∀ k, k < n → D.Tends (fun p => iter k (v p 0) (fun i m => if m < v p (1 + i) then v p (1 + i) else m))
      (iter k (w 0) (fun i m => if m < w (1 + i) then w (1 + i) else m)) := by
    intro k hk
    induction k with
    | zero => exact hv 0 hn
    | succ k ih => exact Tends.ite h (ih (by omega)) (hv (1 + k) (by omega)) (hv (1 + k) (by omega)) (ih (by omega)) (fun e => e.symm)
  have hm := key (n - 1) (by omega)
  set M : ℝ := iter (n - 1) (w 0) (fun i m => if m < w (1 + i) then w (1 + i) else m) with hM
  have he : D.VecTends n (fun p i => Flt.exp (v p i - fltMax (v p) n)) (fun i => Real.exp (w i - M)) := fun i hi => Tends.exp h (Tends.sub h (hv i hi) hm)
  intro j hj
  have hs : foldSum 0 n (fun i => Real.exp (w i - M)) = (∑ i ∈ Finset.range n, Real.exp (w i)) / Real.exp M := by
    rw [foldSum_zero_eq, Finset.sum_div]
    exact Finset.sum_congr rfl (fun i _ => Real.exp_sub _ _)
  have hp : 0 < ∑ i ∈ Finset.range n, Real.exp (w i) := Finset.sum_pos (fun i _ => Real.exp_pos _) ⟨0, Finset.mem_range.2 hn⟩
  have := Tends.mul h (he j hj) (Tends.div h (Tends.one h) (VecTends.foldSum h (Tends.zero h) he) (by rw [hs]; positivity))
  have e : Real.exp (w j - M) * (1 / foldSum 0 n (fun i => Real.exp (w i - M))) = softmaxFn n w j := by
    rw [hs, Real.exp_sub]
    unfold softmaxFn
    have := Real.exp_pos M
    field_simp
  rw [e] at this
  exact this

theorem libAct_tends (h : D.Refine) (a : LibAct) {m : Nat} (hm : 0 < m) {v : ∀ p, Nat → α p} {w : Nat → ℝ} (hv : D.VecTends m v w) :
    D.VecTends m (fun p => a.flt m (v p)) (a.fn m w) := by
  cases a with
  | softmax => exact softmax_tends h hm hv
  | elem k =>
    intro j hj
    show D.Tends (fun p => k.flt (v p j)) (k.fn (w j))
    rw [← k.cf_fun]
    exact act_tends h k (hv j hj)

theorem libActD_tends (h : D.Refine) (a : LibAct) {m : Nat} {v : ∀ p, Nat → α p} {w : Nat → ℝ} (hv : D.VecTends m v w) (hk : ∀ k, a = .elem k → ∀ j, j < m → w j ∉ k.kinks) :
    D.VecTends m (fun p => a.fltD (v p)) (a.D w) := by
  cases a with
  | softmax => exact fun j hj => Tends.one h
  | elem k => exact fun j hj => actD_tends h k (hv j hj) (hk k rfl j hj)

theorem loss_tends (h : D.Refine) (k : LossKind) (hk : k ≠ .msle) {m : Nat} {t y : ∀ p, Nat → α p} {t' y' : Nat → ℝ} (ht : D.VecTends m t t') (hy : D.VecTends m y y')
    (ha : k.Away m t' y') : D.VecTends m (fun p => k.fltDL (t p) (y p)) (k.dL t' y') := by
  intro j hj
  have diff := Tends.sub h (hy j hj) (ht j hj)
  cases k
  case mse => exact diff
  case cce => exact diff
  case nll => exact diff
  case mae =>
    have hd := Tends.sub h (ht j hj) (hy j hj)
    have hn : t' j - y' j ≠ 0 := sub_ne_zero.2 (ha rfl j hj)
    exact Tends.ite h hd (Tends.zero h) (Tends.neg h (Tends.one h)) (Tends.ite h (Tends.zero h) hd (Tends.one h) (Tends.zero h) (fun e => absurd e.symm hn)) (fun e => absurd e hn)
  case bce => exact Tends.add h (Tends.mul h (ht j hj) (Tends.sub h (hy j hj) (Tends.one h))) (Tends.mul h (hy j hj) (Tends.sub h (Tends.one h) (ht j hj)))
  case msle => exact absurd rfl hk
  case lc => exact Tends.tanh h diff

/-- One layer: sizes and activation agree, parameters tend. -/
def LayerTend (D : Digits α) (l : ∀ p, FltLayer (α p)) (q : LibLayer) : Prop := (∀ p, (l p).n = q.n ∧ (l p).m = q.m ∧ (l p).act = q.act) ∧
  (∀ j, j < q.m → D.Tends (fun p => (l p).b j) (q.b j)) ∧ (∀ i j, i < q.n → j < q.m → D.Tends (fun p => (l p).W i j) (q.W i j))

theorem LayersTend.cons_inv {L : ∀ p, List (FltLayer (α p))} {q : LibLayer} {qs : List LibLayer} (h : D.LayersTend L (q :: qs)) :
    ∃ (l : ∀ p, FltLayer (α p)) (L' : ∀ p, List (FltLayer (α p))), L = (fun p => l p :: L' p) ∧ D.LayerTend l q ∧ D.LayersTend L' qs := by
  obtain ⟨l, L', e, h1, h2, h3, h4⟩ := h
  exact ⟨l, L', funext e, ⟨h1, h2, h3⟩, h4⟩

theorem LayersTend.cons {l : ∀ p, FltLayer (α p)} {L' : ∀ p, List (FltLayer (α p))} {q : LibLayer} {qs : List LibLayer} (h : D.LayerTend l q) (h' : D.LayersTend L' qs) :
    D.LayersTend (fun p => l p :: L' p) (q :: qs) := ⟨l, L', fun _ => rfl, h.1, h.2.1, h.2.2, h'⟩

variable {l : ∀ p, FltLayer (α p)} {q : LibLayer}

theorem LayerTend.pre (h : D.Refine) (hl : D.LayerTend l q) {v : ∀ p, Nat → α p} {w : Nat → ℝ} (hv : D.VecTends q.n v w) :
    D.VecTends q.m (fun p => affine (l p).n (l p).W (l p).b (v p)) (affine q.n q.W q.b w) := by
  intro j hj
  have := VecTends.affine h hl.2.2 hl.2.1 hv j hj
  refine this.congr (Eventually.of_forall (fun p => ?_))
  dsimp only
  rw [(hl.1 p).1]

theorem LayerTend.out (h : D.Refine) (hl : D.LayerTend l q) (hm : 0 < q.m) {v : ∀ p, Nat → α p} {w : Nat → ℝ} (hv : D.VecTends q.n v w) :
    D.VecTends q.m (fun p => (l p).dense.out (v p)) (q.dense.out w) := by
  intro j hj
  have := libAct_tends h q.act hm (LayerTend.pre h hl hv) j hj
  refine this.congr (Eventually.of_forall (fun p => ?_))
  show (l p).act.flt (l p).m _ j = _
  rw [(hl.1 p).2.2, (hl.1 p).2.1]
  rfl

theorem netOut_tends (h : D.Refine) : ∀ (qs : List LibLayer) {L : ∀ p, List (FltLayer (α p))} {n m : Nat} {v : ∀ p, Nat → α p} {w : Nat → ℝ}, D.LayersTend L qs → libFits n qs m →
    (∀ l ∈ qs, 0 < l.m) → D.VecTends n v w → D.VecTends m (fun p => netOut ((L p).map FltLayer.dense) (v p)) (netOut (qs.map LibLayer.dense) w)
  | [], L, n, m, v, w, hL, hf, _, hv => by
    have e : L = fun _ => [] := funext hL
    subst e
    exact (show n = m from hf) ▸ hv
  | q :: qs, L, n, m, v, w, hL, hf, hp, hv => by
    obtain ⟨l, L', rfl, hl, hL'⟩ := hL.cons_inv
    have e : q.n = n := hf.1
    have r := netOut_tends h qs hL' hf.2 (fun x hx => hp x (List.mem_cons_of_mem _ hx)) (LayerTend.out h hl (hp q (List.mem_cons_self ..)) (e ▸ hv))
    exact r

/-- The activation derivatives at the pre-activations. -/
theorem LayerTend.der (h : D.Refine) (hl : D.LayerTend l q) {v : ∀ p, Nat → α p} {w : Nat → ℝ} (hv : D.VecTends q.n v w)
    (hk : ∀ k, q.act = .elem k → ∀ j, j < q.m → q.pre w j ∉ k.kinks) {u : ∀ p, Nat → α p} {u' : Nat → ℝ} (hu : D.VecTends q.m u u') :
    D.VecTends q.m (fun p j => (l p).dense.D (affine (l p).dense.n (l p).dense.W (l p).dense.b (v p)) j * u p j) (fun j => q.dense.D (affine q.dense.n q.dense.W q.dense.b w) j * u' j) := by
  intro j hj
  have hp := LayerTend.pre h hl hv
  rw [affine_real] at hp
  have := libActD_tends h q.act hp hk j hj
  refine Tends.mul h ?_ (hu j hj)
  show D.Tends _ (q.act.D (affine q.n q.W q.b w) j)
  rw [affine_real]
  refine this.congr (Eventually.of_forall (fun p => ?_))
  show (l p).act.fltD _ j = _
  rw [(hl.1 p).2.2]
  rfl

theorem LayerTend.back (h : D.Refine) (hl : D.LayerTend l q) {v : ∀ p, Nat → α p} {w : Nat → ℝ} (hv : D.VecTends q.n v w)
    (hk : ∀ k, q.act = .elem k → ∀ j, j < q.m → q.pre w j ∉ k.kinks) {u : ∀ p, Nat → α p} {u' : Nat → ℝ} (hu : D.VecTends q.m u u') :
    D.VecTends q.n (fun p => (l p).dense.back (v p) (u p)) (q.dense.back w u') := by
  intro i hi
  have hd := LayerTend.der h hl hv hk hu
  have := VecTends.foldSum h (Tends.zero h) (n := q.m) (fun j hj => Tends.mul h (hl.2.2 i j hi hj) (hd j hj))
  refine this.congr (Eventually.of_forall (fun p => ?_))
  show foldSum 0 (l p).m _ = _
  rw [(hl.1 p).2.1]
  rfl

theorem netBack_tends (h : D.Refine) : ∀ (qs : List LibLayer) {L : ∀ p, List (FltLayer (α p))} {n m : Nat} {v u : ∀ p, Nat → α p} {w u' : Nat → ℝ}, D.LayersTend L qs → libFits n qs m →
    (∀ l ∈ qs, 0 < l.m) → D.VecTends n v w → libAway qs w → D.VecTends m u u' →
    D.VecTends n (fun p => netBack ((L p).map FltLayer.dense) (v p) (u p)) (netBack (qs.map LibLayer.dense) w u')
  | [], L, n, m, v, u, w, u', hL, hf, _, hv, _, hu => by
    have e : L = fun _ => [] := funext hL
    subst e
    exact (show n = m from hf) ▸ hu
  | q :: qs, L, n, m, v, u, w, u', hL, hf, hp, hv, ha, hu => by
    obtain ⟨l, L', rfl, hl, hL'⟩ := hL.cons_inv
    have e : q.n = n := hf.1
    subst e
    have ho := LayerTend.out h hl (hp q (List.mem_cons_self ..)) hv
    have ha2 : libAway qs (q.dense.out w) := by rw [dense_out]; exact ha.2
    exact LayerTend.back h hl hv ha.1 (netBack_tends h qs hL' hf.2 (fun x hx => hp x (List.mem_cons_of_mem _ hx)) ho ha2 hu)

/-- The gradients of a stack tend layer by layer. -/
def GradsTend (D : Digits α) : List LibLayer → (∀ p, List (Grad (α p))) → List (Grad ℝ) → Prop
  | [], G, G' => (∀ p, G p = []) ∧ G' = []
  | q :: qs, G, G' => ∃ (g : ∀ p, Grad (α p)) (H : ∀ p, List (Grad (α p))) (g' : Grad ℝ) (H' : List (Grad ℝ)), G = (fun p => g p :: H p) ∧ G' = g' :: H' ∧
      D.VecTends q.m (fun p => (g p).1) g'.1 ∧ (∀ i j, i < q.n → j < q.m → D.Tends (fun p => (g p).2 i j) (g'.2 i j)) ∧ D.GradsTend qs H H'

theorem netGrads_tends (h : D.Refine) : ∀ (qs : List LibLayer) {L : ∀ p, List (FltLayer (α p))} {n m : Nat} {v u : ∀ p, Nat → α p} {w u' : Nat → ℝ}, D.LayersTend L qs → libFits n qs m →
    (∀ l ∈ qs, 0 < l.m) → D.VecTends n v w → libAway qs w → D.VecTends m u u' →
    D.GradsTend qs (fun p => netGrads ((L p).map FltLayer.dense) (v p) (u p)) (netGrads (qs.map LibLayer.dense) w u')
  | [], L, n, m, v, u, w, u', hL, hf, _, hv, _, hu => by
    have e : L = fun _ => [] := funext hL
    subst e
    exact ⟨fun _ => rfl, rfl⟩
  | q :: qs, L, n, m, v, u, w, u', hL, hf, hp, hv, ha, hu => by
    obtain ⟨l, L', rfl, hl, hL'⟩ := hL.cons_inv
    have e : q.n = n := hf.1
    subst e
    have ho := LayerTend.out h hl (hp q (List.mem_cons_self ..)) hv
    have ha2 : libAway qs (q.dense.out w) := by rw [dense_out]; exact ha.2
    have hp2 : ∀ x ∈ qs, 0 < x.m := fun x hx => hp x (List.mem_cons_of_mem _ hx)
    have hd := LayerTend.der h hl hv ha.1 (netBack_tends h qs hL' hf.2 hp2 ho ha2 hu)
    exact ⟨_, _, _, _, rfl, rfl, hd, fun i j hi hj => Tends.mul h (hv i hi) (hd j hj), netGrads_tends h qs hL' hf.2 hp2 ho ha2 hu⟩

theorem GradsTend.add (h : D.Refine) : ∀ (qs : List LibLayer) {G H : ∀ p, List (Grad (α p))} {G' H' : List (Grad ℝ)}, D.GradsTend qs G G' → D.GradsTend qs H H' →
    D.GradsTend qs (fun p => List.zipWith addGrad (G p) (H p)) (List.zipWith addGrad G' H')
  | [], G, H, G', H', h1, h2 => by
    have e1 : G = fun _ => [] := funext h1.1
    subst e1
    obtain ⟨-, rfl⟩ := h1
    exact ⟨fun _ => rfl, rfl⟩
  | q :: qs, G, H, G', H', h1, h2 => by
    obtain ⟨g, G1, g', G1', rfl, rfl, a1, a2, a3⟩ := h1
    obtain ⟨k, H1, k', H1', rfl, rfl, b1, b2, b3⟩ := h2
    exact ⟨_, _, _, _, rfl, rfl, fun j hj => Tends.add h (a1 j hj) (b1 j hj), fun i j hi hj => Tends.add h (a2 i j hi hj) (b2 i j hi hj), GradsTend.add h qs a3 b3⟩

theorem GradsTend.zero (h : D.Refine) : ∀ (qs : List LibLayer) {L : ∀ p, List (FltLayer (α p))}, D.LayersTend L qs →
    D.GradsTend qs (fun p => ((L p).map FltLayer.dense).map (fun _ => zeroGrad)) ((qs.map LibLayer.dense).map (fun _ => zeroGrad))
  | [], L, hL => by
    have e : L = fun _ => [] := funext hL
    subst e
    exact ⟨fun _ => rfl, rfl⟩
  | q :: qs, L, hL => by
    obtain ⟨l, L', rfl, hl, hL'⟩ := hL.cons_inv
    exact ⟨_, _, _, _, rfl, rfl, fun j hj => Tends.zero h, fun i j hi hj => Tends.zero h, GradsTend.zero h qs hL'⟩

/-- The exact run meets no kink on the samples `vs`. -/
theorem gradSum_tends (h : D.Refine) (k : LossKind) (hk : k ≠ .msle) {qs : List LibLayer} {L : ∀ p, List (FltLayer (α p))} {n m : Nat} (hL : D.LayersTend L qs) (hf : libFits n qs m)
    (hp : ∀ l ∈ qs, 0 < l.m) : ∀ (vs : List ((Nat → ℝ) × (Nat → ℝ))) {V : ∀ p, List ((Nat → α p) × (Nat → α p))}, D.DataTend n m V vs →
    (∀ vw ∈ vs, libAway qs vw.1 ∧ k.Away m vw.2 (libOut qs vw.1)) →
    D.GradsTend qs (fun p => gradSum k.fltDL ((L p).map FltLayer.dense) (V p)) (gradSum k.dL (qs.map LibLayer.dense) vs) := by
  have gen : ∀ (vs : List ((Nat → ℝ) × (Nat → ℝ))) {V : ∀ p, List ((Nat → α p) × (Nat → α p))}, D.DataTend n m V vs →
      (∀ vw ∈ vs, libAway qs vw.1 ∧ k.Away m vw.2 (libOut qs vw.1)) → ∀ {G : ∀ p, List (Grad (α p))} {G' : List (Grad ℝ)}, D.GradsTend qs G G' →
      D.GradsTend qs (fun p => (V p).foldl (fun acc vw => List.zipWith addGrad acc (sampleGrads k.fltDL ((L p).map FltLayer.dense) vw)) (G p))
        (vs.foldl (fun acc vw => List.zipWith addGrad acc (sampleGrads k.dL (qs.map LibLayer.dense) vw)) G') := by
    intro vs
    induction vs with
    | nil =>
      intro V hV _ G G' hG
      have e : V = fun _ => [] := funext hV
      subst e
      exact hG
    | cons vw vs ih =>
      intro V hV ha G G' hG
      obtain ⟨a, V', e, h1, h2, h3⟩ := hV
      have e : V = fun p => a p :: V' p := funext e
      subst e
      have hvw := ha vw (List.mem_cons_self ..)
      have ho := netOut_tends h qs hL hf hp h1
      refine ih h3 (fun x hx => ha x (List.mem_cons_of_mem _ hx)) (GradsTend.add h qs hG ?_)
      exact netGrads_tends h qs hL hf hp h1 hvw.1 (loss_tends h k hk h2 ho (by rw [libOut_eq]; exact hvw.2))
  exact fun vs V hV ha => gen vs hV ha (GradsTend.zero h qs hL)

theorem step_tends (h : D.Refine) {lr al : ∀ p, α p} {lr' al' : ℝ} (hlr : D.Tends lr lr') (hal : D.Tends al al') : ∀ (qs : List LibLayer) {L : ∀ p, List (FltLayer (α p))}
    {G : ∀ p, List (Grad (α p))} {G' : List (Grad ℝ)}, D.LayersTend L qs → D.GradsTend qs G G' →
    D.LayersTend (fun p => List.zipWith (FltLayer.gd (lr p) (al p)) (L p) (G p)) (List.zipWith (LibLayer.gd lr' al') qs G')
  | [], L, G, G', hL, hG => by
    have e : L = fun _ => [] := funext hL
    subst e
    exact fun _ => rfl
  | q :: qs, L, G, G', hL, hG => by
    obtain ⟨l, L', rfl, hl, hL'⟩ := hL.cons_inv
    obtain ⟨g, G1, g', G1', rfl, rfl, a1, a2, a3⟩ := hG
    refine LayersTend.cons ⟨fun p => hl.1 p, fun j hj => ?_, fun i j hi hj => ?_⟩ (step_tends h hlr hal qs hL' a3)
    · exact Tends.sub h (hl.2.1 j hj) (Tends.mul h (Tends.mul h (a1 j hj) hal) hlr)
    · exact Tends.sub h (hl.2.2 i j hi hj) (Tends.mul h (Tends.mul h (a2 i j hi hj) hal) hlr)

end Digits

end Trixy
