import Verif.Spec.Rounding
import Verif.Proof.ConvExact
import Verif.Props.FC
import Verif.Props.Pool
import Verif.Props.Net
import Mathlib.Tactic.Linarith
import Mathlib.Tactic.Ring
import Mathlib.Tactic.GCongr
import Mathlib.Tactic.Positivity
import Mathlib.Algebra.Order.BigOperators.Group.Finset
/- Rounding error analysis: a computed number with its exact value, magnitude and inflated magnitude. -/
namespace Trixy
set_option linter.unusedSectionVars false

open Finset

variable {α : Type} [Zero α] [Add α] [Sub α] [Mul α] {R : Rounding α}

/-- `s` is finite and approximates `T`; `A` bounds `T`, `B` bounds the inputs' inflated magnitudes, `k` counts roundings. -/
structure Approx (R : Rounding α) (k : Nat) (s : α) (T A B : ℝ) : Prop where
  fin : R.fin s
  t : |T| ≤ A
  ab : A ≤ B
  err : |R.val s - T| ≤ (1 + R.u) ^ k * B - A

theorem Rounding.one (R : Rounding α) : 1 ≤ 1 + R.u := by linarith [R.u0]
theorem Rounding.pw (R : Rounding α) (k : Nat) : 1 ≤ (1 + R.u) ^ k := one_le_pow₀ R.one

namespace Approx
variable {k k' : Nat} {s a b : α} {T A B T' A' B' : ℝ}

theorem A0 (h : Approx R k s T A B) : 0 ≤ A := le_trans (abs_nonneg _) h.t
theorem B0 (h : Approx R k s T A B) : 0 ≤ B := le_trans h.A0 h.ab

theorem mag (h : Approx R k s T A B) : |R.val s| ≤ (1 + R.u) ^ k * B := by
  have h1 : |R.val s| ≤ |R.val s - T| + |T| := by
    have := abs_add_le (R.val s - T) T
    rwa [sub_add_cancel] at this
  linarith [h.t, h.err]

theorem mono (h : Approx R k s T A B) (hk : k ≤ k') (hB : B ≤ B') : Approx R k' s T A B' := by
  refine ⟨h.fin, h.t, le_trans h.ab hB, le_trans h.err ?_⟩
  have h1 : (1 + R.u) ^ k ≤ (1 + R.u) ^ k' := pow_le_pow_right₀ R.one hk
  have h2 : (1 + R.u) ^ k * B ≤ (1 + R.u) ^ k' * B' := mul_le_mul h1 hB h.B0 (le_trans zero_le_one (R.pw k'))
  linarith

theorem of_near {e : ℝ} (h : R.Near a T e) : Approx R 0 a T |T| (|T| + e) := by
  have : 0 ≤ e := le_trans (abs_nonneg _) h.2
  exact ⟨h.1, le_refl _, by linarith, by simpa using h.2⟩

theorem exact (h : R.fin a) : Approx R 0 a (R.val a) |R.val a| |R.val a| := ⟨h, le_refl _, le_refl _, by simp⟩

theorem zero' : Approx R 0 (0 : α) 0 0 0 := ⟨R.zero.1, by simp, le_refl _, by simp [R.zero.2]⟩

theorem near (h : Approx R k s T A B) : R.Near s T ((1 + R.u) ^ k * B - A) := ⟨h.fin, h.err⟩

private theorem round {x y T P A : ℝ} {u : ℝ} (hu : 0 ≤ u) (η : ℝ) (h1 : |x - y| ≤ u * |y| + η) (h2 : |y - T| ≤ P - A)
    (h3 : |y| ≤ P) : |x - T| ≤ (1 + u) * P + η - A := by
  have e : x - T = (x - y) + (y - T) := by ring
  have h4 := abs_add_le (x - y) (y - T)
  rw [← e] at h4
  have h5 : u * |y| ≤ u * P := mul_le_mul_of_nonneg_left h3 hu
  linarith

theorem add (ha : Approx R k a T A B) (hb : Approx R k b T' A' B') (hM : (1 + R.u) ^ k * (B + B') ≤ R.M) :
    Approx R (k + 1) (a + b) (T + T') (A + A') (B + B') := by
  have m1 : |R.val a + R.val b| ≤ (1 + R.u) ^ k * (B + B') := by
    have := abs_add_le (R.val a) (R.val b)
    linarith [ha.mag, hb.mag]
  obtain ⟨f, e⟩ := R.add a b ha.fin hb.fin (le_trans m1 hM)
  refine ⟨f, le_trans (abs_add_le _ _) (add_le_add ha.t hb.t), add_le_add ha.ab hb.ab, ?_⟩
  have e2 : |R.val a + R.val b - (T + T')| ≤ (1 + R.u) ^ k * (B + B') - (A + A') := by
    have e3 : R.val a + R.val b - (T + T') = (R.val a - T) + (R.val b - T') := by ring
    rw [e3]
    have := abs_add_le (R.val a - T) (R.val b - T')
    linarith [ha.err, hb.err]
  have := round R.u0 0 (by linarith) e2 m1
  rw [pow_succ]
  linarith

theorem sub (ha : Approx R k a T A B) (hb : Approx R k b T' A' B') (hM : (1 + R.u) ^ k * (B + B') ≤ R.M) :
    Approx R (k + 1) (a - b) (T - T') (A + A') (B + B') := by
  have m1 : |R.val a - R.val b| ≤ (1 + R.u) ^ k * (B + B') := by
    have := abs_sub (R.val a) (R.val b)
    linarith [ha.mag, hb.mag]
  obtain ⟨f, e⟩ := R.sub a b ha.fin hb.fin (le_trans m1 hM)
  refine ⟨f, le_trans (abs_sub _ _) (add_le_add ha.t hb.t), add_le_add ha.ab hb.ab, ?_⟩
  have e2 : |R.val a - R.val b - (T - T')| ≤ (1 + R.u) ^ k * (B + B') - (A + A') := by
    have e3 : R.val a - R.val b - (T - T') = (R.val a - T) - (R.val b - T') := by ring
    rw [e3]
    have := abs_sub (R.val a - T) (R.val b - T')
    linarith [ha.err, hb.err]
  have := round R.u0 0 (by linarith) e2 m1
  rw [pow_succ]
  linarith

theorem mul (ha : Approx R k a T A B) (hb : Approx R k' b T' A' B') (hM : (1 + R.u) ^ (k + k') * (B * B') ≤ R.M) :
    Approx R (k + k' + 1) (a * b) (T * T') (A * A') (B * B' + R.η) := by
  have p : (1 + R.u) ^ (k + k') * (B * B') = ((1 + R.u) ^ k * B) * ((1 + R.u) ^ k' * B') := by rw [pow_add]; ring
  have n1 : 0 ≤ (1 + R.u) ^ k * B := le_trans (abs_nonneg _) ha.mag
  have m1 : |R.val a * R.val b| ≤ (1 + R.u) ^ (k + k') * (B * B') := by
    rw [abs_mul, p]
    exact mul_le_mul ha.mag hb.mag (abs_nonneg _) n1
  obtain ⟨f, e⟩ := R.mul a b ha.fin hb.fin (le_trans m1 hM)
  refine ⟨f, ?_, ?_, ?_⟩
  · rw [abs_mul]; exact mul_le_mul ha.t hb.t (abs_nonneg _) ha.A0
  · have := mul_le_mul ha.ab hb.ab hb.A0 ha.B0
    linarith [R.η0]
  have e2 : |R.val a * R.val b - T * T'| ≤ (1 + R.u) ^ (k + k') * (B * B') - A * A' := by
    have e3 : R.val a * R.val b - T * T' = R.val a * (R.val b - T') + (R.val a - T) * T' := by ring
    rw [e3, p]
    have h1 := abs_add_le (R.val a * (R.val b - T')) ((R.val a - T) * T')
    rw [abs_mul, abs_mul] at h1
    have h2 := mul_le_mul ha.mag hb.err (abs_nonneg _) n1
    have h3 := mul_le_mul ha.err hb.t (abs_nonneg _) (le_trans (abs_nonneg _) ha.err)
    linarith
  have h4 := round R.u0 R.η e e2 m1
  have h5 : R.η ≤ (1 + R.u) ^ (k + k' + 1) * R.η := by
    have := mul_le_mul_of_nonneg_right (R.pw (k + k' + 1)) R.η0
    linarith
  rw [pow_succ] at h5 ⊢
  linarith

end Approx

/-- A computation step that adds (approximately) `t` to what it is given: `a` bounds the magnitude of what is added, `b` the
inflated magnitude, `c` counts the roundings; what is given has at least `m` roundings already. -/
def StepOk (R : Rounding α) (m c : Nat) (f : α → α) (t a b : ℝ) : Prop :=
  0 ≤ b ∧ ∀ (k : Nat) (s : α) (T A B : ℝ), m ≤ k → Approx R k s T A B → (1 + R.u) ^ (k + c) * (B + b) ≤ R.M →
    Approx R (k + c) (f s) (T + t) (A + a) (B + b)

theorem StepOk.skip {m : Nat} (c : Nat) {b : ℝ} (hb : 0 ≤ b) : StepOk R m c (fun s => s) 0 0 b :=
  ⟨hb, fun k s T A B _ h _ => by
    rw [add_zero, add_zero]; exact h.mono (by omega) (by linarith)⟩

theorem pw_mono (R : Rounding α) {k k' : Nat} {B B' : ℝ} (hk : k ≤ k') (h0 : 0 ≤ B) (h : B ≤ B') :
    (1 + R.u) ^ k * B ≤ (1 + R.u) ^ k' * B' :=
  mul_le_mul (pow_le_pow_right₀ R.one hk) h h0 (le_trans zero_le_one (R.pw k'))

/-- Adding a number. -/
theorem StepOk.add {m : Nat} {x : α} {t a b : ℝ} (hx : Approx R m x t a b) : StepOk R m 1 (fun s => s + x) t a b :=
  ⟨hx.B0, fun k _ _ _ B hk h hM => h.add (hx.mono hk (le_refl _))
    (le_trans (pw_mono R (by omega) (add_nonneg h.B0 hx.B0) (le_refl _)) hM)⟩

/-- Adding a product of two numbers, each near its exact value. -/
theorem StepOk.mulAdd {x w : α} {t a b t' a' b' : ℝ} (hx : Approx R 0 x t a b) (hw : Approx R 0 w t' a' b') :
    StepOk R 1 1 (fun s => s + x * w) (t * t') (a * a') (b * b' + R.η) := by
  have hb : 0 ≤ b * b' := mul_nonneg hx.B0 hw.B0
  refine ⟨by linarith [R.η0], fun k s T A B hk h hM => ?_⟩
  have hp : (1 + R.u) ^ (0 + 0) * (b * b') ≤ R.M :=
    le_trans (pw_mono R (Nat.zero_le _) hb (by linarith [h.B0, R.η0])) hM
  exact h.add ((hx.mul hw hp).mono (by omega) (le_refl _))
    (le_trans (pw_mono R (by omega) (by linarith [h.B0, R.η0]) (le_refl _)) hM)

theorem StepOk.comp {m c c' : Nat} {f g : α → α} {t a b t' a' b' : ℝ} (hf : StepOk R m c f t a b) (hg : StepOk R m c' g t' a' b') :
    StepOk R m (c + c') (fun s => g (f s)) (t + t') (a + a') (b + b') := by
  refine ⟨add_nonneg hf.1 hg.1, fun k s T A B hk h hM => ?_⟩
  have h1 := hf.2 k s T A B hk h (le_trans (pw_mono R (by omega) (add_nonneg h.B0 hf.1) (by linarith [hg.1])) hM)
  have h2 := hg.2 (k + c) (f s) _ _ _ (by omega) h1 (by rw [add_assoc k, add_assoc B]; exact hM)
  rw [add_assoc k, add_assoc T, add_assoc A, add_assoc B] at h2
  exact h2

theorem StepOk.iter {m n c : Nat} {f : Nat → α → α} {t a b : Nat → ℝ} (h : ∀ i, i < n → StepOk R m c (f i) (t i) (a i) (b i)) :
    StepOk R m (n * c) (fun s => iter n s f) (∑ i ∈ range n, t i) (∑ i ∈ range n, a i) (∑ i ∈ range n, b i) := by
  induction n with
  | zero => simpa using StepOk.skip (R := R) (m := m) 0 (le_refl 0)
  | succ n ih =>
    rw [sum_range_succ, sum_range_succ, sum_range_succ, Nat.succ_mul]
    exact (ih (fun i hi => h i (by omega))).comp (h n (by omega))

theorem foldSum_iter (init : α) (n : Nat) (t : Nat → α) : foldSum init n t = iter n init (fun i s => s + t i) := by
  induction n with
  | zero => rfl
  | succ n ih => unfold foldSum Trixy.iter; rw [ih]

/-- Replace the exact quantities by equal ones. -/
theorem StepOk.congr {m c : Nat} {f : α → α} {t a b t' a' : ℝ} (h : StepOk R m c f t a b) (ht : t = t') (ha : a = a') : StepOk R m c f t' a' b := by
  rw [← ht, ← ha]; exact h

/-- The dot product plus bias of a dense layer. -/
theorem affine_near {n : Nat} {W : Nat → Nat → α} {b x : Nat → α} {j : Nat} {X δ : Nat → ℝ}
    (hx : R.NearVec n x X δ) (hW : ∀ i, i < n → R.fin (W i j)) (hb : R.fin (b j))
    (hM : dotMag R.u R.η n X δ (fun i => R.val (W i j)) (R.val (b j)) ≤ R.M) :
    R.Near (affine n W b x j) (pre n (fun i j => R.val (W i j)) (fun j => R.val (b j)) X j)
      (dotErr R.u R.η n X δ (fun i => R.val (W i j)) (R.val (b j))) := by
  have st : StepOk R 1 (n * 1) (fun s => iter n s (fun i s => s + x i * W i j)) (∑ i ∈ range n, X i * R.val (W i j))
      (∑ i ∈ range n, |X i| * |R.val (W i j)|) (∑ i ∈ range n, ((|X i| + δ i) * |R.val (W i j)| + R.η)) :=
    StepOk.iter (fun i hi => StepOk.mulAdd (Approx.of_near (hx i hi)) (Approx.exact (hW i hi)))
  unfold dotErr
  unfold dotMag at hM ⊢
  have z : Approx R 1 (0 : α) 0 0 0 := Approx.zero'.mono (by omega) (le_refl _)
  have h1 := st.2 1 0 0 0 0 (le_refl _) z (by
    refine le_trans (pw_mono R (k' := n + 2) (by omega) (by linarith [st.1]) ?_) hM
    linarith [abs_nonneg (R.val (b j))])
  dsimp only at h1
  rw [← foldSum_iter, zero_add, zero_add, zero_add] at h1
  have hb' : Approx R (1 + n * 1) (b j) (R.val (b j)) |R.val (b j)| |R.val (b j)| := (Approx.exact hb).mono (Nat.zero_le _) (le_refl _)
  have h2 := h1.add hb' (le_trans (pw_mono R (by omega) (by linarith [st.1, abs_nonneg (R.val (b j))]) (le_refl _)) hM)
  have h3 := (h2.mono (k' := n + 2) (by omega) (le_refl _)).near
  exact h3

/-- One output of a convolution. -/
theorem corr_near {d h w fh fw pad sv sh : Nat} {b : Nat → α} {W : Nat → Nat → Nat → Nat → α} {x : Nat → Nat → Nat → α}
    {X δ : Nat → Nat → Nat → ℝ} {f oy ox : Nat} (hx : ∀ c i j, c < d → i < h → j < w → R.Near (x c i j) (X c i j) (δ c i j))
    (hW : ∀ c i j, c < d → i < fh → j < fw → R.fin (W f c i j)) (hb : R.fin (b f))
    (hM : corrMag R.u R.η d h w fh fw pad sv sh (fun f => R.val (b f)) (fun f c i j => R.val (W f c i j)) X δ f oy ox ≤ R.M) :
    R.Near (corrExact d h w fh fw pad sv sh b W x f oy ox)
      (corr d h w fh fw pad sv sh (fun f => R.val (b f)) (fun f c i j => R.val (W f c i j)) X f oy ox)
      (corrErr R.u R.η d h w fh fw pad sv sh (fun f => R.val (b f)) (fun f c i j => R.val (W f c i j)) X δ f oy ox) := by
  have st : StepOk R 1 (fh * (fw * (d * 1))) (fun s => iter fh s (fun i s => iter fw s (fun j s =>
      if Inside pad h (sv * oy + i) ∧ Inside pad w (sh * ox + j)
      then iter d s (fun c s => s + x c (sv * oy + i - pad) (sh * ox + j - pad) * W f c i j)
      else s)))
      (∑ i ∈ range fh, ∑ j ∈ range fw, ∑ c ∈ range d,
        padded X h w c ((sv : Int) * oy + i - pad) ((sh : Int) * ox + j - pad) * R.val (W f c i j))
      (∑ i ∈ range fh, ∑ j ∈ range fw, ∑ c ∈ range d,
        |padded X h w c ((sv : Int) * oy + i - pad) ((sh : Int) * ox + j - pad)| * |R.val (W f c i j)|)
      (∑ i ∈ range fh, ∑ j ∈ range fw, ∑ c ∈ range d,
        ((|padded X h w c ((sv : Int) * oy + i - pad) ((sh : Int) * ox + j - pad)| +
          padded δ h w c ((sv : Int) * oy + i - pad) ((sh : Int) * ox + j - pad)) * |R.val (W f c i j)| + R.η)) := by
    refine StepOk.iter (fun i hi => StepOk.iter (fun j hj => ?_))
    by_cases hin : Inside pad h (sv * oy + i) ∧ Inside pad w (sh * ox + j)
    · simp only [if_pos hin]
      have hp : ∀ (Z : Nat → Nat → Nat → ℝ) c, padded Z h w c ((sv : Int) * oy + i - pad) ((sh : Int) * ox + j - pad) =
          Z c (sv * oy + i - pad) (sh * ox + j - pad) := by
        intro Z c
        obtain ⟨⟨h1, h2⟩, h3, h4⟩ := hin
        have e1 : (sv : Int) * oy + i - pad = ((sv * oy + i - pad : Nat) : Int) := by push_cast [Nat.cast_sub h1]; ring
        have e2 : (sh : Int) * ox + j - pad = ((sh * ox + j - pad : Nat) : Int) := by push_cast [Nat.cast_sub h3]; ring
        unfold padded
        rw [e1, e2, if_pos (by omega)]; simp
      simp only [hp]
      exact StepOk.iter (fun c hc => StepOk.mulAdd (Approx.of_near (hx c _ _ hc hin.1.2 hin.2.2)) (Approx.exact (hW c i j hc hi hj)))
    · simp only [if_neg hin]
      have hp : ∀ (Z : Nat → Nat → Nat → ℝ) c, padded Z h w c ((sv : Int) * oy + i - pad) ((sh : Int) * ox + j - pad) = 0 := by
        intro Z c
        unfold padded
        refine if_neg (fun h5 => hin ?_)
        have e1 : (sv : Int) * oy = ((sv * oy : Nat) : Int) := by push_cast; ring
        have e2 : (sh : Int) * ox = ((sh * ox : Nat) : Int) := by push_cast; ring
        rw [e1, e2] at h5
        unfold Inside
        omega
      simp only [hp]
      refine (StepOk.skip (d * 1) ?_).congr (by simp) (by simp)
      exact sum_nonneg (fun c _ => by simp [R.η0])
  unfold corrErr corr
  unfold corrMag at hM ⊢
  have z : Approx R 1 (b f) (R.val (b f)) |R.val (b f)| |R.val (b f)| := (Approx.exact hb).mono (by omega) (le_refl _)
  have ek : 1 + fh * (fw * (d * 1)) = fh * fw * d + 1 := by ring
  have h1 := st.2 1 _ _ _ _ (le_refl _) z (by rw [ek]; exact hM)
  rw [ek] at h1
  exact h1.near

/-- The scan of a window of finite numbers finds one of its cells, and none is greater. -/
theorem poolScan_near [LT α] [DecidableLT α] (hord : R.Ordered) {input : Ten α} {x : Nat → Nat → Nat → α} {d oh ow sv sh c p q : Nat}
    (hsv : 1 ≤ sv) (hsh : 1 ≤ sh) (hx : TenIs input d (oh * sv) (ow * sh) x)
    (hfin : ∀ c i j, c < d → i < oh * sv → j < ow * sh → R.fin (x c i j)) (hc : c < d) (hp : p < oh) (hq : q < ow) :
    Ok (poolScan input sv sh c (p * sv) (q * sh)) (fun m =>
      (∃ a b, a < sv ∧ b < sh ∧ m = x c (p * sv + a) (q * sh + b)) ∧
      ∀ a b, a < sv → b < sh → R.val (x c (p * sv + a) (q * sh + b)) ≤ R.val m) := by
  unfold poolScan
  have hin : ∀ a, a < sv → p * sv + a < oh * sv := fun a ha => idx2_lt hp ha
  have hin' : ∀ b, b < sh → q * sh + b < ow * sh := fun b hb => idx2_lt hq hb
  have h00 := hx.get hc (hin 0 (by omega)) (hin' 0 (by omega))
  rw [Nat.add_zero, Nat.add_zero] at h00
  rw [h00, bind_ok]
  let P : Nat → Nat → α → Prop := fun a b m => (∃ a' b', a' < sv ∧ b' < sh ∧ m = x c (p * sv + a') (q * sh + b')) ∧
    ∀ a' b', b' < sh → Before a b a' b' → R.val (x c (p * sv + a') (q * sh + b')) ≤ R.val m
  refine (forN_spec (fun a m => P a 0 m) ⟨⟨0, 0, hsv, hsh, rfl⟩, fun a' b' _ h => by unfold Before at h; omega⟩
    (fun a ha m hm => ?_)).mono (fun m hm => ?_)
  · refine (forN_spec (fun b m => P a b m) hm (fun b hb m hm => ?_)).mono (fun m hm => ⟨hm.1, fun a' b' hb' h => ?_⟩)
    · rw [hx.get hc (hin a ha) (hin' b hb), bind_ok]
      obtain ⟨h1, h2⟩ := hm
      obtain ⟨a1, b1, ha1, hb1, em⟩ := h1
      have fm : R.fin m := by rw [em]; exact hfin _ _ _ hc (hin a1 ha1) (hin' b1 hb1)
      have fx := hfin _ _ _ hc (hin a ha) (hin' b hb)
      by_cases hlt : m < x c (p * sv + a) (q * sh + b)
      · rw [if_pos hlt]
        refine Ok_ok.2 ⟨⟨a, b, ha, hb, rfl⟩, fun a' b' hb' h => ?_⟩
        by_cases e : a' = a ∧ b' = b
        · rw [e.1, e.2]
        · exact le_trans (h2 a' b' hb' (by unfold Before at *; omega)) (le_of_lt ((hord _ _ fm fx).1 hlt))
      · rw [if_neg hlt]
        refine Ok_ok.2 ⟨⟨a1, b1, ha1, hb1, em⟩, fun a' b' hb' h => ?_⟩
        by_cases e : a' = a ∧ b' = b
        · rw [e.1, e.2]; exact le_of_not_gt (fun h => hlt ((hord _ _ fm fx).2 h))
        · exact h2 a' b' hb' (by unfold Before at *; omega)
    · exact hm.2 a' b' hb' (by unfold Before at *; omega)
  · exact ⟨hm.1, fun a b ha hb => hm.2 a b hb (Or.inl ha)⟩

theorem Pool.forwardRaw_near [LT α] [DecidableLT α] (hord : R.Ordered) {l : Pool α} {d oh ow sv sh : Nat} (hl : l.Wf d oh ow sv sh)
    {input : Ten α} {x : Nat → Nat → Nat → α} (hx : TenIs input d (oh * sv) (ow * sh) x)
    (hfin : ∀ c i j, c < d → i < oh * sv → j < ow * sh → R.fin (x c i j)) {g g' : α → α} (ha : l.act = Act.elementwise g g') :
    Ok (l.forwardRaw input) (fun l' => ∃ mx : Nat → Nat → Nat → α,
      (∀ c p q, c < d → p < oh → q < ow → (∃ a b, a < sv ∧ b < sh ∧ mx c p q = x c (p * sv + a) (q * sh + b)) ∧
        ∀ a b, a < sv → b < sh → R.val (x c (p * sv + a) (q * sh + b)) ≤ R.val (mx c p q)) ∧
      TenIs l'.value d oh ow (fun c p q => g (mx c p q)) ∧ l' = { l with value := l'.value } ∧ l'.Wf d oh ow sv sh) := by
  unfold Pool.forwardRaw
  have hsv := hl.hsv
  have hsh := hl.hsh
  obtain ⟨v0, hv0⟩ := hl.value
  have hex : ∀ c p q, ∃ m, (c < d ∧ p < oh ∧ q < ow) → poolScan input sv sh c (p * sv) (q * sh) = .ok m ∧
      ((∃ a b, a < sv ∧ b < sh ∧ m = x c (p * sv + a) (q * sh + b)) ∧
        ∀ a b, a < sv → b < sh → R.val (x c (p * sv + a) (q * sh + b)) ≤ R.val m) := by
    intro c p q
    by_cases h : c < d ∧ p < oh ∧ q < ow
    · obtain ⟨m, e, hm⟩ := poolScan_near hord hsv hsh hx hfin h.1 h.2.1 h.2.2
      exact ⟨m, fun _ => ⟨e, hm⟩⟩
    · exact ⟨v0 0 0 0, fun h' => absurd h' h⟩
  choose mx hmx using hex
  refine Ok.bind (P := fun t => TenIs t d oh ow mx) ?_ (fun t ht => ?_)
  · rw [hl.isz.1, hl.isz.2.1, hl.isz.2.2, hl.str.1, hl.str.2, rounds_mul hsv, rounds_mul hsh]
    refine forN_ten (new := mx) hv0 (fun c p q hc hp hq r g hr _ => ?_)
    rw [(hmx c p q ⟨hc, hp, hq⟩).1, bind_ok, Nat.mul_div_cancel _ (by omega), Nat.mul_div_cancel _ (by omega)]
    exact hr.set hc hp hq _
  · rw [ha]
    refine ((Act.Is.elementwise g g' (d * oh * ow)).fSelf t.data _ ht.flat).bind (fun r hr => Ok_ok.2 ?_)
    have hv : TenIs ({ t with data := r } : Ten α) d oh ow (fun c p q => g (mx c p q)) :=
      (TenIs.of_flat (t := { t with data := r }) ht.1 ht.2.1 ht.2.2.1 hr).congr (fun c p q _ hp hq => by
        obtain ⟨e1, e2, e3⟩ := idx3_split (i := c) hp hq
        dsimp only
        rw [e1, e2, e3])
    exact ⟨mx, fun c p q hc hp hq => (hmx c p q ⟨hc, hp, hq⟩).2, hv, rfl, { hl with value := ⟨_, hv⟩ }⟩

theorem idx3_bounds {k d h w : Nat} (hk : k < d * h * w) : k / w / h < d ∧ k / w % h < h ∧ k % w < w := by
  have hw : 0 < w := Nat.pos_of_ne_zero (fun e => by subst e; simp at hk)
  have hh : 0 < h := Nat.pos_of_ne_zero (fun e => by subst e; simp at hk)
  refine ⟨?_, Nat.mod_lt _ hh, Nat.mod_lt _ hw⟩
  rw [Nat.div_lt_iff_lt_mul hh, Nat.div_lt_iff_lt_mul hw]
  exact hk

theorem window_near {x : Nat → Nat → Nat → α} {X δ : Nat → Nat → Nat → ℝ} {d oh ow sv sh c p q : Nat}
    (hx : ∀ c i j, c < d → i < oh * sv → j < ow * sh → R.Near (x c i j) (X c i j) (δ c i j))
    (hc : c < d) (hp : p < oh) (hq : q < ow) {m : α} {mx me : ℝ} (h1 : ∃ a b, a < sv ∧ b < sh ∧ m = x c (p * sv + a) (q * sh + b))
    (h2 : ∀ a b, a < sv → b < sh → R.val (x c (p * sv + a) (q * sh + b)) ≤ R.val m) (hX : WindowMax X sv sh c p q mx)
    (hδ : WindowMax δ sv sh c p q me) : R.Near m mx me := by
  have hin : ∀ a, a < sv → p * sv + a < oh * sv := fun a ha => idx2_lt hp ha
  have hin' : ∀ b, b < sh → q * sh + b < ow * sh := fun b hb => idx2_lt hq hb
  have bd : ∀ a b, a < sv → b < sh → |R.val (x c (p * sv + a) (q * sh + b)) - X c (p * sv + a) (q * sh + b)| ≤ me := fun a b ha hb =>
    le_trans (hx c _ _ hc (hin a ha) (hin' b hb)).2 (hδ.2 ⟨a, b, ha, hb, rfl⟩)
  obtain ⟨a, b, ha, hb, rfl⟩ := h1
  obtain ⟨a', b', ha', hb', e'⟩ := hX.1
  refine ⟨(hx c _ _ hc (hin a ha) (hin' b hb)).1, abs_le.2 ⟨?_, ?_⟩⟩
  · have t1 := h2 a' b' ha' hb'
    have t2 := (abs_le.1 (bd a' b' ha' hb')).1
    rw [e']; linarith
  · have t1 : X c (p * sv + a) (q * sh + b) ≤ mx := hX.2 ⟨a, b, ha, hb, rfl⟩
    have t2 := (abs_le.1 (bd a b ha hb)).2
    linarith

end Trixy
