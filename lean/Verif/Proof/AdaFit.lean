import Verif.Proof.Momentum
import Mathlib.Analysis.PSeries
import Mathlib.Analysis.SpecialFunctions.Log.Basic
/- AdaGrad on a convex smooth function of a matrix: no condition on the learning rate. -/
namespace Trixy.FitMath
open Finset

/-- A run of AdaGrad: the squares of the gradients are summed up, the step is divided by the root of the sum. -/
structure AdaRun (G : (Nat → Nat → ℝ) → Nat → Nat → ℝ) (lr e : ℝ) (T S : Nat → Nat → Nat → ℝ) : Prop where
  start : S 0 = fun _ _ => 0
  acc : ∀ t, S (t + 1) = fun i j => S t i j + G (T t) i j ^ 2
  pos : ∀ t, T (t + 1) = fun i j => T t i j - 1 / Real.sqrt (e + S (t + 1) i j) * G (T t) i j * lr

theorem root_step {a g : ℝ} (ha : 0 < a) : Real.sqrt (a + g ^ 2) - Real.sqrt a ≤ g ^ 2 / Real.sqrt (a + g ^ 2) := by
  have hb : 0 < a + g ^ 2 := by positivity
  have h1 := Real.sqrt_pos.2 hb
  have h2 := Real.sqrt_nonneg a
  rw [le_div_iff₀ h1]
  have e1 := Real.mul_self_sqrt hb.le
  have e2 := Real.mul_self_sqrt ha.le
  have h3 : Real.sqrt a ≤ Real.sqrt (a + g ^ 2) := Real.sqrt_le_sqrt (by nlinarith [sq_nonneg g])
  nlinarith

theorem log_step {a g : ℝ} (ha : 0 < a) : g ^ 2 / (a + g ^ 2) ≤ Real.log (a + g ^ 2) - Real.log a := by
  have hb : 0 < a + g ^ 2 := by positivity
  have := Real.log_le_sub_one_of_pos (div_pos ha hb)
  rw [Real.log_div ha.ne' hb.ne'] at this
  have e : a / (a + g ^ 2) = 1 - g ^ 2 / (a + g ^ 2) := by field_simp; ring
  rw [e] at this
  linarith

/-- `lr √x - c log x` is bounded from below by half of the root. -/
theorem root_log {lr c x : ℝ} (hlr : 0 < lr) (hc : 0 < c) (hx : 0 < x) :
    lr / 2 * Real.sqrt x - 2 * c * (Real.log (4 * c / lr) - 1) ≤ lr * Real.sqrt x - c * Real.log x := by
  have hs := Real.sqrt_pos.2 hx
  have hA : 0 < 4 * c / lr := by positivity
  have e1 : Real.log x = 2 * Real.log (Real.sqrt x) := by rw [Real.log_sqrt hx.le]; ring
  have := Real.log_le_sub_one_of_pos (div_pos hs hA)
  rw [Real.log_div hs.ne' hA.ne'] at this
  have e2 : 2 * c * (Real.sqrt x / (4 * c / lr)) = lr / 2 * Real.sqrt x := by field_simp; ring
  have h2 : 2 * c * Real.log (Real.sqrt x) ≤ 2 * c * (Real.sqrt x / (4 * c / lr)) + 2 * c * (Real.log (4 * c / lr) - 1) := by
    rw [← mul_add]
    exact mul_le_mul_of_nonneg_left (by linarith) (by positivity)
  rw [e1]
  nlinarith

variable {n m : Nat} {f : (Nat → Nat → ℝ) → ℝ} {G : (Nat → Nat → ℝ) → Nat → Nat → ℝ} {L : ℝ} {T S : Nat → Nat → Nat → ℝ} {lr e : ℝ}

theorem AdaRun.nonneg (h : AdaRun G lr e T S) (t i j : Nat) : 0 ≤ S t i j := by
  induction t with
  | zero => rw [h.start]
  | succ t ih => rw [h.acc]; show 0 ≤ S t i j + _; positivity

/-- The sums of squares, added up. -/
theorem AdaRun.total (h : AdaRun G lr e T S) (N : Nat) : ∑ i ∈ range n, ∑ j ∈ range m, S N i j = ∑ t ∈ range N, nrm n m (G (T t)) := by
  induction N with
  | zero => rw [h.start]; simp
  | succ N ih =>
    rw [sum_range_succ, ← ih, h.acc]
    unfold nrm
    simp only [← sum_add_distrib]

/-- The function itself, and what one step takes from it. -/
theorem AdaRun.step (h : AdaRun G lr e T S) (hf : Smooth n m f G L) (he : 0 < e) (t : Nat) :
    f (T (t + 1)) ≤ f (T t) - lr * ∑ i ∈ range n, ∑ j ∈ range m, G (T t) i j ^ 2 / Real.sqrt (e + S (t + 1) i j) +
      L * lr ^ 2 / 2 * ∑ i ∈ range n, ∑ j ∈ range m, G (T t) i j ^ 2 / (e + S (t + 1) i j) := by
  have up := hf.up (T t) (fun i j => -(1 / Real.sqrt (e + S (t + 1) i j) * G (T t) i j * lr))
  have e0 : (fun i j => T t i j + -(1 / Real.sqrt (e + S (t + 1) i j) * G (T t) i j * lr)) = T (t + 1) := by
    rw [h.pos t]; funext i j; ring
  rw [e0] at up
  have e1 : pair n m (G (T t)) (fun i j => -(1 / Real.sqrt (e + S (t + 1) i j) * G (T t) i j * lr)) =
      -(lr * ∑ i ∈ range n, ∑ j ∈ range m, G (T t) i j ^ 2 / Real.sqrt (e + S (t + 1) i j)) := by
    unfold pair
    simp only [mul_sum, ← sum_neg_distrib]
    exact sum_congr rfl (fun i _ => sum_congr rfl (fun j _ => by ring))
  have e2 : nrm n m (fun i j => -(1 / Real.sqrt (e + S (t + 1) i j) * G (T t) i j * lr)) =
      lr ^ 2 * ∑ i ∈ range n, ∑ j ∈ range m, G (T t) i j ^ 2 / (e + S (t + 1) i j) := by
    unfold nrm
    simp only [mul_sum]
    refine sum_congr rfl (fun i _ => sum_congr rfl (fun j _ => ?_))
    have hs : Real.sqrt (e + S (t + 1) i j) ^ 2 = e + S (t + 1) i j := Real.sq_sqrt (by have := h.nonneg (t + 1) i j; linarith)
    calc (-(1 / Real.sqrt (e + S (t + 1) i j) * G (T t) i j * lr)) ^ 2 = lr ^ 2 * (G (T t) i j ^ 2 / Real.sqrt (e + S (t + 1) i j) ^ 2) := by ring
      _ = _ := by rw [hs]
  rw [e1, e2] at up
  linarith

/-- What the optimizer knows, as a potential: it never increases. -/
theorem AdaRun.potential (h : AdaRun G lr e T S) (hf : Smooth n m f G L) (hL : 0 < L) (hlr : 0 < lr) (he : 0 < e) (N : Nat) :
    f (T N) + ∑ i ∈ range n, ∑ j ∈ range m, (lr * Real.sqrt (e + S N i j) - L * lr ^ 2 / 2 * Real.log (e + S N i j)) ≤
      f (T 0) + ∑ i ∈ range n, ∑ j ∈ range m, (lr * Real.sqrt (e + S 0 i j) - L * lr ^ 2 / 2 * Real.log (e + S 0 i j)) := by
  induction N with
  | zero => exact le_rfl
  | succ t ih =>
    refine le_trans ?_ ih
    have st := h.step hf he t
    have : ∑ i ∈ range n, ∑ j ∈ range m, (lr * Real.sqrt (e + S (t + 1) i j) - L * lr ^ 2 / 2 * Real.log (e + S (t + 1) i j)) ≤
        ∑ i ∈ range n, ∑ j ∈ range m, (lr * Real.sqrt (e + S t i j) - L * lr ^ 2 / 2 * Real.log (e + S t i j)) +
        lr * ∑ i ∈ range n, ∑ j ∈ range m, G (T t) i j ^ 2 / Real.sqrt (e + S (t + 1) i j) -
        L * lr ^ 2 / 2 * ∑ i ∈ range n, ∑ j ∈ range m, G (T t) i j ^ 2 / (e + S (t + 1) i j) := by
      simp only [mul_sum, ← sum_add_distrib, ← sum_sub_distrib]
      refine sum_le_sum (fun i _ => sum_le_sum (fun j _ => ?_))
      have ha : 0 < e + S t i j := by have := h.nonneg t i j; linarith
      have eb : e + S (t + 1) i j = e + S t i j + G (T t) i j ^ 2 := by rw [h.acc]; ring
      rw [eb]
      have r1 := mul_le_mul_of_nonneg_left (root_step (g := G (T t) i j) ha) hlr.le
      have r2 := mul_le_mul_of_nonneg_left (log_step (g := G (T t) i j) ha) (show 0 ≤ L * lr ^ 2 / 2 by positivity)
      rw [mul_sub] at r1 r2
      linarith
    linarith

/-- The squares of the gradients have a finite sum. -/
theorem AdaRun.bounded (h : AdaRun G lr e T S) (hf : Smooth n m f G L) (hL : 0 < L) (hlr : 0 < lr) (he : 0 < e) {lo : ℝ} (hlo : ∀ R, lo ≤ f R) :
    ∃ M : ℝ, 0 ≤ M ∧ ∀ N, ∑ t ∈ range N, nrm n m (G (T t)) ≤ M := by
  set c := L * lr ^ 2 / 2 with hc
  have hc0 : 0 < c := by positivity
  set K := 2 * c * (Real.log (4 * c / lr) - 1) with hK
  set Φ := f (T 0) + ∑ i ∈ range n, ∑ j ∈ range m, (lr * Real.sqrt (e + S 0 i j) - c * Real.log (e + S 0 i j)) with hΦ
  set X := (2 / lr) * (Φ - lo + ∑ i ∈ range n, ∑ j ∈ range m, K) with hX
  have key : ∀ N, ∑ i ∈ range n, ∑ j ∈ range m, Real.sqrt (e + S N i j) ≤ X := fun N => by
    have p := h.potential hf hL hlr he N
    have q : ∑ i ∈ range n, ∑ j ∈ range m, (lr / 2 * Real.sqrt (e + S N i j) - K) ≤
        ∑ i ∈ range n, ∑ j ∈ range m, (lr * Real.sqrt (e + S N i j) - c * Real.log (e + S N i j)) :=
      sum_le_sum (fun i _ => sum_le_sum (fun j _ => root_log hlr hc0 (by have := h.nonneg N i j; linarith)))
    simp only [sum_sub_distrib, ← mul_sum] at q
    have l := hlo (T N)
    have r : lr / 2 * ∑ i ∈ range n, ∑ j ∈ range m, Real.sqrt (e + S N i j) ≤ Φ - lo + ∑ i ∈ range n, ∑ j ∈ range m, K := by
      simp only [sum_sub_distrib, ← mul_sum] at p hΦ
      simp only [sum_const, mul_sum] at q ⊢ p hΦ
      linarith
    rw [hX]
    have : ∑ i ∈ range n, ∑ j ∈ range m, Real.sqrt (e + S N i j) = 2 / lr * (lr / 2 * ∑ i ∈ range n, ∑ j ∈ range m, Real.sqrt (e + S N i j)) := by
      field_simp
    rw [this]
    exact mul_le_mul_of_nonneg_left r (by positivity)
  refine ⟨∑ i ∈ range n, ∑ j ∈ range m, X ^ 2, sum_nonneg (fun i _ => sum_nonneg (fun j _ => sq_nonneg _)), fun N => ?_⟩
  rw [← h.total]
  refine sum_le_sum (fun i hi => sum_le_sum (fun j hj => ?_))
  have hs : Real.sqrt (e + S N i j) ≤ X := by
    refine le_trans ?_ (key N)
    refine le_trans ?_ (single_le_sum (f := fun i => ∑ j ∈ range m, Real.sqrt (e + S N i j)) (fun i _ => sum_nonneg (fun j _ => Real.sqrt_nonneg _)) hi)
    exact single_le_sum (f := fun j => Real.sqrt (e + S N i j)) (fun j _ => Real.sqrt_nonneg _) hj
  have hn := h.nonneg N i j
  have := Real.sq_sqrt (show 0 ≤ e + S N i j by linarith)
  have := Real.sqrt_nonneg (e + S N i j)
  nlinarith

/-- The length of one step. -/
theorem AdaRun.step_sq (h : AdaRun G lr e T S) (he : 0 < e) (t : Nat) :
    nrm n m (fun i j => T (t + 1) i j - T t i j) ≤ lr ^ 2 / e * nrm n m (G (T t)) := by
  unfold nrm
  simp only [mul_sum]
  refine sum_le_sum (fun i _ => sum_le_sum (fun j _ => ?_))
  rw [h.pos t]
  have hb : 0 < e + S (t + 1) i j := by have := h.nonneg (t + 1) i j; linarith
  have hs := Real.sq_sqrt hb.le
  have : (T t i j - 1 / Real.sqrt (e + S (t + 1) i j) * G (T t) i j * lr - T t i j) ^ 2 = lr ^ 2 / (e + S (t + 1) i j) * G (T t) i j ^ 2 := by
    calc (T t i j - 1 / Real.sqrt (e + S (t + 1) i j) * G (T t) i j * lr - T t i j) ^ 2 =
          lr ^ 2 / Real.sqrt (e + S (t + 1) i j) ^ 2 * G (T t) i j ^ 2 := by ring
      _ = _ := by rw [hs]
  show (T t i j - 1 / Real.sqrt (e + S (t + 1) i j) * G (T t) i j * lr - T t i j) ^ 2 ≤ _
  rw [this]
  exact mul_le_mul_of_nonneg_right (div_le_div_of_nonneg_left (sq_nonneg _) he (by have := h.nonneg (t + 1) i j; linarith)) (sq_nonneg _)

/-- The distance to any point grows at most like the root of the number of steps. -/
theorem AdaRun.dist (h : AdaRun G lr e T S) (he : 0 < e) (R : Nat → Nat → ℝ) (N : Nat) :
    nrm n m (fun i j => T N i j - R i j) ≤ (N + 1) * (nrm n m (fun i j => T 0 i j - R i j) + lr ^ 2 / e * ∑ t ∈ range N, nrm n m (G (T t))) := by
  induction N with
  | zero => simp
  | succ t ih =>
    have hp : (0 : ℝ) < t + 1 := by positivity
    have st : nrm n m (fun i j => T (t + 1) i j - R i j) ≤
        (1 + 1 / ((t : ℝ) + 1)) * nrm n m (fun i j => T t i j - R i j) + (1 + (t + 1)) * (lr ^ 2 / e * nrm n m (G (T t))) := by
      unfold nrm
      simp only [mul_sum, ← sum_add_distrib]
      refine sum_le_sum (fun i _ => sum_le_sum (fun j _ => ?_))
      rw [h.pos t]
      have hn := h.nonneg (t + 1) i j
      have hb : 0 < e + S (t + 1) i j := by linarith
      set x := T t i j - R i j
      set y := 1 / Real.sqrt (e + S (t + 1) i j) * G (T t) i j * lr with hy
      have e1 : T t i j - y - R i j = x - y := by simp only [x]; ring
      have hy2 : y ^ 2 ≤ lr ^ 2 / e * G (T t) i j ^ 2 := by
        have : y ^ 2 = lr ^ 2 / (e + S (t + 1) i j) * G (T t) i j ^ 2 := by
          rw [hy]
          have hs := Real.sq_sqrt hb.le
          calc (1 / Real.sqrt (e + S (t + 1) i j) * G (T t) i j * lr) ^ 2 = lr ^ 2 / Real.sqrt (e + S (t + 1) i j) ^ 2 * G (T t) i j ^ 2 := by ring
            _ = _ := by rw [hs]
        rw [this]
        exact mul_le_mul_of_nonneg_right (div_le_div_of_nonneg_left (sq_nonneg _) he (by linarith)) (sq_nonneg _)
      show (T t i j - y - R i j) ^ 2 ≤ _
      rw [e1]
      have h1 : (x - y) ^ 2 ≤ (1 + 1 / ((t : ℝ) + 1)) * x ^ 2 + (1 + (t + 1)) * y ^ 2 := by
        have : 0 ≤ (x / ((t : ℝ) + 1) + y) ^ 2 * (t + 1) := by positivity
        have e2 : (x / ((t : ℝ) + 1) + y) ^ 2 * (t + 1) = 1 / ((t : ℝ) + 1) * x ^ 2 + 2 * x * y + (t + 1) * y ^ 2 := by field_simp; ring
        nlinarith
      have h2 := mul_le_mul_of_nonneg_left hy2 (show (0 : ℝ) ≤ 1 + (t + 1) by positivity)
      linarith
    refine st.trans ?_
    rw [sum_range_succ]
    push_cast
    have := mul_le_mul_of_nonneg_left ih (show (0 : ℝ) ≤ 1 + 1 / ((t : ℝ) + 1) by positivity)
    refine (add_le_add_left this _).trans (le_of_eq ?_)
    field_simp
    ring

/-- The values come as close to the infimum as wanted, and stay there. -/
theorem AdaRun.limit (h : AdaRun G lr e T S) (hf : Smooth n m f G L) (hL : 0 < L) (hlr : 0 < lr) (he : 0 < e) {lo : ℝ} (hlo : ∀ R, lo ≤ f R)
    (R : Nat → Nat → ℝ) (ε : ℝ) (hε : 0 < ε) : ∃ N0 : Nat, ∀ N, N0 ≤ N → f (T N) ≤ f R + ε := by
  obtain ⟨M, hM0, hM⟩ := h.bounded hf hL hlr he hlo
  set U : Nat → ℝ := fun N => ∑ t ∈ range N, nrm n m (G (T t)) with hU
  have hmono : Monotone U := monotone_nat_of_le_succ (fun N => by simp only [hU, sum_range_succ]; linarith [nrm_nonneg n m (G (T N))])
  set c := L * lr ^ 2 / 2 / e with hc
  have hc0 : 0 < c := by positivity
  -- what can be lost from step `a` on
  have inc : ∀ a b, f (T (a + b)) ≤ f (T a) + c * (U (a + b) - U a) := fun a b => by
    induction b with
    | zero => simp
    | succ b ih =>
      have st := h.step hf he (a + b)
      have p1 : 0 ≤ lr * ∑ i ∈ range n, ∑ j ∈ range m, G (T (a + b)) i j ^ 2 / Real.sqrt (e + S (a + b + 1) i j) :=
        mul_nonneg hlr.le (sum_nonneg (fun i _ => sum_nonneg (fun j _ => div_nonneg (sq_nonneg _) (Real.sqrt_nonneg _))))
      have p2 : L * lr ^ 2 / 2 * ∑ i ∈ range n, ∑ j ∈ range m, G (T (a + b)) i j ^ 2 / (e + S (a + b + 1) i j) ≤ c * nrm n m (G (T (a + b))) := by
        unfold nrm
        simp only [mul_sum]
        refine sum_le_sum (fun i _ => sum_le_sum (fun j _ => ?_))
        have hn := h.nonneg (a + b + 1) i j
        have : G (T (a + b)) i j ^ 2 / (e + S (a + b + 1) i j) ≤ G (T (a + b)) i j ^ 2 / e := div_le_div_of_nonneg_left (sq_nonneg _) he (by linarith)
        calc _ ≤ L * lr ^ 2 / 2 * (G (T (a + b)) i j ^ 2 / e) := mul_le_mul_of_nonneg_left this (by positivity)
          _ = _ := by rw [hc]; ring
      have e1 : U (a + b + 1) = U (a + b) + nrm n m (G (T (a + b))) := sum_range_succ ..
      show f (T (a + b + 1)) ≤ f (T a) + c * (U (a + b + 1) - U a)
      rw [e1]
      nlinarith
  -- the sums of squares settle
  obtain ⟨N1, hN1⟩ : ∃ N1, ∀ N, U N - U N1 ≤ ε / 2 / c := by
    have hbdd : BddAbove (Set.range U) := ⟨M, by rintro _ ⟨N, rfl⟩; exact hM N⟩
    have hpos : 0 < ε / 2 / c := by positivity
    obtain ⟨_, ⟨N1, rfl⟩, hN1⟩ := exists_lt_of_lt_csSup (Set.range_nonempty U) (show sSup (Set.range U) - ε / 2 / c < sSup (Set.range U) by linarith)
    refine ⟨N1, fun N => ?_⟩
    have := le_csSup hbdd ⟨N, rfl⟩
    linarith
  -- the values are close at some later step
  obtain ⟨t, ht, hft⟩ : ∃ t, N1 ≤ t ∧ f (T t) ≤ f R + ε / 2 := by
    by_contra hcon
    push Not at hcon
    set D := nrm n m (fun i j => T 0 i j - R i j) + lr ^ 2 / e * M + 1 with hD
    have hD0 : 0 < D := by have := nrm_nonneg n m (fun i j => T 0 i j - R i j); positivity
    have low : ∀ t, N1 ≤ t → ε ^ 2 / 4 / D * (1 / ((t : ℝ) + 1)) ≤ nrm n m (G (T t)) := fun t ht => by
      have l1 := hf.low (T t) (fun i j => R i j - T t i j)
      have eR : (fun i j => T t i j + (R i j - T t i j)) = R := by funext i j; ring
      rw [eR] at l1
      have hc := hcon t ht
      have hcs := pair_sq n m (G (T t)) (fun i j => R i j - T t i j)
      have en : nrm n m (fun i j => R i j - T t i j) = nrm n m (fun i j => T t i j - R i j) := by
        unfold nrm
        exact sum_congr rfl (fun i _ => sum_congr rfl (fun j _ => by ring))
      rw [en] at hcs
      have hd := h.dist (n := n) (m := m) he R t
      have hd2 : nrm n m (fun i j => T t i j - R i j) ≤ (t + 1) * D := by
        refine hd.trans (mul_le_mul_of_nonneg_left ?_ (by positivity))
        have := mul_le_mul_of_nonneg_left (hM t) (show 0 ≤ lr ^ 2 / e by positivity)
        rw [hD]; linarith
      have hg := nrm_nonneg n m (G (T t))
      have h4 : ε ^ 2 / 4 ≤ pair n m (G (T t)) (fun i j => R i j - T t i j) ^ 2 := by nlinarith
      have h5 := h4.trans (hcs.trans (mul_le_mul_of_nonneg_left hd2 hg))
      rw [div_mul_div_comm, mul_one, div_le_iff₀ (by positivity)]
      linarith
    -- the harmonic series
    have hsum : ∀ N, ε ^ 2 / 4 / D * (∑ t ∈ range (N1 + N), (1 / ((t : ℝ) + 1)) - ∑ t ∈ range N1, (1 / ((t : ℝ) + 1))) ≤ U (N1 + N) - U N1 := fun N => by
      induction N with
      | zero => simp
      | succ N ih =>
        have := low (N1 + N) (by omega)
        show ε ^ 2 / 4 / D * (∑ t ∈ range (N1 + N + 1), (1 / ((t : ℝ) + 1)) - ∑ t ∈ range N1, (1 / ((t : ℝ) + 1))) ≤ U (N1 + N + 1) - U N1
        have e1 : U (N1 + N + 1) = U (N1 + N) + nrm n m (G (T (N1 + N))) := sum_range_succ ..
        rw [e1, sum_range_succ]
        rw [mul_sub] at ih ⊢
        rw [mul_add]
        linarith
    have hq : 0 < ε ^ 2 / 4 / D := by positivity
    have htop := Real.tendsto_sum_range_one_div_nat_succ_atTop
    obtain ⟨N2, hN2⟩ := (Filter.tendsto_atTop.1 htop (ε / 2 / c / (ε ^ 2 / 4 / D) + ∑ t ∈ range N1, (1 / ((t : ℝ) + 1)) + 1)).exists_forall_of_atTop
    have h1 := hN2 (N1 + N2) (by omega)
    have h2 := (hsum N2).trans (hN1 (N1 + N2))
    have h3 : ε / 2 / c / (ε ^ 2 / 4 / D) + 1 ≤ ∑ t ∈ range (N1 + N2), (1 / ((t : ℝ) + 1)) - ∑ t ∈ range N1, (1 / ((t : ℝ) + 1)) := by linarith
    have h4 := (mul_le_mul_of_nonneg_left h3 hq.le).trans h2
    have e5 : ε ^ 2 / 4 / D * (ε / 2 / c / (ε ^ 2 / 4 / D) + 1) = ε / 2 / c + ε ^ 2 / 4 / D := by field_simp
    rw [e5] at h4
    linarith
  refine ⟨t, fun N hN => ?_⟩
  obtain ⟨b, rfl⟩ := Nat.exists_eq_add_of_le hN
  have h1 := inc t b
  have h2 : U (t + b) - U t ≤ ε / 2 / c := by have := hN1 (t + b); have := hmono ht; linarith
  have h3 := mul_le_mul_of_nonneg_left h2 hc0.le
  have e5 : c * (ε / 2 / c) = ε / 2 := by field_simp
  rw [e5] at h3
  linarith

end Trixy.FitMath
