import Verif.Spec.Regression
import Verif.Proof.Linear
import Verif.Proof.Sum
import Verif.Props.Linear
import Mathlib.Algebra.Order.BigOperators.Ring.Finset
import Mathlib.Tactic.Linarith
import Mathlib.LinearAlgebra.Matrix.ToLinearEquiv
/- Regression. -/
namespace Trixy
universe u
open Finset

section
variable {α : Type u}

/-- Building a matrix row by row. -/
theorem forN_rows {h w : Nat} {m : Mat α} {f : Nat → Nat → Option α} {new : Nat → Nat → α} {body : Nat → Mat α → Res (Mat α)} (hm : MatB m h w f)
    (hb : ∀ i, i < h → ∀ r g, MatB r h w g →
      Ok (body i r) (fun r' => MatB r' h w (fun i' j' => if i' = i then some (new i j') else g i' j'))) :
    Ok (forN h m body) (fun r => MatIs r h w new) := by
  have := forN_spec (n := h) (s := m) (body := body) (fun i r => MatB r h w (fun i' j' => if i' < i then some (new i' j') else f i' j'))
    (hm.congr (fun _ _ _ _ => by simp)) (fun i hi r hr => by
      refine (hb i hi r _ hr).mono (fun r' hr' => hr'.congr (fun i' j' _ hj' => ?_))
      by_cases h1 : i' = i
      · subst h1; simp
      · by_cases h2 : i' < i
        · simp [h1, h2, Nat.lt_succ_of_lt h2]
        · have : ¬ i' < i + 1 := by omega
          simp [h1, h2, this])
  exact this.mono (fun r hr => MatB.congr hr (fun i j hi hj => by simp [hi]))

/-- The design matrix of linear regression. -/
def linCol [One α] (x : Nat → Nat → α) (i j : Nat) : α := if j = 0 then 1 else x i (j - 1)

theorem linDesign_spec [One α] {idata : Mat α} {h k : Nat} {x : Nat → Nat → α} (hx : MatIs idata h k x) :
    Ok (linDesign (k + 1) idata) (fun X => MatIs X h (k + 1) (linCol x)) := by
  unfold linDesign
  rw [hx.1]
  refine forN_rows (MatB_alloc h (k + 1)) (fun i hi r g hg => ?_)
  refine (hg.set hi (Nat.succ_pos k) 1).bind (fun r1 h1 => ?_)
  refine (forLoop_spec (fun j (r : Mat α) => MatB r h (k + 1) (fun i' j' => if i' = i ∧ j' < j then some (linCol x i j') else g i' j'))
    (by omega) (h1.congr (fun i' j' _ _ => ?_)) (fun j hj1 hj2 r hr => ?_)).mono (fun r' hr' => hr'.congr (fun i' j' _ hj' => ?_))
  · by_cases e : i' = i
    · by_cases e2 : j' = 0
      · subst e2; simp [e, linCol]
      · have : ¬ j' < 1 := by omega
        simp [e, e2]
    · simp [e]
  · rw [hx.get hi (show j - 1 < k by omega), bind_ok]
    refine (hr.set hi hj2 _).mono (fun r' hr' => hr'.congr (fun i' j' _ _ => ?_))
    by_cases e : i' = i
    · by_cases e2 : j' = j
      · subst e2; simp [e, linCol, show j' ≠ 0 by omega]
      · by_cases e3 : j' < j
        · simp [e, e2, e3, show j' < j + 1 by omega]
        · simp [e, e2, e3, show ¬ j' < j + 1 by omega]
    · simp [e]
  · by_cases e : i' = i
    · simp [e, hj']
    · simp [e]

theorem polyDesign_spec [Semiring α] {idata : Buf α} {h k : Nat} {x : Nat → α} (hx : VecIs idata h x) :
    Ok (polyDesign (k + 1) idata) (fun X => MatIs X h (k + 1) (fun i j => x i ^ j)) := by
  unfold polyDesign
  rw [hx.length]
  refine forN_rows (MatB_alloc h (k + 1)) (fun i hi r g hg => ?_)
  rw [hx.get hi, bind_ok]
  refine (hg.set hi (Nat.succ_pos k) 1).bind (fun r1 h1 => ?_)
  have hl := forLoop_spec (lo := 1) (hi := k + 1) (s := (r1, (1 : α))) (body := fun j (st : Mat α × α) => do
      let power := st.2 * x i
      let X ← st.1.set i j power
      return (X, power)) (fun j (st : Mat α × α) => st.2 = x i ^ (j - 1) ∧
        MatB st.1 h (k + 1) (fun i' j' => if i' = i ∧ j' < j then some (x i ^ j') else g i' j'))
    (by omega) ⟨by simp, h1.congr (fun i' j' _ _ => by
      by_cases e : i' = i
      · by_cases e2 : j' = 0
        · subst e2; simp [e]
        · have : ¬ j' < 1 := by omega
          simp [e, e2]
      · simp [e])⟩ (fun j hj1 hj2 st hst => by
      have hp : st.2 * x i = x i ^ j := by
        rw [hst.1, ← pow_succ]; congr 1; omega
      dsimp only
      rw [hp]
      refine (hst.2.set hi hj2 _).bind (fun r' hr' => Ok_ok.2 ⟨by simp, hr'.congr (fun i' j' _ _ => ?_)⟩)
      by_cases e : i' = i
      · by_cases e2 : j' = j
        · subst e2; simp [e]
        · by_cases e3 : j' < j
          · simp [e, e2, e3, show j' < j + 1 by omega]
          · simp [e, e2, e3, show ¬ j' < j + 1 by omega]
      · simp [e])
  refine Ok.bind (k := fun st => pure st.1) (Q := fun r' => MatB r' h (k + 1) (fun i' j' => if i' = i then some (x i ^ j') else g i' j')) hl (fun st hst => Ok_ok.2 (hst.2.congr (fun i' j' _ hj' => ?_)))
  by_cases e : i' = i
  · simp [e, hj']
  · simp [e]

theorem polyTrainDesign_spec [Semiring α] {idata : Buf α} {h k : Nat} {x : Nat → α} (hx : VecIs idata h x) :
    Ok (polyTrainDesign (k + 1) idata) (fun X => MatIs X h (k + 1) (fun i j => x i ^ j)) := by
  unfold polyTrainDesign
  rw [hx.length]
  refine forN_rows (MatB_alloc h (k + 1)) (fun i hi r g hg => ?_)
  rw [hx.get hi, bind_ok]
  have hl := forN_spec (n := k + 1) (s := (r, (1 : α))) (body := fun j (st : Mat α × α) => do
      let X ← st.1.set i j st.2
      return (X, st.2 * x i)) (fun j (st : Mat α × α) => st.2 = x i ^ j ∧
        MatB st.1 h (k + 1) (fun i' j' => if i' = i ∧ j' < j then some (x i ^ j') else g i' j'))
    ⟨by simp, hg.congr (fun i' j' _ _ => by simp)⟩ (fun j hj st hst => by
      rw [hst.1]
      refine (hst.2.set hi hj _).bind (fun r' hr' => Ok_ok.2 ⟨by simp [pow_succ], hr'.congr (fun i' j' _ _ => ?_)⟩)
      by_cases e : i' = i
      · by_cases e2 : j' = j
        · subst e2; simp [e]
        · by_cases e3 : j' < j
          · simp [e, e2, e3, show j' < j + 1 by omega]
          · simp [e, e2, e3, show ¬ j' < j + 1 by omega]
      · simp [e])
  refine Ok.bind (k := fun st => pure st.1) (Q := fun r' => MatB r' h (k + 1) (fun i' j' => if i' = i then some (x i ^ j') else g i' j')) hl (fun st hst => Ok_ok.2 (hst.2.congr (fun i' j' _ hj' => ?_)))
  by_cases e : i' = i
  · simp [e, hj']
  · simp [e]

theorem linCol_sum [Semiring α] (x : Nat → Nat → α) (w : Nat → α) (i k : Nat) :
    ∑ j ∈ range (k + 1), linCol x i j * w j = linPred k w (x i) := by
  rw [sum_range_succ']
  simp only [linCol, if_true, one_mul, Nat.add_sub_cancel]
  unfold linPred
  rw [add_comm]
  simp

end

/-! ### Least squares -/

section
variable {K : Type} [Field K] [LinearOrder K] [IsStrictOrderedRing K]

/-- The columns of the `h × N` matrix `a` are linearly independent. -/
def ColIndep (h N : Nat) (a : Nat → Nat → K) : Prop := ∀ u : Nat → K, (∀ i, i < h → ∑ j ∈ range N, a i j * u j = 0) → ∀ j, j < N → u j = 0

theorem gram_unit {h N : Nat} {a : Nat → Nat → K} : IsUnit (toM N (fun p q => ∑ i ∈ range h, a i p * a i q)) ↔ ColIndep h N a := by
  constructor
  · intro hu u hz j hj
    obtain ⟨U, hU⟩ := hu
    have hz' : (toM N (fun p q => ∑ i ∈ range h, a i p * a i q)).mulVec (fun q : Fin N => u q) = 0 := by
      ext p
      show ∑ q : Fin N, (∑ i ∈ range h, a i p * a i q) * u q = 0
      have : ∑ q : Fin N, (∑ i ∈ range h, a i p * a i q) * u q = ∑ i ∈ range h, a i p * ∑ q ∈ range N, a i q * u q := by
        rw [Finset.sum_congr rfl (fun q _ => sum_mul _ _ _), sum_comm]
        refine sum_congr rfl (fun i _ => ?_)
        rw [mul_sum, Finset.sum_range]
        exact sum_congr rfl (fun q _ => by ring)
      rw [this]
      exact sum_eq_zero (fun i hi => by rw [hz i (mem_range.1 hi), mul_zero])
    have h2 : (U⁻¹.val * U.val : Matrix (Fin N) (Fin N) K).mulVec (fun q => u q) = 0 := by
      rw [← Matrix.mulVec_mulVec, hU, hz', Matrix.mulVec_zero]
    rw [Units.inv_mul, Matrix.one_mulVec] at h2
    exact congrFun h2 ⟨j, hj⟩
  · intro hc
    rw [Matrix.isUnit_iff_isUnit_det, isUnit_iff_ne_zero]
    intro hdet
    obtain ⟨v, hv0, hv⟩ := Matrix.exists_mulVec_eq_zero_iff.2 hdet
    apply hv0
    ext j
    let u : Nat → K := fun q => if hq : q < N then v ⟨q, hq⟩ else 0
    have hu : ∀ q : Fin N, u q = v q := fun q => by simp [u]
    have key : ∑ i ∈ range h, (∑ q ∈ range N, a i q * u q) ^ 2 = 0 := by
      have h1 : ∑ p : Fin N, v p * ∑ q : Fin N, (∑ i ∈ range h, a i p * a i q) * v q = 0 := by
        refine sum_eq_zero (fun p _ => ?_)
        have : ∑ q : Fin N, (∑ i ∈ range h, a i p * a i q) * v q = 0 := congrFun hv p
        rw [this, mul_zero]
      rw [← h1]
      have h2 : ∀ i, ∑ q ∈ range N, a i q * u q = ∑ q : Fin N, a i q * v q := fun i => by
        rw [Finset.sum_range]; exact sum_congr rfl (fun q _ => by rw [hu])
      calc ∑ i ∈ range h, (∑ q ∈ range N, a i q * u q) ^ 2
          = ∑ i ∈ range h, ∑ p : Fin N, ∑ q : Fin N, v p * ((a i p * a i q) * v q) := by
            refine sum_congr rfl (fun i _ => ?_)
            rw [h2, pow_two, sum_mul]
            refine sum_congr rfl (fun p _ => ?_)
            rw [mul_sum]
            exact sum_congr rfl (fun q _ => by ring)
        _ = ∑ p : Fin N, ∑ q : Fin N, ∑ i ∈ range h, v p * ((a i p * a i q) * v q) := by
            rw [sum_comm]
            exact sum_congr rfl (fun p _ => sum_comm)
        _ = _ := by
            refine sum_congr rfl (fun p _ => ?_)
            rw [mul_sum]
            refine sum_congr rfl (fun q _ => ?_)
            rw [sum_mul, mul_sum]
    have hz : ∀ i, i < h → ∑ q ∈ range N, a i q * u q = 0 := fun i hi => by
      have := (sum_eq_zero_iff_of_nonneg (fun i _ => sq_nonneg (∑ q ∈ range N, a i q * u q))).1 key i (mem_range.2 hi)
      exact pow_eq_zero_iff two_ne_zero |>.1 this
    have := hc u hz j j.2
    rw [hu] at this
    exact this

/-- Normal equations give the unique least-squares solution. -/
theorem normal_eq_minimises {h N : Nat} {a : Nat → Nat → K} {y w : Nat → K}
    (hn : ∀ p, p < N → ∑ i ∈ range h, a i p * (y i - ∑ q ∈ range N, a i q * w q) = 0) (u : Nat → K) :
    rss h y (fun i => ∑ q ∈ range N, a i q * u q) =
      rss h y (fun i => ∑ q ∈ range N, a i q * w q) + ∑ i ∈ range h, (∑ q ∈ range N, a i q * (u q - w q)) ^ 2 := by
  unfold rss
  have hcross : ∑ i ∈ range h, (y i - ∑ q ∈ range N, a i q * w q) * (∑ q ∈ range N, a i q * (u q - w q)) = 0 := by
    calc ∑ i ∈ range h, (y i - ∑ q ∈ range N, a i q * w q) * (∑ q ∈ range N, a i q * (u q - w q))
        = ∑ i ∈ range h, ∑ p ∈ range N, (u p - w p) * (a i p * (y i - ∑ q ∈ range N, a i q * w q)) := by
          refine sum_congr rfl (fun i _ => ?_)
          rw [mul_sum]
          exact sum_congr rfl (fun p _ => by ring)
      _ = ∑ p ∈ range N, (u p - w p) * ∑ i ∈ range h, a i p * (y i - ∑ q ∈ range N, a i q * w q) := by
          rw [sum_comm]
          exact sum_congr rfl (fun p _ => by rw [mul_sum])
      _ = 0 := sum_eq_zero (fun p hp => by rw [hn p (mem_range.1 hp), mul_zero])
  have e : ∀ i, (y i - ∑ q ∈ range N, a i q * u q) ^ 2 = (y i - ∑ q ∈ range N, a i q * w q) ^ 2 +
      (∑ q ∈ range N, a i q * (u q - w q)) ^ 2 - 2 * ((y i - ∑ q ∈ range N, a i q * w q) * (∑ q ∈ range N, a i q * (u q - w q))) := fun i => by
    have : ∑ q ∈ range N, a i q * (u q - w q) = ∑ q ∈ range N, a i q * u q - ∑ q ∈ range N, a i q * w q := by
      rw [← sum_sub_distrib]; exact sum_congr rfl (fun q _ => by ring)
    rw [this]; ring
  rw [sum_congr rfl (fun i _ => e i), sum_sub_distrib, sum_add_distrib, ← mul_sum, hcross]
  ring

theorem normalSolve_spec {h N : Nat} {a : Nat → Nat → K} {y : Nat → K} {r : Reg K} {X : Mat K} {od : Buf K} (hr : r.W.length = N)
    (hX : MatIs X h N a) (hy : VecIs od h y) (hc : ColIndep h N a) :
    Ok (r.normalSolve X od) (fun r' => r'.N = r.N ∧ ∃ w, VecIs r'.W N w ∧
      ∀ p, p < N → ∑ i ∈ range h, a i p * (y i - ∑ q ∈ range N, a i q * w q) = 0) := by
  unfold Reg.normalSolve
  refine (C20_transpose X h N a hX).bind (fun XT hXT => ?_)
  refine (C19_product XT X N h N _ _ hXT hX).bind (fun G hG => ?_)
  have hu := gram_unit.2 hc
  have hinv : Ok (inverseNew G) (fun s => ∃ b, MatIs s.1 N N b ∧ toM N (fun p q => ∑ i ∈ range h, a i p * a i q) * toM N b = 1) := by
    unfold inverseNew
    rw [hG.1, hG.2.1]
    exact (C21_invertible N _ G _ _ (MatB_alloc N N) hG hu).mono (fun s ⟨b, h1, _, _, h4⟩ => ⟨b, h1, h4⟩)
  refine hinv.bind (fun s ⟨b, hb, hone⟩ => ?_)
  refine (C19_product s.1 XT N N h _ _ hb hXT).bind (fun P hP => ?_)
  refine (C18_col r.W od P h N y _ hy hP hr).bind (fun w hw => Ok_ok.2 ⟨rfl, ⟨_, hw, fun p hp => ?_⟩⟩)
  simp only [foldSum_zero_eq]
  -- Gram * (b * Xᵀ y) = Xᵀ y
  let c : Nat → K := fun q => ∑ i ∈ range h, a i q * y i
  have hwq : ∀ q, (∑ j ∈ range h, (∑ r ∈ range N, b q r * a j r) * y j) = ∑ r ∈ range N, b q r * c r := fun q => by
    calc ∑ j ∈ range h, (∑ r ∈ range N, b q r * a j r) * y j = ∑ j ∈ range h, ∑ r ∈ range N, b q r * (a j r * y j) :=
          sum_congr rfl (fun j _ => by rw [sum_mul]; exact sum_congr rfl (fun r _ => by ring))
      _ = _ := by rw [sum_comm]; exact sum_congr rfl (fun r _ => by rw [mul_sum])
  simp only [hwq]
  have hG1 : ∑ q ∈ range N, (∑ i ∈ range h, a i p * a i q) * (∑ r ∈ range N, b q r * c r) = c p := by
    calc ∑ q ∈ range N, (∑ i ∈ range h, a i p * a i q) * (∑ r ∈ range N, b q r * c r)
        = ∑ r ∈ range N, (∑ q ∈ range N, (∑ i ∈ range h, a i p * a i q) * b q r) * c r := by
          simp only [mul_sum, sum_mul]
          rw [sum_comm]
          refine sum_congr rfl (fun r _ => sum_congr rfl (fun q _ => sum_congr rfl (fun i _ => by ring)))
      _ = ∑ r ∈ range N, (if p = r then 1 else 0) * c r := by
          refine sum_congr rfl (fun r hr => ?_)
          congr 1
          have := congrFun (congrFun hone ⟨p, hp⟩) ⟨r, mem_range.1 hr⟩
          rw [toM_mul, Matrix.one_apply] at this
          simp only [Fin.mk.injEq] at this
          exact this
      _ = c p := by simp [hp]
  calc ∑ i ∈ range h, a i p * (y i - ∑ q ∈ range N, a i q * ∑ r ∈ range N, b q r * c r)
      = c p - ∑ q ∈ range N, (∑ i ∈ range h, a i p * a i q) * (∑ r ∈ range N, b q r * c r) := by
        simp only [mul_sub, sum_sub_distrib]
        congr 1
        calc ∑ i ∈ range h, a i p * ∑ q ∈ range N, a i q * ∑ r ∈ range N, b q r * c r
            = ∑ i ∈ range h, ∑ q ∈ range N, a i p * a i q * ∑ r ∈ range N, b q r * c r :=
              sum_congr rfl (fun i _ => by rw [mul_sum]; exact sum_congr rfl (fun q _ => by ring))
          _ = _ := by rw [sum_comm]; exact sum_congr rfl (fun q _ => by rw [sum_mul])
    _ = 0 := by rw [hG1, sub_self]

theorem normalSolve_singular {h N : Nat} {a : Nat → Nat → K} {r : Reg K} {X : Mat K} {od : Buf K}
    (hX : MatIs X h N a) (hc : ¬ ColIndep h N a) : r.normalSolve X od = .error .divByZero := by
  unfold Reg.normalSolve
  obtain ⟨XT, e1, hXT⟩ := C20_transpose X h N a hX
  obtain ⟨G, e2, hG⟩ := C19_product XT X N h N _ _ hXT hX
  rw [e1, bind_ok, e2, bind_ok]
  have : inverseNew G = .error .divByZero := by
    unfold inverseNew
    rw [hG.1, hG.2.1]
    exact C21_singular N _ G _ _ (MatB_alloc N N) hG (fun hu => hc (gram_unit.1 hu))
  rw [this, bind_err]

end

end Trixy
