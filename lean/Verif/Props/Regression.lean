import Verif.Proof.Regression
import Mathlib.LinearAlgebra.Lagrange
/-
Properties C55 (prediction) and C56 (least-squares training) of the linear and polynomial regressions.
-/
namespace Trixy
set_option linter.unusedSectionVars false
universe u
open Finset

section
variable {α : Type u}

/-! ## C55 prediction -/

theorem dotColNew_spec [Semiring α] {col : Buf α} {m : Mat α} {h w : Nat} {b : Nat → α} {f : Nat → Nat → α} (hm : MatIs m h w f) (hc : VecIs col w b) :
    Ok (dotColNew m col) (fun r => VecIs r h (fun i => ∑ j ∈ range w, f i j * b j)) := by
  unfold dotColNew; rw [hm.1]
  exact (C18_col _ col m w h b f hc hm (by simp [Buf.alloc])).mono
    (fun r h => h.congr (fun j _ => foldSum_zero_eq _ _))

/-- `feedforward_sample` of a linear regression. -/
theorem C55_linear_sample [Semiring α] (r : Reg α) (k : Nat) (w x : Nat → α) (sample : Buf α) (hr : r.Is k w) (hs : VecIs sample k x) :
    r.linSample sample = .ok (linPred k w x) := by
  unfold Reg.linSample
  rw [hr.1, hr.2.get (Nat.succ_pos k), bind_ok]
  apply Ok.eq
  refine (forLoop_spec (fun j v => v = linPred (j - 1) w x) (by omega) (by simp [linPred]) (fun j h1 h2 v hv => ?_)).mono
    (fun v hv => by rw [hv]; simp)
  rw [hs.get (show j - 1 < k by omega), bind_ok, hr.2.get h2, bind_ok]
  refine Ok_ok.2 ?_
  obtain ⟨j, rfl⟩ : ∃ j', j = j' + 1 := ⟨j - 1, by omega⟩
  rw [hv]
  rw [Nat.add_sub_cancel, Nat.add_sub_cancel]
  simp only [linPred, sum_range_succ, add_assoc]

/-- `feedforward` of a linear regression: element `i` is the prediction for row `i`. -/
theorem C55_linear [Semiring α] (r : Reg α) (h k : Nat) (w : Nat → α) (x : Nat → Nat → α) (idata : Mat α) (hr : r.Is k w) (hx : MatIs idata h k x) :
    Ok (r.linForward idata) (fun out => VecIs out h (fun i => linPred k w (x i))) := by
  unfold Reg.linForward
  rw [hr.1]
  refine (linDesign_spec hx).bind (fun X hX => ?_)
  refine (dotColNew_spec hX hr.2).mono (fun out ho => ho.congr (fun i _ => linCol_sum x w i k))

/-- `feedforward` agrees with `feedforward_sample` applied to any row. -/
theorem C55_linear_agree [Semiring α] (r : Reg α) (h k : Nat) (w : Nat → α) (x : Nat → Nat → α) (idata : Mat α) (hr : r.Is k w) (hx : MatIs idata h k x)
    (i : Nat) (hi : i < h) (row : Buf α) (hrow : VecIs row k (x i)) : (r.linForward idata >>= fun out => out.get i) = r.linSample row := by
  rw [C55_linear_sample r k w (x i) row hr hrow]
  apply Ok.eq
  exact (C55_linear r h k w x idata hr hx).bind (fun out ho => by rw [ho.get hi]; exact Ok_ok.2 rfl)

/-- Scalar `feedforward` of a polynomial regression. -/
theorem C55_poly_sample [CommSemiring α] (r : Reg α) (k : Nat) (w : Nat → α) (x : α) (hr : r.Is k w) : r.polySample x = .ok (polyPred k w x) := by
  unfold Reg.polySample
  rw [hr.1, hr.2.get (Nat.succ_pos k), bind_ok]
  apply Ok.eq
  have hl := forLoop_spec (lo := 1) (hi := k + 1) (s := (w 0, (1 : α))) (body := fun i (st : α × α) => do
      let power := st.2 * x
      let w ← r.W.get i
      return (st.1 + power * w, power)) (fun j (st : α × α) => st.1 = ∑ q ∈ range j, x ^ q * w q ∧ st.2 = x ^ (j - 1))
    (by omega) ⟨by simp, by simp⟩ (fun j h1 h2 st hst => by
      rw [hr.2.get h2]
      have hp : st.2 * x = x ^ j := by rw [hst.2, ← pow_succ]; congr 1; omega
      refine Ok_ok.2 ⟨?_, ?_⟩
      · show st.1 + st.2 * x * w j = _
        rw [sum_range_succ, hst.1, hp]
      · show st.2 * x = _
        rw [hp, Nat.add_sub_cancel])
  exact Ok.bind (k := fun st => pure st.1) (Q := fun v => v = polyPred k w x) hl (fun st hst => Ok_ok.2 hst.1)

/-- Vector `feedforward` of a polynomial regression. -/
theorem C55_poly [CommSemiring α] (r : Reg α) (h k : Nat) (w x : Nat → α) (idata : Buf α) (hr : r.Is k w) (hx : VecIs idata h x) :
    Ok (r.polyForward idata) (fun out => VecIs out h (fun i => polyPred k w (x i))) := by
  unfold Reg.polyForward
  rw [hr.1]
  refine (polyDesign_spec hx).bind (fun X hX => ?_)
  exact (dotColNew_spec hX hr.2)

/-- The two agree on every element. -/
theorem C55_poly_agree [CommSemiring α] (r : Reg α) (h k : Nat) (w x : Nat → α) (idata : Buf α) (hr : r.Is k w) (hx : VecIs idata h x)
    (i : Nat) (hi : i < h) : (r.polyForward idata >>= fun out => out.get i) = r.polySample (x i) := by
  rw [C55_poly_sample r k w (x i) hr]
  apply Ok.eq
  exact (C55_poly r h k w x idata hr hx).bind (fun out ho => by rw [ho.get hi]; exact Ok_ok.2 rfl)

/-- `initialize` with a temporary of `k+1` weights sets them, whatever the weights were. -/
theorem C55_initialize (r : Reg α) (k : Nat) (w : Nat → α) (weight : Buf α) (hr : r.Sized k) (hw : VecIs weight (k + 1) w) :
    Ok (r.init weight) (fun r' => r'.Is k w) := by
  unfold Reg.init
  rw [hr.2]
  refine Ok.bind (forN_vec (new := w) (hr.2 ▸ BufIs_self r.W) (fun i hi b g hb _ => ?_)) (fun b hb => Ok_ok.2 ⟨hr.1, hb⟩)
  rw [hw.get hi, bind_ok]
  exact hb.set hi _

/-- With a named vector (whose copy arrives empty, C04) it reads out of bounds, for every regression. -/
theorem C55_initialize_lvalue (r : Reg α) (k : Nat) (hr : r.Sized k) : r.init [] = .error .oob := by
  unfold Reg.init
  rw [hr.2]
  rw [forN_err (e := .oob) (k := 0) (fun _ _ => True) (Nat.succ_pos k) trivial (fun i hi => absurd hi (Nat.not_lt_zero i)) (fun s _ => rfl), bind_err]

end

/-! ## C56 training -/

section
variable {K : Type} [Field K] [LinearOrder K] [IsStrictOrderedRing K]

/-- No non-zero weight vector predicts 0 on all of the inputs: the design matrix has full column rank. -/
def LinIdent (h k : Nat) (x : Nat → Nat → K) : Prop := ∀ u : Nat → K, (∀ i, i < h → linPred k u (x i) = 0) → ∀ j, j < k + 1 → u j = 0
def PolyIdent (h k : Nat) (x : Nat → K) : Prop := ∀ u : Nat → K, (∀ i, i < h → polyPred k u (x i) = 0) → ∀ j, j < k + 1 → u j = 0

/-- `w` fits the data: it minimises the sum of squared residuals among all weights, and every other minimiser has the same
`k+1` coefficients. -/
def BestFit (k h : Nat) (y : Nat → K) (pred : (Nat → K) → Nat → K) (w : Nat → K) : Prop :=
  (∀ u, rss h y (pred w) ≤ rss h y (pred u)) ∧ (∀ u, rss h y (pred u) ≤ rss h y (pred w) → ∀ j, j < k + 1 → u j = w j)

theorem bestFit_of_normal {h k : Nat} {a : Nat → Nat → K} {y w : Nat → K} (hc : ColIndep h (k + 1) a)
    (hn : ∀ p, p < k + 1 → ∑ i ∈ range h, a i p * (y i - ∑ q ∈ range (k + 1), a i q * w q) = 0) :
    BestFit k h y (fun u i => ∑ q ∈ range (k + 1), a i q * u q) w := by
  constructor
  · intro u
    rw [normal_eq_minimises hn u]
    have : 0 ≤ ∑ i ∈ range h, (∑ q ∈ range (k + 1), a i q * (u q - w q)) ^ 2 := sum_nonneg (fun i _ => sq_nonneg _)
    linarith
  · intro u hu j hj
    rw [normal_eq_minimises hn u] at hu
    have h0 : 0 ≤ ∑ i ∈ range h, (∑ q ∈ range (k + 1), a i q * (u q - w q)) ^ 2 := sum_nonneg (fun i _ => sq_nonneg _)
    have h1 : ∑ i ∈ range h, (∑ q ∈ range (k + 1), a i q * (u q - w q)) ^ 2 = 0 := by linarith
    have := hc (fun q => u q - w q) (fun i hi => by
      have := (sum_eq_zero_iff_of_nonneg (fun i _ => sq_nonneg (∑ q ∈ range (k + 1), a i q * (u q - w q)))).1 h1 i (mem_range.2 hi)
      exact pow_eq_zero_iff two_ne_zero |>.1 this) j hj
    exact sub_eq_zero.1 this

/-- Training a linear regression on data that identify the weights. -/
theorem C56_linear (r : Reg K) (h k : Nat) (x : Nat → Nat → K) (y : Nat → K) (idata : Mat K) (odata : Buf K) (hr : r.Sized k)
    (hx : MatIs idata h k x) (hy : VecIs odata h y) (hid : LinIdent h k x) :
    Ok (r.linTrain idata odata) (fun r' => ∃ w, r'.Is k w ∧ BestFit k h y (fun u i => linPred k u (x i)) w ∧
      (∑ i ∈ range h, (y i - linPred k w (x i)) = 0) ∧ ∀ j, j < k → ∑ i ∈ range h, x i j * (y i - linPred k w (x i)) = 0) := by
  unfold Reg.linTrain
  rw [hr.1]
  refine (linDesign_spec hx).bind (fun X hX => ?_)
  have hc : ColIndep h (k + 1) (linCol x) := fun u hu => hid u (fun i hi => by rw [← linCol_sum]; exact hu i hi)
  refine (normalSolve_spec hr.2 hX hy hc).mono (fun r' ⟨hN, w, hw, hn⟩ => ⟨w, ⟨hN.trans hr.1, hw⟩, ?_, ?_, ?_⟩)
  · have := bestFit_of_normal hc hn
    simpa only [linCol_sum] using this
  · have := hn 0 (Nat.succ_pos k)
    simp only [linCol_sum] at this
    simpa only [linCol, if_true, one_mul] using this
  · intro j hj
    have := hn (j + 1) (Nat.succ_lt_succ hj)
    simp only [linCol_sum] at this
    simpa only [linCol, Nat.add_sub_cancel, if_neg (Nat.succ_ne_zero j)] using this

/-- Training a polynomial regression. -/
theorem C56_poly (r : Reg K) (h k : Nat) (x y : Nat → K) (idata odata : Buf K) (hr : r.Sized k)
    (hx : VecIs idata h x) (hy : VecIs odata h y) (hid : PolyIdent h k x) :
    Ok (r.polyTrain idata odata) (fun r' => ∃ w, r'.Is k w ∧ BestFit k h y (fun u i => polyPred k u (x i)) w ∧
      ∀ p, p < k + 1 → ∑ i ∈ range h, x i ^ p * (y i - polyPred k w (x i)) = 0) := by
  unfold Reg.polyTrain
  rw [hr.1]
  refine (polyTrainDesign_spec hx).bind (fun X hX => ?_)
  have hc : ColIndep h (k + 1) (fun i j => x i ^ j) := hid
  refine (normalSolve_spec hr.2 hX hy hc).mono (fun r' ⟨hN, w, hw, hn⟩ => ⟨w, ⟨hN.trans hr.1, hw⟩, bestFit_of_normal hc hn, hn⟩)

theorem BestFit.exact {k h : Nat} {pred : (Nat → K) → Nat → K} {w v : Nat → K} (hb : BestFit k h (pred v) pred w) : ∀ j, j < k + 1 → w j = v j := by
  intro j hj
  refine (hb.2 v ?_ j hj).symm
  have e : rss h (pred v) (pred v) = 0 := by simp [rss]
  rw [e]
  exact sum_nonneg (fun i _ => sq_nonneg _)

/-- Data produced exactly by a model of the class are recovered exactly. -/
theorem C56_exact_linear (r : Reg K) (h k : Nat) (x : Nat → Nat → K) (v : Nat → K) (idata : Mat K) (odata : Buf K) (hr : r.Sized k)
    (hx : MatIs idata h k x) (hy : VecIs odata h (fun i => linPred k v (x i))) (hid : LinIdent h k x) :
    Ok (r.linTrain idata odata) (fun r' => r'.Is k v) :=
  (C56_linear r h k x _ idata odata hr hx hy hid).mono (fun _ ⟨_, h1, h2, _⟩ =>
    ⟨h1.1, h1.2.congr (BestFit.exact (pred := fun u i => linPred k u (x i)) h2)⟩)

theorem C56_exact_poly (r : Reg K) (h k : Nat) (x v : Nat → K) (idata odata : Buf K) (hr : r.Sized k)
    (hx : VecIs idata h x) (hy : VecIs odata h (fun i => polyPred k v (x i))) (hid : PolyIdent h k x) :
    Ok (r.polyTrain idata odata) (fun r' => r'.Is k v) :=
  (C56_poly r h k x _ idata odata hr hx hy hid).mono (fun _ ⟨_, h1, h2, _⟩ =>
    ⟨h1.1, h1.2.congr (BestFit.exact (pred := fun u i => polyPred k u (x i)) h2)⟩)

/-- `k + 1` distinct abscissae identify a polynomial of degree `k`. -/
theorem C56_poly_ident (h k : Nat) (x : Nat → K) (s : Finset Nat) (hs : s ⊆ range h) (hcard : k + 1 ≤ s.card) (hinj : Set.InjOn x s) : PolyIdent h k x := by
  intro u hu j hj
  let p : Polynomial K := ∑ q ∈ range (k + 1), Polynomial.C (u q) * Polynomial.X ^ q
  have hcoef : ∀ m, p.coeff m = if m < k + 1 then u m else 0 := fun m => by
    simp only [p, Polynomial.finsetSum_coeff, Polynomial.coeff_C_mul, Polynomial.coeff_X_pow]
    simp [Finset.sum_ite_eq]
  have hdeg : p.degree < (k + 1 : Nat) := by
    rw [Polynomial.degree_lt_iff_coeff_zero]
    intro m hm
    rw [hcoef, if_neg (by omega)]
  have hev : ∀ i ∈ s, p.eval (x i) = 0 := fun i hi => by
    have := hu i (mem_range.1 (hs hi))
    simp only [p, Polynomial.eval_finsetSum, Polynomial.eval_mul, Polynomial.eval_C, Polynomial.eval_pow, Polynomial.eval_X]
    rw [← this]
    exact sum_congr rfl (fun q _ => mul_comm _ _)
  have hp : p = 0 := Polynomial.eq_zero_of_degree_lt_of_eval_index_eq_zero s hinj
    (lt_of_lt_of_le hdeg (by exact_mod_cast hcard)) hev
  have := hcoef j
  rw [hp, if_pos hj, Polynomial.coeff_zero] at this
  exact this.symm

/-- Without identifiability training divides by zero. -/
theorem C56_not_identified_linear (r : Reg K) (h k : Nat) (x : Nat → Nat → K) (idata : Mat K) (odata : Buf K) (hr : r.Sized k)
    (hx : MatIs idata h k x) (hid : ¬ LinIdent h k x) : r.linTrain idata odata = .error .divByZero := by
  unfold Reg.linTrain
  rw [hr.1]
  obtain ⟨X, e, hX⟩ := linDesign_spec hx
  rw [e, bind_ok]
  exact normalSolve_singular hX (fun hc => hid (fun u hu => hc u (fun i hi => by rw [linCol_sum]; exact hu i hi)))

theorem C56_not_identified_poly (r : Reg K) (h k : Nat) (x : Nat → K) (idata odata : Buf K) (hr : r.Sized k)
    (hx : VecIs idata h x) (hid : ¬ PolyIdent h k x) : r.polyTrain idata odata = .error .divByZero := by
  unfold Reg.polyTrain
  rw [hr.1]
  obtain ⟨X, e, hX⟩ := polyTrainDesign_spec hx
  rw [e, bind_ok]
  exact normalSolve_singular hX hid

end

/-! ### From the constructor -/

/-- A constructed regression (`k` features, or degree `k`) initialised with `k + 1` weights predicts with them. -/
theorem C55_from_construction {α : Type} [CommSemiring α] (k : Nat) (w : Nat → α) (weight : Buf α) (hw : VecIs weight (k + 1) w) :
    Ok ((Reg.make k).init weight) (fun r => (∀ x sample, VecIs sample k x → r.linSample sample = .ok (linPred k w x)) ∧
      ∀ x, r.polySample x = .ok (polyPred k w x)) :=
  (C55_initialize _ k w weight ⟨rfl, by simp [Reg.make, Buf.alloc]⟩ hw).mono
    (fun r hr => ⟨fun x sample hs => C55_linear_sample r k w x sample hr hs, fun x => C55_poly_sample r k w x hr⟩)

/-- A constructed regression trained on identifying data gives the best fit, and its predictions use it. -/
theorem C56_from_construction {K : Type} [Field K] [LinearOrder K] [IsStrictOrderedRing K] (h k : Nat) (y : Nat → K) (odata : Buf K)
    (hy : VecIs odata h y) :
    (∀ (x : Nat → Nat → K) (idata : Mat K), MatIs idata h k x → LinIdent h k x →
      Ok ((Reg.make k).linTrain idata odata) (fun r => ∃ w, BestFit k h y (fun u i => linPred k u (x i)) w ∧
        ∀ z sample, VecIs sample k z → r.linSample sample = .ok (linPred k w z))) ∧
    (∀ (x : Nat → K) (idata : Buf K), VecIs idata h x → PolyIdent h k x →
      Ok ((Reg.make k).polyTrain idata odata) (fun r => ∃ w, BestFit k h y (fun u i => polyPred k u (x i)) w ∧
        ∀ z, r.polySample z = .ok (polyPred k w z))) := by
  have hm : (Reg.make k : Reg K).Sized k := ⟨rfl, by simp [Reg.make, Buf.alloc]⟩
  refine ⟨fun x idata hx hid => ?_, fun x idata hx hid => ?_⟩
  · exact (C56_linear _ h k x y idata odata hm hx hy hid).mono
      (fun r ⟨w, hr, hb, _⟩ => ⟨w, hb, fun z sample hs => C55_linear_sample r k w z sample hr hs⟩)
  · exact (C56_poly _ h k x y idata odata hm hx hy hid).mono
      (fun r ⟨w, hr, hb, _⟩ => ⟨w, hb, fun z => C55_poly_sample r k w z hr⟩)

/-! Non-vacuity. -/

/-- Three points with distinct abscissae, degree 1. -/
example : PolyIdent (K := ℚ) 3 1 (fun i => (i : ℚ)) :=
  C56_poly_ident 3 1 _ (range 3) (fun _ h => h) (by decide) (fun a _ b _ h => by exact_mod_cast h)

example : (Reg.make 1).polyTrain (Buf.of [(0 : ℚ), 1, 2]) (Buf.of [1, 3, 5]) = .ok ⟨Buf.of [1, 2], 2⟩ := by decide +kernel
example : (Reg.make 1).linTrain (⟨3, 1, Buf.of [(0 : ℚ), 1, 2]⟩) (Buf.of [0, 1, 0]) = .ok ⟨Buf.of [1 / 3, 0], 2⟩ := by decide +kernel
/-- Two identical abscissae do not identify a line. -/
example : (Reg.make 1).polyTrain (Buf.of [(1 : ℚ), 1]) (Buf.of [1, 3]) = .error .divByZero := by decide +kernel
example : (⟨Buf.of [(1 : ℤ), 2, 3], 3⟩ : Reg ℤ).Is 2 (fun i => (i : ℤ) + 1) := ⟨rfl, VecIs_of [1, 2, 3] _ (by decide)⟩

end Trixy
