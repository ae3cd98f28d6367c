import Verif.Props.Regression
import Mathlib.LinearAlgebra.Lagrange
import Mathlib.Algebra.Polynomial.Eval.Degree
/- C110: regression does not depend on units, origin and multiplicity; targets superpose; richer models fit no worse; interpolation. -/
namespace Trixy
open Finset
set_option linter.unusedSectionVars false

variable {K : Type} [Field K] [LinearOrder K] [IsStrictOrderedRing K]

/-! ### Best fits -/

/-- Two families of predictions that are translated into each other by `φ` and `ψ`, compared with targets of which the squared residuals are
in a fixed proportion: the best fits are translated too. -/
theorem BestFit.transfer {k h h' : Nat} {y y' : Nat → K} {pred pred' : (Nat → K) → Nat → K} {w w' : Nat → K} (hw : BestFit k h y pred w)
    (hw' : BestFit k h' y' pred' w') (φ ψ : (Nat → K) → Nat → K) (c : K) (hc : 0 < c) (h1 : ∀ u, rss h' y' (pred' (φ u)) = c * rss h y (pred u))
    (h2 : ∀ u, rss h' y' (pred' u) = c * rss h y (pred (ψ u))) : ∀ j, j < k + 1 → φ w j = w' j := by
  refine hw'.2 _ ?_
  rw [h1, h2]
  exact mul_le_mul_of_nonneg_left (hw.1 _) hc.le

theorem BestFit.same {k h : Nat} {y : Nat → K} {pred pred' : (Nat → K) → Nat → K} {w w' : Nat → K} (hw : BestFit k h y pred w)
    (hw' : BestFit k h y pred' w') (hp : ∀ u i, i < h → pred' u i = pred u i) : ∀ j, j < k + 1 → w j = w' j := by
  have e : ∀ u, rss h y (pred' u) = rss h y (pred u) := fun u => sum_congr rfl (fun i hi => by rw [hp u i (mem_range.1 hi)])
  exact hw.transfer hw' id id 1 one_pos (fun u => by rw [one_mul]; exact e u) (fun u => by rw [one_mul]; exact e u)

theorem Reg.Is.congr' {r : Reg K} {k : Nat} {w w' : Nat → K} (h : r.Is k w') (hw : ∀ j, j < k + 1 → w j = w' j) : r.Is k w :=
  ⟨h.1, h.2.congr (fun j hj => (hw j hj).symm)⟩

theorem Reg.Is.only {r r' : Reg K} {k : Nat} {w : Nat → K} (h : r.Is k w) (h' : r'.Is k w) : r' = r := by
  obtain ⟨W, N⟩ := r
  obtain ⟨W', N'⟩ := r'
  obtain ⟨hN, hW⟩ := h
  obtain ⟨hN', hW'⟩ := h'
  dsimp only at *
  rw [hN, hN', BufIs.ext hW' hW]

theorem linPred_congr {k : Nat} {w v x : Nat → K} (h : ∀ j, j < k + 1 → w j = v j) : linPred k w x = linPred k v x := by
  unfold linPred
  rw [h 0 (Nat.succ_pos k)]
  congr 1
  exact sum_congr rfl (fun j hj => by rw [h (j + 1) (by have := mem_range.1 hj; omega)])

theorem polyPred_congr {k : Nat} {w v : Nat → K} {x : K} (h : ∀ j, j < k + 1 → w j = v j) : polyPred k w x = polyPred k v x :=
  sum_congr rfl (fun j hj => by rw [h j (mem_range.1 hj)])

/-! ### Targets -/

theorem bestFit_superpose {h k : Nat} {A : Nat → Nat → K} {y y' w w' : Nat → K} (a b : K) (hc : ColIndep h (k + 1) A)
    (hn : ∀ p, p < k + 1 → ∑ i ∈ range h, A i p * (y i - ∑ q ∈ range (k + 1), A i q * w q) = 0)
    (hn' : ∀ p, p < k + 1 → ∑ i ∈ range h, A i p * (y' i - ∑ q ∈ range (k + 1), A i q * w' q) = 0) :
    BestFit k h (fun i => a * y i + b * y' i) (fun u i => ∑ q ∈ range (k + 1), A i q * u q) (fun j => a * w j + b * w' j) := by
  refine bestFit_of_normal hc (fun p hp => ?_)
  have e : ∀ i, ∑ q ∈ range (k + 1), A i q * (a * w q + b * w' q) = a * ∑ q ∈ range (k + 1), A i q * w q + b * ∑ q ∈ range (k + 1), A i q * w' q := fun i => by
    rw [mul_sum, mul_sum, ← sum_add_distrib]
    exact sum_congr rfl (fun q _ => by ring)
  have : ∑ i ∈ range h, A i p * (a * y i + b * y' i - ∑ q ∈ range (k + 1), A i q * (a * w q + b * w' q)) =
      a * ∑ i ∈ range h, A i p * (y i - ∑ q ∈ range (k + 1), A i q * w q) + b * ∑ i ∈ range h, A i p * (y' i - ∑ q ∈ range (k + 1), A i q * w' q) := by
    rw [mul_sum, mul_sum, ← sum_add_distrib]
    exact sum_congr rfl (fun i _ => by rw [e]; ring)
  rw [this, hn p hp, hn' p hp, mul_zero, mul_zero, add_zero]

/-- Linear regression superposes: trained on the targets `a·y + b·y'` its weights are `a` times those for `y` plus `b` times those for `y'`. -/
theorem C110_superpose_linear (r : Reg K) (h k : Nat) (x : Nat → Nat → K) (y y' : Nat → K) (a b : K) (idata : Mat K) (odata odata' odata'' : Buf K)
    (hr : r.Sized k) (hx : MatIs idata h k x) (hid : LinIdent h k x) (hy : VecIs odata h y) (hy' : VecIs odata' h y')
    (hy'' : VecIs odata'' h (fun i => a * y i + b * y' i)) :
    ∃ r1 r2 r3 w w', r.linTrain idata odata = .ok r1 ∧ r.linTrain idata odata' = .ok r2 ∧ r.linTrain idata odata'' = .ok r3 ∧
      r1.Is k w ∧ r2.Is k w' ∧ r3.Is k (fun j => a * w j + b * w' j) := by
  obtain ⟨r1, e1, w, i1, -, n1, m1⟩ := C56_linear r h k x y idata odata hr hx hy hid
  obtain ⟨r2, e2, w', i2, -, n2, m2⟩ := C56_linear r h k x y' idata odata' hr hx hy' hid
  obtain ⟨r3, e3, w'', i3, f3, -⟩ := C56_linear r h k x _ idata odata'' hr hx hy'' hid
  refine ⟨r1, r2, r3, w, w', e1, e2, e3, i1, i2, i3.1, i3.2.congr (fun j hj => ?_)⟩
  have hc : ColIndep h (k + 1) (linCol x) := fun u hu => hid u (fun i hi => by rw [← linCol_sum]; exact hu i hi)
  have hn : ∀ {y w : Nat → K}, (∑ i ∈ range h, (y i - linPred k w (x i)) = 0) → (∀ j, j < k → ∑ i ∈ range h, x i j * (y i - linPred k w (x i)) = 0) →
      ∀ p, p < k + 1 → ∑ i ∈ range h, linCol x i p * (y i - ∑ q ∈ range (k + 1), linCol x i q * w q) = 0 := fun n m p hp => by
    simp only [linCol_sum]
    match p, hp with
    | 0, _ => simpa only [linCol, if_true, one_mul] using n
    | p + 1, hp => simpa only [linCol, Nat.succ_ne_zero, if_false, Nat.add_sub_cancel, Nat.add_one_ne_zero] using m p (by omega)
  have hb := bestFit_superpose a b hc (hn n1 m1) (hn n2 m2)
  simp only [linCol_sum] at hb
  exact (f3.2 _ (hb.1 _) j hj).symm

/-- The same for polynomial regression. -/
theorem C110_superpose_poly (r : Reg K) (h k : Nat) (x y y' : Nat → K) (a b : K) (idata odata odata' odata'' : Buf K)
    (hr : r.Sized k) (hx : VecIs idata h x) (hid : PolyIdent h k x) (hy : VecIs odata h y) (hy' : VecIs odata' h y')
    (hy'' : VecIs odata'' h (fun i => a * y i + b * y' i)) :
    ∃ r1 r2 r3 w w', r.polyTrain idata odata = .ok r1 ∧ r.polyTrain idata odata' = .ok r2 ∧ r.polyTrain idata odata'' = .ok r3 ∧
      r1.Is k w ∧ r2.Is k w' ∧ r3.Is k (fun j => a * w j + b * w' j) := by
  obtain ⟨r1, e1, w, i1, -, n1⟩ := C56_poly r h k x y idata odata hr hx hy hid
  obtain ⟨r2, e2, w', i2, -, n2⟩ := C56_poly r h k x y' idata odata' hr hx hy' hid
  obtain ⟨r3, e3, w'', i3, f3, -⟩ := C56_poly r h k x _ idata odata'' hr hx hy'' hid
  refine ⟨r1, r2, r3, w, w', e1, e2, e3, i1, i2, i3.1, i3.2.congr (fun j hj => ?_)⟩
  have hb := bestFit_superpose (A := fun i q => x i ^ q) (y := y) (y' := y') (w := w) (w' := w') a b hid n1 n2
  exact (f3.2 _ (hb.1 _) j hj).symm

/-! ### Units and origin of the features -/

/-- Linear regression does not depend on the units and the origins of the features: if every feature `j` is measured as `c j · x + d j` instead
(`c j ≠ 0`), the trained model predicts for every sample, measured that way, what it predicted before. -/
theorem C110_units_linear (r : Reg K) (h k : Nat) (x : Nat → Nat → K) (y c d : Nat → K) (hc : ∀ j, j < k → c j ≠ 0) (idata idata' : Mat K) (odata : Buf K)
    (hr : r.Sized k) (hx : MatIs idata h k x) (hx' : MatIs idata' h k (fun i j => c j * x i j + d j)) (hy : VecIs odata h y) (hid : LinIdent h k x) :
    ∃ r1 r2, r.linTrain idata odata = .ok r1 ∧ r.linTrain idata' odata = .ok r2 ∧
      ∀ (z : Nat → K) (sample sample' : Buf K), VecIs sample k z → VecIs sample' k (fun j => c j * z j + d j) →
        r2.linSample sample' = r1.linSample sample := by
  let φ : (Nat → K) → Nat → K := fun u j => if j = 0 then u 0 - ∑ q ∈ range k, d q * (u (q + 1) / c q) else u j / c (j - 1)
  let ψ : (Nat → K) → Nat → K := fun u j => if j = 0 then u 0 + ∑ q ∈ range k, d q * u (q + 1) else u j * c (j - 1)
  have hφ : ∀ (u z : Nat → K), linPred k (φ u) (fun j => c j * z j + d j) = linPred k u z := fun u z => by
    unfold linPred
    simp only [φ, if_true, Nat.add_one_ne_zero, if_false, Nat.add_sub_cancel]
    have : ∑ j ∈ range k, (c j * z j + d j) * (u (j + 1) / c j) = ∑ j ∈ range k, z j * u (j + 1) + ∑ j ∈ range k, d j * (u (j + 1) / c j) := by
      rw [← sum_add_distrib]
      refine sum_congr rfl (fun j hj => ?_)
      have := hc j (mem_range.1 hj)
      field_simp
    rw [this]; ring
  have hψ : ∀ (u z : Nat → K), linPred k u (fun j => c j * z j + d j) = linPred k (ψ u) z := fun u z => by
    unfold linPred
    simp only [ψ, if_true, Nat.add_one_ne_zero, if_false, Nat.add_sub_cancel]
    have : ∑ j ∈ range k, (c j * z j + d j) * u (j + 1) = ∑ j ∈ range k, z j * (u (j + 1) * c j) + ∑ j ∈ range k, d j * u (j + 1) := by
      rw [← sum_add_distrib]
      exact sum_congr rfl (fun j _ => by ring)
    rw [this]; ring
  have hid' : LinIdent h k (fun i j => c j * x i j + d j) := fun u hu j hj => by
    have h0 := hid (ψ u) (fun i hi => by rw [← hψ]; exact hu i hi)
    have hs : ∀ q, q < k → u (q + 1) = 0 := fun q hq => by
      have := h0 (q + 1) (by omega)
      simp only [ψ, Nat.add_one_ne_zero, if_false, Nat.add_sub_cancel] at this
      exact (mul_eq_zero.1 this).resolve_right (hc q hq)
    match j, hj with
    | 0, _ =>
      have := h0 0 (Nat.succ_pos k)
      simp only [ψ, if_true] at this
      rwa [sum_eq_zero (fun q hq => by rw [hs q (mem_range.1 hq), mul_zero]), add_zero] at this
    | j + 1, hj => exact hs j (by omega)
  obtain ⟨r1, e1, w, i1, f1, -⟩ := C56_linear r h k x y idata odata hr hx hy hid
  obtain ⟨r2, e2, w', i2, f2, -⟩ := C56_linear r h k _ y idata' odata hr hx' hy hid'
  refine ⟨r1, r2, e1, e2, fun z sample sample' hs hs' => ?_⟩
  rw [C55_linear_sample r1 k w z sample i1 hs, C55_linear_sample r2 k w' _ sample' i2 hs', ← hφ w z]
  congr 1
  refine linPred_congr (fun j hj => (f1.transfer f2 φ ψ 1 one_pos (fun u => ?_) (fun u => ?_) j hj).symm)
  · rw [one_mul]; exact sum_congr rfl (fun i _ => by dsimp only; rw [hφ])
  · rw [one_mul]; exact sum_congr rfl (fun i _ => by dsimp only; rw [hψ])

/-- The polynomial with the coefficients `u 0, …, u k`. -/
noncomputable def polyOf (k : Nat) (u : Nat → K) : Polynomial K := ∑ q ∈ range (k + 1), Polynomial.C (u q) * Polynomial.X ^ q

theorem polyOf_eval (k : Nat) (u : Nat → K) (z : K) : (polyOf k u).eval z = polyPred k u z := by
  unfold polyOf polyPred
  rw [Polynomial.eval_finsetSum]
  exact sum_congr rfl (fun q _ => by rw [Polynomial.eval_mul, Polynomial.eval_C, Polynomial.eval_pow, Polynomial.eval_X]; exact mul_comm _ _)

theorem polyPred_coeff (k : Nat) (p : Polynomial K) (hp : p.natDegree ≤ k) (z : K) : polyPred k p.coeff z = p.eval z := by
  unfold polyPred
  rw [Polynomial.eval_eq_sum_range' (Nat.lt_succ_of_le hp)]
  exact sum_congr rfl (fun q _ => mul_comm _ _)

theorem polyOf_degree (k : Nat) (u : Nat → K) : (polyOf k u).natDegree ≤ k := by
  unfold polyOf
  refine Polynomial.natDegree_sum_le_of_forall_le _ _ (fun q hq => ?_)
  exact (Polynomial.natDegree_C_mul_X_pow_le _ _).trans (by have := mem_range.1 hq; omega)

/-- Polynomial regression does not depend on the unit and the origin of its variable. -/
theorem C110_units_poly (r : Reg K) (h k : Nat) (x y : Nat → K) (c d : K) (hc : c ≠ 0) (idata idata' odata : Buf K)
    (hr : r.Sized k) (hx : VecIs idata h x) (hx' : VecIs idata' h (fun i => c * x i + d)) (hy : VecIs odata h y) (hid : PolyIdent h k x) :
    ∃ r1 r2, r.polyTrain idata odata = .ok r1 ∧ r.polyTrain idata' odata = .ok r2 ∧ ∀ z : K, r2.polySample (c * z + d) = r1.polySample z := by
  let φ : (Nat → K) → Nat → K := fun u => ((polyOf k u).comp (Polynomial.C c⁻¹ * Polynomial.X + Polynomial.C (-(c⁻¹ * d)))).coeff
  let ψ : (Nat → K) → Nat → K := fun u => ((polyOf k u).comp (Polynomial.C c * Polynomial.X + Polynomial.C d)).coeff
  have hdeg : ∀ (u : Nat → K) (a b : K), ((polyOf k u).comp (Polynomial.C a * Polynomial.X + Polynomial.C b)).natDegree ≤ k := fun u a b => by
    refine Polynomial.natDegree_comp_le.trans ?_
    have h1 := polyOf_degree k u
    have h2 : (Polynomial.C a * Polynomial.X + Polynomial.C b).natDegree ≤ 1 := Polynomial.natDegree_linear_le
    calc _ ≤ k * 1 := Nat.mul_le_mul h1 h2
      _ = k := Nat.mul_one k
  have hφ : ∀ (u : Nat → K) (z : K), polyPred k (φ u) (c * z + d) = polyPred k u z := fun u z => by
    simp only [φ]
    rw [polyPred_coeff k _ (hdeg u _ _), Polynomial.eval_comp, polyOf_eval]
    congr 1
    simp only [Polynomial.eval_add, Polynomial.eval_mul, Polynomial.eval_C, Polynomial.eval_X]
    field_simp
    ring
  have hψ : ∀ (u : Nat → K) (z : K), polyPred k u (c * z + d) = polyPred k (ψ u) z := fun u z => by
    simp only [ψ]
    rw [polyPred_coeff k _ (hdeg u _ _), Polynomial.eval_comp, polyOf_eval]
    simp only [Polynomial.eval_add, Polynomial.eval_mul, Polynomial.eval_C, Polynomial.eval_X]
  have hid' : PolyIdent h k (fun i => c * x i + d) := fun u hu j hj => by
    have h0 := hid (ψ u) (fun i hi => by rw [← hψ]; exact hu i hi)
    have hz : ∀ z : K, (polyOf k u).eval z = 0 := fun z => by
      rw [polyOf_eval]
      have e : z = c * (c⁻¹ * (z - d)) + d := by field_simp; ring
      rw [e, hψ]
      exact sum_eq_zero (fun q hq => by rw [h0 q (mem_range.1 hq), mul_zero])
    have hp : polyOf k u = 0 := Polynomial.funext (fun z => by rw [hz, Polynomial.eval_zero])
    have : (polyOf k u).coeff j = u j := by
      simp only [polyOf, Polynomial.finsetSum_coeff, Polynomial.coeff_C_mul, Polynomial.coeff_X_pow]
      simp [Finset.sum_ite_eq, hj]
    rw [← this, hp, Polynomial.coeff_zero]
  obtain ⟨r1, e1, w, i1, f1, -⟩ := C56_poly r h k x y idata odata hr hx hy hid
  obtain ⟨r2, e2, w', i2, f2, -⟩ := C56_poly r h k _ y idata' odata hr hx' hy hid'
  refine ⟨r1, r2, e1, e2, fun z => ?_⟩
  rw [C55_poly_sample r1 k w z i1, C55_poly_sample r2 k w' _ i2, ← hφ w z]
  congr 1
  refine polyPred_congr (fun j hj => (f1.transfer f2 φ ψ 1 one_pos (fun u => ?_) (fun u => ?_) j hj).symm)
  · rw [one_mul]; exact sum_congr rfl (fun i _ => by dsimp only; rw [hφ])
  · rw [one_mul]; exact sum_congr rfl (fun i _ => by dsimp only; rw [hψ])

/-! ### Multiplicity -/

theorem sum_repeat (h : Nat) (f : Nat → K) (m : Nat) : ∑ i ∈ range (m * h), f (i % h) = m * ∑ i ∈ range h, f i := by
  induction m with
  | zero => simp
  | succ m ih =>
    rw [Nat.succ_mul, sum_range_add, ih]
    have : ∑ x ∈ range h, f ((m * h + x) % h) = ∑ i ∈ range h, f i :=
      sum_congr rfl (fun i hi => by rw [Nat.mul_comm m h, Nat.mul_add_mod, Nat.mod_eq_of_lt (mem_range.1 hi)])
    rw [this]; push_cast; ring

theorem rss_repeat (h m : Nat) (y p : Nat → K) : rss (m * h) (fun i => y (i % h)) (fun i => p (i % h)) = m * rss h y p :=
  sum_repeat h (fun i => (y i - p i) ^ 2) m

/-- Showing every sample `m ≥ 1` times, in the same order over and over, changes nothing. -/
theorem C110_repeat_linear (r : Reg K) (h k m : Nat) (hm : 0 < m) (x : Nat → Nat → K) (y : Nat → K) (idata idata' : Mat K) (odata odata' : Buf K)
    (hr : r.Sized k) (hx : MatIs idata h k x) (hx' : MatIs idata' (m * h) k (fun i => x (i % h))) (hy : VecIs odata h y)
    (hy' : VecIs odata' (m * h) (fun i => y (i % h))) (hid : LinIdent h k x) :
    ∃ r1, r.linTrain idata odata = .ok r1 ∧ r.linTrain idata' odata' = .ok r1 := by
  have hle : ∀ i, i < h → i < m * h := fun i hi => lt_of_lt_of_le hi (Nat.le_mul_of_pos_left h hm)
  have hid' : LinIdent (m * h) k (fun i => x (i % h)) := fun u hu => hid u (fun i hi => by
    have := hu i (hle i hi)
    simpa only [Nat.mod_eq_of_lt hi] using this)
  obtain ⟨r1, e1, w, i1, f1, -⟩ := C56_linear r h k x y idata odata hr hx hy hid
  obtain ⟨r2, e2, w', i2, f2, -⟩ := C56_linear r (m * h) k _ _ idata' odata' hr hx' hy' hid'
  have hw := f1.transfer f2 id id (m : K) (by exact_mod_cast hm) (fun u => rss_repeat h m y (fun i => linPred k u (x i)))
    (fun u => rss_repeat h m y (fun i => linPred k u (x i)))
  refine ⟨r1, e1, ?_⟩
  rw [e2]
  exact congrArg Except.ok (i1.only (i2.congr' hw))

theorem C110_repeat_poly (r : Reg K) (h k m : Nat) (hm : 0 < m) (x y : Nat → K) (idata idata' odata odata' : Buf K)
    (hr : r.Sized k) (hx : VecIs idata h x) (hx' : VecIs idata' (m * h) (fun i => x (i % h))) (hy : VecIs odata h y)
    (hy' : VecIs odata' (m * h) (fun i => y (i % h))) (hid : PolyIdent h k x) :
    ∃ r1, r.polyTrain idata odata = .ok r1 ∧ r.polyTrain idata' odata' = .ok r1 := by
  have hle : ∀ i, i < h → i < m * h := fun i hi => lt_of_lt_of_le hi (Nat.le_mul_of_pos_left h hm)
  have hid' : PolyIdent (m * h) k (fun i => x (i % h)) := fun u hu => hid u (fun i hi => by
    have := hu i (hle i hi)
    simpa only [Nat.mod_eq_of_lt hi] using this)
  obtain ⟨r1, e1, w, i1, f1, -⟩ := C56_poly r h k x y idata odata hr hx hy hid
  obtain ⟨r2, e2, w', i2, f2, -⟩ := C56_poly r (m * h) k _ _ idata' odata' hr hx' hy' hid'
  have hw := f1.transfer f2 id id (m : K) (by exact_mod_cast hm) (fun u => rss_repeat h m y (fun i => polyPred k u (x i)))
    (fun u => rss_repeat h m y (fun i => polyPred k u (x i)))
  refine ⟨r1, e1, ?_⟩
  rw [e2]
  exact congrArg Except.ok (i1.only (i2.congr' hw))

/-! ### Richer models -/

/-- A linear regression that is given further features fits the training data no worse. -/
theorem C110_more_features (r r' : Reg K) (h k k' : Nat) (hk : k ≤ k') (x : Nat → Nat → K) (y : Nat → K) (idata idata' : Mat K) (odata : Buf K)
    (hr : r.Sized k) (hr' : r'.Sized k') (hx : MatIs idata h k x) (hx' : MatIs idata' h k' x) (hy : VecIs odata h y) (hid' : LinIdent h k' x) :
    ∃ r1 r2 w w', r.linTrain idata odata = .ok r1 ∧ r'.linTrain idata' odata = .ok r2 ∧ r1.Is k w ∧ r2.Is k' w' ∧
      rss h y (fun i => linPred k' w' (x i)) ≤ rss h y (fun i => linPred k w (x i)) := by
  have hpad : ∀ (u z : Nat → K), linPred k' (fun j => if j < k + 1 then u j else 0) z = linPred k u z := fun u z => by
    unfold linPred
    dsimp only
    rw [if_pos (Nat.succ_pos k)]
    congr 1
    obtain ⟨d, rfl⟩ := Nat.exists_eq_add_of_le hk
    rw [sum_range_add]
    have e1 : ∑ j ∈ range k, z j * (if j + 1 < k + 1 then u (j + 1) else 0) = ∑ j ∈ range k, z j * u (j + 1) :=
      sum_congr rfl (fun j hj => by rw [if_pos (by have := mem_range.1 hj; omega)])
    have e2 : ∑ j ∈ range d, z (k + j) * (if k + j + 1 < k + 1 then u (k + j + 1) else 0) = 0 :=
      sum_eq_zero (fun j _ => by rw [if_neg (by omega), mul_zero])
    rw [e1, e2, add_zero]
  have hid : LinIdent h k x := fun u hu j hj => by
    have := hid' (fun j => if j < k + 1 then u j else 0) (fun i hi => by rw [hpad]; exact hu i hi) j (by omega)
    simpa only [if_pos hj] using this
  obtain ⟨r1, e1, w, i1, f1, -⟩ := C56_linear r h k x y idata odata hr hx hy hid
  obtain ⟨r2, e2, w', i2, f2, -⟩ := C56_linear r' h k' x y idata' odata hr' hx' hy hid'
  refine ⟨r1, r2, w, w', e1, e2, i1, i2, ?_⟩
  have := f2.1 (fun j => if j < k + 1 then w j else 0)
  simpa only [hpad] using this

/-- A polynomial regression of higher degree fits the training data no worse. -/
theorem C110_higher_degree (r r' : Reg K) (h k k' : Nat) (hk : k ≤ k') (x y : Nat → K) (idata odata : Buf K)
    (hr : r.Sized k) (hr' : r'.Sized k') (hx : VecIs idata h x) (hy : VecIs odata h y) (hid' : PolyIdent h k' x) :
    ∃ r1 r2 w w', r.polyTrain idata odata = .ok r1 ∧ r'.polyTrain idata odata = .ok r2 ∧ r1.Is k w ∧ r2.Is k' w' ∧
      rss h y (fun i => polyPred k' w' (x i)) ≤ rss h y (fun i => polyPred k w (x i)) := by
  have hpad : ∀ (u : Nat → K) (z : K), polyPred k' (fun j => if j < k + 1 then u j else 0) z = polyPred k u z := fun u z => by
    unfold polyPred
    obtain ⟨d, rfl⟩ := Nat.exists_eq_add_of_le hk
    rw [show k + d + 1 = (k + 1) + d by omega, sum_range_add]
    have e1 : ∑ j ∈ range (k + 1), z ^ j * (if j < k + 1 then u j else 0) = ∑ j ∈ range (k + 1), z ^ j * u j :=
      sum_congr rfl (fun j hj => by rw [if_pos (mem_range.1 hj)])
    have e2 : ∑ j ∈ range d, z ^ (k + 1 + j) * (if k + 1 + j < k + 1 then u (k + 1 + j) else 0) = 0 :=
      sum_eq_zero (fun j _ => by rw [if_neg (by omega), mul_zero])
    rw [e1, e2, add_zero]
  have hid : PolyIdent h k x := fun u hu j hj => by
    have := hid' (fun j => if j < k + 1 then u j else 0) (fun i hi => by rw [hpad]; exact hu i hi) j (by omega)
    simpa only [if_pos hj] using this
  obtain ⟨r1, e1, w, i1, f1, -⟩ := C56_poly r h k x y idata odata hr hx hy hid
  obtain ⟨r2, e2, w', i2, f2, -⟩ := C56_poly r' h k' x y idata odata hr' hx hy hid'
  refine ⟨r1, r2, w, w', e1, e2, i1, i2, ?_⟩
  have := f2.1 (fun j => if j < k + 1 then w j else 0)
  simpa only [hpad] using this

/-- Polynomial regression of degree `k` through `k + 1` points with distinct abscissae passes through every one of them. -/
theorem C110_interpolation (r : Reg K) (k : Nat) (x y : Nat → K) (idata odata : Buf K) (hr : r.Sized k) (hx : VecIs idata (k + 1) x)
    (hy : VecIs odata (k + 1) y) (hd : ∀ i j, i < k + 1 → j < k + 1 → x i = x j → i = j) :
    ∃ r1, r.polyTrain idata odata = .ok r1 ∧ ∀ i, i < k + 1 → r1.polySample (x i) = .ok (y i) := by
  have hinj : Set.InjOn x (range (k + 1)) := fun i hi j hj e => hd i j (mem_range.1 hi) (mem_range.1 hj) e
  let p : Polynomial K := Lagrange.interpolate (range (k + 1)) x y
  have hp : p.natDegree ≤ k := by
    have := Lagrange.degree_interpolate_lt (r := y) hinj
    rw [card_range] at this
    by_cases h0 : p = 0
    · rw [h0]; exact Nat.zero_le _
    · exact Nat.lt_succ_iff.1 ((Polynomial.natDegree_lt_iff_degree_lt h0).2 this)
  have hv : ∀ i, i < k + 1 → polyPred k p.coeff (x i) = y i := fun i hi => by
    rw [polyPred_coeff k p hp]
    exact Lagrange.eval_interpolate_at_node y hinj (mem_range.2 hi)
  obtain ⟨r1, e1, i1⟩ := C56_exact_poly r (k + 1) k x p.coeff idata odata hr hx (hy.congr (fun i hi => (hv i hi).symm))
    (C56_poly_ident (k + 1) k x (range (k + 1)) (fun _ h => h) (by rw [card_range]) hinj)
  exact ⟨r1, e1, fun i hi => by rw [C55_poly_sample r1 k _ _ i1, hv i hi]⟩

/-- The predictions for the training samples have the average of the targets. -/
theorem C110_mean_linear (r : Reg K) (h k : Nat) (x : Nat → Nat → K) (y : Nat → K) (idata : Mat K) (odata : Buf K) (hr : r.Sized k)
    (hx : MatIs idata h k x) (hy : VecIs odata h y) (hid : LinIdent h k x) :
    ∃ r1 p q, r.linTrain idata odata = .ok r1 ∧ r1.linForward idata = .ok p ∧ VecIs p h q ∧ ∑ i ∈ range h, q i = ∑ i ∈ range h, y i := by
  obtain ⟨r1, e1, w, i1, -, n1, -⟩ := C56_linear r h k x y idata odata hr hx hy hid
  obtain ⟨p, e2, hp⟩ := C55_linear r1 h k w x idata i1 hx
  refine ⟨r1, p, _, e1, e2, hp, ?_⟩
  rw [sum_sub_distrib, sub_eq_zero] at n1
  exact n1.symm

theorem C110_mean_poly (r : Reg K) (h k : Nat) (x y : Nat → K) (idata odata : Buf K) (hr : r.Sized k)
    (hx : VecIs idata h x) (hy : VecIs odata h y) (hid : PolyIdent h k x) :
    ∃ r1 p q, r.polyTrain idata odata = .ok r1 ∧ r1.polyForward idata = .ok p ∧ VecIs p h q ∧ ∑ i ∈ range h, q i = ∑ i ∈ range h, y i := by
  obtain ⟨r1, e1, w, i1, -, n1⟩ := C56_poly r h k x y idata odata hr hx hy hid
  obtain ⟨p, e2, hp⟩ := C55_poly r1 h k w x idata i1 hx
  refine ⟨r1, p, _, e1, e2, hp, ?_⟩
  have := n1 0 (Nat.succ_pos k)
  simp only [pow_zero, one_mul] at this
  rw [sum_sub_distrib, sub_eq_zero] at this
  exact this.symm

/-- Polynomial regression is linear regression on the powers of the variable. -/
theorem C110_poly_is_linear (r : Reg K) (h k : Nat) (x y : Nat → K) (idata odata : Buf K) (powers : Mat K) (hr : r.Sized k)
    (hx : VecIs idata h x) (hp : MatIs powers h k (fun i j => x i ^ (j + 1))) (hy : VecIs odata h y) (hid : PolyIdent h k x) :
    ∃ r1, r.polyTrain idata odata = .ok r1 ∧ r.linTrain powers odata = .ok r1 := by
  have hpl : ∀ (u : Nat → K) (i : Nat), linPred k u (fun j => x i ^ (j + 1)) = polyPred k u (x i) := fun u i => by
    unfold linPred polyPred
    rw [sum_range_succ', pow_zero, one_mul, add_comm]
  have hid' : LinIdent h k (fun i j => x i ^ (j + 1)) := fun u hu => hid u (fun i hi => by rw [← hpl]; exact hu i hi)
  obtain ⟨r1, e1, w, i1, f1, -⟩ := C56_poly r h k x y idata odata hr hx hy hid
  obtain ⟨r2, e2, w', i2, f2, -⟩ := C56_linear r h k _ y powers odata hr hp hy hid'
  refine ⟨r1, e1, ?_⟩
  rw [e2]
  exact congrArg Except.ok (i1.only (i2.congr' (f1.same f2 (fun u i _ => hpl u i))))

/-! Non-vacuity: samples 0, 1, 2 identify a line, and concrete runs show every claim at work. -/

theorem exLinIdent : LinIdent (K := ℚ) 3 1 (fun i _ => (i : ℚ)) := fun u hu j hj => by
  have h0 := hu 0 (by decide)
  have h1 := hu 1 (by decide)
  simp only [linPred, sum_range_one, Nat.cast_zero, zero_mul, add_zero, Nat.cast_one, one_mul] at h0 h1
  rw [h0, zero_add] at h1
  match j, hj with
  | 0, _ => exact h0
  | 1, _ => exact h1

/-- The hypotheses of the linear theorems are met: `h = 3`, one feature, both by the samples and by their repetitions. -/
example : ∃ r1, (Reg.make 1).linTrain ⟨3, 1, Buf.of [(0 : ℚ), 1, 2]⟩ (Buf.of [1, 0, 4]) = .ok r1 ∧
    (Reg.make 1).linTrain ⟨6, 1, Buf.of [(0 : ℚ), 1, 2, 0, 1, 2]⟩ (Buf.of [1, 0, 4, 1, 0, 4]) = .ok r1 := by
  refine C110_repeat_linear (Reg.make 1) 3 1 2 (by decide) (fun i _ => (i : ℚ)) (fun i => if i = 0 then 1 else if i = 1 then 0 else 4) _ _ _ _
    ⟨rfl, by simp [Reg.make, Buf.alloc]⟩ ⟨rfl, rfl, rfl, ?_⟩ ⟨rfl, rfl, rfl, ?_⟩ ⟨rfl, ?_⟩ ⟨rfl, ?_⟩ exLinIdent
  · intro i j hi hj; interval_cases i <;> interval_cases j <;> decide +kernel
  · intro i j hi hj
    have hi' : i < 6 := hi
    clear hi
    interval_cases i <;> interval_cases j <;> decide +kernel
  · intro i hi; interval_cases i <;> decide +kernel
  · intro i hi
    have hi' : i < 6 := hi
    clear hi
    interval_cases i <;> decide +kernel

example : (Reg.make 1).linTrain ⟨3, 1, Buf.of [(0 : ℚ), 1, 2]⟩ (Buf.of [1, 0, 4]) = .ok ⟨Buf.of [1 / 6, 3 / 2], 2⟩ := by decide +kernel
example : (Reg.make 1).linTrain ⟨6, 1, Buf.of [(0 : ℚ), 1, 2, 0, 1, 2]⟩ (Buf.of [1, 0, 4, 1, 0, 4]) = .ok ⟨Buf.of [1 / 6, 3 / 2], 2⟩ := by decide +kernel
/-- Measured as `2·x + 5` the weights change; the prediction for the first sample does not. -/
example : (Reg.make 1).linTrain ⟨3, 1, Buf.of [(5 : ℚ), 7, 9]⟩ (Buf.of [1, 0, 4]) = .ok ⟨Buf.of [-43 / 12, 3 / 4], 2⟩ ∧
    (⟨Buf.of [-43 / 12, 3 / 4], 2⟩ : Reg ℚ).linSample (Buf.of [5]) = .ok (1 / 6) ∧ (⟨Buf.of [1 / 6, 3 / 2], 2⟩ : Reg ℚ).linSample (Buf.of [0]) = .ok (1 / 6) := by
  refine ⟨?_, ?_, ?_⟩ <;> decide +kernel
/-- Interpolation of three points by a parabola. -/
example : ∃ r1, (Reg.make 2).polyTrain (Buf.of [(0 : ℚ), 1, 2]) (Buf.of [1, 0, 4]) = .ok r1 ∧
    ∀ i : Nat, i < 3 → r1.polySample ((i : ℚ)) = .ok (if i = 0 then 1 else if i = 1 then 0 else 4) :=
  C110_interpolation (Reg.make 2) 2 (fun i => (i : ℚ)) (fun i => if i = 0 then 1 else if i = 1 then 0 else 4) (Buf.of [0, 1, 2]) (Buf.of [1, 0, 4])
    ⟨rfl, by simp [Reg.make, Buf.alloc]⟩ ⟨rfl, fun i hi => by interval_cases i <;> decide +kernel⟩
    ⟨rfl, fun i hi => by interval_cases i <;> decide +kernel⟩ (fun i j _ _ e => by exact_mod_cast e)
/-- … which a line (residuals 5/6, -5/3, 5/6) does not reach: the higher degree fits strictly better here. -/
example : (Reg.make 1).polyTrain (Buf.of [(0 : ℚ), 1, 2]) (Buf.of [1, 0, 4]) = .ok ⟨Buf.of [1 / 6, 3 / 2], 2⟩ ∧
    (Reg.make 2).polyTrain (Buf.of [(0 : ℚ), 1, 2]) (Buf.of [1, 0, 4]) = .ok ⟨Buf.of [1, -7 / 2, 5 / 2], 3⟩ ∧
    (Reg.make 2).linTrain ⟨3, 2, Buf.of [(0 : ℚ), 0, 1, 1, 2, 4]⟩ (Buf.of [1, 0, 4]) = .ok ⟨Buf.of [1, -7 / 2, 5 / 2], 3⟩ := by
  refine ⟨?_, ?_, ?_⟩ <;> decide +kernel
/-- Superposition `2·y - y'`. -/
example : (Reg.make 1).linTrain ⟨3, 1, Buf.of [(0 : ℚ), 1, 2]⟩ (Buf.of [1, 3, 5]) = .ok ⟨Buf.of [1, 2], 2⟩ ∧
    (Reg.make 1).linTrain ⟨3, 1, Buf.of [(0 : ℚ), 1, 2]⟩ (Buf.of [1, -3, 3]) = .ok ⟨Buf.of [2 * (1 / 6) - 1, 2 * (3 / 2) - 2], 2⟩ := by
  refine ⟨?_, ?_⟩ <;> decide +kernel

end Trixy
