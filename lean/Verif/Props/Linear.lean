import Verif.Proof.Inverse
import Mathlib.LinearAlgebra.Matrix.NonsingularInverse
import Mathlib.Algebra.BigOperators.Fin
import Mathlib.Algebra.Field.Rat
import Mathlib.Algebra.Order.Ring.Unbundled.Rat
/- Properties C18–C21. -/
namespace Trixy
open Finset

variable {α : Type _}

/-! ## C18 vector-matrix and matrix-vector products -/

/-- `dot(result, row, M)` in ascending order of the inner index, whatever `result` held. -/
theorem C18_row [Zero α] [Add α] [Mul α] (result row : Buf α) (m : Mat α) (n w : Nat)
    (a : Nat → α) (f : Nat → Nat → α) (hr : VecIs row n a) (hm : MatIs m n w f) (hres : result.length = w) :
    Ok (dotRow result row m) (fun r => VecIs r w (fun j => foldSum 0 n (fun i => a i * f i j))) :=
  dotRow_spec hr hm (Nat.le_refl _) hres

/-- `dot(result, M, col)`. -/
theorem C18_col [Zero α] [Add α] [Mul α] (result col : Buf α) (m : Mat α) (n h : Nat)
    (a : Nat → α) (f : Nat → Nat → α) (hc : VecIs col n a) (hm : MatIs m h n f) (hres : result.length = h) :
    Ok (dotCol result m col) (fun r => VecIs r h (fun i => foldSum 0 n (fun j => f i j * a j))) :=
  dotCol_spec hc hm (Nat.le_refl _) hres

/-- Over a semiring the two products are the matrix products; the value-returning forms allocate a result of
the right size. -/
theorem C18_algebra [Semiring α] (row col : Buf α) (m : Mat α) (h w : Nat)
    (a b : Nat → α) (f : Nat → Nat → α) (hr : VecIs row h a) (hc : VecIs col w b) (hm : MatIs m h w f) :
    Ok (dotRowNew row m) (fun r => VecIs r w (fun j => ∑ i ∈ range h, a i * f i j)) ∧
    Ok (dotColNew m col) (fun r => VecIs r h (fun i => ∑ j ∈ range w, f i j * b j)) := by
  constructor
  · unfold dotRowNew; rw [hm.2.1]
    exact (C18_row _ row m h w a f hr hm (by simp [Buf.alloc])).mono
      (fun r h => h.congr (fun j _ => foldSum_zero_eq _ _))
  · unfold dotColNew; rw [hm.1]
    exact (C18_col _ col m w h b f hc hm (by simp [Buf.alloc])).mono
      (fun r h => h.congr (fun j _ => foldSum_zero_eq _ _))

/-- Inner product. -/
theorem C18_inner [Semiring α] (x y : Buf α) (n : Nat) (a b : Nat → α) (hx : VecIs x n a) (hy : VecIs y n b) :
    dotVec x y = .ok (∑ i ∈ range n, a i * b i) := by
  rw [dotVec_spec hx hy (Nat.le_refl _), foldSum_zero_eq]

/-- Non-vacuity: matrix and vectors described as above exist. -/
def exMat : Mat Int := ⟨2, 3, Buf.of [1, 2, 3, 4, 5, 6]⟩
theorem exMat_is : MatIs exMat 2 3 (fun i j => (3 * i + j + 1 : Nat)) := by
  refine ⟨rfl, rfl, rfl, fun i j hi hj => ?_⟩
  have h1 : i = 0 ∨ i = 1 := by omega
  have h2 : j = 0 ∨ j = 1 ∨ j = 2 := by omega
  rcases h1 with rfl | rfl <;> rcases h2 with rfl | rfl | rfl <;> rfl
example : VecIs (Buf.of [(10 : Int), 100]) 2 (fun i => if i = 0 then 10 else 100) ∧
    dotRowNew (Buf.of [10, 100]) exMat = .ok (Buf.of [410, 520, 630]) := by
  refine ⟨VecIs_of _ _ (fun i hi => ?_), by decide⟩
  have h1 : i = 0 ∨ i = 1 := by simp at hi; omega
  rcases h1 with rfl | rfl <;> rfl

/-! ## C19 matrix product -/

/-- Three-argument `dot` adds to the previous contents, in ascending order of the inner index. -/
theorem C19_accumulates [Add α] [Mul α] (R A B : Mat α) (n m p : Nat) (r0 a b : Nat → Nat → α)
    (hR : MatIs R n p r0) (hA : MatIs A n m a) (hB : MatIs B m p b) :
    Ok (dotMat R A B) (fun R' => MatIs R' n p (fun i j => foldSum (r0 i j) m (fun r => a i r * b r j))) :=
  dotMat_spec hR hA hB (Nat.le_refl _)

/-- The value-returning `dot` is the matrix product. -/
theorem C19_product [Semiring α] (A B : Mat α) (n m p : Nat) (a b : Nat → Nat → α)
    (hA : MatIs A n m a) (hB : MatIs B m p b) :
    Ok (dotMatNew A B) (fun R => MatIs R n p (fun i j => ∑ r ∈ range m, a i r * b r j)) := by
  unfold dotMatNew
  rw [hA.1, hB.2.1]
  exact (C19_accumulates _ A B n m p _ a b (MatIs_fill n p 0) hA hB).mono
    (fun R h => h.congr (fun i j _ _ => foldSum_zero_eq _ _))

/-- Three-argument `dot` over a semiring. -/
theorem C19_accumulates_sum [Semiring α] (R A B : Mat α) (n m p : Nat) (r0 a b : Nat → Nat → α)
    (hR : MatIs R n p r0) (hA : MatIs A n m a) (hB : MatIs B m p b) :
    Ok (dotMat R A B) (fun R' => MatIs R' n p (fun i j => r0 i j + ∑ r ∈ range m, a i r * b r j)) :=
  (C19_accumulates R A B n m p r0 a b hR hA hB).mono (fun R h => h.congr (fun i j _ _ => foldSum_eq _ _ _))

/-! ## C20 outer product and transpose -/

theorem C20_tensordot [Mul α] (R : Mat α) (col row : Buf α) (n m : Nat) (c r : Nat → α) (g : Nat → Nat → Option α)
    (hR : MatB R n m g) (hc : VecIs col n c) (hr : VecIs row m r) :
    Ok (tensordot R col row) (fun R' => MatIs R' n m (fun i j => c i * r j)) ∧
    Ok (tensordotNew col row) (fun R' => MatIs R' n m (fun i j => c i * r j)) := by
  refine ⟨tensordot_spec hR hc hr, ?_⟩
  unfold tensordotNew
  rw [hc.length, hr.length]
  exact tensordot_spec (MatB_alloc n m) hc hr

theorem C20_transpose (m : Mat α) (h w : Nat) (f : Nat → Nat → α) (hm : MatIs m h w f) :
    Ok (transposeNew m) (fun R => MatIs R w h (fun i j => f j i)) := by
  unfold transposeNew
  rw [hm.1, hm.2.1]
  exact transpose_spec (MatB_alloc w h) hm

theorem MatIs.ext {A B : Mat α} {h w : Nat} {f : Nat → Nat → α} (hA : MatIs A h w f) (hB : MatIs B h w f) : A = B := by
  have hd : A.data = B.data := by
    apply List.ext_getElem?
    intro i
    by_cases hi : i < h * w
    · have hw : 0 < w := Nat.pos_of_mul_pos_left (Nat.zero_lt_of_lt hi) 
      have h1 : i / w < h := Nat.div_lt_of_lt_mul (by rwa [Nat.mul_comm])
      have h2 := Nat.mod_lt i hw
      have e : i / w * w + i % w = i := by rw [Nat.mul_comm]; exact Nat.div_add_mod i w
      have := (hA.2.2.2 _ _ h1 h2).trans (hB.2.2.2 _ _ h1 h2).symm
      rwa [e] at this
    · rw [List.getElem?_eq_none (by rw [hA.2.2.1]; omega), List.getElem?_eq_none (by rw [hB.2.2.1]; omega)]
  cases A; cases B
  simp only [MatIs, MatB] at hA hB
  simp only at hd
  simp [hA.1, hB.1, hA.2.1, hB.2.1, hd]

/-- Transposing twice gives back the matrix. -/
theorem C20_transpose_twice (m : Mat α) (h w : Nat) (f : Nat → Nat → α) (hm : MatIs m h w f) :
    (transposeNew m >>= transposeNew) = .ok m := by
  apply Ok.eq
  refine (C20_transpose m h w f hm).bind (fun R hR => ?_)
  exact (C20_transpose R w h _ hR).mono (fun m' hm' => MatIs.ext hm' hm)

/-- `transpose(dot(A,B)) = dot(transpose(B), transpose(A))`. -/
theorem C20_transpose_product [CommSemiring α] (A B : Mat α) (n m p : Nat) (a b : Nat → Nat → α)
    (hA : MatIs A n m a) (hB : MatIs B m p b) :
    Ok (dotMatNew A B >>= transposeNew) (fun L => Ok (do
      let Bt ← transposeNew B
      let At ← transposeNew A
      dotMatNew Bt At) (fun R => R = L)) := by
  refine (C19_product A B n m p a b hA hB).bind (fun P hP => (C20_transpose P n p _ hP).mono (fun L hL => ?_))
  refine (C20_transpose B m p b hB).bind (fun Bt hBt => (C20_transpose A n m a hA).bind (fun At hAt => ?_))
  refine (C19_product Bt At p m n _ _ hBt hAt).mono (fun R hR => MatIs.ext hR (hL.congr (fun i j _ _ => ?_)))
  exact Finset.sum_congr rfl (fun r _ => mul_comm _ _)

example : transposeNew exMat = .ok ⟨3, 2, Buf.of [1, 4, 2, 5, 3, 6]⟩ ∧
    tensordotNew (Buf.of [(2 : Int), 3]) (Buf.of [5, 7]) = .ok ⟨2, 2, Buf.of [10, 14, 15, 21]⟩ := ⟨rfl, rfl⟩

/-! ## C21 inverse -/

section
variable {K : Type _} [Field K] [LinearOrder K] [IsStrictOrderedRing K]

/-- The `N × N` matrix with entries `f i j`. -/
def toM (N : Nat) (f : Nat → Nat → K) : Matrix (Fin N) (Fin N) K := fun i j => f i j

omit [LinearOrder K] [IsStrictOrderedRing K] in
theorem toM_kron (N : Nat) : toM N (kron : Nat → Nat → K) = 1 := by
  ext i j
  simp only [toM, kron, Matrix.one_apply]
  by_cases h : i = j
  · simp [h]
  · have : ¬ (i : Nat) = j := fun e => h (Fin.ext e)
    simp [h, this]

omit [LinearOrder K] [IsStrictOrderedRing K] in
theorem toM_mul (N : Nat) (r a : Nat → Nat → K) (i j : Fin N) :
    (toM N r * toM N a) i j = rdot N r i (fun t => a t j) := by
  rw [Matrix.mul_apply, rdot, Finset.sum_range]; rfl

/-- Invertible argument: no division by zero, the argument becomes the identity and the result is the two-sided
inverse. -/
theorem C21_invertible (N : Nat) (R M : Mat K) (g : Nat → Nat → Option K) (A : Nat → Nat → K)
    (hR : MatB R N N g) (hM : MatIs M N N A) (hinv : IsUnit (toM N A)) :
    Ok (inverseInto R M) (fun s => ∃ r, MatIs s.1 N N r ∧
      MatIs s.2 N N (fun i j => if i = j then 1 else 0) ∧ toM N r * toM N A = 1 ∧ toM N A * toM N r = 1) := by
  rcases inverseInto_dichotomy hR hM with h | ⟨_, v, ⟨i0, hi0, hv0⟩, hv⟩
  · refine h.mono (fun s ⟨r, h1, h2, h3⟩ => ⟨r, h1, h2, ?_, ?_⟩)
    · rw [← toM_kron]; ext i j; rw [toM_mul, h3 i j i.2 j.2]; rfl
    · rw [mul_eq_one_comm, ← toM_kron]; ext i j; rw [toM_mul, h3 i j i.2 j.2]; rfl
  · exfalso
    obtain ⟨u, hu⟩ := hinv
    have hz : (toM N A).mulVec (fun i => v i) = 0 := by
      ext i
      have := hv i i.2
      rw [rdot, Finset.sum_range] at this
      exact this
    have h2 : (u⁻¹.val * u.val : Matrix (Fin N) (Fin N) K).mulVec (fun i => v i) = 0 := by
      rw [← Matrix.mulVec_mulVec, hu, hz, Matrix.mulVec_zero]
    rw [Units.inv_mul, Matrix.one_mulVec] at h2
    exact hv0 (congrFun h2 ⟨i0, hi0⟩)

/-- Singular argument: the algorithm divides by zero. -/
theorem C21_singular (N : Nat) (R M : Mat K) (g : Nat → Nat → Option K) (A : Nat → Nat → K)
    (hR : MatB R N N g) (hM : MatIs M N N A) (hsing : ¬ IsUnit (toM N A)) :
    inverseInto R M = .error .divByZero := by
  rcases inverseInto_dichotomy hR hM with ⟨s, _, r, h1, h2, h3⟩ | ⟨h, _⟩
  · exfalso
    have : toM N r * toM N A = 1 := by
      rw [← toM_kron]; ext i j; rw [toM_mul, h3 i j i.2 j.2]; rfl
    exact hsing ⟨⟨toM N A, toM N r, mul_eq_one_comm.1 this, this⟩, rfl⟩
  · exact h

/-- The value-returning form. -/
theorem C21_value (N : Nat) (M : Mat K) (A : Nat → Nat → K) (hM : MatIs M N N A) (hdet : (toM N A).det ≠ 0) :
    Ok (inverseNew M) (fun s => ∃ r, MatIs s.1 N N r ∧ toM N r = (toM N A)⁻¹) := by
  unfold inverseNew
  rw [hM.1, hM.2.1]
  have hu : IsUnit (toM N A) := (Matrix.isUnit_iff_isUnit_det _).2 (isUnit_iff_ne_zero.2 hdet)
  refine (C21_invertible N _ M _ A (MatB_alloc N N) hM hu).mono (fun s ⟨r, h1, _, h3, _⟩ => ⟨r, h1, ?_⟩)
  exact (Matrix.inv_eq_left_inv h3).symm

end

/-- Non-vacuity: a matrix needing a row exchange. -/
example : inverseNew (⟨2, 2, Buf.of [0, 2, 1, 1]⟩ : Mat ℚ) =
    .ok (⟨2, 2, Buf.of [-1 / 2, 1, 1 / 2, 0]⟩, ⟨2, 2, Buf.of [1, 0, 0, 1]⟩) := by decide +kernel
example : inverseNew (⟨2, 2, Buf.of [1, 2, 2, 4]⟩ : Mat ℚ) = .error .divByZero := by decide +kernel

end Trixy
