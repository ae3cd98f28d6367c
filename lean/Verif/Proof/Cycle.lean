import Verif.Proof.Interp
import Mathlib.LinearAlgebra.FiniteDimensional.Basic
/- Squared error on batches that come in a fixed cycle: steps on differences, and the cycle the parameters settle in. -/
namespace Trixy.FitMath
open Finset Filter Topology

variable {n m : Nat}

theorem list_sum_sub {β : Type*} (l : List β) (f g : β → ℝ) : (l.map f).sum - (l.map g).sum = (l.map (fun b => f b - g b)).sum := by
  induction l with
  | nil => simp
  | cons b l ih => simp only [List.map_cons, List.sum_cons, ← ih]; ring

/-- The same inputs, targets 0. -/
def zeroed (us : List ((Nat → ℝ) × (Nat → ℝ))) : List ((Nat → ℝ) × (Nat → ℝ)) := us.map (fun uw => (uw.1, fun _ => 0))

theorem zeroed_len2 (us : List ((Nat → ℝ) × (Nat → ℝ))) : len2 n (zeroed us) = len2 n us := by
  unfold len2 zeroed
  rw [List.map_map]
  rfl

theorem grd_sub (us : List ((Nat → ℝ) × (Nat → ℝ))) (T S : Nat → Nat → ℝ) (i j : Nat) :
    grd .mse n m us T i j - grd .mse n m us S i j = grd .mse n m (zeroed us) (fun i j => T i j - S i j) i j := by
  unfold grd zeroed
  rw [List.map_map, list_sum_sub]
  congr 1
  refine List.map_congr_left (fun uw _ => ?_)
  show uw.1 i * (lin n uw.1 T j - uw.2 j) - uw.1 i * (lin n uw.1 S j - uw.2 j) = uw.1 i * (lin n uw.1 (fun i j => T i j - S i j) j - 0)
  have : lin n uw.1 (fun i j => T i j - S i j) j = lin n uw.1 T j - lin n uw.1 S j := by
    unfold lin
    rw [← sum_sub_distrib]
    exact sum_congr rfl (fun i _ => by ring)
  rw [this]; ring

theorem zeroed_exact {us : List ((Nat → ℝ) × (Nat → ℝ))} {R : Nat → Nat → ℝ} : Exact .mse n m (zeroed us) R ↔ ∀ uw ∈ us, ∀ j, j < m → lin n uw.1 R j = 0 := by
  unfold Exact zeroed
  constructor
  · intro h uw hu j hj
    have := h (uw.1, fun _ => 0) (List.mem_map.2 ⟨uw, hu, rfl⟩) j hj
    simpa [zGrad] using this
  · intro h uw hu j hj
    obtain ⟨vw, hv, rfl⟩ := List.mem_map.1 hu
    simp [zGrad, h vw hv j hj]

/-! ### Linear algebra on the entries -/

abbrev EMat (n m : Nat) := Fin n → Fin m → ℝ

/-- Zero outside. -/
def ext (A : EMat n m) : Nat → Nat → ℝ := fun i j => if h : i < n ∧ j < m then A ⟨i, h.1⟩ ⟨j, h.2⟩ else 0

theorem ext_in (A : EMat n m) (i : Fin n) (j : Fin m) : ext A i j = A i j := by simp [ext]

/-- One step with targets 0, as a linear map. -/
noncomputable def stepL (n m : Nat) (us : List ((Nat → ℝ) × (Nat → ℝ))) (c : ℝ) : EMat n m →ₗ[ℝ] EMat n m where
  toFun A := fun i j => A i j - c * (us.map (fun uw => uw.1 i * ∑ q : Fin n, uw.1 q * A q j)).sum
  map_add' A B := by
    funext i j
    simp only [Pi.add_apply, mul_add, sum_add_distrib, List.sum_map_add]
    ring
  map_smul' t A := by
    funext i j
    simp only [Pi.smul_apply, smul_eq_mul, RingHom.id_apply]
    have : (us.map (fun uw => uw.1 i * ∑ q : Fin n, uw.1 q * (t * A q j))) = us.map (fun uw => t * (uw.1 i * ∑ q : Fin n, uw.1 q * A q j)) :=
      List.map_congr_left (fun uw _ => by
        rw [mul_left_comm, mul_sum (a := t)]
        congr 1
        exact sum_congr rfl (fun q _ => by ring))
    rw [this, List.sum_map_mul_left]
    ring

/-- The part of a step made by the targets. -/
noncomputable def stepC (n m : Nat) (us : List ((Nat → ℝ) × (Nat → ℝ))) (c : ℝ) : EMat n m := fun i j => c * (us.map (fun uw => uw.1 i * uw.2 j)).sum

theorem lin_ext (u : Nat → ℝ) (A : EMat n m) (j : Fin m) : lin n u (ext A) j = ∑ q : Fin n, u q * A q j := by
  unfold lin
  rw [← Fin.sum_univ_eq_sum_range (fun q => u q * ext A q j)]
  exact sum_congr rfl (fun q _ => by rw [ext_in])

theorem step_fin (us : List ((Nat → ℝ) × (Nat → ℝ))) (c : ℝ) (A : EMat n m) (i : Fin n) (j : Fin m) :
    ext A i j + -(grd .mse n m us (ext A) i j * c) = (stepL n m us c A + stepC n m us c) i j := by
  rw [ext_in]
  show _ = A i j - c * _ + c * _
  have : grd .mse n m us (ext A) i j = (us.map (fun uw => uw.1 i * ∑ q : Fin n, uw.1 q * A q j)).sum - (us.map (fun uw => uw.1 i * uw.2 j)).sum := by
    unfold grd
    rw [list_sum_sub]
    congr 1
    refine List.map_congr_left (fun uw _ => ?_)
    show uw.1 i * (lin n uw.1 (ext A) j - uw.2 j) = _
    rw [lin_ext, mul_sub]
  rw [this]; ring

/-- Combinations of inputs: perpendicular to everything all inputs annihilate. -/
def spanV (n m : Nat) (data : List ((Nat → ℝ) × (Nat → ℝ))) : Submodule ℝ (EMat n m) where
  carrier := {A | ∀ B : EMat n m, (∀ uw ∈ data, ∀ j : Fin m, ∑ q : Fin n, uw.1 q * B q j = 0) → ∑ i, ∑ j, A i j * B i j = 0}
  add_mem' := by
    intro A A' h h' B hB
    simp only [Pi.add_apply, add_mul, sum_add_distrib]
    rw [h B hB, h' B hB, add_zero]
  zero_mem' := by intro B _; simp
  smul_mem' := by
    intro t A h B hB
    have := h B hB
    simp only [Pi.smul_apply, smul_eq_mul, mul_assoc, ← mul_sum]
    rw [this, mul_zero]

theorem input_mem {data : List ((Nat → ℝ) × (Nat → ℝ))} {us : List ((Nat → ℝ) × (Nat → ℝ))} (hsub : ∀ uw ∈ us, uw ∈ data) (c : ℝ) (g : (Nat → ℝ) × (Nat → ℝ) → Fin m → ℝ) :
    (fun (i : Fin n) (j : Fin m) => c * (us.map (fun uw => uw.1 i * g uw j)).sum) ∈ spanV n m data := by
  intro B hB
  have e : ∑ i : Fin n, ∑ j : Fin m, c * (us.map (fun uw => uw.1 i * g uw j)).sum * B i j = c * (us.map (fun uw => ∑ j : Fin m, g uw j * ∑ i : Fin n, uw.1 i * B i j)).sum := by
    induction us with
    | nil => simp
    | cons uw us ih =>
      have := ih (fun uw h => hsub uw (List.mem_cons_of_mem _ h))
      simp only [List.map_cons, List.sum_cons, mul_add, add_mul, sum_add_distrib] at this ⊢
      rw [this]
      congr 1
      rw [sum_comm, mul_sum]
      refine sum_congr rfl (fun j _ => ?_)
      rw [mul_sum, mul_sum]
      exact sum_congr rfl (fun i _ => by ring)
  rw [e]
  refine mul_eq_zero_of_right _ (List.sum_eq_zero (fun x hx => ?_))
  obtain ⟨uw, hu, rfl⟩ := List.mem_map.1 hx
  exact sum_eq_zero (fun j _ => by rw [hB uw (hsub uw hu) j, mul_zero])

theorem stepC_mem {data us : List ((Nat → ℝ) × (Nat → ℝ))} (hsub : ∀ uw ∈ us, uw ∈ data) (c : ℝ) : stepC n m us c ∈ spanV n m data :=
  input_mem hsub c (fun uw j => uw.2 j)

theorem stepL_mem {data us : List ((Nat → ℝ) × (Nat → ℝ))} (hsub : ∀ uw ∈ us, uw ∈ data) (c : ℝ) {A : EMat n m} (h : A ∈ spanV n m data) : stepL n m us c A ∈ spanV n m data :=
  sub_mem h (input_mem hsub c (fun uw j => ∑ q : Fin n, uw.1 q * A q j))

/-! ### One cycle -/

section cycle
variable {data : List ((Nat → ℝ) × (Nat → ℝ))} {us : Nat → List ((Nat → ℝ) × (Nat → ℝ))}

/-- The first `N` steps with targets 0, on combinations of inputs. -/
noncomputable def runL (hsub : ∀ N, ∀ uw ∈ us N, uw ∈ data) (c : Nat → ℝ) : Nat → (spanV n m data →ₗ[ℝ] spanV n m data)
  | 0 => LinearMap.id
  | N + 1 => ((stepL n m (us N) (c N)).restrict (fun _ h => stepL_mem (hsub N) (c N) h)).comp (runL hsub c N)

/-- The first `N` steps. -/
noncomputable def runA (hsub : ∀ N, ∀ uw ∈ us N, uw ∈ data) (c : Nat → ℝ) (A : spanV n m data) : Nat → spanV n m data
  | 0 => A
  | N + 1 => ((stepL n m (us N) (c N)).restrict (fun _ h => stepL_mem (hsub N) (c N) h)) (runA hsub c A N) + ⟨stepC n m (us N) (c N), stepC_mem (hsub N) (c N)⟩

theorem runA_split (hsub : ∀ N, ∀ uw ∈ us N, uw ∈ data) (c : Nat → ℝ) (A : spanV n m data) (N : Nat) :
    runA hsub c A N = runL hsub c N A + runA hsub c 0 N := by
  induction N with
  | zero => simp [runA, runL]
  | succ N ih =>
    show _ + _ = _ + (_ + _)
    rw [ih, map_add, add_assoc]
    rfl

theorem nrm_congr {T S : Nat → Nat → ℝ} (h : ∀ i j, i < n → j < m → T i j = S i j) : nrm n m T = nrm n m S :=
  sum_congr rfl (fun i hi => sum_congr rfl (fun j hj => by rw [h i j (mem_range.1 hi) (mem_range.1 hj)]))

theorem stepC_zeroed (us : List ((Nat → ℝ) × (Nat → ℝ))) (c : ℝ) : stepC n m (zeroed us) c = 0 := by
  funext i j
  show c * ((zeroed us).map (fun uw => uw.1 i * uw.2 j)).sum = 0
  refine mul_eq_zero_of_right _ (List.sum_eq_zero (fun x hx => ?_))
  obtain ⟨uw, hu, rfl⟩ := List.mem_map.1 hx
  obtain ⟨vw, _, rfl⟩ := List.mem_map.1 hu
  exact mul_zero _

theorem stepL_zeroed (us : List ((Nat → ℝ) × (Nat → ℝ))) (c : ℝ) (A : EMat n m) : stepL n m (zeroed us) c A = stepL n m us c A := by
  funext i j
  show A i j - c * ((zeroed us).map (fun uw => uw.1 i * ∑ q : Fin n, uw.1 q * A q j)).sum = A i j - c * _
  unfold zeroed
  rw [List.map_map]
  rfl

theorem phi_zero (z : Nat → ℝ) : phi .mse m (fun _ => 0) z = 1 / 2 * ∑ j ∈ range m, z j ^ 2 := by
  show 1 / 2 * ∑ j ∈ range m, (z j - 0) ^ 2 = _
  simp

/-- A step with targets 0 shortens, unless it does nothing. -/
theorem stepL_short (hm : 0 < m) (us : List ((Nat → ℝ) × (Nat → ℝ))) (lr a : ℝ) (hlr : 0 < lr) (ha : 0 < a) (hL : lr * (a * len2 n us) ≤ 1) (A : EMat n m) :
    nrm n m (ext (stepL n m us (a * lr) A)) ≤ nrm n m (ext A) ∧
    (nrm n m (ext A) ≤ nrm n m (ext (stepL n m us (a * lr) A)) → ∀ uw ∈ us, ∀ j, j < m → lin n uw.1 (ext A) j = 0) := by
  have hw : ∀ uw ∈ zeroed us, FitKind.mse.Target m uw.2 := fun _ _ => trivial
  have h := (drop (k := .mse) hm (zeroed us) hw lr a hlr ha.le (by rw [zeroed_len2]; exact hL) (ext A) (fun _ _ => 0)
    ((zeroed_exact.2 (fun uw _ j _ => by simp [lin])).grd)).1
  have e1 : nrm n m (fun i j => ext A i j + -(grd .mse n m (zeroed us) (ext A) i j * a * lr) - 0) = nrm n m (ext (stepL n m us (a * lr) A)) :=
    nrm_congr (fun i j hi hj => by
      have := step_fin (zeroed us) (a * lr) A ⟨i, hi⟩ ⟨j, hj⟩
      rw [stepC_zeroed, add_zero, stepL_zeroed, ← ext_in (stepL n m us (a * lr) A)] at this
      rw [sub_zero, mul_assoc]
      exact this)
  have e2 : nrm n m (fun i j => ext A i j - 0) = nrm n m (ext A) := nrm_congr (fun i j _ _ => sub_zero _)
  rw [e1, e2] at h
  have t0 : tot .mse n m (zeroed us) (fun _ _ => 0) = 0 := List.sum_eq_zero (fun x hx => by
    obtain ⟨uw, hu, rfl⟩ := List.mem_map.1 hx
    obtain ⟨vw, _, rfl⟩ := List.mem_map.1 hu
    rw [phi_zero]
    simp [lin])
  have tt : tot .mse n m (zeroed us) (ext A) = (us.map (fun uw => 1 / 2 * ∑ j ∈ range m, lin n uw.1 (ext A) j ^ 2)).sum := by
    unfold tot zeroed
    rw [List.map_map]
    congr 1
    exact List.map_congr_left (fun uw _ => phi_zero _)
  have hnn : ∀ x ∈ us.map (fun uw => 1 / 2 * ∑ j ∈ range m, lin n uw.1 (ext A) j ^ 2), 0 ≤ x := fun x hx => by
    obtain ⟨uw, _, rfl⟩ := List.mem_map.1 hx
    exact mul_nonneg (by norm_num) (sum_nonneg (fun _ _ => sq_nonneg _))
  rw [t0, sub_zero, tt] at h
  have hs := List.sum_nonneg hnn
  have hla : 0 < 2 * lr * a := by positivity
  refine ⟨by nlinarith [mul_nonneg hla.le hs], fun hge uw hu j hj => ?_⟩
  have h0 : (us.map (fun uw => 1 / 2 * ∑ j ∈ range m, lin n uw.1 (ext A) j ^ 2)).sum = 0 := by
    refine le_antisymm ?_ hs
    by_contra hc
    push Not at hc
    nlinarith [mul_pos hla hc]
  have h1 : 1 / 2 * ∑ j ∈ range m, lin n uw.1 (ext A) j ^ 2 = 0 :=
    le_antisymm (by rw [← h0]; exact List.single_le_sum hnn _ (List.mem_map.2 ⟨uw, hu, rfl⟩)) (hnn _ (List.mem_map.2 ⟨uw, hu, rfl⟩))
  have h2 : ∑ j ∈ range m, lin n uw.1 (ext A) j ^ 2 = 0 := by linarith
  have := (sum_eq_zero_iff_of_nonneg (fun _ _ => sq_nonneg _)).1 h2 j (mem_range.2 hj)
  exact pow_eq_zero_iff (by decide) |>.1 this

theorem stepL_still (us : List ((Nat → ℝ) × (Nat → ℝ))) (c : ℝ) (A : EMat n m) (h : ∀ uw ∈ us, ∀ j, j < m → lin n uw.1 (ext A) j = 0) : stepL n m us c A = A := by
  funext i j
  show A i j - c * _ = A i j
  rw [sub_eq_self]
  refine mul_eq_zero_of_right _ (List.sum_eq_zero (fun x hx => ?_))
  obtain ⟨uw, hu, rfl⟩ := List.mem_map.1 hx
  rw [← lin_ext, h uw hu j j.2, mul_zero]

variable (hm : 0 < m) (hsub : ∀ N, ∀ uw ∈ us N, uw ∈ data) {lr : ℝ} (hlr : 0 < lr) {a : Nat → ℝ} (ha : ∀ N, 0 < a N)
  (hL : ∀ N, lr * (a N * len2 n (us N)) ≤ 1) {K : Nat} (hall : ∀ uw ∈ data, ∃ i, i < K ∧ uw ∈ us i)
include hm hlr ha hL hall

theorem runL_strict (A : spanV n m data) (hge : nrm n m (ext (A : EMat n m)) ≤ nrm n m (ext (runL hsub (fun N => a N * lr) K A : EMat n m))) : A = 0 := by
  set x : Nat → EMat n m := fun N => (runL hsub (fun N => a N * lr) N A : EMat n m) with hx
  have hstep : ∀ N, x (N + 1) = stepL n m (us N) (a N * lr) (x N) := fun N => rfl
  have hanti : Antitone (fun N => nrm n m (ext (x N))) := antitone_nat_of_succ_le (fun N => by
    rw [hstep]
    exact (stepL_short hm (us N) lr (a N) hlr (ha N) (hL N) (x N)).1)
  have hflat : ∀ N, N < K → ∀ uw ∈ us N, ∀ j, j < m → lin n uw.1 (ext (x N)) j = 0 := fun N hN => by
    refine (stepL_short hm (us N) lr (a N) hlr (ha N) (hL N) (x N)).2 ?_
    rw [← hstep]
    calc nrm n m (ext (x N)) ≤ nrm n m (ext (x 0)) := hanti (Nat.zero_le N)
      _ ≤ nrm n m (ext (x K)) := hge
      _ ≤ nrm n m (ext (x (N + 1))) := hanti hN
  have hconst : ∀ N, N ≤ K → x N = x 0 := fun N => by
    induction N with
    | zero => exact fun _ => rfl
    | succ N ih =>
      intro hN
      rw [hstep, stepL_still _ _ _ (hflat N hN), ih (by omega)]
  have hnull : ∀ uw ∈ data, ∀ j : Fin m, ∑ q : Fin n, uw.1 q * x 0 q j = 0 := fun uw hu j => by
    obtain ⟨i, hi, hui⟩ := hall uw hu
    rw [← lin_ext, ← hconst i hi.le]
    exact hflat i hi uw hui j j.2
  have hz : ∑ i, ∑ j, x 0 i j * x 0 i j = 0 := A.2 (x 0) hnull
  refine Subtype.ext ?_
  funext i j
  show x 0 i j = 0
  have h1 := (sum_eq_zero_iff_of_nonneg (fun i _ => sum_nonneg (fun j _ => mul_self_nonneg (x 0 i j)))).1 hz i (mem_univ i)
  have h2 := (sum_eq_zero_iff_of_nonneg (fun j _ => mul_self_nonneg (x 0 i j))).1 h1 j (mem_univ j)
  exact mul_self_eq_zero.1 h2

theorem runL_inj (A : spanV n m data) (h : runL hsub (fun N => a N * lr) K A = A) : A = 0 :=
  runL_strict hm hsub hlr ha hL hall A (by rw [h])

/-- Some parameters are the same again after one cycle. -/
theorem exists_cycle : ∃ A : spanV n m data, runA hsub (fun N => a N * lr) A K = A := by
  have inj : Function.Injective (LinearMap.id - runL (n := n) (m := m) hsub (fun N => a N * lr) K : spanV n m data →ₗ[ℝ] spanV n m data) := by
    refine (injective_iff_map_eq_zero _).2 (fun A h => runL_inj hm hsub hlr ha hL hall A ?_)
    rw [LinearMap.sub_apply, LinearMap.id_apply, sub_eq_zero] at h
    exact h.symm
  obtain ⟨A, hA⟩ := (LinearMap.injective_iff_surjective.1 inj) (runA hsub (fun N => a N * lr) 0 K)
  refine ⟨A, ?_⟩
  rw [runA_split, ← hA, LinearMap.sub_apply, LinearMap.id_apply]
  abel

end cycle

theorem lin_congr {T S : Nat → Nat → ℝ} {u : Nat → ℝ} {j : Nat} (h : ∀ i, i < n → T i j = S i j) : lin n u T j = lin n u S j :=
  sum_congr rfl (fun i hi => by rw [h i (mem_range.1 hi)])

theorem grd_lin {us : List ((Nat → ℝ) × (Nat → ℝ))} {T S : Nat → Nat → ℝ} {j : Nat} (h : ∀ uw ∈ us, lin n uw.1 T j = lin n uw.1 S j) (i : Nat) :
    grd .mse n m us T i j = grd .mse n m us S i j := by
  unfold grd
  congr 1
  refine List.map_congr_left (fun uw hu => ?_)
  show uw.1 i * (lin n uw.1 T j - uw.2 j) = uw.1 i * (lin n uw.1 S j - uw.2 j)
  rw [h uw hu]

/-- Two runs on the same batches differ, in the limit, by a constant that no sample sees. -/
theorem forget (hm : 0 < m) (data : List ((Nat → ℝ) × (Nat → ℝ))) (us : Nat → List ((Nat → ℝ) × (Nat → ℝ))) (hsub : ∀ N, ∀ uw ∈ us N, uw ∈ data) (lr : ℝ) (hlr : 0 < lr)
    (a : Nat → ℝ) (α : ℝ) (hα : 0 < α) (ha : ∀ N, α ≤ a N) (hL : ∀ N, lr * (a N * len2 n (us N)) ≤ 1) (K : Nat) (hwin : ∀ uw ∈ data, ∀ N, ∃ i, N ≤ i ∧ i < N + K ∧ uw ∈ us i)
    (T S : Nat → Nat → Nat → ℝ) (hT : ∀ N, T (N + 1) = fun i j => T N i j + -(grd .mse n m (us N) (T N) i j * a N * lr))
    (hS : ∀ N, S (N + 1) = fun i j => S N i j + -(grd .mse n m (us N) (S N) i j * a N * lr)) :
    ∃ p : Nat → Nat → ℝ, (∀ uw ∈ data, ∀ j, j < m → lin n uw.1 p j = 0) ∧ ∀ i j, i < n → j < m → Tendsto (fun N => T N i j - S N i j) atTop (𝓝 (p i j)) := by
  obtain ⟨p, hp, hc, _⟩ := interp (k := .mse) (n := n) hm (zeroed data) (fun _ _ => trivial) (fun N => zeroed (us N)) (fun N uw hu => by
      obtain ⟨vw, hv, rfl⟩ := List.mem_map.1 hu
      exact List.mem_map.2 ⟨vw, hsub N vw hv, rfl⟩) lr hlr a α hα ha (fun N => by rw [zeroed_len2]; exact hL N) K (fun uw hu N => by
      obtain ⟨vw, hv, rfl⟩ := List.mem_map.1 hu
      obtain ⟨i, h1, h2, h3⟩ := hwin vw hv N
      exact ⟨i, h1, h2, List.mem_map.2 ⟨vw, h3, rfl⟩⟩) (fun N i j => T N i j - S N i j) (fun N => by
      funext i j
      rw [hT, hS, ← grd_sub]
      ring) ⟨fun _ _ => 0, zeroed_exact.2 (fun uw _ j _ => by simp [lin])⟩
  exact ⟨p, zeroed_exact.1 hp, hc⟩

/-- Batches in a fixed cycle: every run approaches a run that repeats itself. -/
theorem cycle_limit (hm : 0 < m) (us : Nat → List ((Nat → ℝ) × (Nat → ℝ))) (lr : ℝ) (hlr : 0 < lr) (a : Nat → ℝ) (α : ℝ) (hα : 0 < α) (ha : ∀ N, α ≤ a N)
    (hL : ∀ N, lr * (a N * len2 n (us N)) ≤ 1) (K : Nat) (hK : 0 < K) (hus : ∀ N, us (N + K) = us N) (hac : ∀ N, a (N + K) = a N) (T : Nat → Nat → Nat → ℝ)
    (hT : ∀ N, T (N + 1) = fun i j => T N i j + -(grd .mse n m (us N) (T N) i j * a N * lr)) :
    ∃ Q : Nat → Nat → Nat → ℝ, (∀ N, Q (N + 1) = fun i j => Q N i j + -(grd .mse n m (us N) (Q N) i j * a N * lr)) ∧
      (∀ N i j, i < n → j < m → Q (N + K) i j = Q N i j) ∧ ∀ i j, i < n → j < m → Tendsto (fun N => T N i j - Q N i j) atTop (𝓝 0) := by
  set data : List ((Nat → ℝ) × (Nat → ℝ)) := (List.range K).flatMap us with hd
  have hmod : ∀ r N, us (N + r * K) = us N := fun r N => by
    induction r with
    | zero => simp
    | succ r ih => rw [Nat.succ_mul, ← add_assoc, hus, ih]
  have hsub : ∀ N, ∀ uw ∈ us N, uw ∈ data := fun N uw hu => by
    refine List.mem_flatMap.2 ⟨N % K, List.mem_range.2 (Nat.mod_lt _ hK), ?_⟩
    rw [← hmod (N / K) (N % K), Nat.mul_comm, Nat.mod_add_div]
    exact hu
  have hall : ∀ uw ∈ data, ∃ i, i < K ∧ uw ∈ us i := fun uw hu => by
    obtain ⟨i, h1, h2⟩ := List.mem_flatMap.1 hu
    exact ⟨i, List.mem_range.1 h1, h2⟩
  have hwin : ∀ uw ∈ data, ∀ N, ∃ i, N ≤ i ∧ i < N + K ∧ uw ∈ us i := fun uw hu N => by
    obtain ⟨i, h1, h2⟩ := hall uw hu
    -- the first index congruent to i from N on
    have hlt := Nat.mod_lt N hK
    have hdiv := Nat.mod_add_div N K
    by_cases h : N % K ≤ i
    · refine ⟨i + N / K * K, ?_, ?_, by rw [hmod]; exact h2⟩
      · rw [Nat.mul_comm]; omega
      · rw [Nat.mul_comm]; omega
    · refine ⟨i + (N / K + 1) * K, ?_, ?_, by rw [hmod]; exact h2⟩
      · rw [Nat.succ_mul, Nat.mul_comm]; omega
      · rw [Nat.succ_mul, Nat.mul_comm]; omega
  have ha0 : ∀ N, 0 < a N := fun N => hα.trans_le (ha N)
  obtain ⟨A, hA⟩ := exists_cycle (n := n) hm hsub hlr ha0 hL hall
  -- any start gives a run; runs with the same entries stay the same
  let run : (Nat → Nat → ℝ) → Nat → Nat → Nat → ℝ := fun S N => Nat.rec S (fun N R => fun i j => R i j + -(grd .mse n m (us N) R i j * a N * lr)) N
  have hrun : ∀ S N, run S (N + 1) = fun i j => run S N i j + -(grd .mse n m (us N) (run S N) i j * a N * lr) := fun _ _ => rfl
  have hY : ∀ N, ∀ (i : Fin n) (j : Fin m), run (ext (A : EMat n m)) N i j = (runA hsub (fun N => a N * lr) A N : EMat n m) i j := fun N => by
    induction N with
    | zero => exact fun i j => ext_in _ i j
    | succ N ih =>
      intro i j
      rw [hrun]
      have e : ∀ i' j', i' < n → j' < m → run (ext (A : EMat n m)) N i' j' = ext (runA hsub (fun N => a N * lr) A N : EMat n m) i' j' := fun i' j' hi hj => by
        rw [ih ⟨i', hi⟩ ⟨j', hj⟩]; exact (ext_in _ ⟨i', hi⟩ ⟨j', hj⟩).symm
      dsimp only
      rw [e i j i.2 j.2, grd_lin (S := ext (runA hsub (fun N => a N * lr) A N : EMat n m)) (fun uw _ => lin_congr (fun i' hi => e i' j hi j.2)), mul_assoc]
      exact step_fin (us N) (a N * lr) _ i j
  have hYper : ∀ N i j, i < n → j < m → run (ext (A : EMat n m)) (N + K) i j = run (ext (A : EMat n m)) N i j := fun N => by
    induction N with
    | zero =>
      intro i j hi hj
      rw [Nat.zero_add, hY K ⟨i, hi⟩ ⟨j, hj⟩, hA]
      exact (hY 0 ⟨i, hi⟩ ⟨j, hj⟩).symm
    | succ N ih =>
      intro i j hi hj
      rw [Nat.succ_add, hrun, hrun]
      dsimp only
      rw [hus, hac, ih i j hi hj, grd_lin (fun uw _ => lin_congr (fun i' hi' => ih i' j hi' hj))]
  obtain ⟨p, hp, hc⟩ := forget (n := n) hm data us hsub lr hlr a α hα ha hL K hwin T (run (ext (A : EMat n m))) hT (hrun _)
  have hQ : ∀ N i j, i < n → j < m → run (fun i j => ext (A : EMat n m) i j + p i j) N i j = run (ext (A : EMat n m)) N i j + p i j := fun N => by
    induction N with
    | zero => exact fun i j _ _ => rfl
    | succ N ih =>
      intro i j hi hj
      rw [hrun, hrun]
      dsimp only
      rw [ih i j hi hj, grd_lin (S := run (ext (A : EMat n m)) N) (fun uw hu => by
        rw [lin_congr (S := fun i j => run (ext (A : EMat n m)) N i j + p i j) (fun i' hi' => ih i' j hi' hj), lin_add, hp uw (hsub N uw hu) j hj, add_zero])]
      ring
  refine ⟨run (fun i j => ext (A : EMat n m) i j + p i j), hrun _, fun N i j hi hj => by rw [hQ _ i j hi hj, hQ _ i j hi hj, hYper N i j hi hj], fun i j hi hj => ?_⟩
  have := (hc i j hi hj).sub_const (p i j)
  rw [sub_self] at this
  refine this.congr (fun N => ?_)
  rw [hQ N i j hi hj]
  ring

end Trixy.FitMath
