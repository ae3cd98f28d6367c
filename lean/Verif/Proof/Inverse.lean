import Verif.Proof.Linear
import Verif.Proof.Sum
import Mathlib.Algebra.BigOperators.Ring.Finset
import Mathlib.Algebra.Order.Group.Abs
import Mathlib.Tactic.Ring
import Mathlib.Tactic.Linarith
import Mathlib.Tactic.FieldSimp
/- Gauss-Jordan elimination (Linear.hpp:153-210): invariant proof. -/
namespace Trixy
open Finset

variable {K : Type _} [Field K] [LinearOrder K] [IsStrictOrderedRing K]

/-- Kronecker delta. -/
def kron {K : Type _} [Zero K] [One K] (i j : Nat) : K := if i = j then 1 else 0

theorem invInit_spec {N : Nat} {R : Mat K} {g : Nat → Nat → Option K} (hR : MatB R N N g) :
    Ok (invInit N R) (fun R' => MatIs R' N N kron) := by
  unfold invInit
  exact forN_mat hR (fun i j hi hj R' g' hg' _ => hg'.set hi hj _)

theorem invPivot_spec {N k : Nat} {M : Mat K} {f : Nat → Nat → K} (hM : MatIs M N N f) (hk : k < N) :
    Ok (invPivot N k M) (fun p => k ≤ p ∧ p < N ∧ ∀ i, k ≤ i → i < N → |f i k| ≤ |f p k|) := by
  unfold invPivot
  refine (forLoop_spec (fun i p => k ≤ p ∧ p < i ∧ ∀ i', k ≤ i' → i' < i → |f i' k| ≤ |f p k|) (by omega) ?_ ?_).mono ?_
  · refine ⟨le_refl _, Nat.lt_succ_self k, fun i' h1 h2 => ?_⟩
    have : i' = k := by omega
    subst this; exact le_refl _
  · rintro i h1 h2 p ⟨p1, p2, p3⟩
    rw [hM.get (show p < N by omega) hk, bind_ok, hM.get h2 hk, bind_ok]
    refine Ok_ok.2 ?_
    by_cases hc : |f p k| < |f i k|
    · rw [if_pos hc]
      refine ⟨by omega, by omega, fun i' h3 h4 => ?_⟩
      by_cases e : i' = i
      · subst e; exact le_refl _
      · exact le_of_lt (lt_of_le_of_lt (p3 i' h3 (by omega)) hc)
    · rw [if_neg hc]
      refine ⟨by omega, by omega, fun i' h3 h4 => ?_⟩
      by_cases e : i' = i
      · subst e; exact not_lt.1 hc
      · exact p3 i' h3 (by omega)
  · rintro p ⟨p1, p2, p3⟩
    exact ⟨p1, p2, p3⟩

theorem rowSwap_spec {N k p lo : Nat} {M : Mat K} {f : Nat → Nat → K} (hM : MatIs M N N f)
    (hk : k < N) (hp : p < N) (hkp : k ≠ p) (hlo : lo ≤ N) :
    Ok (rowSwap N k p lo M) (fun M' => MatIs M' N N (fun i j => if lo ≤ j then
      (if i = k then f p j else if i = p then f k j else f i j) else f i j)) := by
  unfold rowSwap
  refine (forLoop_spec (fun j' M' => MatIs M' N N (fun i j => if lo ≤ j ∧ j < j' then
      (if i = k then f p j else if i = p then f k j else f i j) else f i j)) hlo
      (hM.congr (fun i j _ _ => by rw [if_neg (by omega)])) ?_).mono
      (fun M' h' => h'.congr (fun i j _ hj => by simp [hj]))
  intro j h1 h2 M' h'
  rw [h'.get hk h2, bind_ok, h'.get hp h2, bind_ok]
  refine (h'.set hk h2 _).bind (fun M1 hm1 => (hm1.set hp h2 _).mono (fun M2 hm2 => hm2.congr (fun i' j' _ _ => ?_)))
  simp only [lt_irrefl, and_false, if_false]
  by_cases e : j' = j
  · subst e
    by_cases e1 : i' = p
    · subst e1; simp [h1, hkp.symm]
    · by_cases e2 : i' = k
      · subst e2; simp [e1, h1]
      · simp [e1, e2]
  · have : (lo ≤ j' ∧ j' < j + 1) ↔ (lo ≤ j' ∧ j' < j) := by omega
    simp only [this]
    simp [e]

theorem rowScale_spec {N k lo : Nat} {c : K} {M : Mat K} {f : Nat → Nat → K} (hM : MatIs M N N f)
    (hk : k < N) (hlo : lo ≤ N) :
    Ok (rowScale N k lo c M) (fun M' => MatIs M' N N (fun i j => if lo ≤ j ∧ i = k then f k j * c else f i j)) := by
  unfold rowScale
  have := forLoop_row (i := k) (lo := lo) (hi := N) (new := fun j => f k j * c) (body := fun j M => do
    let x ← M.get k j
    M.set k j (x * c)) hM hlo (fun j h1 h2 M' g hg hh => by
      rw [hg.get hk h2 (hh k j (Or.inr (Or.inl (le_refl _)))), bind_ok]
      exact hg.set hk h2 _)
  refine this.mono (fun M' h' => MatB.congr h' (fun i j _ hj => ?_))
  by_cases e : i = k <;> by_cases e2 : lo ≤ j <;> simp [e, e2, hj]

theorem rowElim_spec {N i k lo : Nat} {c : K} {M : Mat K} {f : Nat → Nat → K} (hM : MatIs M N N f)
    (hi : i < N) (hk : k < N) (hik : i ≠ k) (hlo : lo ≤ N) :
    Ok (rowElim N i k lo c M) (fun M' => MatIs M' N N
      (fun i' j => if lo ≤ j ∧ i' = i then f i j - f k j * c else f i' j)) := by
  unfold rowElim
  have := forLoop_row (i := i) (lo := lo) (hi := N) (new := fun j => f i j - f k j * c) (body := fun j M => do
    let x ← M.get i j
    let y ← M.get k j
    M.set i j (x - y * c)) hM hlo (fun j h1 h2 M' g hg hh => by
      rw [hg.get hi h2 (hh i j (Or.inr (Or.inl (le_refl _)))), bind_ok,
        hg.get hk h2 (hh k j (Or.inl (Ne.symm hik))), bind_ok]
      exact hg.set hi h2 _)
  refine this.mono (fun M' h' => MatB.congr h' (fun i' j _ hj => ?_))
  by_cases e : i' = i <;> by_cases e2 : lo ≤ j <;> simp [e, e2, hj]

/-- Row `i` of `m` times the vector `v`. -/
def rdot (N : Nat) (m : Nat → Nat → K) (i : Nat) (v : Nat → K) : K := ∑ j ∈ range N, m i j * v j

/-- Invariant of Gauss-Jordan: `r·A = m`, the first `k` columns of `m` are those of the identity, and the
kernel of `m` is contained in the kernel of `A`. -/
structure GInv (N : Nat) (A : Nat → Nat → K) (k : Nat) (r m : Nat → Nat → K) : Prop where
  mul : ∀ i j, i < N → j < N → rdot N r i (fun t => A t j) = m i j
  cols : ∀ i j, i < N → j < N → j < k → m i j = kron i j
  ker : ∀ v, (∀ i, i < N → rdot N m i v = 0) → ∀ i, i < N → rdot N A i v = 0

theorem rdot_congr {N : Nat} {m m' : Nat → Nat → K} {i i' : Nat} {v : Nat → K}
    (h : ∀ j, j < N → m i j = m' i' j) : rdot N m i v = rdot N m' i' v :=
  Finset.sum_congr rfl (fun j hj => by rw [h j (by simpa using hj)])

theorem GInv.congr {N : Nat} {A : Nat → Nat → K} {k : Nat} {r m r' m' : Nat → Nat → K} (h : GInv N A k r m)
    (hr : ∀ i j, i < N → j < N → r i j = r' i j) (hm : ∀ i j, i < N → j < N → m i j = m' i j) :
    GInv N A k r' m' where
  mul i j hi hj := by rw [← hm i j hi hj, ← h.mul i j hi hj]; exact rdot_congr (fun t ht => (hr i t hi ht).symm)
  cols i j hi hj hk := by rw [← hm i j hi hj]; exact h.cols i j hi hj hk
  ker v hv := h.ker v (fun i hi => by rw [← hv i hi]; exact rdot_congr (fun t ht => hm i t hi ht))

theorem GInv.swap {N : Nat} {A : Nat → Nat → K} {k p : Nat} {r m : Nat → Nat → K} (h : GInv N A k r m)
    (hk : k < N) (hp : p < N) (hkp : k ≤ p) :
    GInv N A k (fun i j => if i = k then r p j else if i = p then r k j else r i j)
      (fun i j => if i = k then m p j else if i = p then m k j else m i j) where
  mul i j hi hj := by
    by_cases e : i = k
    · rw [if_pos e, ← h.mul p j hp hj]; exact rdot_congr (fun t _ => by simp [e])
    · rw [if_neg e]
      by_cases e2 : i = p
      · rw [if_pos e2, ← h.mul k j hk hj]; exact rdot_congr (fun t _ => by rw [if_neg e, if_pos e2])
      · rw [if_neg e2, ← h.mul i j hi hj]; exact rdot_congr (fun t _ => by rw [if_neg e, if_neg e2])
  cols i j hi hj hjk := by
    by_cases e : i = k
    · rw [if_pos e, h.cols p j hp hj hjk]
      unfold kron; rw [if_neg (by omega), if_neg (by omega)]
    · rw [if_neg e]
      by_cases e2 : i = p
      · rw [if_pos e2, h.cols k j hk hj hjk]
        unfold kron; rw [if_neg (by omega), if_neg (by omega)]
      · rw [if_neg e2, h.cols i j hi hj hjk]
  ker v hv := by
    refine h.ker v (fun i hi => ?_)
    by_cases e : i = k
    · by_cases e2 : k = p
      · rw [← hv k hk]; exact rdot_congr (fun t _ => by rw [if_pos rfl, e, e2])
      · rw [← hv p hp]; exact rdot_congr (fun t _ => by rw [if_neg (Ne.symm e2), if_pos rfl, e])
    · by_cases e2 : i = p
      · rw [← hv k hk]; exact rdot_congr (fun t _ => by rw [if_pos rfl, e2])
      · rw [← hv i hi]; exact rdot_congr (fun t _ => by rw [if_neg e, if_neg e2])

theorem rdot_scale (N : Nat) (m : Nat → Nat → K) (i k : Nat) (c : K) (v : Nat → K) :
    rdot N (fun _ j => m k j * c) i v = rdot N m k v * c := by
  unfold rdot; rw [Finset.sum_mul]; exact Finset.sum_congr rfl (fun j _ => by ring)

theorem rdot_elim (N : Nat) (m : Nat → Nat → K) (i' i k : Nat) (c : K) (v : Nat → K) :
    rdot N (fun _ j => m i j - m k j * c) i' v = rdot N m i v - rdot N m k v * c := by
  unfold rdot; rw [Finset.sum_mul, ← Finset.sum_sub_distrib]; exact Finset.sum_congr rfl (fun j _ => by ring)

theorem GInv.scale {N : Nat} {A : Nat → Nat → K} {k : Nat} {c : K} {r m : Nat → Nat → K} (h : GInv N A k r m)
    (hk : k < N) (hc : c ≠ 0) :
    GInv N A k (fun i j => if i = k then r k j * c else r i j) (fun i j => if i = k then m k j * c else m i j) where
  mul i j hi hj := by
    by_cases e : i = k
    · rw [if_pos e, ← h.mul k j hk hj, ← rdot_scale N r i k]; exact rdot_congr (fun t _ => by simp [e])
    · rw [if_neg e, ← h.mul i j hi hj]; exact rdot_congr (fun t _ => by simp [e])
  cols i j hi hj hjk := by
    by_cases e : i = k
    · rw [if_pos e, h.cols k j hk hj hjk]
      unfold kron; rw [if_neg (by omega), if_neg (by omega), zero_mul]
    · rw [if_neg e, h.cols i j hi hj hjk]
  ker v hv := by
    refine h.ker v (fun i hi => ?_)
    by_cases e : i = k
    · have := hv k hk
      have e3 : rdot N (fun i j => if i = k then m k j * c else m i j) k v = rdot N m k v * c := by
        rw [← rdot_scale N m k k]; exact rdot_congr (fun t _ => by simp)
      rw [e3] at this
      rw [e]
      exact (mul_eq_zero.1 this).resolve_right hc
    · rw [← hv i hi]; exact rdot_congr (fun t _ => by rw [if_neg e])

theorem GInv.elim {N : Nat} {A : Nat → Nat → K} {k i : Nat} {c : K} {r m : Nat → Nat → K} (h : GInv N A k r m)
    (hk : k < N) (hi : i < N) (hik : i ≠ k) :
    GInv N A k (fun i' j => if i' = i then r i j - r k j * c else r i' j)
      (fun i' j => if i' = i then m i j - m k j * c else m i' j) where
  mul i' j hi' hj := by
    by_cases e : i' = i
    · rw [if_pos e, ← h.mul k j hk hj, ← h.mul i j hi hj, ← rdot_elim N r i' i k]
      exact rdot_congr (fun t _ => by simp [e])
    · rw [if_neg e, ← h.mul i' j hi' hj]; exact rdot_congr (fun t _ => by simp [e])
  cols i' j hi' hj hjk := by
    by_cases e : i' = i
    · rw [if_pos e, h.cols k j hk hj hjk, h.cols i j hi hj hjk]
      have : (kron k j : K) = 0 := by unfold kron; rw [if_neg (by omega)]
      rw [this, zero_mul, sub_zero, e]
    · rw [if_neg e, h.cols i' j hi' hj hjk]
  ker v hv := by
    have hkv : rdot N m k v = 0 := by
      rw [← hv k hk]; exact rdot_congr (fun t _ => by rw [if_neg (Ne.symm hik)])
    refine h.ker v (fun i' hi' => ?_)
    by_cases e : i' = i
    · have := hv i hi
      have e3 : rdot N (fun i' j => if i' = i then m i j - m k j * c else m i' j) i v =
          rdot N m i v - rdot N m k v * c := by
        rw [← rdot_elim N m i i k]; exact rdot_congr (fun t _ => by simp)
      rw [e3, hkv, zero_mul, sub_zero] at this
      rw [e]; exact this
    · rw [← hv i' hi']; exact rdot_congr (fun t _ => by rw [if_neg e])

/-- If the pivot column is zero from the diagonal on, the matrix has a non-trivial kernel. -/
theorem GInv.singular {N : Nat} {A : Nat → Nat → K} {k : Nat} {r m : Nat → Nat → K} (h : GInv N A k r m)
    (hk : k < N) (hz : ∀ i, k ≤ i → i < N → m i k = 0) :
    ∃ v : Nat → K, (∃ i, i < N ∧ v i ≠ 0) ∧ ∀ i, i < N → rdot N A i v = 0 := by
  refine ⟨fun j => if j < k then -(m j k) else if j = k then 1 else 0, ⟨k, hk, by simp⟩, h.ker _ (fun i hi => ?_)⟩
  have : ∀ j ∈ range N, m i j * (if j < k then -(m j k) else if j = k then 1 else 0) =
      (if j = i then (if i < k then -(m i k) else 0) else 0) + (if j = k then m i k else 0) := by
    intro j hj
    have hj : j < N := by simpa using hj
    by_cases h1 : j < k
    · rw [if_pos h1, h.cols i j hi hj h1]
      unfold kron
      by_cases h2 : i = j
      · subst h2; simp [h1, Nat.ne_of_lt h1]
      · have h2' : ¬ j = i := fun e => h2 e.symm
        simp [h2, h2', Nat.ne_of_lt h1]
    · rw [if_neg h1]
      by_cases h2 : j = k
      · subst h2
        by_cases h3 : j = i
        · subst h3; simp
        · simp [h3]
      · rw [if_neg h2, if_neg h2]
        by_cases h3 : j = i
        · subst h3; simp [h1]
        · simp [h3]
  unfold rdot
  rw [Finset.sum_congr rfl this, Finset.sum_add_distrib, Finset.sum_ite_eq', Finset.sum_ite_eq']
  rw [if_pos (mem_range.2 hi), if_pos (mem_range.2 hk)]
  by_cases h1 : i < k
  · simp [h1]
  · simp [h1, hz i (by omega) hi]

/-- One iteration of the main loop: the invariant advances, or the pivot is zero and the matrix singular. -/
theorem invStep_spec {N : Nat} {A : Nat → Nat → K} {k : Nat} {R M : Mat K} {r m : Nat → Nat → K}
    (hR : MatIs R N N r) (hM : MatIs M N N m) (h : GInv N A k r m) (hk : k < N) :
    Ok (invStep N k (R, M)) (fun s => ∃ r' m', MatIs s.1 N N r' ∧ MatIs s.2 N N m' ∧ GInv N A (k + 1) r' m') ∨
    (invStep N k (R, M) = .error .divByZero ∧
      ∃ v : Nat → K, (∃ i, i < N ∧ v i ≠ 0) ∧ ∀ i, i < N → rdot N A i v = 0) := by
  unfold invStep
  obtain ⟨p, hp0, hp1, hp2, hp3⟩ := invPivot_spec hM hk
  dsimp only
  rw [hp0, bind_ok]
  -- after the optional swap
  have hsw : ∃ M1 R1 r1 m1, rowSwapIf N k p k M = .ok M1 ∧
      rowSwapIf N k p 0 R = .ok R1 ∧ MatIs R1 N N r1 ∧ MatIs M1 N N m1 ∧
      GInv N A k r1 m1 ∧ m1 k k = m p k := by
    unfold rowSwapIf
    by_cases e : p = k
    · subst e
      exact ⟨M, R, r, m, by simp, by simp, hR, hM, h, rfl⟩
    · rw [if_pos e, if_pos e]
      obtain ⟨M1, e1, hM1⟩ := rowSwap_spec (lo := k) hM hk hp2 (Ne.symm e) (by omega)
      obtain ⟨R1, e2, hR1⟩ := rowSwap_spec (lo := 0) hR hk hp2 (Ne.symm e) (by omega)
      refine ⟨M1, R1, _, _, e1, e2, hR1, hM1, (h.swap hk hp2 hp1).congr (fun i j hi hj => by simp) (fun i j hi hj => ?_), by simp⟩
      by_cases hkj : k ≤ j
      · simp [hkj]
      · rw [if_neg hkj]
        by_cases e3 : i = k
        · rw [if_pos e3, e3, h.cols p j hp2 hj (by omega), h.cols k j hk hj (by omega)]
          unfold kron; rw [if_neg (by omega), if_neg (by omega)]
        · rw [if_neg e3]
          by_cases e4 : i = p
          · rw [if_pos e4, e4, h.cols p j hp2 hj (by omega), h.cols k j hk hj (by omega)]
            unfold kron; rw [if_neg (by omega), if_neg (by omega)]
          · rw [if_neg e4]
  obtain ⟨M1, R1, r1, m1, e1, e2, hR1, hM1, h1, hpiv⟩ := hsw
  rw [e1, bind_ok, e2, bind_ok, hM1.get hk hk, bind_ok]
  by_cases hz : m1 k k = 0
  · right
    rw [if_pos hz]
    refine ⟨rfl, h.singular hk (fun i h1 h2 => ?_)⟩
    have := hp3 i h1 h2
    rw [← hpiv, hz, abs_zero] at this
    exact abs_eq_zero.1 (le_antisymm this (abs_nonneg _))
  · left
    rw [if_neg hz]
    have hc : 1 / m1 k k ≠ 0 := one_div_ne_zero hz
    refine (rowScale_spec (c := 1 / m1 k k) (lo := k) hM1 hk (by omega)).bind (fun M2 hM2 => ?_)
    refine (rowScale_spec (c := 1 / m1 k k) (lo := 0) hR1 hk (by omega)).bind (fun R2 hR2 => ?_)
    have h2 := h1.scale hk hc
    have hM2' : MatIs M2 N N (fun i j => if i = k then m1 k j * (1 / m1 k k) else m1 i j) := by
      refine hM2.congr (fun i j hi hj => ?_)
      by_cases e : i = k
      · subst e
        by_cases hkj : i ≤ j
        · simp [hkj]
        · have : m1 i j = 0 := by rw [h1.cols i j hi hj (by omega)]; unfold kron; rw [if_neg (by omega)]
          simp [this]
      · simp [e]
    have hR2' : MatIs R2 N N (fun i j => if i = k then r1 k j * (1 / m1 k k) else r1 i j) :=
      hR2.congr (fun i j hi hj => by simp)
    have loop := forN_spec (n := N) (s := (R2, M2)) (body := fun i (s : Mat K × Mat K) => match s with
      | (R, M) => if i = k then (.ok (R, M) : Res (Mat K × Mat K)) else do
        let buff ← M.get i k
        let M ← rowElim N i k k buff M
        let R ← rowElim N i k 0 buff R
        return (R, M))
      (fun i s => ∃ r' m', MatIs s.1 N N r' ∧ MatIs s.2 N N m' ∧ GInv N A k r' m' ∧ m' k k = 1 ∧
        ∀ i', i' < i → i' ≠ k → m' i' k = 0)
      ⟨_, _, hR2', hM2', h2, by simp [hz], fun i' hi' => by omega⟩ (fun i hi s hs => by
        rcases s with ⟨R3, M3⟩
        obtain ⟨r3, m3, hR3, hM3, h3, hkk, hz3⟩ := hs
        dsimp only
        by_cases e : i = k
        · rw [if_pos e]
          refine Ok_ok.2 ⟨r3, m3, hR3, hM3, h3, hkk, fun i' hi' hne => hz3 i' (by omega) hne⟩
        · rw [if_neg e, hM3.get hi hk, bind_ok]
          refine (rowElim_spec (c := m3 i k) (lo := k) hM3 hi hk e (by omega)).bind (fun M4 hM4 => ?_)
          refine (rowElim_spec (c := m3 i k) (lo := 0) hR3 hi hk e (by omega)).bind (fun R4 hR4 => ?_)
          refine Ok_ok.2 ⟨(fun i' j => if i' = i then r3 i j - r3 k j * m3 i k else r3 i' j),
            (fun i' j => if i' = i then m3 i j - m3 k j * m3 i k else m3 i' j),
            hR4.congr (fun i' j _ _ => by simp), hM4.congr (fun i' j hi' hj => ?_),
            h3.elim (c := m3 i k) hk hi e, ?_, ?_⟩
          · by_cases hkj : k ≤ j
            · simp [hkj]
            · have : m3 k j = 0 := by rw [h3.cols k j hk hj (by omega)]; unfold kron; rw [if_neg (by omega)]
              by_cases e5 : i' = i
              · subst e5; simp [hkj, this]
              · simp [hkj, e5]
          · dsimp only; rw [if_neg (Ne.symm e)]; exact hkk
          · intro i' hi' hne
            by_cases e5 : i' = i
            · subst e5; simp [hkk]
            · dsimp only; rw [if_neg e5]; exact hz3 i' (by omega) hne)
    refine loop.mono (fun s ⟨r', m', hr', hm', hinv, hkk, hz'⟩ => ⟨r', m', hr', hm', ?_⟩)
    refine ⟨hinv.mul, fun i j hi hj hjk => ?_, hinv.ker⟩
    by_cases e : j = k
    · subst e
      unfold kron
      by_cases e2 : i = j
      · rw [if_pos e2, e2]; exact hkk
      · rw [if_neg e2]; exact hz' i hi e2
    · exact hinv.cols i j hi hj (by omega)

/-- The whole algorithm: identity on the right and a left inverse, or division by zero and a kernel vector. -/
theorem inverseInto_dichotomy {N : Nat} {R M : Mat K} {g : Nat → Nat → Option K} {A : Nat → Nat → K}
    (hR : MatB R N N g) (hM : MatIs M N N A) :
    Ok (inverseInto R M) (fun s => ∃ r, MatIs s.1 N N r ∧ MatIs s.2 N N kron ∧
      ∀ i j, i < N → j < N → rdot N r i (fun t => A t j) = kron i j) ∨
    (inverseInto R M = .error .divByZero ∧
      ∃ v : Nat → K, (∃ i, i < N ∧ v i ≠ 0) ∧ ∀ i, i < N → rdot N A i v = 0) := by
  unfold inverseInto
  simp only [hM.1]
  obtain ⟨R0, e0, hR0⟩ := invInit_spec hR
  rw [e0, bind_ok]
  have key : ∀ k, k ≤ N →
      Ok (forN k (R0, M) (fun k s => invStep N k s))
        (fun s => ∃ r' m', MatIs s.1 N N r' ∧ MatIs s.2 N N m' ∧ GInv N A k r' m') ∨
      (forN k (R0, M) (fun k s => invStep N k s) = .error .divByZero ∧
        ∃ v : Nat → K, (∃ i, i < N ∧ v i ≠ 0) ∧ ∀ i, i < N → rdot N A i v = 0) := by
    intro k
    induction k with
    | zero =>
      intro _
      refine Or.inl (Ok_ok.2 ⟨_, _, hR0, hM, ⟨fun i j hi hj => ?_, fun i j _ _ h => by omega, fun v hv => hv⟩⟩)
      unfold rdot kron
      simp only [ite_mul, one_mul, zero_mul]
      rw [Finset.sum_ite_eq, if_pos (by simpa using hi)]
    | succ k ih =>
      intro hk
      rcases ih (by omega) with ⟨s, es, r, m, hr, hm, hinv⟩ | ⟨he, hv⟩
      · rw [forN_succ, es, bind_ok]
        exact invStep_spec hr hm hinv (by omega)
      · right
        rw [forN_succ, he]
        exact ⟨rfl, hv⟩
  rcases key N (le_refl _) with h | h
  · left
    refine h.mono (fun s ⟨r, m, hr, hm, hinv⟩ => ⟨r, hr, hm.congr (fun i j hi hj => hinv.cols i j hi hj hj), fun i j hi hj => ?_⟩)
    rw [hinv.mul i j hi hj, hinv.cols i j hi hj hj]
  · exact Or.inr h

end Trixy
