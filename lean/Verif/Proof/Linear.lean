import Verif.Model.Linear
import Verif.Proof.Mat
/- Fold-form correctness of the products of Lique/Linear.hpp (any element arithmetic). -/
namespace Trixy

variable {α : Type _}

/-- Any buffer is described by the function of its cells. -/
theorem BufIs_self (b : Buf α) : BufIs b b.length (fun i => (b[i]?).getD none) :=
  ⟨rfl, fun i hi => by simp [List.getElem?_eq_getElem hi]⟩

theorem zeroFill_spec [Zero α] (r : Buf α) : Ok (zeroFill r) (fun r' => VecIs r' r.length (fun _ => 0)) := by
  unfold zeroFill
  exact forN_vec (BufIs_self r) (fun j hj r' g hr _ => hr.set hj 0)

theorem dotRow_spec [Zero α] [Add α] [Mul α] {result row : Buf α} {m : Mat α} {n h w : Nat}
    {a : Nat → α} {f : Nat → Nat → α} (hr : VecIs row n a) (hm : MatIs m h w f) (hnh : n ≤ h)
    (hres : result.length = w) :
    Ok (dotRow result row m) (fun r => VecIs r w (fun j => foldSum 0 n (fun i => a i * f i j))) := by
  unfold dotRow
  rw [hr.length, hres]
  refine (zeroFill_spec result).bind (fun r0 h0 => ?_)
  rw [hres] at h0
  refine forN_spec (fun i r => VecIs r w (fun j => foldSum 0 i (fun i => a i * f i j))) h0 (fun i hi r hri => ?_)
  rw [hr.get hi, bind_ok]
  refine forN_vec hri (fun j hj r' g hr' hg => ?_)
  rw [hr'.get hj hg, bind_ok, hm.get (by omega) hj, bind_ok]
  exact hr'.set hj _

theorem dotCol_spec [Zero α] [Add α] [Mul α] {result col : Buf α} {m : Mat α} {n h w : Nat}
    {a : Nat → α} {f : Nat → Nat → α} (hc : VecIs col n a) (hm : MatIs m h w f) (hnw : n ≤ w)
    (hres : result.length = h) :
    Ok (dotCol result m col) (fun r => VecIs r h (fun i => foldSum 0 n (fun j => f i j * a j))) := by
  unfold dotCol
  rw [hc.length, hres]
  refine (zeroFill_spec result).bind (fun r0 h0 => ?_)
  rw [hres] at h0
  refine forN_vec h0 (fun i hi r g hr hg => ?_)
  refine (forN_spec (fun j r' => BufIs r' h (fun k => if k = i then some (foldSum 0 j (fun j => f i j * a j)) else g k))
    (hr.congr (fun k _ => ?_)) (fun j hj r' hr' => ?_))
  · by_cases e : k = i
    · subst e; simp [hg]
    · simp [e]
  · rw [hr'.get hi (if_pos rfl), bind_ok, hm.get hi (by omega), bind_ok, hc.get hj, bind_ok]
    refine (hr'.set hi _).mono (fun r'' h'' => h''.congr (fun k _ => ?_))
    by_cases e : k = i <;> simp [e, foldSum_succ]

theorem dotMat_spec [Add α] [Mul α] {R A B : Mat α} {n m p hB : Nat} {r0 a b : Nat → Nat → α}
    (hR : MatIs R n p r0) (hA : MatIs A n m a) (hB' : MatIs B hB p b) (hle : m ≤ hB) :
    Ok (dotMat R A B) (fun R' => MatIs R' n p (fun i j => foldSum (r0 i j) m (fun r => a i r * b r j))) := by
  unfold dotMat
  rw [hA.1, hA.2.1, hB'.2.1]
  have outer := forN_spec (n := n) (s := R) (body := fun i R => forN m R (fun r R => do
      let buff ← A.get i r
      forN p R (fun j R => do
        let x ← R.get i j
        let y ← B.get r j
        R.set i j (x + buff * y))))
    (fun i R' => MatIs R' n p (fun i' j => if i' < i then foldSum (r0 i' j) m (fun r => a i' r * b r j) else r0 i' j))
    (hR.congr (fun _ _ _ _ => by simp)) (fun i hi R1 h1 => ?_)
  · exact outer.mono (fun R' h => h.congr (fun i j hi hj => by simp [hi]))
  · refine (forN_spec (fun r R' => MatIs R' n p (fun i' j => if i' < i then foldSum (r0 i' j) m (fun r => a i' r * b r j)
        else if i' = i then foldSum (r0 i j) r (fun r => a i r * b r j) else r0 i' j))
        (h1.congr (fun i' j _ _ => ?_)) (fun r hr R2 h2 => ?_)).mono (fun R' h' => h'.congr (fun i' j _ _ => ?_))
    · by_cases e : i' < i
      · simp [e]
      · by_cases e2 : i' = i
        · subst e2; simp
        · simp [e, e2]
    · rw [hA.get hi hr, bind_ok]
      have := forLoop_row (i := i) (lo := 0) (hi := p) (new := fun j => foldSum (r0 i j) (r + 1) (fun r => a i r * b r j))
        (body := fun j R => do
          let x ← R.get i j
          let y ← B.get r j
          R.set i j (x + a i r * y)) h2 (Nat.zero_le _) (fun j _ hj R3 g hg hh => by
          rw [hg.get hi hj (by rw [hh i j (Or.inr (Or.inl (Nat.le_refl _)))]), bind_ok, hB'.get (by omega) hj, bind_ok]
          refine (hg.set hi hj _).mono (fun R4 h4 => h4.congr (fun i' j' _ _ => ?_))
          simp [foldSum_succ])
      unfold forLoop at this
      simp only [Nat.sub_zero, Nat.zero_add] at this
      refine this.mono (fun R' h' => MatB.congr h' (fun i' j _ hj => ?_))
      by_cases e : i' = i
      · subst e; simp [hj]
      · simp [e]
    · by_cases e : i' < i
      · simp [e, Nat.lt_succ_of_lt e]
      · by_cases e2 : i' = i
        · subst e2; simp
        · have : ¬ i' < i + 1 := by omega
          simp [e, e2, this]

theorem tensordot_spec [Mul α] {R : Mat α} {col row : Buf α} {n m : Nat} {c r : Nat → α} {g : Nat → Nat → Option α}
    (hR : MatB R n m g) (hc : VecIs col n c) (hr : VecIs row m r) :
    Ok (tensordot R col row) (fun R' => MatIs R' n m (fun i j => c i * r j)) := by
  unfold tensordot
  rw [hc.length, hr.length]
  have := forN_mat (new := fun i j => c i * r j) (body := fun i j R => do
      let cc ← col.get i
      let y ← row.get j
      let d ← R.data.set (i * m + j) (cc * y)
      return { R with data := d }) hR (fun i j hi hj R' g' hg' _ => by
        rw [hc.get hi, bind_ok, hr.get hj, bind_ok]
        have := hg'.set hi hj (c i * r j)
        unfold Mat.set at this
        have e := hg'.2.1
        rw [e] at this
        rw [show R'.w = m from e]
        exact this)
  refine Eq.mp ?_ this
  congr 1
  apply forN_congr
  intro i hi s
  rw [hc.get hi, bind_ok]
  rfl

theorem transpose_spec {R m : Mat α} {h w : Nat} {f : Nat → Nat → α} {g : Nat → Nat → Option α}
    (hR : MatB R w h g) (hm : MatIs m h w f) :
    Ok (transposeInto R m) (fun R' => MatIs R' w h (fun i j => f j i)) := by
  unfold transposeInto
  rw [hR.1, hR.2.1]
  refine forN_mat hR (fun i j hi hj R' g' hg' _ => ?_)
  rw [hm.get hj hi, bind_ok]
  exact hg'.set hi hj _

theorem dotVec_spec [Zero α] [Add α] [Mul α] {x y : Buf α} {n n' : Nat} {a b : Nat → α}
    (hx : VecIs x n a) (hy : VecIs y n' b) (hle : n ≤ n') :
    dotVec x y = .ok (foldSum 0 n (fun i => a i * b i)) := by
  apply Ok.eq
  unfold dotVec
  rw [hx.length]
  refine forN_spec (fun i acc => acc = foldSum 0 i (fun i => a i * b i)) rfl (fun i hi acc hacc => ?_)
  rw [hx.get hi, bind_ok, hy.get (by omega), bind_ok, hacc]
  exact Ok_ok.2 rfl

end Trixy
