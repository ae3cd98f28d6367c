import Verif.Spec.Mat
import Verif.Proof.Base
/- Helper lemmas about checked matrices, tensors and element loops. -/
namespace Trixy

variable {α : Type _}

/-- Loop updating element `j` in iteration `j`. -/
theorem forN_vec {n : Nat} {b : Buf α} {f : Nat → Option α} {new : Nat → α} {body : Nat → Buf α → Res (Buf α)}
    (hb : BufIs b n f)
    (h : ∀ j, j < n → ∀ r g, BufIs r n g → g j = f j →
      Ok (body j r) (fun r' => BufIs r' n (fun k => if k = j then some (new j) else g k))) :
    Ok (forN n b body) (fun r => VecIs r n new) := by
  have := forN_spec (n := n) (s := b) (body := body)
    (fun j r => BufIs r n (fun k => if k < j then some (new k) else f k))
    (hb.congr (fun k _ => by simp)) (fun j hj r hr => by
      refine (h j hj r _ hr (by simp)).mono (fun r' hr' => hr'.congr (fun k _ => ?_))
      by_cases h1 : k = j
      · subst h1; simp
      · by_cases h2 : k < j
        · simp [h1, h2, Nat.lt_succ_of_lt h2]
        · have : ¬ k < j + 1 := by omega
          simp [h1, h2, this])
  exact this.mono (fun r hr => BufIs.congr hr (fun k hk => by simp [hk]))

/-! ### Matrices -/

theorem MatB.congr {m : Mat α} {h w : Nat} {f g : Nat → Nat → Option α} (hm : MatB m h w f)
    (e : ∀ i j, i < h → j < w → f i j = g i j) : MatB m h w g :=
  ⟨hm.1, hm.2.1, hm.2.2.1, fun i j hi hj => by rw [hm.2.2.2 i j hi hj, e i j hi hj]⟩

theorem MatIs.congr {m : Mat α} {h w : Nat} {f g : Nat → Nat → α} (hm : MatIs m h w f)
    (e : ∀ i j, i < h → j < w → f i j = g i j) : MatIs m h w g :=
  MatB.congr hm (fun i j hi hj => by rw [e i j hi hj])

theorem MatB.get {m : Mat α} {h w : Nat} {f : Nat → Nat → Option α} (hm : MatB m h w f) {i j : Nat}
    (hi : i < h) (hj : j < w) {a : α} (ha : f i j = some a) : m.get i j = .ok a := by
  unfold Mat.get Buf.get; rw [hm.2.1, hm.2.2.2 i j hi hj, ha]

theorem MatIs.get {m : Mat α} {h w : Nat} {f : Nat → Nat → α} (hm : MatIs m h w f) {i j : Nat}
    (hi : i < h) (hj : j < w) : m.get i j = .ok (f i j) := MatB.get hm hi hj rfl

theorem MatB.set {m : Mat α} {h w : Nat} {f : Nat → Nat → Option α} (hm : MatB m h w f) {i j : Nat}
    (hi : i < h) (hj : j < w) (a : α) :
    Ok (m.set i j a) (fun m' => MatB m' h w (fun i' j' => if i' = i ∧ j' = j then some a else f i' j')) := by
  unfold Mat.set Buf.set
  rw [hm.2.1, if_pos (by rw [hm.2.2.1]; exact idx2_lt hi hj)]
  refine Ok_ok.2 ⟨hm.1, rfl, by simp [hm.2.2.1], fun i' j' hi' hj' => ?_⟩
  show (List.set m.data (i * w + j) (some a))[i' * w + j']? = _
  rw [List.getElem?_set]
  by_cases e : i * w + j = i' * w + j'
  · obtain ⟨rfl, rfl⟩ := (idx2_inj hj hj').1 e
    simp [hm.2.2.1, idx2_lt hi hj]
  · have : ¬ (i' = i ∧ j' = j) := fun ⟨e1, e2⟩ => e (by rw [e1, e2])
    dsimp only; rw [if_neg e, if_neg this, hm.2.2.2 i' j' hi' hj']

theorem MatIs.set {m : Mat α} {h w : Nat} {f : Nat → Nat → α} (hm : MatIs m h w f) {i j : Nat}
    (hi : i < h) (hj : j < w) (a : α) :
    Ok (m.set i j a) (fun m' => MatIs m' h w (fun i' j' => if i' = i ∧ j' = j then a else f i' j')) :=
  (MatB.set hm hi hj a).mono (fun m' h' => h'.congr (fun i' j' _ _ => by
    by_cases h : i' = i ∧ j' = j <;> simp [h]))

theorem MatB_alloc (h w : Nat) : MatB (Mat.alloc h w : Mat α) h w (fun _ _ => none) := by
  refine ⟨rfl, rfl, by simp [Mat.alloc, Buf.alloc], fun i j hi hj => ?_⟩
  have := idx2_lt hi hj
  simp [Mat.alloc, Buf.alloc, this]

theorem MatIs_fill (h w : Nat) (v : α) : MatIs (Mat.fill h w v) h w (fun _ _ => v) := by
  refine ⟨rfl, rfl, by simp [Mat.fill], fun i j hi hj => ?_⟩
  have := idx2_lt hi hj
  simp [Mat.fill, this]

theorem MatIs.unique {m : Mat α} {h w h' w' : Nat} {f g : Nat → Nat → α} (hm : MatIs m h w f)
    (hm' : MatIs m h' w' g) : h = h' ∧ w = w' ∧ ∀ i j, i < h → j < w → f i j = g i j := by
  have e1 : h = h' := hm.1.symm.trans hm'.1
  have e2 : w = w' := hm.2.1.symm.trans hm'.2.1
  subst e1 e2
  exact ⟨rfl, rfl, fun i j hi hj => by simpa using (hm.2.2.2 i j hi hj).symm.trans (hm'.2.2.2 i j hi hj)⟩

/-- Loop over the columns `lo … hi-1` of row `i`, updating cell (i,j) in iteration `j`. -/
theorem forLoop_row {h w i lo hi : Nat} {m : Mat α} {f : Nat → Nat → Option α} {new : Nat → α}
    {body : Nat → Mat α → Res (Mat α)} (hm : MatB m h w f) (hlo : lo ≤ hi)
    (hb : ∀ j, lo ≤ j → j < hi → ∀ r g, MatB r h w g → (∀ i' j', (i' ≠ i ∨ j ≤ j' ∨ j' < lo) → g i' j' = f i' j') →
      Ok (body j r) (fun r' => MatB r' h w (fun i' j' => if i' = i ∧ j' = j then some (new j) else g i' j'))) :
    Ok (forLoop lo hi m body) (fun r => MatB r h w
      (fun i' j' => if i' = i ∧ lo ≤ j' ∧ j' < hi then some (new j') else f i' j')) := by
  refine forLoop_spec (fun j r => MatB r h w
      (fun i' j' => if i' = i ∧ lo ≤ j' ∧ j' < j then some (new j') else f i' j')) hlo
      (hm.congr (fun i' j' _ _ => by rw [if_neg (by omega)])) (fun j hj1 hj2 r hr => ?_)
  refine (hb j hj1 hj2 r _ hr (fun i' j' hh => by rw [if_neg (by omega)])).mono
    (fun r' hr' => hr'.congr (fun i' j' _ _ => ?_))
  by_cases h1 : i' = i ∧ j' = j
  · rw [if_pos h1, if_pos (by omega), h1.2]
  · rw [if_neg h1]
    by_cases h2 : i' = i ∧ lo ≤ j' ∧ j' < j
    · rw [if_pos h2, if_pos (by omega)]
    · rw [if_neg h2, if_neg (by omega)]

/-- Double loop updating cell (i,j) in iteration (i,j). -/
theorem forN_mat {h w : Nat} {m : Mat α} {f : Nat → Nat → Option α} {new : Nat → Nat → α}
    {body : Nat → Nat → Mat α → Res (Mat α)} (hm : MatB m h w f)
    (hb : ∀ i j, i < h → j < w → ∀ r g, MatB r h w g → g i j = f i j →
      Ok (body i j r) (fun r' => MatB r' h w (fun i' j' => if i' = i ∧ j' = j then some (new i j) else g i' j'))) :
    Ok (forN h m (fun i r => forN w r (fun j r => body i j r))) (fun r => MatIs r h w new) := by
  have := forN_spec (n := h) (s := m) (body := fun i r => forN w r (fun j r => body i j r))
    (fun i r => MatB r h w (fun i' j' => if i' < i then some (new i' j') else f i' j'))
    (hm.congr (fun _ _ _ _ => by simp)) (fun i hi r hr => by
      have := forLoop_row (i := i) (lo := 0) (hi := w) (new := fun j => new i j)
        (body := fun j r => body i j r) hr (Nat.zero_le _) (fun j _ hj r g hg hh => by
          refine hb i j hi hj r g hg ?_
          rw [hh i j (Or.inr (Or.inl (Nat.le_refl _)))]; simp)
      unfold forLoop at this
      simp only [Nat.sub_zero, Nat.zero_add] at this
      refine this.mono (fun r' hr' => hr'.congr (fun i' j' _ hj' => ?_))
      by_cases h1 : i' = i
      · subst h1; simp [hj']
      · by_cases h2 : i' < i
        · simp [h1, h2, Nat.lt_succ_of_lt h2]
        · have : ¬ i' < i + 1 := by omega
          simp [h1, h2, this])
  exact this.mono (fun r hr => MatB.congr hr (fun i j hi hj => by simp [hi]))

/-! ### Tensors -/

theorem TenB.congr {m : Ten α} {d h w : Nat} {f g : Nat → Nat → Nat → Option α} (hm : TenB m d h w f)
    (e : ∀ i j k, i < d → j < h → k < w → f i j k = g i j k) : TenB m d h w g :=
  ⟨hm.1, hm.2.1, hm.2.2.1, hm.2.2.2.1, fun i j k hi hj hk => by
    rw [hm.2.2.2.2 i j k hi hj hk, e i j k hi hj hk]⟩

theorem TenIs.congr {m : Ten α} {d h w : Nat} {f g : Nat → Nat → Nat → α} (hm : TenIs m d h w f)
    (e : ∀ i j k, i < d → j < h → k < w → f i j k = g i j k) : TenIs m d h w g :=
  TenB.congr hm (fun i j k hi hj hk => by rw [e i j k hi hj hk])

theorem TenB.get {m : Ten α} {d h w : Nat} {f : Nat → Nat → Nat → Option α} (hm : TenB m d h w f) {i j k : Nat}
    (hi : i < d) (hj : j < h) (hk : k < w) {a : α} (ha : f i j k = some a) : m.get i j k = .ok a := by
  unfold Ten.get Buf.get; rw [hm.2.1, hm.2.2.1, hm.2.2.2.2 i j k hi hj hk, ha]

theorem TenIs.get {m : Ten α} {d h w : Nat} {f : Nat → Nat → Nat → α} (hm : TenIs m d h w f) {i j k : Nat}
    (hi : i < d) (hj : j < h) (hk : k < w) : m.get i j k = .ok (f i j k) := TenB.get hm hi hj hk rfl

theorem TenB.set {m : Ten α} {d h w : Nat} {f : Nat → Nat → Nat → Option α} (hm : TenB m d h w f) {i j k : Nat}
    (hi : i < d) (hj : j < h) (hk : k < w) (a : α) :
    Ok (m.set i j k a) (fun m' => TenB m' d h w
      (fun i' j' k' => if i' = i ∧ j' = j ∧ k' = k then some a else f i' j' k')) := by
  unfold Ten.set Buf.set
  rw [hm.2.1, hm.2.2.1, if_pos (by rw [hm.2.2.2.1]; exact idx3_lt hi hj hk)]
  refine Ok_ok.2 ⟨hm.1, rfl, rfl, by simp [hm.2.2.2.1], fun i' j' k' hi' hj' hk' => ?_⟩
  show (List.set m.data ((i * h + j) * w + k) (some a))[(i' * h + j') * w + k']? = _
  rw [List.getElem?_set]
  by_cases e : (i * h + j) * w + k = (i' * h + j') * w + k'
  · obtain ⟨rfl, rfl, rfl⟩ := (idx3_inj hj hk hj' hk').1 e
    simp [hm.2.2.2.1, idx3_lt hi hj hk]
  · have : ¬ (i' = i ∧ j' = j ∧ k' = k) := fun ⟨e1, e2, e3⟩ => e (by rw [e1, e2, e3])
    dsimp only; rw [if_neg e, if_neg this, hm.2.2.2.2 i' j' k' hi' hj' hk']

theorem TenIs.set {m : Ten α} {d h w : Nat} {f : Nat → Nat → Nat → α} (hm : TenIs m d h w f) {i j k : Nat}
    (hi : i < d) (hj : j < h) (hk : k < w) (a : α) :
    Ok (m.set i j k a) (fun m' => TenIs m' d h w
      (fun i' j' k' => if i' = i ∧ j' = j ∧ k' = k then a else f i' j' k')) :=
  (TenB.set hm hi hj hk a).mono (fun m' h' => h'.congr (fun i' j' k' _ _ _ => by
    by_cases h : i' = i ∧ j' = j ∧ k' = k <;> simp [h]))

theorem TenB_alloc (d h w : Nat) : TenB (Ten.alloc d h w : Ten α) d h w (fun _ _ _ => none) := by
  refine ⟨rfl, rfl, rfl, by simp [Ten.alloc, Buf.alloc], fun i j k hi hj hk => ?_⟩
  have := idx3_lt hi hj hk
  simp [Ten.alloc, Buf.alloc, this]

theorem TenIs_fill (d h w : Nat) (v : α) : TenIs (Ten.fill d h w v) d h w (fun _ _ _ => v) := by
  refine ⟨rfl, rfl, rfl, by simp [Ten.fill], fun i j k hi hj hk => ?_⟩
  have := idx3_lt hi hj hk
  simp [Ten.fill, this]

theorem TenIs.unique {m : Ten α} {d h w d' h' w' : Nat} {f g : Nat → Nat → Nat → α} (hm : TenIs m d h w f)
    (hm' : TenIs m d' h' w' g) : d = d' ∧ h = h' ∧ w = w' ∧
      ∀ i j k, i < d → j < h → k < w → f i j k = g i j k := by
  have e0 : d = d' := hm.1.symm.trans hm'.1
  have e1 : h = h' := hm.2.1.symm.trans hm'.2.1
  have e2 : w = w' := hm.2.2.1.symm.trans hm'.2.2.1
  subst e0 e1 e2
  exact ⟨rfl, rfl, rfl, fun i j k hi hj hk => by
    simpa using (hm.2.2.2.2 i j k hi hj hk).symm.trans (hm'.2.2.2.2 i j k hi hj hk)⟩

end Trixy
