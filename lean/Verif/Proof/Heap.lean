import Verif.Spec.Heap
import Verif.Proof.Base
/- Helper lemmas about the free store and the element loops. -/
namespace Trixy

variable {α : Type _}

theorem Heap.cellAt_live {h : Heap α} {b o : Nat} {c} (e : h.cellAt b o = some c) : h.live b := by
  unfold Heap.cellAt at e
  unfold Heap.live
  cases hb : h.blocks b <;> simp [hb] at e ⊢

theorem Heap.cell_of {h : Heap α} {b o i : Nat} {c} (e : h.cellAt b (o + i) = some c) :
    h.cell (.at b o) i = .ok c := by
  unfold Heap.cellAt at e
  unfold Heap.cell
  cases hb : h.blocks b with
  | none => simp [hb] at e
  | some buf => simp [hb] at e; simp [hb, e]

theorem Heap.load_of {h : Heap α} {b o i : Nat} {a : α} (e : h.cellAt b (o + i) = some (some a)) :
    h.load (.at b o) i = .ok a := by
  unfold Heap.load
  rw [Heap.cell_of e]; rfl

/-- Abstract description of a heap. -/
def HIs (h : Heap α) (next : Nat) (live : Nat → Prop) (g : Nat → Nat → Option (Option α)) : Prop :=
  h.next = next ∧ (∀ b, h.live b ↔ live b) ∧ ∀ b o, h.cellAt b o = g b o

theorem HIs.refl (h : Heap α) : HIs h h.next h.live h.cellAt := ⟨rfl, fun _ => Iff.rfl, fun _ _ => rfl⟩

theorem Heap.put_spec {h : Heap α} {b o i : Nat} {c₀ : Option α} (c : Option α)
    (e : h.cellAt b (o + i) = some c₀) :
    Ok (h.put (.at b o) i c) (fun h' =>
      HIs h' h.next h.live (fun b' o' => if b' = b ∧ o' = o + i then some c else h.cellAt b' o')) := by
  unfold Heap.cellAt at e
  unfold Heap.put
  cases hb : h.blocks b with
  | none => simp [hb] at e
  | some buf =>
    simp [hb] at e
    have hlt : o + i < buf.length := by
      refine Nat.lt_of_not_le (fun hn => ?_)
      rw [List.getElem?_eq_none (by omega)] at e; cases e
    simp only [hb, hlt, if_true, Ok_ok]
    refine ⟨rfl, fun b' => ?_, fun b' o' => ?_⟩
    · unfold Heap.live
      by_cases hbb : b' = b <;> simp [hbb, hb]
    · unfold Heap.cellAt
      by_cases hbb : b' = b
      · subst hbb
        simp only [hb, if_true, Option.bind_some, true_and]
        rw [List.getElem?_set]
        by_cases ho : o' = o + i
        · subst ho; simp [hlt]
        · have ho' : ¬ o + i = o' := fun e => ho e.symm
          simp [ho, ho']
      · simp [hbb]

/-- General element loop: read a cell value with `rd`, put it to `dst[i]`. -/
def ewLoop (rd : Heap α → Nat → Res (Option α)) (h : Heap α) (dst : Ptr) (n : Nat) : Res (Heap α) :=
  forN n h (fun i h => do
    let c ← rd h i
    h.put dst i c)

/-- Heap `h` after the first `i` cells from `(pb,po)` were replaced by `new`. -/
def overlay (h : Heap α) (pb po i : Nat) (new : Nat → Option α) : Nat → Nat → Option (Option α) :=
  fun b o => if b = pb ∧ po ≤ o ∧ o < po + i then some (new (o - po)) else h.cellAt b o

theorem ewLoop_spec {rd : Heap α → Nat → Res (Option α)} {h : Heap α} {pb po n : Nat}
    {new : Nat → Option α}
    (hd : ∀ i, i < n → (h.cellAt pb (po + i)).isSome = true)
    (hr : ∀ i, i < n → ∀ h', HIs h' h.next h.live (overlay h pb po i new) → rd h' i = .ok (new i)) :
    Ok (ewLoop rd h (.at pb po) n) (fun h' => HIs h' h.next h.live (overlay h pb po n new)) := by
  unfold ewLoop
  refine forN_spec (fun i h' => HIs h' h.next h.live (overlay h pb po i new)) ?_ ?_
  · refine ⟨rfl, fun _ => Iff.rfl, fun b o => ?_⟩
    unfold overlay
    rw [if_neg (by omega)]
  · intro i hi h' hh
    rw [hr i hi h' hh, bind_ok]
    have hc : ∃ c, h'.cellAt pb (po + i) = some c := by
      rw [hh.2.2, overlay, if_neg (by omega)]
      exact Option.isSome_iff_exists.1 (hd i hi)
    obtain ⟨c, hc⟩ := hc
    refine (Heap.put_spec (new i) hc).mono (fun h'' h2 => ?_)
    refine ⟨h2.1.trans hh.1, fun b => (h2.2.1 b).trans (hh.2.1 b), fun b o => ?_⟩
    rw [h2.2.2]
    show (if b = pb ∧ o = po + i then some (new i) else h'.cellAt b o) = _
    rw [hh.2.2]
    unfold overlay
    by_cases h1 : b = pb ∧ o = po + i
    · rw [if_pos h1, if_pos (by omega)]
      congr 2; omega
    · rw [if_neg h1]
      by_cases h3 : b = pb ∧ po ≤ o ∧ o < po + i
      · rw [if_pos h3, if_pos (by omega)]
      · rw [if_neg h3, if_neg (by omega)]

theorem ewLoop_null {rd : Heap α → Nat → Res (Option α)} {h : Heap α} {n : Nat} (hn : 0 < n)
    {c} (h0 : rd h 0 = .ok c) : ewLoop rd h .null n = .error .nullDeref := by
  unfold ewLoop
  exact forN_err (k := 0) (fun i s => s = h) hn rfl (by omega) (by rintro s rfl; rw [h0]; rfl)

theorem copyLoop_eq (h : Heap α) (dst : Ptr) (n : Nat) (src : Ptr) :
    copyLoop h dst n src = ewLoop (fun h i => h.cell src i) h dst n := rfl

theorem fillLoop_eq (h : Heap α) (dst : Ptr) (n : Nat) (v : α) :
    fillLoop h dst n v = ewLoop (fun _ _ => .ok (some v)) h dst n := rfl

theorem copyList_eq (h : Heap α) (dst : Ptr) (n : Nat) (l : List α) :
    copyList h dst n l =
      ewLoop (fun _ i => match l[i]? with | none => .error .oob | some a => .ok (some a)) h dst n := by
  unfold copyList ewLoop
  apply forN_congr
  intro i _ h
  show _ = (match l[i]? with | none => (Except.error UB.oob : Res (Option α)) | some a => .ok (some a)) >>= fun c => h.put dst i c
  cases l[i]? <;> rfl

theorem bind_assoc_res {β γ δ : Type _} (r : Res β) (k : β → Res γ) (l : γ → Res δ) :
    (r >>= k) >>= l = r >>= fun x => k x >>= l := by
  cases r <;> rfl

theorem assignConst_eq (op : α → α → α) (h : Heap α) (dst : Ptr) (n : Nat) (v : α) :
    assignConst op h dst n v =
      ewLoop (fun h i => do let x ← h.load dst i; return some (op x v)) h dst n := by
  unfold assignConst ewLoop
  apply forN_congr; intro i _ h
  simp only [bind_assoc_res, pure_eq_ok, bind_ok]; rfl

theorem assignPtr_eq (op : α → α → α) (h : Heap α) (dst : Ptr) (n : Nat) (src : Ptr) :
    assignPtr op h dst n src =
      ewLoop (fun h i => do let x ← h.load dst i; let y ← h.load src i; return some (op x y)) h dst n := by
  unfold assignPtr ewLoop
  apply forN_congr; intro i _ h
  simp only [bind_assoc_res, pure_eq_ok, bind_ok]; rfl

theorem assignValPtr_eq (op : α → α → α) (h : Heap α) (dst : Ptr) (n : Nat) (v : α) (rhs : Ptr) :
    assignValPtr op h dst n v rhs =
      ewLoop (fun h i => do let y ← h.load rhs i; return some (op v y)) h dst n := by
  unfold assignValPtr ewLoop
  apply forN_congr; intro i _ h
  simp only [bind_assoc_res, pure_eq_ok, bind_ok]; rfl

theorem assignPtrPtr_eq (op : α → α → α) (h : Heap α) (dst : Ptr) (n : Nat) (lhs rhs : Ptr) :
    assignPtrPtr op h dst n lhs rhs =
      ewLoop (fun h i => do let x ← h.load lhs i; let y ← h.load rhs i; return some (op x y)) h dst n := by
  unfold assignPtrPtr ewLoop
  apply forN_congr; intro i _ h
  simp only [bind_assoc_res, pure_eq_ok, bind_ok]; rfl

theorem applyLoop_eq (f : α → α) (h : Heap α) (dst : Ptr) (n : Nat) :
    applyLoop f h dst n = ewLoop (fun h i => do let x ← h.load dst i; return some (f x)) h dst n := by
  unfold applyLoop ewLoop
  apply forN_congr; intro i _ h
  simp only [bind_assoc_res, pure_eq_ok, bind_ok]; rfl

theorem applyPtr_eq (f : α → α) (h : Heap α) (dst : Ptr) (n : Nat) (src : Ptr) :
    applyPtr f h dst n src = ewLoop (fun h i => do let x ← h.load src i; return some (f x)) h dst n := by
  unfold applyPtr ewLoop
  apply forN_congr; intro i _ h
  simp only [bind_assoc_res, pure_eq_ok, bind_ok]; rfl

/-- Reading cell `i` of the source in the partially overwritten heap yields the original cell. -/
theorem overlay_src {h h' : Heap α} {pb po qb qo i n : Nat} {new : Nat → Option α}
    (hn : NoClobber (.at pb po) (.at qb qo) n) (hi : i < n)
    (hh : HIs h' h.next h.live (overlay h pb po i new)) :
    h'.cellAt qb (qo + i) = h.cellAt qb (qo + i) := by
  rw [hh.2.2, overlay, if_neg]
  rintro ⟨rfl, h1, h2⟩
  have := hn _ _ _ _ rfl rfl rfl
  omega

theorem NoClobber.refl (p : Ptr) (n : Nat) : NoClobber p p n := by
  intro pb po qb qo h1 h2 _
  rw [h1] at h2; cases h2; omega

/-- Consequence of `overlay` in terms of `SameExcept` and `Holds`. -/
theorem HIs.sameExcept {h h' : Heap α} {pb po n : Nat} {new : Nat → Option α}
    (hh : HIs h' h.next h.live (overlay h pb po n new)) : h.SameExcept h' (.at pb po) n := by
  refine ⟨hh.1, hh.2.1, fun b o hb => ?_⟩
  rw [hh.2.2, overlay, if_neg (hb pb po rfl)]

theorem HIs.holds {h h' : Heap α} {pb po n : Nat} {new : Nat → α}
    (hh : HIs h' h.next h.live (overlay h pb po n (fun i => some (new i)))) :
    h'.Holds (.at pb po) n new := by
  refine Or.inr ⟨pb, po, rfl, fun i hi => ?_⟩
  rw [hh.2.2, overlay, if_pos (by omega)]
  simp

theorem Heap.SameExcept.refl (h : Heap α) (p : Ptr) (n : Nat) : h.SameExcept h p n :=
  ⟨rfl, fun _ => Iff.rfl, fun _ _ _ => rfl⟩

theorem ewLoop_zero (rd : Heap α → Nat → Res (Option α)) (h : Heap α) (dst : Ptr) :
    ewLoop rd h dst 0 = .ok h := rfl

/-- Element-wise loop theorem used for all in-place members. -/
theorem ewLoop_total {rd : Heap α → Nat → Res (Option α)} {h : Heap α} {p : Ptr} {n : Nat}
    {new : Nat → α} (hp : h.Room p n)
    (hr : ∀ pb po, p = .at pb po → ∀ i, i < n → ∀ h',
      HIs h' h.next h.live (overlay h pb po i (fun i => some (new i))) → rd h' i = .ok (some (new i))) :
    Ok (ewLoop rd h p n) (fun h' => h'.Holds p n new ∧ h.SameExcept h' p n) := by
  rcases hp with rfl | ⟨b, o, rfl, hc⟩
  · rw [ewLoop_zero, Ok_ok]; exact ⟨Or.inl rfl, Heap.SameExcept.refl _ _ _⟩
  · exact (ewLoop_spec hc (hr b o rfl)).mono (fun h' hh => ⟨hh.holds, hh.sameExcept⟩)

theorem Heap.Holds.room {h : Heap α} {p : Ptr} {n : Nat} {f} (hh : h.Holds p n f) : h.Room p n := by
  rcases hh with rfl | ⟨b, o, rfl, hc⟩
  · exact Or.inl rfl
  · exact Or.inr ⟨b, o, rfl, fun i hi => by simp [hc i hi]⟩

/-- Loading source element `i` inside an element loop. -/
theorem load_src {h h' : Heap α} {pb po i n : Nat} {q : Ptr} {new : Nat → Option α} {g : Nat → α}
    (hq : h.Holds q n g) (hn : NoClobber (.at pb po) q n) (hi : i < n)
    (hh : HIs h' h.next h.live (overlay h pb po i new)) : h'.load q i = .ok (g i) := by
  rcases hq with rfl | ⟨qb, qo, rfl, hc⟩
  · omega
  · exact Heap.load_of ((overlay_src hn hi hh).trans (hc i hi))

/-! ### Allocation -/

theorem Heap.new_live (h : Heap α) (n b : Nat) : (h.new n).1.live b ↔ b = h.next ∨ h.live b := by
  unfold Heap.new Heap.live
  by_cases hb : b = h.next <;> simp [hb]

theorem Heap.new_cellAt (h : Heap α) (n b o : Nat) :
    (h.new n).1.cellAt b o = if b = h.next then (if o < n then some none else none) else h.cellAt b o := by
  unfold Heap.new Heap.cellAt
  by_cases hb : b = h.next
  · simp [hb, Buf.alloc, List.getElem?_replicate]
  · simp [hb]

end Trixy
