import Verif.Spec.TensorMem
import Verif.Proof.Heap
/- The ownership invariant of histories (C02). -/
namespace Trixy

variable {α : Type _}

/-- Ownership invariant: owners point to distinct live allocations that are long enough, and every live
allocation has an owner. -/
structure WInv (H : Heap α) (own : Nat → Option Obj) : Prop where
  fresh : ∀ b, H.live b → b < H.next
  owned : ∀ x o, own x = some o → o.data = .null ∨
    ∃ b, o.data = .at b 0 ∧ H.live b ∧ ∀ i, i < o.shape.size → (H.cellAt b i).isSome = true
  inj : ∀ x y o o' b, own x = some o → own y = some o' → o.data = .at b 0 → o'.data = .at b 0 → x = y
  noleak : ∀ b, H.live b → ∃ x o, own x = some o ∧ o.data = .at b 0
  mat : ∀ x o, own x = some o → o.kind = .mat → o.shape.d ≤ 1 ∧ o.shape.size = wmul o.shape.h o.shape.w

theorem WInv.init : WInv (Heap.empty : Heap α) (fun _ => none) := by
  constructor <;> simp [Heap.empty, Heap.live]

@[simp] theorem upd_self {β : Type _} (m : Nat → Option β) (x : Nat) (o : Option β) : upd m x o x = o := by
  simp [upd]

theorem upd_ne {β : Type _} (m : Nat → Option β) {x y : Nat} (o : Option β) (h : y ≠ x) :
    upd m x o y = m y := by simp [upd, h]

theorem upd_upd {β : Type _} (m : Nat → Option β) (x : Nat) (o o' : Option β) :
    upd (upd m x o) x o' = upd m x o' := by
  funext y; unfold upd; by_cases h : y = x <;> simp [h]

/-- Content changes only. -/
theorem WInv.content {H H' : Heap α} {own} (I : WInv H own) (hn : H'.next = H.next)
    (hl : ∀ b, H'.live b ↔ H.live b) (hc : ∀ b o, (H.cellAt b o).isSome = true → (H'.cellAt b o).isSome = true) :
    WInv H' own where
  fresh b hb := by rw [hn]; exact I.fresh b ((hl b).1 hb)
  owned x o hx := by
    rcases I.owned x o hx with h | ⟨b, h1, h2, h3⟩
    · exact Or.inl h
    · exact Or.inr ⟨b, h1, (hl b).2 h2, fun i hi => hc _ _ (h3 i hi)⟩
  inj := I.inj
  noleak b hb := I.noleak b ((hl b).1 hb)
  mat := I.mat

/-- A new owner of a freshly allocated block. -/
theorem WInv.addOwner {H H' : Heap α} {own} (I : WInv H own) {x : Nat} (hx : own x = none) {o : Obj}
    {n : Nat} (ho : o.data = .at H.next 0) (hs : o.shape.size ≤ n)
    (hn : H'.next = H.next + 1) (hl : ∀ b, H'.live b ↔ b = H.next ∨ H.live b)
    (hc : ∀ b o, (H'.cellAt b o).isSome = true ↔ (b = H.next ∧ o < n) ∨ (b ≠ H.next ∧ (H.cellAt b o).isSome = true))
    (hm : o.kind = .mat → o.shape.d ≤ 1 ∧ o.shape.size = wmul o.shape.h o.shape.w) :
    WInv H' (upd own x (some o)) where
  fresh b hb := by
    rcases (hl b).1 hb with h | h
    · omega
    · have := I.fresh b h; omega
  owned y o' hy := by
    by_cases e : y = x
    · subst e
      rw [upd_self] at hy; cases hy
      exact Or.inr ⟨H.next, ho, (hl _).2 (Or.inl rfl), fun i hi => (hc _ _).2 (Or.inl ⟨rfl, by omega⟩)⟩
    · rw [upd_ne _ _ e] at hy
      rcases I.owned y o' hy with h | ⟨b, h1, h2, h3⟩
      · exact Or.inl h
      · have hb : b ≠ H.next := by have := I.fresh b h2; omega
        exact Or.inr ⟨b, h1, (hl b).2 (Or.inr h2), fun i hi => (hc _ _).2 (Or.inr ⟨hb, h3 i hi⟩)⟩
  inj y z o1 o2 b hy hz h1 h2 := by
    by_cases ey : y = x <;> by_cases ez : z = x
    · rw [ey, ez]
    · subst ey
      rw [upd_self] at hy; cases hy
      rw [upd_ne _ _ ez] at hz
      rw [ho] at h1; cases h1
      rcases I.owned z o2 hz with h | ⟨b, h3, h4, _⟩
      · rw [h] at h2; cases h2
      · rw [h3] at h2; cases h2; exact absurd (I.fresh _ h4) (Nat.lt_irrefl _)
    · subst ez
      rw [upd_self] at hz; cases hz
      rw [upd_ne _ _ ey] at hy
      rw [ho] at h2; cases h2
      rcases I.owned y o1 hy with h | ⟨b, h3, h4, _⟩
      · rw [h] at h1; cases h1
      · rw [h3] at h1; cases h1; exact absurd (I.fresh _ h4) (Nat.lt_irrefl _)
    · rw [upd_ne _ _ ey] at hy; rw [upd_ne _ _ ez] at hz
      exact I.inj y z o1 o2 b hy hz h1 h2
  noleak b hb := by
    rcases (hl b).1 hb with h | h
    · exact ⟨x, o, upd_self _ _ _, by rw [h, ho]⟩
    · obtain ⟨y, o', h1, h2⟩ := I.noleak b h
      refine ⟨y, o', ?_, h2⟩
      rw [upd_ne]; exact h1
      rintro rfl; rw [hx] at h1; cases h1
  mat y o' hy hk := by
    by_cases e : y = x
    · subst e
      rw [upd_self] at hy; cases hy; exact hm hk
    · rw [upd_ne _ _ e] at hy; exact I.mat y o' hy hk

/-- A new owner without storage. -/
theorem WInv.addNull {H : Heap α} {own} (I : WInv H own) {x : Nat} (hx : ∀ o, own x = some o → o.data = .null)
    {o : Obj} (ho : o.data = .null)
    (hm : o.kind = .mat → o.shape.d ≤ 1 ∧ o.shape.size = wmul o.shape.h o.shape.w) :
    WInv H (upd own x (some o)) where
  fresh := I.fresh
  owned y o' hy := by
    by_cases e : y = x
    · subst e
      rw [upd_self] at hy; cases hy; exact Or.inl ho
    · rw [upd_ne _ _ e] at hy; exact I.owned y o' hy
  inj y z o1 o2 b hy hz h1 h2 := by
    have ey : y ≠ x := by
      rintro rfl; rw [upd_self] at hy; cases hy; rw [ho] at h1; cases h1
    have ez : z ≠ x := by
      rintro rfl; rw [upd_self] at hz; cases hz; rw [ho] at h2; cases h2
    rw [upd_ne _ _ ey] at hy; rw [upd_ne _ _ ez] at hz
    exact I.inj y z o1 o2 b hy hz h1 h2
  noleak b hb := by
    obtain ⟨y, o', h1, h2⟩ := I.noleak b hb
    refine ⟨y, o', ?_, h2⟩
    rw [upd_ne]; exact h1
    rintro rfl; rw [hx _ h1] at h2; cases h2
  mat y o' hy hk := by
    by_cases e : y = x
    · subst e
      rw [upd_self] at hy; cases hy; exact hm hk
    · rw [upd_ne _ _ e] at hy; exact I.mat y o' hy hk

/-- Replace the record of an owner, keeping its storage. -/
theorem WInv.recast {H : Heap α} {own} (I : WInv H own) {x : Nat} {a o : Obj} (hx : own x = some a)
    (hd : o.data = a.data) (hs : o.shape.size = a.shape.size)
    (hm : o.kind = .mat → o.shape.d ≤ 1 ∧ o.shape.size = wmul o.shape.h o.shape.w) :
    WInv H (upd own x (some o)) where
  fresh := I.fresh
  owned y o' hy := by
    by_cases e : y = x
    · subst e
      rw [upd_self] at hy; cases hy
      rw [hd, hs]; exact I.owned _ _ hx
    · rw [upd_ne _ _ e] at hy; exact I.owned y o' hy
  inj y z o1 o2 b hy hz h1 h2 := by
    have key : ∀ y o1, upd own x (some o) y = some o1 → o1.data = .at b 0 →
        ∃ o', own y = some o' ∧ o'.data = .at b 0 := by
      intro y o1 hy h1
      by_cases e : y = x
      · subst e; rw [upd_self] at hy; cases hy; exact ⟨a, hx, by rw [← hd]; exact h1⟩
      · rw [upd_ne _ _ e] at hy; exact ⟨o1, hy, h1⟩
    obtain ⟨p, hp1, hp2⟩ := key y o1 hy h1
    obtain ⟨q, hq1, hq2⟩ := key z o2 hz h2
    exact I.inj y z p q b hp1 hq1 hp2 hq2
  noleak b hb := by
    obtain ⟨y, o', h1, h2⟩ := I.noleak b hb
    by_cases e : y = x
    · subst e
      rw [hx] at h1; cases h1
      exact ⟨y, o, upd_self _ _ _, by rw [hd]; exact h2⟩
    · exact ⟨y, o', by rw [upd_ne _ _ e]; exact h1, h2⟩
  mat y o' hy hk := by
    by_cases e : y = x
    · subst e
      rw [upd_self] at hy; cases hy; exact hm hk
    · rw [upd_ne _ _ e] at hy; exact I.mat y o' hy hk

/-- Hand the storage of `y` over to a storage-less name `x`. -/
theorem WInv.transfer {H : Heap α} {own} (I : WInv H own) {x y : Nat} (hne : x ≠ y)
    (hx : ∀ o, own x = some o → o.data = .null) {t o t' : Obj} (hy : own y = some t)
    (hd : o.data = t.data) (hs : o.shape.size = t.shape.size) (ht : t'.data = .null)
    (hm : o.kind = .mat → o.shape.d ≤ 1 ∧ o.shape.size = wmul o.shape.h o.shape.w)
    (hm' : t'.kind = .mat → t'.shape.d ≤ 1 ∧ t'.shape.size = wmul t'.shape.h t'.shape.w) :
    WInv H (upd (upd own y (some t')) x (some o)) where
  fresh := I.fresh
  owned z o' hz := by
    by_cases e : z = x
    · subst e
      rw [upd_self] at hz; cases hz
      rw [hd, hs]; exact I.owned _ _ hy
    · rw [upd_ne _ _ e] at hz
      by_cases e' : z = y
      · subst e'; rw [upd_self] at hz; cases hz; exact Or.inl ht
      · rw [upd_ne _ _ e'] at hz; exact I.owned z o' hz
  inj z z' o1 o2 b hz hz' h1 h2 := by
    have key : ∀ z o1, upd (upd own y (some t')) x (some o) z = some o1 → o1.data = .at b 0 →
        (z = x ∧ t.data = .at b 0) ∨ (z ≠ x ∧ z ≠ y ∧ own z = some o1 ) := by
      intro z o1 hz h1
      by_cases e : z = x
      · subst e; rw [upd_self] at hz; cases hz; exact Or.inl ⟨rfl, by rw [← hd]; exact h1⟩
      · rw [upd_ne _ _ e] at hz
        by_cases e' : z = y
        · subst e'; rw [upd_self] at hz; cases hz; rw [ht] at h1; cases h1
        · rw [upd_ne _ _ e'] at hz; exact Or.inr ⟨e, e', hz⟩
    rcases key z o1 hz h1 with ⟨a1, a2⟩ | ⟨a1, a2, a3⟩ <;> rcases key z' o2 hz' h2 with ⟨b1, b2⟩ | ⟨b1, b2, b3⟩
    · rw [a1, b1]
    · exact absurd (I.inj y z' t o2 b hy b3 a2 h2) (fun e => b2 e.symm)
    · exact absurd (I.inj y z t o1 b hy a3 b2 h1) (fun e => a2 e.symm)
    · exact I.inj z z' o1 o2 b a3 b3 h1 h2
  noleak b hb := by
    obtain ⟨z, o', h1, h2⟩ := I.noleak b hb
    have hzx : z ≠ x := by rintro rfl; rw [hx _ h1] at h2; cases h2
    by_cases e : z = y
    · subst e
      rw [hy] at h1; cases h1
      exact ⟨x, o, upd_self _ _ _, by rw [hd]; exact h2⟩
    · exact ⟨z, o', by rw [upd_ne _ _ hzx, upd_ne _ _ e]; exact h1, h2⟩
  mat z o' hz hk := by
    by_cases e : z = x
    · subst e
      rw [upd_self] at hz; cases hz; exact hm hk
    · rw [upd_ne _ _ e] at hz
      by_cases e' : z = y
      · subst e'; rw [upd_self] at hz; cases hz; exact hm' hk
      · rw [upd_ne _ _ e'] at hz; exact I.mat z o' hz hk

/-- Deleting an owner's storage. -/
theorem WInv.drop {H : Heap α} {own} (I : WInv H own) {x : Nat} {a : Obj} (hx : own x = some a) :
    Ok (H.delete a.data) (fun H' => WInv H' (upd own x none) ∧ H'.next = H.next ∧
      (∀ b o, a.data ≠ .at b 0 → H'.cellAt b o = H.cellAt b o) ∧
      (∀ b, H'.live b ↔ H.live b ∧ a.data ≠ .at b 0)) := by
  rcases I.owned x a hx with h | ⟨b, h1, h2, _⟩
  · rw [h]
    refine Ok_ok.2 ⟨?_, rfl, fun _ _ _ => rfl, fun b => by simp⟩
    refine ⟨I.fresh, fun y o hy => ?_, fun y z o o' b hy hz => ?_, fun b hb => ?_, fun y o hy => ?_⟩
    · by_cases e : y = x
      · subst e; rw [upd_self] at hy; cases hy
      · rw [upd_ne _ _ e] at hy; exact I.owned y o hy
    · by_cases e : y = x
      · subst e; rw [upd_self] at hy; cases hy
      · by_cases e' : z = x
        · subst e'; rw [upd_self] at hz; cases hz
        · rw [upd_ne _ _ e] at hy; rw [upd_ne _ _ e'] at hz; exact I.inj y z o o' b hy hz
    · obtain ⟨y, o, h1, h2⟩ := I.noleak b hb
      refine ⟨y, o, ?_, h2⟩
      rw [upd_ne]; exact h1
      rintro rfl; rw [hx] at h1; cases h1; rw [h] at h2; cases h2
    · by_cases e : y = x
      · subst e; rw [upd_self] at hy; cases hy
      · rw [upd_ne _ _ e] at hy; exact I.mat y o hy
  · rw [h1]
    unfold Heap.delete
    have h2' : (H.blocks b).isSome = true := h2
    simp only [h2', and_self, if_true, Ok_ok]
    have hl : ∀ b', Heap.live (⟨fun b' => if b' = b then none else H.blocks b', H.next⟩ : Heap α) b' ↔
        H.live b' ∧ Ptr.at b 0 ≠ .at b' 0 := by
      intro b'
      unfold Heap.live
      by_cases e : b' = b
      · subst e; simp
      · have e' : ¬ b = b' := fun h => e h.symm
        simp [e, e']
    have hc : ∀ b' o, Ptr.at b 0 ≠ .at b' 0 →
        Heap.cellAt (⟨fun b' => if b' = b then none else H.blocks b', H.next⟩ : Heap α) b' o =
        H.cellAt b' o := by
      intro b' o hb
      have e' : ¬ b' = b := fun h => hb (by rw [h])
      simp [Heap.cellAt, e']
    refine ⟨?_, trivial, hc, hl⟩
    refine ⟨fun b' hb => I.fresh b' ((hl b').1 hb).1, fun y o hy => ?_, fun y z o o' b hy hz => ?_,
      fun b' hb => ?_, fun y o hy => ?_⟩
    · by_cases e : y = x
      · subst e; rw [upd_self] at hy; cases hy
      · rw [upd_ne _ _ e] at hy
        rcases I.owned y o hy with h | ⟨b', h3, h4, h5⟩
        · exact Or.inl h
        · have hbb : Ptr.at b 0 ≠ .at b' 0 := by
            intro hbb; cases hbb
            exact e (I.inj y x o a b hy hx h3 h1)
          exact Or.inr ⟨b', h3, (hl b').2 ⟨h4, hbb⟩, fun i hi => by rw [hc _ _ hbb]; exact h5 i hi⟩
    · by_cases e : y = x
      · subst e; rw [upd_self] at hy; cases hy
      · by_cases e' : z = x
        · subst e'; rw [upd_self] at hz; cases hz
        · rw [upd_ne _ _ e] at hy; rw [upd_ne _ _ e'] at hz; exact I.inj y z o o' b hy hz
    · obtain ⟨y, o, h3, h4⟩ := I.noleak b' ((hl b').1 hb).1
      refine ⟨y, o, ?_, h4⟩
      rw [upd_ne]; exact h3
      rintro rfl; rw [hx] at h3; cases h3; rw [h1] at h4
      exact ((hl b').1 hb).2 h4
    · by_cases e : y = x
      · subst e; rw [upd_self] at hy; cases hy
      · rw [upd_ne _ _ e] at hy; exact I.mat y o hy

/-- Exchange of the storage of two owners of the same class. -/
theorem WInv.swap {H : Heap α} {own} (I : WInv H own) {x y : Nat} {a t : Obj} (hx : own x = some a) (hy : own y = some t)
    (hk : a.kind = t.kind) : WInv H (upd (upd own y (some (a.swap t).2)) x (some (a.swap t).1)) := by
  -- every object of the new world is, up to its class, the object of the old world under the exchanged name
  have key : ∀ z o, upd (upd own y (some (a.swap t).2)) x (some (a.swap t).1) z = some o →
      own (if z = x then y else if z = y then x else z) = some o := by
    intro z o hz
    by_cases e1 : z = x
    · subst e1
      rw [upd_self] at hz; cases hz
      rw [if_pos rfl, hy]
      cases a; cases t; cases hk; rfl
    · rw [upd_ne _ _ e1] at hz
      by_cases e2 : z = y
      · subst e2
        rw [upd_self] at hz; cases hz
        rw [if_neg e1, if_pos rfl, hx]
        cases a; cases t; cases hk; rfl
      · rw [upd_ne _ _ e2] at hz
        rw [if_neg e1, if_neg e2]; exact hz
  refine ⟨I.fresh, fun z o hz => I.owned _ o (key z o hz), fun z z' o o' b hz hz' h1 h2 => ?_, fun b hb => ?_,
    fun z o hz => I.mat _ o (key z o hz)⟩
  · have := I.inj _ _ o o' b (key z o hz) (key z' o' hz') h1 h2
    by_cases e1 : z = x <;> by_cases e2 : z' = x <;> by_cases e3 : z = y <;> by_cases e4 : z' = y <;> simp_all
  · obtain ⟨z, o, h1, h2⟩ := I.noleak b hb
    by_cases e1 : z = y
    · subst e1
      rw [hy] at h1; cases h1
      exact ⟨x, _, upd_self _ _ _, h2⟩
    · by_cases e2 : z = x
      · subst e2
        rw [hx] at h1; cases h1
        refine ⟨y, (a.swap t).2, ?_, h2⟩
        rw [upd_ne _ _ (Ne.symm e1), upd_self]
      · exact ⟨z, o, by rw [upd_ne _ _ e2, upd_ne _ _ e1]; exact h1, h2⟩

/-- `new T[n]` followed by a loop over its first `m ≤ n` cells. -/
theorem new_loop {H : Heap α} {n m : Nat} (hm : m ≤ n) {rd : Heap α → Nat → Res (Option α)}
    {new : Nat → Option α}
    (hr : ∀ i, i < m → ∀ h' : Heap α, (∀ b o, b ≠ H.next → h'.cellAt b o = H.cellAt b o) → rd h' i = .ok (new i)) :
    Ok (ewLoop rd (H.new n).1 (.at H.next 0) m) (fun H' => H'.next = H.next + 1 ∧
      (∀ b, H'.live b ↔ b = H.next ∨ H.live b) ∧
      ∀ b o, H'.cellAt b o = if b = H.next then
        (if o < m then some (new o) else if o < n then some none else none) else H.cellAt b o) := by
  refine (ewLoop_spec (new := new) ?_ ?_).mono ?_
  · intro i hi
    rw [Heap.new_cellAt, if_pos rfl, if_pos (by omega)]; rfl
  · intro i hi h' hh
    refine hr i hi h' (fun b o hb => ?_)
    rw [hh.2.2, overlay, if_neg (fun h => hb h.1), Heap.new_cellAt, if_neg hb]
  · intro H' hh
    refine ⟨hh.1, fun b => (hh.2.1 b).trans (Heap.new_live _ _ _), fun b o => ?_⟩
    rw [hh.2.2]
    unfold overlay
    by_cases hb : b = H.next
    · subst hb
      by_cases ho : o < m
      · rw [if_pos (by omega), if_pos rfl, if_pos ho]; simp
      · rw [if_neg (by omega), Heap.new_cellAt]; simp [ho]
    · rw [if_neg (fun h => hb h.1), Heap.new_cellAt, if_neg hb, if_neg hb]

theorem new_cells {H H' : Heap α} {n m : Nat} {new : Nat → Option α} (hm : m ≤ n)
    (h : ∀ b o, H'.cellAt b o = if b = H.next then
        (if o < m then some (new o) else if o < n then some none else none) else H.cellAt b o) :
    ∀ b o, (H'.cellAt b o).isSome = true ↔ (b = H.next ∧ o < n) ∨ (b ≠ H.next ∧ (H.cellAt b o).isSome = true) := by
  intro b o
  rw [h]
  by_cases hb : b = H.next
  · simp only [hb, if_true, true_and, ne_eq, not_true_eq_false, false_and, or_false]
    by_cases h1 : o < m
    · simp [h1]; omega
    · by_cases h2 : o < n <;> simp [h1, h2]
  · simp [hb]

theorem wmul_one_left (h w : Nat) : wmul (wmul 1 h) w = wmul h w := by
  unfold wmul; rw [Nat.one_mul, Nat.mod_mul_mod]

theorem wmul_zero_left (w : Nat) : wmul 0 w = 0 := by simp [wmul]

theorem ctorShape_mat (k : Kind) (d h w : Nat) (hk : k = .mat) :
    (ctorShape k d h w).d ≤ 1 ∧ (ctorShape k d h w).size = wmul (ctorShape k d h w).h (ctorShape k d h w).w := by
  subst hk; exact ⟨Nat.le_refl 1, rfl⟩

theorem Obj.Usable.storage {H : Heap α} {own} (I : WInv H own) {x : Nat} {a : Obj} (hx : own x = some a)
    (hu : a.Usable) : a.shape.size = 0 ∨ ∃ b, a.data = .at b 0 ∧ H.live b ∧
      ∀ i, i < a.shape.size → (H.cellAt b i).isSome = true := by
  rcases hu with h | h
  · rcases I.owned x a hx with h' | h'
    · exact absurd h' h
    · exact Or.inr h'
  · exact Or.inl h

/-- The source cells are readable inside a copy into a fresh block. -/
theorem src_read {H : Heap α} {own} (I : WInv H own) {y : Nat} {t : Obj} (hy : own y = some t)
    (hu : t.Usable) {m : Nat} (hm : m ≤ t.shape.size) :
    ∃ new : Nat → Option α, ∀ i, i < m → ∀ h' : Heap α,
      (∀ b o, b ≠ H.next → h'.cellAt b o = H.cellAt b o) → h'.cell t.data i = .ok (new i) := by
  rcases hu.storage I hy with h0 | ⟨b, h1, h2, h3⟩
  · exact ⟨fun _ => none, fun i hi => by omega⟩
  · refine ⟨fun i => (H.cellAt b i).getD none, fun i hi h' hh => ?_⟩
    rw [h1]
    apply Heap.cell_of
    have hb : b ≠ H.next := by have := I.fresh b h2; omega
    rw [Nat.zero_add, hh _ _ hb]
    obtain ⟨c, hc⟩ := Option.isSome_iff_exists.1 (h3 i (by omega))
    simp [hc]

theorem step_inv {w : World α} (I : WInv w.heap w.own) (op : Op α) (hv : Valid w op) :
    Ok (w.step op) (fun w' => WInv w'.heap w'.own) := by
  cases op with
  | defaultCtor x k =>
    refine Ok_ok.2 (I.addNull (fun o h => ?_) rfl (fun _ => ⟨Nat.zero_le 1, rfl⟩))
    have : w.own x = none := hv
    rw [this] at h; cases h
  | sizedCtor x k d h wd =>
    refine Ok_ok.2 (I.addOwner hv (n := (ctorShape k d h wd).size) rfl (Nat.le_refl _) rfl
      (fun b => Heap.new_live _ _ _) (fun b o => ?_) (fun hk => ctorShape_mat k d h wd hk))
    show ((w.heap.new _).1.cellAt b o).isSome = true ↔ _
    rw [Heap.new_cellAt]
    by_cases hb : b = w.heap.next
    · by_cases ho : o < (ctorShape k d h wd).size <;> simp [hb, ho]
    · simp [hb]
  | valueCtor x k d h wd v =>
    show Ok (Obj.valued w.heap k d h wd v >>= _) _
    unfold Obj.valued
    simp only [Obj.sized, bind_assoc_res, fillLoop_eq, pure_eq_ok, bind_ok]
    refine (new_loop (H := w.heap) (n := (ctorShape k d h wd).size) (Nat.le_refl _)
      (new := fun _ => some v) (fun _ _ _ _ => rfl)).bind (fun H' ⟨h1, h2, h3⟩ => Ok_ok.2 ?_)
    exact I.addOwner hv rfl (Nat.le_refl _) h1 h2 (new_cells (Nat.le_refl _) h3)
      (fun hk => ctorShape_mat k d h wd hk)
  | listCtor x k l =>
    show Ok (Obj.fromList w.heap k l >>= _) _
    unfold Obj.fromList
    simp only [bind_assoc_res, copyList_eq, pure_eq_ok, bind_ok]
    have hsz : (ctorShape k 1 1 l.length).size ≤ l.length := by
      cases k
      · exact Nat.le_refl _
      · show wmul 1 l.length ≤ _
        unfold wmul; rw [Nat.one_mul]; exact Nat.mod_le _ _
      · show wmul (wmul 1 1) l.length ≤ _
        rw [wmul_one_left]; unfold wmul; rw [Nat.one_mul]; exact Nat.mod_le _ _
    refine (new_loop (H := w.heap) (n := (ctorShape k 1 1 l.length).size) (Nat.le_refl _)
      (new := fun i => l[i]?) (fun i hi _ _ => ?_)).bind (fun H' ⟨h1, h2, h3⟩ => Ok_ok.2 ?_)
    · have : i < l.length := by omega
      simp [this]
    · exact I.addOwner hv rfl (Nat.le_refl _) h1 h2 (new_cells (Nat.le_refl _) h3)
        (fun hk => ctorShape_mat k _ _ _ hk)
  | copyCtor x y =>
    obtain ⟨hx, t, hy, hu⟩ := hv
    show Ok (look w.own y >>= _) _
    simp only [look, hy, bind_ok]
    unfold Obj.copyCtor
    simp only [bind_assoc_res, copyLoop_eq, pure_eq_ok, bind_ok]
    generalize hs : copyCtorShape t = s
    unfold copyCtorShape at hs
    have hsz : s.size ≤ t.shape.size := by
      cases hk : t.kind <;> simp only [hk] at hs <;> subst hs
      · exact Nat.zero_le _
      · obtain ⟨m1, m2⟩ := I.mat y t hy hk
        show wmul (wmul t.shape.d t.shape.h) t.shape.w ≤ _
        rw [m2]
        have : t.shape.d = 0 ∨ t.shape.d = 1 := by omega
        rcases this with e | e <;> rw [e]
        · rw [wmul_zero_left, wmul_zero_left]; exact Nat.zero_le _
        · rw [wmul_one_left]; exact Nat.le_refl _
      · exact Nat.le_refl _
    obtain ⟨new, hnew⟩ := src_read I hy hu hsz
    refine (new_loop (H := w.heap) (n := t.shape.size) (m := s.size) hsz (new := new) hnew).bind
      (fun H' ⟨h1, h2, h3⟩ => Ok_ok.2 ?_)
    refine I.addOwner hx rfl hsz h1 h2 (new_cells hsz h3) (fun hk => ?_)
    have hk' : t.kind = .mat := hk
    simp only [hk'] at hs; subst hs
    exact ⟨Nat.le_refl 1, rfl⟩
  | moveCtor x y =>
    obtain ⟨hx, t, hy⟩ := hv
    show Ok (look w.own y >>= _) _
    simp only [look, hy, bind_ok]
    refine Ok_ok.2 (I.transfer (t := t) ?_ (fun o h => ?_) hy rfl rfl rfl (fun hk => I.mat y t hy hk)
      (fun hk => I.mat y t hy hk))
    · rintro rfl; rw [hx] at hy; cases hy
    · rw [hx] at h; cases h
  | copyAssign x y =>
    obtain ⟨a, t, hx, hy, hk, hc⟩ := hv
    show Ok (look w.own x >>= _) _
    simp only [look, hx, hy, bind_ok]
    by_cases e : x = y
    · rw [if_pos e]; exact Ok_ok.2 I
    rw [if_neg e]
    obtain ⟨hu, hsz⟩ := hc e
    unfold Obj.copyAssign
    simp only [bind_assoc_res]
    refine (I.drop hx).bind (fun H1 ⟨I1, n1, c1, _⟩ => ?_)
    have hy1 : upd w.own x none y = some t := by rw [upd_ne _ _ (fun h => e h.symm)]; exact hy
    have hx1 : upd w.own x none x = none := upd_self _ _ _
    have mt := I.mat y t hy
    have ma := I.mat x a hx
    have main : ∀ (m : Nat) (s : Shape), m ≤ t.shape.size → s.size ≤ t.shape.size →
        (a.kind = .mat → s.d ≤ 1 ∧ s.size = wmul s.h s.w) →
        Ok (ewLoop (fun h i => h.cell t.data i) (H1.new t.shape.size).1 (.at H1.next 0) m >>=
          fun H' => (.ok { w with heap := H', own := upd w.own x (some ⟨a.kind, .at H1.next 0, s⟩) } : Res (World α)))
          (fun w' => WInv w'.heap w'.own) := by
      intro m s hm hs hms
      obtain ⟨new, hnew⟩ := src_read I1 hy1 hu hm
      refine (new_loop (H := H1) (n := t.shape.size) (m := m) hm (new := new) hnew).bind
        (fun H' ⟨h1, h2, h3⟩ => Ok_ok.2 ?_)
      have := I1.addOwner hx1 (o := ⟨a.kind, .at H1.next 0, s⟩) rfl hs h1 h2 (new_cells hm h3) hms
      rw [upd_upd] at this
      exact this
    cases hak : a.kind <;> simp only [hak, bind_assoc_res, pure_eq_ok, bind_ok, copyLoop_eq] at main ⊢
    · exact main _ { a.shape with w := t.shape.w, size := t.shape.size } (Nat.le_refl _) (Nat.le_refl _)
        (fun h => by cases h)
    · exact main _ { a.shape with h := t.shape.h, w := t.shape.w, size := t.shape.size }
        (hsz (by rw [hak]; intro h; cases h)) (Nat.le_refl _)
        (fun _ => ⟨(ma hak).1, (mt (hk ▸ hak)).2⟩)
    · exact main _ t.shape (hsz (by rw [hak]; intro h; cases h)) (Nat.le_refl _) (fun h => by cases h)
  | moveAssign x y =>
    obtain ⟨a, t, hx, hy, hk⟩ := hv
    show Ok (look w.own x >>= _) _
    simp only [look, hx, hy, bind_ok]
    by_cases e : x = y
    · rw [if_pos e]; exact Ok_ok.2 I
    rw [if_neg e]
    unfold Obj.moveAssign
    simp only [bind_assoc_res]
    refine (I.drop hx).bind (fun H1 ⟨I1, n1, c1, _⟩ => ?_)
    have hy1 : upd w.own x none y = some t := by rw [upd_ne _ _ (fun h => e h.symm)]; exact hy
    have mt := I.mat y t hy
    have ma := I.mat x a hx
    simp only [pure_eq_ok, bind_ok]
    have hcomm : ∀ (o t' : Obj), upd (upd (upd w.own x none) y (some t')) x (some o) =
        upd (upd w.own y (some t')) x (some o) := by
      intro o t'; funext z; unfold upd
      by_cases hz : z = x <;> by_cases hz' : z = y <;> simp [hz, hz']
    refine Ok_ok.2 ?_
    rw [← hcomm]
    refine I1.transfer (t := t) e (fun o h => ?_) hy1 rfl ?_ rfl ?_ (fun hk' => mt hk')
    · rw [upd_self] at h; cases h
    · cases a.kind <;> rfl
    · intro hk'
      have hk' : a.kind = .mat := hk'
      simp only [hk']
      exact ⟨(ma hk').1, (mt (hk ▸ hk')).2⟩
  | resize x d h wd =>
    obtain ⟨a, hx⟩ := hv
    show Ok (look w.own x >>= _) _
    simp only [look, hx, bind_ok]
    unfold Obj.resize
    simp only [bind_assoc_res]
    refine (I.drop hx).bind (fun H1 ⟨I1, n1, c1, _⟩ => ?_)
    have ma := I.mat x a hx
    have hx1 : upd w.own x none x = none := upd_self _ _ _
    have main : ∀ (n : Nat) (s : Shape), s.size ≤ n →
        (a.kind = .mat → s.d ≤ 1 ∧ s.size = wmul s.h s.w) →
        WInv (H1.new n).1 (upd w.own x (some ⟨a.kind, .at H1.next 0, s⟩)) := by
      intro n s hs hms
      have := I1.addOwner hx1 (o := ⟨a.kind, .at H1.next 0, s⟩) (n := n) (H' := (H1.new n).1) rfl hs rfl
        (fun b => Heap.new_live _ _ _) (fun b o => ?_) hms
      · rw [upd_upd] at this; exact this
      · rw [Heap.new_cellAt]
        by_cases hb : b = H1.next
        · by_cases ho : o < n <;> simp [hb, ho]
        · simp [hb]
    cases hak : a.kind <;> simp only [hak, pure_eq_ok, bind_ok] at main ⊢ <;> refine Ok_ok.2 ?_
    · refine main wd (Shape.mk3 1 wd 1) ?_ (fun h => by cases h)
      show wmul (wmul 1 wd) 1 ≤ wd
      rw [wmul_one_left]; unfold wmul; rw [Nat.mul_one]; exact Nat.mod_le _ _
    · exact main _ { a.shape with h := h, w := wd, size := wmul h wd } (Nat.le_refl _) (fun _ => ⟨(ma hak).1, rfl⟩)
    · exact main _ (Shape.mk3 d h wd) (Nat.le_refl _) (fun h => by cases h)
  | reshape x d h wd =>
    obtain ⟨a, hx, hr⟩ := hv
    show Ok (look w.own x >>= _) _
    simp only [look, hx, bind_ok]
    refine Ok_ok.2 (I.recast hx ?_ ?_ ?_)
    · unfold Obj.reshape; cases a.kind <;> rfl
    · unfold Obj.reshape; cases a.kind <;> rfl
    · have ma := I.mat x a hx
      cases hk : a.kind <;> unfold Obj.reshape <;> simp only [hk]
      · intro h; cases h
      · intro _; exact ⟨(ma hk).1, (hr hk).symm⟩
      · intro h; cases h
  | fill x v =>
    obtain ⟨a, hx, hu⟩ := hv
    show Ok (look w.own x >>= _) _
    simp only [look, hx, bind_ok]
    unfold Obj.fill
    rw [fillLoop_eq]
    rcases hu.storage I hx with h0 | ⟨b, h1, h2, h3⟩
    · rw [h0, ewLoop_zero]; exact Ok_ok.2 I
    · rw [h1]
      refine (ewLoop_spec (new := fun _ => some v) (by simpa using h3) (fun _ _ _ _ => rfl)).bind
        (fun H' hh => Ok_ok.2 ?_)
      refine I.content hh.1 hh.2.1 (fun b' o' hc => ?_)
      show (H'.cellAt b' o').isSome = true
      rw [hh.2.2, overlay]; split <;> simp_all
  | write x i v =>
    obtain ⟨a, hx, hu, hi⟩ := hv
    show Ok (look w.own x >>= _) _
    simp only [look, hx, bind_ok]
    unfold Obj.set1 Heap.store
    rcases hu.storage I hx with h0 | ⟨b, h1, h2, h3⟩
    · omega
    · rw [h1]
      obtain ⟨c, hc⟩ := Option.isSome_iff_exists.1 (h3 i hi)
      refine (Heap.put_spec (some v) (c₀ := c) (by rw [Nat.zero_add]; exact hc)).bind (fun H' hh => Ok_ok.2 ?_)
      refine I.content hh.1 hh.2.1 (fun b' o' hc => ?_)
      show (H'.cellAt b' o').isSome = true
      rw [hh.2.2]; dsimp only; split <;> simp_all
  | destroy x =>
    obtain ⟨a, hx⟩ := hv
    show Ok (look w.own x >>= _) _
    simp only [look, hx, bind_ok]
    exact (I.drop hx).bind (fun H1 h => Ok_ok.2 h.1)
  | viewMake v x =>
    obtain ⟨a, hx⟩ := hv
    show Ok (look w.own x >>= _) _
    simp only [look, hx, bind_ok]
    exact Ok_ok.2 I
  | viewCopy v u =>
    obtain ⟨a, hx⟩ := hv
    show Ok (look w.view u >>= _) _
    simp only [look, hx, bind_ok]
    exact Ok_ok.2 I
  | viewAssign v u =>
    obtain ⟨a, t, hx, hy⟩ := hv
    show Ok (look w.view v >>= _) _
    simp only [look, hx, hy, bind_ok]
    by_cases e : v = u
    · rw [if_pos e]; exact Ok_ok.2 I
    · rw [if_neg e]; exact Ok_ok.2 I
  | viewWrite v i c =>
    obtain ⟨a, x, o, hv', hx, hd, hu, hi⟩ := hv
    show Ok (look w.view v >>= _) _
    simp only [look, hv', bind_ok]
    unfold Obj.set1 Heap.store
    rcases hu.storage I hx with h0 | ⟨b, h1, h2, h3⟩
    · omega
    · rw [← hd, h1]
      obtain ⟨c', hc⟩ := Option.isSome_iff_exists.1 (h3 i hi)
      refine (Heap.put_spec (some c) (c₀ := c') (by rw [Nat.zero_add]; exact hc)).bind (fun H' hh => Ok_ok.2 ?_)
      refine I.content hh.1 hh.2.1 (fun b' o' hc => ?_)
      show (H'.cellAt b' o').isSome = true
      rw [hh.2.2]; dsimp only; split <;> simp_all
  | viewDestroy v =>
    obtain ⟨a, hx⟩ := hv
    show Ok (look w.view v >>= _) _
    simp only [look, hx, bind_ok]
    exact Ok_ok.2 I
  | swap x y =>
    obtain ⟨a, t, hx, hy, hk⟩ := hv
    show Ok (look w.own x >>= _) _
    simp only [look, hx, hy, bind_ok]
    exact Ok_ok.2 (I.swap hx hy hk)
  | viewSwap v u =>
    obtain ⟨a, t, hx, hy⟩ := hv
    show Ok (look w.view v >>= _) _
    simp only [look, hx, hy, bind_ok]
    exact Ok_ok.2 I

theorem run_inv {w : World α} (I : WInv w.heap w.own) (ops : List (Op α)) (hv : ValidHist w ops) :
    Ok (w.run ops) (fun w' => WInv w'.heap w'.own) := by
  induction ops generalizing w with
  | nil => exact Ok_ok.2 I
  | cons op ops ih =>
    obtain ⟨w', h1, h2⟩ := step_inv I op hv.1
    show Ok (w.step op >>= _) _
    rw [h1]
    exact ih h2 (hv.2 w' h1)

end Trixy
