import Verif.Spec.OptMem
import Mathlib.Data.List.Nodup
import Verif.Proof.TensorMem
/- C74: storage of optimizers with per-parameter state. -/
namespace Trixy.OptMem

variable {α : Type _}

/-- The pointers owned by the tables. -/
def ptrs (t : Tables) : List Ptr := t.map (fun e => e.2.first)

@[simp] theorem ptrs_copy (t : Tables) : ptrs (copyTables t) = ptrs t := by
  simp [ptrs, copyTables, Rng.copy]

theorem delete_live {H : Heap α} {b : Nat} (hl : H.live b) :
    Ok (H.delete (.at b 0)) (fun H' => H'.next = H.next ∧ ∀ c, H'.live c ↔ H.live c ∧ c ≠ b) := by
  unfold Heap.delete
  have h2 : (H.blocks b).isSome = true := hl
  simp only [h2, and_self, if_true, Ok_ok]
  refine ⟨trivial, fun c => ?_⟩
  unfold Heap.live
  by_cases e : c = b <;> simp [e]

theorem release_ok : ∀ (t : Tables) (H : Heap α), (ptrs t).Nodup → (∀ p ∈ ptrs t, ∃ b, p = .at b 0 ∧ H.live b) →
    Ok (release H t) (fun H' => H'.next = H.next ∧ ∀ c, H'.live c ↔ H.live c ∧ Ptr.at c 0 ∉ ptrs t) := by
  intro t
  induction t with
  | nil => intro H _ _; exact Ok_ok.2 ⟨rfl, fun c => by simp [ptrs]⟩
  | cons e t ih =>
    intro H hn hl
    have hn' : (e.2.first :: ptrs t).Nodup := hn
    obtain ⟨b, hb, hlb⟩ := hl e.2.first (by simp [ptrs])
    unfold release
    rw [hb]
    refine (delete_live hlb).bind (fun H1 ⟨h1, h2⟩ => ?_)
    rw [hb] at hn'
    have hnot := (List.nodup_cons.1 hn').1
    refine (ih H1 (List.nodup_cons.1 hn').2 (fun p hp => ?_)).mono (fun H2 ⟨h3, h4⟩ => ⟨h3.trans h1, fun c => ?_⟩)
    · obtain ⟨b', hb', hl'⟩ := hl p (by simp [ptrs] at hp ⊢; exact Or.inr hp)
      refine ⟨b', hb', (h2 b').2 ⟨hl', ?_⟩⟩
      rintro rfl; rw [hb'] at hp; exact hnot hp
    · rw [h4, h2]
      have : ptrs (e :: t) = .at b 0 :: ptrs t := by simp [ptrs, hb]
      rw [this]
      constructor
      · rintro ⟨⟨h5, h6⟩, h7⟩
        refine ⟨h5, fun h => ?_⟩
        rcases List.mem_cons.1 h with h | h
        · cases h; exact h6 rfl
        · exact h7 h
      · rintro ⟨h5, h6⟩
        refine ⟨⟨h5, ?_⟩, fun h => h6 (List.mem_cons_of_mem _ h)⟩
        rintro rfl; exact h6 (List.mem_cons_self)

/-- Releasing tables one of whose arrays has already been deleted. -/
theorem release_err : ∀ (t : Tables) (H : Heap α) (b : Nat), .at b 0 ∈ ptrs t → ¬ H.live b → release H t = .error .badFree := by
  intro t
  induction t with
  | nil => intro H b h; simp [ptrs] at h
  | cons e t ih =>
    intro H b hm hl
    unfold release
    have hm' : Ptr.at b 0 = e.2.first ∨ Ptr.at b 0 ∈ ptrs t := by simpa [ptrs] using hm
    cases hp : e.2.first with
    | null =>
      rcases hm' with h | h
      · rw [hp] at h; cases h
      · exact ih H b h hl
    | «at» c o =>
      by_cases hc : o = 0 ∧ (H.blocks c).isSome = true
      · have he : H.delete (.at c o) = .ok ⟨fun b' => if b' = c then none else H.blocks b', H.next⟩ := by
          unfold Heap.delete; dsimp only; rw [if_pos hc]
        rw [he, bind_ok]
        rcases hm' with h | h
        · rw [hp] at h; cases h; exact absurd hc.2 hl
        · refine ih _ b h ?_
          unfold Heap.live
          by_cases e : b = c
          · simp [e]
          · simp only [e, if_false]; exact hl
      · have he : H.delete (.at c o) = .error .badFree := by
          unfold Heap.delete; dsimp only; rw [if_neg hc]
        rw [he]; rfl

/-- Ownership invariant. -/
structure OInv (w : OWorld α) : Prop where
  fresh : ∀ b, w.heap.live b → b < w.heap.next
  ent : ∀ x t, w.opts x = some t → ∀ p ∈ ptrs t, ∃ b, p = .at b 0 ∧ w.heap.live b
  nodup : ∀ x t, w.opts x = some t → (ptrs t).Nodup
  disj : ∀ x y t u p, w.opts x = some t → w.opts y = some u → p ∈ ptrs t → p ∈ ptrs u → x = y
  noleak : ∀ b, w.heap.live b → ∃ x t, w.opts x = some t ∧ .at b 0 ∈ ptrs t

theorem OInv.init : OInv (OWorld.init : OWorld α) := by
  constructor <;> simp [OWorld.init, Heap.empty, Heap.live]

@[simp] theorem oset_self (m : Nat → Option Tables) (x : Nat) (t) : oset m x t x = t := by simp [oset]
theorem oset_ne (m : Nat → Option Tables) {x y : Nat} (t) (h : y ≠ x) : oset m x t y = m y := by simp [oset, h]

theorem find_of {w : OWorld α} {x : Nat} {t : Tables} (h : w.opts x = some t) : w.find x = .ok t := by
  simp [OWorld.find, h]

/-- A new array: it exists, is filled with zeros, and nothing else changes. -/
theorem resize_fresh (H : Heap α) (zero : α) (n : Nat) :
    Ok (Rng.default.resize H n zero) (fun r => r.2 = ⟨.at H.next 0, n⟩ ∧ r.1.next = H.next + 1 ∧
      (∀ b, r.1.live b ↔ b = H.next ∨ H.live b) ∧ (∀ i, i < n → r.1.cellAt H.next i = some (some zero)) ∧
      ∀ b o, b ≠ H.next → r.1.cellAt b o = H.cellAt b o) := by
  unfold Rng.resize Rng.default
  have hd : H.delete .null = .ok H := rfl
  rw [hd, bind_ok]
  have hp : (H.new n).2 = .at H.next 0 := rfl
  rw [hp, fillLoop_eq]
  refine (new_loop (H := H) (n := n) (Nat.le_refl _) (new := fun _ => some zero) (fun _ _ _ _ => rfl)).bind
    (fun H' ⟨h1, h2, h3⟩ => Ok_ok.2 ⟨rfl, h1, h2, fun i hi => ?_, fun b o hb => ?_⟩)
  · rw [h3, if_pos rfl, if_pos hi]
  · rw [h3, if_neg hb]

theorem step_inv {zero : α} {w : OWorld α} (I : OInv w) (op : OOp) (hv : OValid w op) :
    Ok (w.step zero op) (fun w' => OInv w') := by
  -- replacing the tables of a new name `x` by an empty list
  have empty : ∀ x, w.opts x = none → OInv (⟨w.heap, oset w.opts x (some [])⟩ : OWorld α) := by
    intro x hx
    have look : ∀ y t, oset w.opts x (some []) y = some t → t = [] ∨ w.opts y = some t := by
      intro y t h
      by_cases e : y = x
      · subst e; rw [oset_self] at h; cases h; exact Or.inl rfl
      · rw [oset_ne _ _ e] at h; exact Or.inr h
    refine ⟨I.fresh, fun y t hy p hp => ?_, fun y t hy => ?_, fun y z t u p hy hz hp hq => ?_, fun b hb => ?_⟩
    · rcases look y t hy with h | h
      · subst h; simp [ptrs] at hp
      · exact I.ent y t h p hp
    · rcases look y t hy with h | h
      · subst h; simp [ptrs]
      · exact I.nodup y t h
    · rcases look y t hy with h | h
      · subst h; simp [ptrs] at hp
      · rcases look z u hz with h' | h'
        · subst h'; simp [ptrs] at hq
        · exact I.disj y z t u p h h' hp hq
    · obtain ⟨y, t, h1, h2⟩ := I.noleak b hb
      have ey : y ≠ x := by rintro rfl; rw [hx] at h1; cases h1
      exact ⟨y, t, by show oset _ _ _ _ = _; rw [oset_ne _ _ ey]; exact h1, h2⟩
  cases op with
  | make x => exact Ok_ok.2 (empty x hv)
  | copy x y =>
    obtain ⟨hx, hy⟩ := hv
    show Ok (w.find y >>= _) _
    rw [find_of hy, bind_ok]
    exact Ok_ok.2 (empty x hx)
  | move x y =>
    obtain ⟨hx, hy⟩ := hv
    obtain ⟨t, ht⟩ := Option.ne_none_iff_exists'.1 hy
    show Ok (w.find y >>= _) _
    rw [find_of ht, bind_ok]
    have hne : y ≠ x := by rintro rfl; rw [hx] at ht; cases ht
    have look : ∀ z u, oset (oset w.opts y (some [])) x (some t) z = some u →
        (z = x ∧ u = t) ∨ (z = y ∧ u = []) ∨ (z ≠ x ∧ z ≠ y ∧ w.opts z = some u) := by
      intro z u h
      by_cases e : z = x
      · subst e; rw [oset_self] at h; cases h; exact Or.inl ⟨rfl, rfl⟩
      · rw [oset_ne _ _ e] at h
        by_cases e' : z = y
        · subst e'; rw [oset_self] at h; cases h; exact Or.inr (Or.inl ⟨rfl, rfl⟩)
        · rw [oset_ne _ _ e'] at h; exact Or.inr (Or.inr ⟨e, e', h⟩)
    -- the old name of each table
    have old : ∀ z u p, oset (oset w.opts y (some [])) x (some t) z = some u → p ∈ ptrs u →
        ∃ z', w.opts z' = some u ∧ (z = x ∧ z' = y ∨ z ≠ x ∧ z ≠ y ∧ z' = z) := by
      intro z u p h hp
      rcases look z u h with ⟨h1, h2⟩ | ⟨h1, h2⟩ | ⟨h1, h2, h3⟩
      · subst h2; exact ⟨y, ht, Or.inl ⟨h1, rfl⟩⟩
      · subst h2; simp [ptrs] at hp
      · exact ⟨z, h3, Or.inr ⟨h1, h2, rfl⟩⟩
    refine Ok_ok.2 ⟨I.fresh, fun z u hz p hp => ?_, fun z u hz => ?_, fun a b u v p ha hb hp hq => ?_, fun b hb => ?_⟩
    · obtain ⟨z', h1, _⟩ := old z u p hz hp
      exact I.ent z' u h1 p hp
    · rcases look z u hz with ⟨_, h2⟩ | ⟨_, h2⟩ | ⟨_, _, h3⟩
      · subst h2; exact I.nodup y _ ht
      · subst h2; simp [ptrs]
      · exact I.nodup z u h3
    · obtain ⟨a', h1, h2⟩ := old a u p ha hp
      obtain ⟨b', h3, h4⟩ := old b v p hb hq
      have := I.disj a' b' u v p h1 h3 hp hq
      subst this
      rcases h2 with ⟨h2, h2'⟩ | ⟨h2, h2', h2''⟩ <;> rcases h4 with ⟨h4, h4'⟩ | ⟨h4, h4', h4''⟩
      · rw [h2, h4]
      · exact absurd (h4''.symm.trans h2') h4'
      · exact absurd (h2''.symm.trans h4') h2'
      · rw [← h2'', ← h4'']
    · obtain ⟨z, u, h1, h2⟩ := I.noleak b hb
      by_cases e : z = y
      · subst e
        rw [ht] at h1; cases h1
        exact ⟨x, t, oset_self _ _ _, h2⟩
      · have e' : z ≠ x := by rintro rfl; rw [hx] at h1; cases h1
        exact ⟨z, u, by show oset _ _ _ _ = _; rw [oset_ne _ _ e', oset_ne _ _ e]; exact h1, h2⟩
  | touch x key size =>
    obtain ⟨t, ht⟩ := Option.ne_none_iff_exists'.1 hv
    show Ok (w.find x >>= _) _
    rw [find_of ht, bind_ok]
    unfold get
    cases hf : t.find? (fun e => e.1 == key) with
    | some e =>
      refine Ok_ok.2 ?_
      have : oset w.opts x (some t) = w.opts := by
        funext z; by_cases e : z = x
        · subst e; rw [oset_self, ht]
        · rw [oset_ne _ _ e]
      show OInv ⟨w.heap, oset w.opts x (some t)⟩
      rw [this]; exact I
    | none =>
      dsimp only
      rw [bind_assoc_res]
      refine (resize_fresh w.heap zero size).bind (fun ⟨H1, r⟩ ⟨h1, h2, h3, _, _⟩ => Ok_ok.2 ?_)
      dsimp only at h1 h2 h3 ⊢
      subst h1
      have hpt : ptrs (t ++ [(key, ⟨.at w.heap.next 0, size⟩)]) = ptrs t ++ [.at w.heap.next 0] := by simp [ptrs]
      have hnew : ∀ y u, w.opts y = some u → Ptr.at w.heap.next 0 ∉ ptrs u := by
        intro y u hy hm
        obtain ⟨b, hb, hl⟩ := I.ent y u hy _ hm
        cases hb
        have := I.fresh _ hl; omega
      have look : ∀ y u, oset w.opts x (some (t ++ [(key, ⟨.at w.heap.next 0, size⟩)])) y = some u →
          (y = x ∧ u = t ++ [(key, ⟨.at w.heap.next 0, size⟩)]) ∨ (y ≠ x ∧ w.opts y = some u) := by
        intro y u hy
        by_cases e : y = x
        · subst e; rw [oset_self] at hy; cases hy; exact Or.inl ⟨rfl, rfl⟩
        · rw [oset_ne _ _ e] at hy; exact Or.inr ⟨e, hy⟩
      refine ⟨fun b hb => ?_, fun y u hy p hp => ?_, fun y u hy => ?_, fun a b u v p ha hb hp hq => ?_, fun b hb => ?_⟩
      · show b < H1.next
        rw [h2]
        rcases (h3 b).1 hb with h | h
        · omega
        · have := I.fresh b h; omega
      · show ∃ b, p = .at b 0 ∧ H1.live b
        rcases look y u hy with ⟨e, hu⟩ | ⟨e, hu⟩
        · subst hu
          rw [hpt] at hp
          rcases List.mem_append.1 hp with h | h
          · obtain ⟨b, hb, hl⟩ := I.ent x t ht p h
            exact ⟨b, hb, (h3 b).2 (Or.inr hl)⟩
          · rw [List.mem_singleton.1 h]
            exact ⟨_, rfl, (h3 _).2 (Or.inl rfl)⟩
        · obtain ⟨b, hb, hl⟩ := I.ent y u hu p hp
          exact ⟨b, hb, (h3 b).2 (Or.inr hl)⟩
      · rcases look y u hy with ⟨e, hu⟩ | ⟨e, hu⟩
        · subst hu
          rw [hpt]
          refine List.nodup_append.2 ⟨I.nodup x t ht, by simp, fun a ha b hb hab => ?_⟩
          rw [List.mem_singleton.1 hb] at hab
          exact hnew x t ht (hab ▸ ha)
        · exact I.nodup y u hu
      · rcases look a u ha with ⟨e, hu⟩ | ⟨e, hu⟩ <;> rcases look b v hb with ⟨e', hv⟩ | ⟨e', hv⟩
        · rw [e, e']
        · subst hu
          rw [hpt] at hp
          rcases List.mem_append.1 hp with h | h
          · rw [e]; exact I.disj x b t v p ht hv h hq
          · rw [List.mem_singleton.1 h] at hq
            exact absurd hq (hnew b v hv)
        · subst hv
          rw [hpt] at hq
          rcases List.mem_append.1 hq with h | h
          · rw [e']; exact I.disj a x u t p hu ht hp h
          · rw [List.mem_singleton.1 h] at hp
            exact absurd hp (hnew a u hu)
        · exact I.disj a b u v p hu hv hp hq
      · rcases (h3 b).1 hb with h | h
        · subst h
          exact ⟨x, _, oset_self _ _ _, by rw [hpt]; simp⟩
        · obtain ⟨y, u, h4, h5⟩ := I.noleak b h
          by_cases e : y = x
          · subst e
            rw [ht] at h4; cases h4
            exact ⟨y, _, oset_self _ _ _, by rw [hpt]; exact List.mem_append_left _ h5⟩
          · exact ⟨y, u, by show oset _ _ _ _ = _; rw [oset_ne _ _ e]; exact h4, h5⟩
  | destroy x =>
    obtain ⟨t, ht⟩ := Option.ne_none_iff_exists'.1 hv
    show Ok (w.find x >>= _) _
    rw [find_of ht, bind_ok]
    refine (release_ok t w.heap (I.nodup x t ht) (I.ent x t ht)).bind (fun H1 ⟨h1, h2⟩ => Ok_ok.2 ?_)
    have look : ∀ y u, oset w.opts x none y = some u → y ≠ x ∧ w.opts y = some u := by
      intro y u hy
      by_cases e : y = x
      · subst e; rw [oset_self] at hy; cases hy
      · rw [oset_ne _ _ e] at hy; exact ⟨e, hy⟩
    refine ⟨fun b hb => ?_, fun y u hy p hp => ?_, fun y u hy => I.nodup y u (look y u hy).2,
      fun a b u v p ha hb hp hq => I.disj a b u v p (look a u ha).2 (look b v hb).2 hp hq, fun b hb => ?_⟩
    · show b < H1.next
      rw [h1]; exact I.fresh b ((h2 b).1 hb).1
    · obtain ⟨e, hu⟩ := look y u hy
      obtain ⟨b, hb, hl⟩ := I.ent y u hu p hp
      refine ⟨b, hb, (h2 b).2 ⟨hl, fun h => e (I.disj y x u t p hu ht hp (hb ▸ h))⟩⟩
    · obtain ⟨h3, h4⟩ := (h2 b).1 hb
      obtain ⟨y, u, h5, h6⟩ := I.noleak b h3
      have e : y ≠ x := by rintro rfl; rw [ht] at h5; cases h5; exact h4 h6
      exact ⟨y, u, by show oset _ _ _ _ = _; rw [oset_ne _ _ e]; exact h5, h6⟩

theorem run_inv {zero : α} (ops : List OOp) : ∀ {w : OWorld α}, OInv w → OValidHist zero w ops →
    Ok (w.run zero ops) (fun w' => OInv w') := by
  induction ops with
  | nil => exact fun I _ => Ok_ok.2 I
  | cons op ops ih =>
    intro w I hv
    obtain ⟨w', h1, h2⟩ := step_inv (zero := zero) I op hv.1
    show Ok (w.step zero op >>= _) _
    rw [h1]
    exact ih h2 (hv.2 w' h1)

/-! ## C74 -/

/-- Every history in which only optimizers without state are copied runs without invalid `delete`; every state array has
exactly one owner; once every optimizer is destroyed no array is left. -/
theorem C74_storage_partial (zero : α) (ops : List OOp) (h : OValidHist zero (OWorld.init : OWorld α) ops) :
    ∃ w', (OWorld.init : OWorld α).run zero ops = .ok w' ∧ ((∀ x, w'.opts x = none) → ∀ b, ¬ w'.heap.live b) ∧
      (∀ b, w'.heap.live b → ∃ x t, w'.opts x = some t ∧ (t.map (fun e => e.2.first)).count (.at b 0) = 1 ∧
        ∀ y u, w'.opts y = some u → (∃ e ∈ u, e.2.first = .at b 0) → y = x) := by
  obtain ⟨w', h1, I⟩ := run_inv (zero := zero) ops OInv.init h
  refine ⟨w', h1, fun hn b hb => ?_, fun b hb => ?_⟩
  · obtain ⟨x, t, h2, _⟩ := I.noleak b hb
    rw [hn x] at h2; cases h2
  · obtain ⟨x, t, h2, h3⟩ := I.noleak b hb
    refine ⟨x, t, h2, List.count_eq_one_of_mem (I.nodup x t h2) h3, fun y u hy ⟨e, he, hp⟩ => ?_⟩
    exact I.disj y x u t _ hy h2 (List.mem_map.2 ⟨e, he, hp⟩) h3

/-- The first access for a parameter gives an array of its size filled with zeros, at a new place; later accesses give the
same array. -/
theorem C74_entry (zero : α) (H : Heap α) (t : Tables) (key : Nat × Nat) (size : Nat)
    (hk : ∀ e ∈ t, e.1 ≠ key) :
    Ok (get H zero t key size) (fun r => r.2.2.size = size ∧ r.1.Holds r.2.2.first size (fun _ => zero) ∧
      (∀ b o, H.live b → b < H.next → r.1.cellAt b o = H.cellAt b o) ∧ r.2.1.length = t.length + 1 ∧
      ∀ size', get r.1 zero r.2.1 key size' = .ok (r.1, r.2.1, r.2.2)) := by
  have hnone : t.find? (fun e => e.1 == key) = none := by
    rw [List.find?_eq_none]; intro e he; simpa using hk e he
  unfold get
  rw [hnone]
  dsimp only
  refine (resize_fresh H zero size).bind (fun ⟨H1, r⟩ ⟨h1, h2, h3, h4, h5⟩ => Ok_ok.2 ?_)
  dsimp only at h1 h2 h3 h4 h5 ⊢
  subst h1
  refine ⟨rfl, Or.inr ⟨_, 0, rfl, fun i hi => by rw [Nat.zero_add]; exact h4 i hi⟩, fun b o _ hb => h5 b o (Nat.ne_of_lt hb),
    by simp, fun size' => ?_⟩
  have : (t ++ [(key, (⟨.at H.next 0, size⟩ : Rng))]).find? (fun e => e.1 == key) = some (key, ⟨.at H.next 0, size⟩) := by
    rw [List.find?_append, hnone]; simp
  rw [this]

/-- Violated: copying an optimizer that has state (it has been used for an update) makes the program free the same array
twice: whichever of the two is destroyed first, destroying the other is an invalid `delete`. In every reached state. -/
theorem C74_copy_violated (zero : α) (ops : List OOp) (h : OValidHist zero (OWorld.init : OWorld α) ops) (w : OWorld α)
    (hw : (OWorld.init : OWorld α).run zero ops = .ok w) (x y : Nat) (t : Tables) (hy : w.opts y = some t) (ht : t ≠ [])
    (hx : w.opts x = none) :
    w.run zero [.copy x y, .destroy x, .destroy y] = .error .badFree ∧
    w.run zero [.copy x y, .destroy y, .destroy x] = .error .badFree := by
  obtain ⟨w', h1, I⟩ := run_inv (zero := zero) ops OInv.init h
  rw [hw] at h1; cases h1
  have hne : x ≠ y := by rintro rfl; rw [hx] at hy; cases hy
  obtain ⟨H1, e1, _, h2⟩ := release_ok t w.heap (I.nodup y t hy) (I.ent y t hy)
  obtain ⟨H1', e1', _, h2'⟩ := release_ok (copyTables t) w.heap (by rw [ptrs_copy]; exact I.nodup y t hy)
    (by rw [ptrs_copy]; exact I.ent y t hy)
  obtain ⟨e, t', rfl⟩ := List.exists_cons_of_ne_nil ht
  obtain ⟨b, hb, hl⟩ := I.ent y _ hy e.2.first (by simp [ptrs])
  have hm : Ptr.at b 0 ∈ ptrs (e :: t') := by simp [ptrs, hb]
  have c1 : w.step zero (.copy x y) = .ok { w with opts := oset w.opts x (some (copyTables (e :: t'))) } := by
    show (w.find y >>= _) = _
    rw [find_of hy]; rfl
  constructor
  · unfold OWorld.run
    rw [c1, bind_ok]
    unfold OWorld.run
    have c2 : OWorld.step zero { w with opts := oset w.opts x (some (copyTables (e :: t'))) } (.destroy x) =
        .ok ⟨H1', oset (oset w.opts x (some (copyTables (e :: t')))) x none⟩ := by
      show (OWorld.find _ x >>= _) = _
      rw [find_of (t := copyTables (e :: t')) (oset_self _ _ _), bind_ok]
      show (release w.heap _ >>= _) = _
      rw [e1']; rfl
    rw [c2, bind_ok]
    unfold OWorld.run
    have c3 : OWorld.step zero (⟨H1', oset (oset w.opts x (some (copyTables (e :: t')))) x none⟩ : OWorld α) (.destroy y) =
        .error .badFree := by
      show (OWorld.find _ y >>= _) = _
      rw [find_of (t := e :: t') (by show oset _ _ _ _ = _; rw [oset_ne _ _ hne.symm, oset_ne _ _ hne.symm]; exact hy), bind_ok]
      show (release H1' _ >>= _) = _
      rw [release_err (e :: t') H1' b hm (fun h => ((h2' b).1 h).2 (by rw [ptrs_copy]; exact hm))]
      rfl
    rw [c3]; rfl
  · unfold OWorld.run
    rw [c1, bind_ok]
    unfold OWorld.run
    have c2 : OWorld.step zero { w with opts := oset w.opts x (some (copyTables (e :: t'))) } (.destroy y) =
        .ok ⟨H1, oset (oset w.opts x (some (copyTables (e :: t')))) y none⟩ := by
      show (OWorld.find _ y >>= _) = _
      rw [find_of (t := e :: t') (by show oset _ _ _ _ = _; rw [oset_ne _ _ hne.symm]; exact hy), bind_ok]
      show (release w.heap _ >>= _) = _
      rw [e1]; rfl
    rw [c2, bind_ok]
    unfold OWorld.run
    have c3 : OWorld.step zero (⟨H1, oset (oset w.opts x (some (copyTables (e :: t')))) y none⟩ : OWorld α) (.destroy x) =
        .error .badFree := by
      show (OWorld.find _ x >>= _) = _
      rw [find_of (t := copyTables (e :: t')) (by show oset _ _ _ _ = _; rw [oset_ne _ _ hne, oset_self]), bind_ok]
      show (release H1 _ >>= _) = _
      rw [release_err _ H1 b (by rw [ptrs_copy]; exact hm) (fun h => ((h2 b).1 h).2 hm)]
      rfl
    rw [c3]; rfl

/-- Non-vacuity: two optimizers, three updates, a move, a copy before first use, destruction. -/
example : OValidHist (0 : Nat) (OWorld.init : OWorld Nat)
    [.make 0, .copy 1 0, .touch 0 (0, 100) 3, .touch 0 (1, 100) 3, .touch 0 (0, 100) 3, .move 2 0, .destroy 0, .destroy 2, .destroy 1] := by
  refine ⟨rfl, fun w h => ?_⟩; cases h
  refine ⟨⟨rfl, rfl⟩, fun w h => ?_⟩; cases h
  refine ⟨(fun h => by cases h), fun w h => ?_⟩; cases h
  refine ⟨(fun h => by cases h), fun w h => ?_⟩; cases h
  refine ⟨(fun h => by cases h), fun w h => ?_⟩; cases h
  refine ⟨⟨rfl, (fun h => by cases h)⟩, fun w h => ?_⟩; cases h
  refine ⟨(fun h => by cases h), fun w h => ?_⟩; cases h
  refine ⟨(fun h => by cases h), fun w h => ?_⟩; cases h
  refine ⟨(fun h => by cases h), fun w h => ?_⟩; cases h
  trivial

example : ∃ w, (OWorld.init : OWorld Nat).run 0 [.make 0, .touch 0 (0, 100) 3] = .ok w ∧
    w.run 0 [.copy 1 0, .destroy 1, .destroy 0] = .error .badFree := by
  refine ⟨_, rfl, (C74_copy_violated (0 : Nat) [.make 0, .touch 0 (0, 100) 3] ?_ _ rfl 1 0 _ rfl (by simp) rfl).1⟩
  refine ⟨rfl, fun w h => ?_⟩; cases h
  refine ⟨(fun h => by cases h), fun w h => ?_⟩; cases h
  trivial

end Trixy.OptMem
