import Verif.Proof.TensorMem
import Mathlib.Logic.Function.Iterate
/-
Properties C01–C11, C63: storage of vectors, matrices and tensors.
-/
namespace Trixy

variable {α : Type _}

/-! ## C01 row-major indexing -/

/-- In-range accesses of a tensor whose element count fits `size_t`: the offset computed in `size_t`
arithmetic lies inside the allocation of `size` cells. -/
theorem C01_in_bounds (d h w i j k : Nat) (hfit : d * h * w < W64) (hi : i < d) (hj : j < h) (hk : k < w) :
    (Shape.mk3 d h w).size = d * h * w ∧
    (Shape.mk3 d h w).at3w i j k < (Shape.mk3 d h w).size ∧
    (Shape.mk3 d h w).at3w i j k = (Shape.mk3 d h w).at3 i j k := by
  have h1 := idx3_lt hi hj hk
  have hw : 1 ≤ w := by omega
  have h2 : i * h + j ≤ (i * h + j) * w := Nat.le_mul_of_pos_right _ hw
  have h3 : d * h ≤ d * h * w := Nat.le_mul_of_pos_right _ hw
  have hs : (Shape.mk3 d h w).size = d * h * w := by
    show d * h % W64 * w % W64 = _
    rw [Nat.mod_eq_of_lt (a := d * h) (by omega), Nat.mod_eq_of_lt hfit]
  have he : (Shape.mk3 d h w).at3w i j k = (Shape.mk3 d h w).at3 i j k := by
    show ((i * h % W64 + j) % W64 * w % W64 + k) % W64 = (i * h + j) * w + k
    rw [Nat.mod_eq_of_lt (a := i * h) (by omega), Nat.mod_eq_of_lt (a := i * h + j) (by omega),
      Nat.mod_eq_of_lt (a := (i * h + j) * w) (by omega), Nat.mod_eq_of_lt (by omega)]
  refine ⟨hs, ?_, he⟩
  rw [he, hs]; exact h1

/-- Different in-range triples designate different cells. -/
theorem C01_injective (d h w i j k i' j' k' : Nat) (hfit : d * h * w < W64)
    (hi : i < d) (hj : j < h) (hk : k < w) (hi' : i' < d) (hj' : j' < h) (hk' : k' < w)
    (e : (Shape.mk3 d h w).at3w i j k = (Shape.mk3 d h w).at3w i' j' k') : i = i' ∧ j = j' ∧ k = k' := by
  rw [(C01_in_bounds d h w i j k hfit hi hj hk).2.2, (C01_in_bounds d h w i' j' k' hfit hi' hj' hk').2.2] at e
  exact (idx3_inj hj hk hj' hk').1 e

/-- Every cell is designated by some in-range triple. -/
theorem C01_surjective (d h w c : Nat) (hfit : d * h * w < W64) (hc : c < (Shape.mk3 d h w).size) :
    ∃ i j k, i < d ∧ j < h ∧ k < w ∧ (Shape.mk3 d h w).at3w i j k = c := by
  have hc' : c < d * h * w := by
    have : (Shape.mk3 d h w).size ≤ d * h * w := by
      show d * h % W64 * w % W64 ≤ _
      exact Nat.le_trans (Nat.mod_le _ _) (Nat.mul_le_mul_right _ (Nat.mod_le _ _))
    omega
  have hw : 0 < w := Nat.pos_of_ne_zero (fun h0 => by simp [h0] at hc')
  have hh : 0 < h := Nat.pos_of_ne_zero (fun h0 => by simp [h0] at hc')
  have h1 : c / w < d * h := Nat.div_lt_of_lt_mul (by rw [Nat.mul_comm]; exact hc')
  have hi : c / w / h < d := Nat.div_lt_of_lt_mul (by rw [Nat.mul_comm]; exact h1)
  have hj : c / w % h < h := Nat.mod_lt _ hh
  have hk : c % w < w := Nat.mod_lt _ hw
  refine ⟨c / w / h, c / w % h, c % w, hi, hj, hk, ?_⟩
  rw [(C01_in_bounds d h w _ _ _ hfit hi hj hk).2.2]
  show (c / w / h * h + c / w % h) * w + c % w = c
  rw [Nat.div_add_mod', Nat.div_add_mod']

/-- The matrix half: in-range, and a bijection onto the cells. -/
theorem C01_matrix (h w : Nat) (hfit : h * w < W64) :
    (∀ i j, i < h → j < w → (Shape.mk2 h w).at2w i j < (Shape.mk2 h w).size) ∧
    (∀ i j i' j', i < h → j < w → i' < h → j' < w →
      (Shape.mk2 h w).at2w i j = (Shape.mk2 h w).at2w i' j' → i = i' ∧ j = j') ∧
    (∀ c, c < (Shape.mk2 h w).size → ∃ i j, i < h ∧ j < w ∧ (Shape.mk2 h w).at2w i j = c) := by
  have hs : (Shape.mk2 h w).size = h * w := Nat.mod_eq_of_lt hfit
  have he : ∀ i j, i < h → j < w → (Shape.mk2 h w).at2w i j = i * w + j := by
    intro i j hi hj
    have h1 := idx2_lt hi hj
    show (i * w % W64 + j) % W64 = _
    rw [Nat.mod_eq_of_lt (a := i * w) (by omega), Nat.mod_eq_of_lt (by omega)]
  refine ⟨fun i j hi hj => ?_, fun i j i' j' hi hj hi' hj' e => ?_, fun c hc => ?_⟩
  · rw [he i j hi hj, hs]; exact idx2_lt hi hj
  · rw [he i j hi hj, he i' j' hi' hj'] at e
    exact (idx2_inj hj hj').1 e
  · rw [hs] at hc
    have hw : 0 < w := Nat.pos_of_ne_zero (fun h0 => by simp [h0] at hc)
    have hi : c / w < h := Nat.div_lt_of_lt_mul (by rw [Nat.mul_comm]; exact hc)
    refine ⟨c / w, c % w, hi, Nat.mod_lt _ hw, ?_⟩
    rw [he _ _ hi (Nat.mod_lt _ hw), Nat.div_add_mod']

/-- Without the "fits" hypothesis the claim fails: a shape whose dimensions are valid words, whose
in-range access (0,0,0) is outside the allocation of `size = 0` cells. -/
theorem C01_overflow_witness : ∃ d h w, d < W64 ∧ h < W64 ∧ w < W64 ∧ 0 < d ∧ 0 < h ∧ 0 < w ∧
    ¬ (Shape.mk3 d h w).at3w 0 0 0 < (Shape.mk3 d h w).size :=
  ⟨4294967296, 4294967296, 1, by decide, by decide, by decide, by decide, by decide, by decide, by decide⟩

example : (2 * 3 * 4 < W64) ∧ (Shape.mk3 2 3 4).at3w 1 2 3 = 23 ∧ (Shape.mk3 2 3 4).size = 24 := by decide

/-! ## C02 memory safety of all histories -/

/-- Every history that respects the preconditions runs without undefined behaviour (no invalid delete, no
access through a null or freed pointer, none out of bounds), and when all objects are destroyed no
allocation is left. -/
theorem C02_memory_safe (ops : List (Op α)) (h : ValidHist (World.init : World α) ops) :
    ∃ w', (World.init : World α).run ops = .ok w' ∧
      ((∀ x, w'.own x = none) → ∀ b, ¬ w'.heap.live b) ∧
      (∀ b, w'.heap.live b → ∃ x o, w'.own x = some o ∧ o.data = .at b 0 ∧
        ∀ y o', w'.own y = some o' → o'.data = .at b 0 → y = x) ∧
      (∀ x o, w'.own x = some o → o.Usable → w'.heap.Room o.data o.shape.size) := by
  obtain ⟨w', h1, I⟩ := run_inv (w := World.init) WInv.init ops h
  refine ⟨w', h1, fun hn b hb => ?_, fun b hb => ?_, fun x o hx hu => ?_⟩
  · obtain ⟨x, o, h2, _⟩ := I.noleak b hb
    rw [hn x] at h2; cases h2
  · obtain ⟨x, o, h2, h3⟩ := I.noleak b hb
    exact ⟨x, o, h2, h3, fun y o' hy ho => I.inj y x o' o b hy h2 ho h3⟩
  · rcases hu.storage I hx with h0 | ⟨b, h1, _, h3⟩
    · exact Or.inl h0
    · exact Or.inr ⟨b, 0, h1, by simpa using h3⟩

theorem ValidHist.cons {w w' : World α} {op : Op α} {ops : List (Op α)} (h : Valid w op)
    (e : w.step op = .ok w') (t : ValidHist w' ops) : ValidHist w (op :: ops) :=
  ⟨h, fun w'' e' => by rw [e] at e'; cases e'; exact t⟩

/-- Non-vacuity: a history with construction, copy, move, assignment, resize, views and destruction. -/
example : ValidHist (World.init : World Nat)
    [.valueCtor 0 .mat 1 2 3 7, .copyCtor 1 0, .moveCtor 2 0, .resize 0 1 3 3, .fill 0 5,
     .copyAssign 2 0, .viewMake 9 2, .viewWrite 9 8 4, .moveAssign 1 2, .destroy 0, .destroy 1, .destroy 2] := by
  refine .cons (Eq.refl none) rfl ?_
  refine .cons ⟨Eq.refl none, _, rfl, Or.inl (by decide)⟩ rfl ?_
  refine .cons ⟨Eq.refl none, _, rfl⟩ rfl ?_
  refine .cons ⟨_, rfl⟩ rfl ?_
  refine .cons ⟨_, rfl, Or.inl (by decide)⟩ rfl ?_
  refine .cons ⟨_, _, rfl, rfl, rfl, fun _ => ⟨Or.inl (by decide), fun _ => by decide⟩⟩ rfl ?_
  refine .cons ⟨_, rfl⟩ rfl ?_
  refine .cons ⟨_, 2, _, rfl, rfl, rfl, Or.inl (by decide), by decide⟩ rfl ?_
  refine .cons ⟨_, _, rfl, rfl, rfl⟩ rfl ?_
  refine .cons ⟨_, rfl⟩ rfl ?_
  refine .cons ⟨_, rfl⟩ rfl ?_
  refine .cons ⟨_, rfl⟩ rfl ?_
  trivial

/-! ## C03–C06 copying -/

/-- Allocation names in use are older than the next fresh one (true of every reachable heap). -/
def Heap.WF (H : Heap α) : Prop := ∀ b, H.live b → b < H.next

theorem Heap.Holds.old {H : Heap α} (hw : H.WF) {p : Ptr} {n : Nat} {f} (h : H.Holds p n f) :
    n = 0 ∨ ∃ b o, p = .at b o ∧ b < H.next ∧ ∀ i, i < n → H.cellAt b (o + i) = some (some (f i)) := by
  rcases h with h | ⟨b, o, h1, h2⟩
  · exact Or.inl h
  · by_cases hn : n = 0
    · exact Or.inl hn
    · exact Or.inr ⟨b, o, h1, hw b (Heap.cellAt_live (h2 0 (by omega))), h2⟩

/-- Changes confined to cells of another allocation are invisible. -/
theorem Heap.Holds.frame {H H' : Heap α} {p q : Ptr} {n m : Nat} {f} (h : H.Holds q n f)
    (hs : H.SameExcept H' p m) (hne : ∀ b o o', p = .at b o → q ≠ .at b o') : H'.Holds q n f := by
  rcases h with h | ⟨b, o, rfl, h2⟩
  · exact Or.inl h
  · refine Or.inr ⟨b, o, rfl, fun i hi => ?_⟩
    rw [hs.2.2, h2 i hi]
    rintro pb po e ⟨rfl, _⟩
    exact hne _ _ _ e rfl

/-- What a correct copy `o` (in heap `H'`) of `t` (in heap `H`) holding `f` is: same shape and
elements in a fresh allocation, the rest of the store unchanged, and neither object sees later changes
made to the cells of the other. -/
def DeepCopy (H H' : Heap α) (t o : Obj) (f : Nat → α) : Prop :=
  o.kind = t.kind ∧ o.shape = t.shape ∧ H'.Holds o.data o.shape.size f ∧ H'.Holds t.data t.shape.size f ∧
  (∃ b, o.data = .at b 0 ∧ ¬ H.live b) ∧
  (∀ H'', H'.SameExcept H'' o.data o.shape.size → H''.Holds t.data t.shape.size f) ∧
  (∀ H'', H'.SameExcept H'' t.data t.shape.size → H''.Holds o.data o.shape.size f)

/-- A write through `operator()` is a change confined to the object's cells. -/
theorem set1_sameExcept {H H' : Heap α} {o : Obj} {i : Nat} {v : α} (hi : i < o.shape.size)
    (e : o.set1 H i v = .ok H') : H.SameExcept H' o.data o.shape.size := by
  unfold Obj.set1 Heap.store at e
  cases hd : o.data with
  | null => rw [hd] at e; cases e
  | «at» b off =>
    rw [hd] at e
    have e0 := e
    unfold Heap.put at e
    cases hb : H.blocks b with
    | none => simp [hb] at e
    | some buf =>
      simp only [hb] at e
      split at e
      · rename_i hlt
        have hc : H.cellAt b (off + i) = some buf[off + i] := by
          simp [Heap.cellAt, hb, hlt]
        obtain ⟨H2, h1, h2⟩ := Heap.put_spec (some v) hc
        rw [e0] at h1; cases h1
        refine ⟨h2.1, h2.2.1, fun b' o' hne => ?_⟩
        rw [h2.2.2]; dsimp only
        rw [if_neg]
        rintro ⟨rfl, rfl⟩
        exact hne _ _ rfl ⟨rfl, by omega, by omega⟩
      · cases e

/-- Copy loop into a fresh block, full contents. -/
theorem copy_fresh {H : Heap α} (hw : H.WF) {t : Ptr} {n m k : Nat} {f : Nat → α} (hk : k ≤ n) (hm : m ≤ k)
    (ht : H.Holds t n f) :
    Ok (copyLoop (H.new k).1 (H.new k).2 m t) (fun H' => H'.next = H.next + 1 ∧
      (∀ b, H'.live b ↔ b = H.next ∨ H.live b) ∧
      ∀ b o, H'.cellAt b o = if b = H.next then
        (if o < m then some (some (f o)) else if o < k then some none else none) else H.cellAt b o) := by
  rw [copyLoop_eq]
  refine new_loop hm (new := fun i => some (f i)) (fun i hi h' hh => ?_)
  rcases ht.old hw with h0 | ⟨b, o, rfl, hb, hc⟩
  · omega
  · apply Heap.cell_of
    rw [hh _ _ (by omega), hc i (by omega)]

theorem deepCopy_of {H H' : Heap α} (hw : H.WF) {t : Obj} {f : Nat → α} {m : Nat}
    (hm : m = t.shape.size) (ht : H.Holds t.data t.shape.size f)
    (h3 : ∀ b o, H'.cellAt b o = if b = H.next then
        (if o < m then some (some (f o)) else if o < t.shape.size then some none else none) else H.cellAt b o) :
    DeepCopy H H' t ⟨t.kind, .at H.next 0, t.shape⟩ f := by
  subst hm
  have c1 : H'.Holds (.at H.next 0) t.shape.size f :=
    Or.inr ⟨H.next, 0, rfl, fun i hi => by rw [h3]; simp [hi]⟩
  have c2 : H'.Holds t.data t.shape.size f := by
    rcases ht.old hw with h0 | ⟨b, o, e, hb, hc⟩
    · exact Or.inl h0
    · exact Or.inr ⟨b, o, e, fun i hi => by rw [h3, if_neg (by omega), hc i hi]⟩
  have ne : t.shape.size = 0 ∨ ∀ o, t.data ≠ .at H.next o := by
    rcases ht.old hw with h0 | ⟨b, o, e, hb, hc⟩
    · exact Or.inl h0
    · refine Or.inr (fun o' he => ?_)
      rw [e] at he; cases he; omega
  refine ⟨rfl, rfl, c1, c2, ⟨H.next, rfl, fun h => Nat.lt_irrefl _ (hw _ h)⟩, fun H'' hs => ?_, fun H'' hs => ?_⟩
  · rcases ne with h0 | ne
    · exact Or.inl h0
    · refine c2.frame hs (fun b o o' e he => ?_)
      cases e; exact ne o' he
  · rcases ne with h0 | ne
    · exact Or.inl h0
    · refine c1.frame hs (fun b o o' e he => ?_)
      cases he; exact ne o e

/-- C03: copy construction of a 3-D tensor is a deep copy; so is that of a matrix with depth 1 and
consistent fields (as every matrix built by a sized, valued or range constructor has). -/
theorem C03_copy_ctor_deep (H : Heap α) (hw : H.WF) (t : Obj) (f : Nat → α)
    (hk : t.kind = .ten ∨ (t.kind = .mat ∧ t.shape.h < W64 ∧ t.shape = Shape.mk2 t.shape.h t.shape.w))
    (ht : H.Holds t.data t.shape.size f) :
    Ok (Obj.copyCtor H t) (fun (H', o) => DeepCopy H H' t o f) := by
  have hs : copyCtorShape t = t.shape := by
    rcases hk with hk | ⟨hk, hh, he⟩
    · unfold copyCtorShape; rw [hk]
    · unfold copyCtorShape; rw [hk]
      show Shape.mk2 (wmul t.shape.d t.shape.h) t.shape.w = t.shape
      have : t.shape.d = 1 := by rw [he]; rfl
      rw [this]
      have e2 : wmul 1 t.shape.h = t.shape.h := by unfold wmul; rw [Nat.one_mul, Nat.mod_eq_of_lt hh]
      rw [e2]; exact he.symm
  unfold Obj.copyCtor
  simp only [hs]
  refine (copy_fresh hw (Nat.le_refl _) (Nat.le_refl t.shape.size) ht).bind (fun H' ⟨h1, h2, h3⟩ => Ok_ok.2 ?_)
  exact deepCopy_of hw rfl ht h3

/-- C04 violated: copy construction of a non-empty vector succeeds but yields an empty vector; none of
its elements can be read. -/
theorem C04_vector_copy_violated (H : Heap α) (t : Obj) (hk : t.kind = .vec) (hn : 0 < t.shape.size) :
    Ok (Obj.copyCtor H t) (fun (H', o) => o.shape.size = 0 ∧ o.shape.size ≠ t.shape.size ∧
      ∀ i, ∃ e, o.get1 H' i = .error e) := by
  unfold Obj.copyCtor copyCtorShape
  simp only [hk]
  show Ok (copyLoop (H.new t.shape.size).1 (H.new t.shape.size).2 0 t.data >>= _) _
  have : copyLoop (H.new t.shape.size).1 (H.new t.shape.size).2 0 t.data = .ok (H.new t.shape.size).1 := rfl
  rw [this, bind_ok]
  refine Ok_ok.2 ⟨rfl, ?_, fun i => ?_⟩
  · show (0 : Nat) ≠ _
    omega
  · show ∃ e, Heap.load (H.new t.shape.size).1 (.at H.next 0) i = .error e
    unfold Heap.load Heap.cell
    simp only [Heap.new, if_true, Buf.alloc, Nat.zero_add, List.getElem?_replicate]
    by_cases hi : i < t.shape.size
    · rw [if_pos hi]; exact ⟨_, rfl⟩
    · rw [if_neg hi]; exact ⟨_, rfl⟩

/-- C04, the part that holds: the copy of an empty vector is an empty vector (in its own allocation). -/
theorem C04_vector_copy_partial (H : Heap α) (t : Obj) (hk : t.kind = .vec) (hn : t.shape.size = 0) :
    Ok (Obj.copyCtor H t) (fun (_, o) => o.kind = .vec ∧ o.shape.size = t.shape.size) := by
  unfold Obj.copyCtor copyCtorShape
  simp only [hk]
  exact Ok_ok.2 ⟨rfl, hn.symm⟩

/-- The storage of `a` (if any) is a whole live allocation, and none of it belongs to `t`. -/
def Separate (H : Heap α) (a t : Obj) : Prop :=
  a.data = .null ∨ ∃ b, a.data = .at b 0 ∧ H.live b ∧ ∀ o, t.data ≠ .at b o

theorem delete_sep {H : Heap α} (hw : H.WF) {a t : Obj} (hs : Separate H a t) {n : Nat} {f : Nat → α}
    (ht : H.Holds t.data n f) :
    Ok (H.delete a.data) (fun H' => H'.WF ∧ H'.next = H.next ∧ H'.Holds t.data n f ∧
      (∀ b, H'.live b ↔ H.live b ∧ a.data ≠ .at b 0) ∧
      ∀ b o, a.data ≠ .at b 0 → H'.cellAt b o = H.cellAt b o) := by
  rcases hs with h | ⟨b, h1, h2, h3⟩
  · rw [h]; exact Ok_ok.2 ⟨hw, rfl, ht, fun b => by simp, fun _ _ _ => rfl⟩
  · rw [h1]
    unfold Heap.delete
    have h2' : (H.blocks b).isSome = true := h2
    simp only [h2', and_self, if_true, Ok_ok]
    have hl : ∀ b', Heap.live (⟨fun b' => if b' = b then none else H.blocks b', H.next⟩ : Heap α) b' ↔
        H.live b' ∧ Ptr.at b 0 ≠ .at b' 0 := by
      intro b'
      unfold Heap.live
      by_cases e : b' = b
      · subst e; simp
      · have e' : ¬ b = b' := fun h => e h.symm
        simp [e, e']
    have hc : ∀ b' o, Ptr.at b 0 ≠ .at b' 0 →
        Heap.cellAt (⟨fun b' => if b' = b then none else H.blocks b', H.next⟩ : Heap α) b' o =
        H.cellAt b' o := by
      intro b' o hb
      have e' : ¬ b' = b := fun h => hb (by rw [h])
      simp [Heap.cellAt, e']
    refine ⟨fun b' hb => hw b' ((hl b').1 hb).1, trivial, ?_, hl, hc⟩
    rcases ht with h0 | ⟨tb, to, e, h4⟩
    · exact Or.inl h0
    · refine Or.inr ⟨tb, to, e, fun i hi => ?_⟩
      rw [hc, h4 i hi]
      intro he; cases he
      exact h3 to e

/-- C05, the part that holds: copy assignment between objects of equal size transfers all elements into a
fresh allocation and frees the old one; for a vector it does so for every pair of sizes. -/
theorem C05_copy_assign_partial (H : Heap α) (hw : H.WF) (a t : Obj) (f : Nat → α) (hk : a.kind = t.kind)
    (hs : Separate H a t) (ht : H.Holds t.data t.shape.size f)
    (hsz : a.kind = .vec ∨ a.shape.size = t.shape.size) :
    Ok (Obj.copyAssign H a t) (fun (H', o) =>
      o.kind = a.kind ∧ o.shape.size = t.shape.size ∧ o.shape.w = t.shape.w ∧
      (a.kind ≠ .vec → o.shape.h = t.shape.h) ∧
      H'.Holds o.data t.shape.size f ∧ H'.Holds t.data t.shape.size f ∧
      (∀ b, a.data = .at b 0 → ¬ H'.live b) ∧
      (∀ H'', H'.SameExcept H'' o.data o.shape.size → H''.Holds t.data t.shape.size f)) := by
  unfold Obj.copyAssign
  refine (delete_sep hw hs ht).bind (fun H1 ⟨hw1, hn1, ht1, hl1, hc1⟩ => ?_)
  have main : ∀ (m : Nat) (s : Shape), m = t.shape.size → s.size = t.shape.size → s.w = t.shape.w →
      (a.kind ≠ .vec → s.h = t.shape.h) →
      Ok (copyLoop (H1.new t.shape.size).1 (H1.new t.shape.size).2 m t.data >>=
        fun H' => (.ok (H', (⟨a.kind, (H1.new t.shape.size).2, s⟩ : Obj)) : Res _)) (fun (H', o) =>
      o.kind = a.kind ∧ o.shape.size = t.shape.size ∧ o.shape.w = t.shape.w ∧
      (a.kind ≠ .vec → o.shape.h = t.shape.h) ∧
      H'.Holds o.data t.shape.size f ∧ H'.Holds t.data t.shape.size f ∧
      (∀ b, a.data = .at b 0 → ¬ H'.live b) ∧
      (∀ H'', H'.SameExcept H'' o.data o.shape.size → H''.Holds t.data t.shape.size f)) := by
    intro m s hm hs1 hs2 hs3
    refine (copy_fresh hw1 (Nat.le_refl _) (Nat.le_of_eq hm) ht1).bind (fun H' ⟨h1, h2, h3⟩ => Ok_ok.2 ?_)
    have D := deepCopy_of hw1 (t := t) hm ht1 h3
    refine ⟨rfl, hs1, hs2, hs3, D.2.2.1, D.2.2.2.1, fun b hb hl => ?_, fun H'' hS => ?_⟩
    · rcases (h2 b).1 hl with e | e
      · rcases hs with hnull | ⟨b', e1, e2, _⟩
        · rw [hnull] at hb; cases hb
        · rw [e1] at hb; cases hb
          have := hw _ e2
          omega
      · exact ((hl1 b).1 e).2 hb
    · refine D.2.2.2.2.2.1 H'' ?_
      have hS' : H'.SameExcept H'' (.at H1.next 0) s.size := hS
      rw [hs1] at hS'
      exact hS'
  cases hak : a.kind <;> simp only [hak] at main ⊢
  · exact main _ { a.shape with w := t.shape.w, size := t.shape.size } rfl rfl rfl (fun h => absurd rfl h)
  · refine main _ { a.shape with h := t.shape.h, w := t.shape.w, size := t.shape.size } ?_ rfl rfl (fun _ => rfl)
    rcases hsz with h | h
    · rw [hak] at h; cases h
    · exact h
  · refine main _ t.shape ?_ rfl rfl (fun _ => rfl)
    rcases hsz with h | h
    · rw [hak] at h; cases h
    · exact h

/-- C05 violated, smaller destination: the assignment succeeds but element `a.size()` is indeterminate. -/
theorem C05_smaller_violated (H : Heap α) (hw : H.WF) (a t : Obj) (f : Nat → α)
    (hs : Separate H a t) (ht : H.Holds t.data t.shape.size f) (hk : a.kind ≠ .vec)
    (hlt : a.shape.size < t.shape.size) :
    Ok (Obj.copyAssign H a t) (fun (H', o) =>
      o.shape.size = t.shape.size ∧ o.get1 H' a.shape.size = .error .uninit) := by
  unfold Obj.copyAssign
  refine (delete_sep hw hs ht).bind (fun H1 ⟨hw1, hn1, ht1, hl1, hc1⟩ => ?_)
  have main : ∀ (s : Shape), s.size = t.shape.size →
      Ok (copyLoop (H1.new t.shape.size).1 (H1.new t.shape.size).2 a.shape.size t.data >>=
        fun H' => (.ok (H', (⟨a.kind, (H1.new t.shape.size).2, s⟩ : Obj)) : Res _)) (fun (H', o) =>
      o.shape.size = t.shape.size ∧ o.get1 H' a.shape.size = .error .uninit) := by
    intro s hs1
    refine (copy_fresh hw1 (Nat.le_refl _) (Nat.le_of_lt hlt) ht1).bind (fun H' ⟨h1, h2, h3⟩ => Ok_ok.2 ?_)
    refine ⟨hs1, ?_⟩
    show Heap.load H' (.at H1.next 0) a.shape.size = _
    have := h3 H1.next a.shape.size
    simp only [if_true, Nat.lt_irrefl, if_false, hlt] at this
    unfold Heap.load
    rw [Heap.cell_of (by rw [Nat.zero_add]; exact this)]
    rfl
  cases hak : a.kind <;> simp only [hak] at main ⊢
  · exact absurd hak hk
  · exact main { a.shape with h := t.shape.h, w := t.shape.w, size := t.shape.size } rfl
  · exact main t.shape rfl

/-- C05 violated, larger destination: the assignment runs into undefined behaviour. -/
theorem C05_larger_violated (H : Heap α) (hw : H.WF) (a t : Obj) (f : Nat → α)
    (hs : Separate H a t) (ht : H.Holds t.data t.shape.size f) (hk : a.kind ≠ .vec)
    (hlt : t.shape.size < a.shape.size) : ∃ e, Obj.copyAssign H a t = .error e := by
  unfold Obj.copyAssign
  obtain ⟨H1, e1, hw1, hn1, ht1, hl1, hc1⟩ := delete_sep hw hs ht
  rw [e1, bind_ok]
  obtain ⟨H2, e2, h1, h2, h3⟩ := copy_fresh hw1 (Nat.le_refl t.shape.size) (Nat.le_refl t.shape.size) ht1
  have key : ∃ e, copyLoop (H1.new t.shape.size).1 (H1.new t.shape.size).2 a.shape.size t.data = .error e := by
    have hstep : ∃ e, copyLoop (H1.new t.shape.size).1 (H1.new t.shape.size).2 (t.shape.size + 1) t.data = .error e := by
      unfold copyLoop at e2 ⊢
      rw [forN_succ, e2, bind_ok]
      cases hc : H2.cell t.data t.shape.size with
      | error e => exact ⟨e, rfl⟩
      | ok c =>
        refine ⟨.oob, ?_⟩
        rw [bind_ok]
        show H2.put (.at H1.next 0) t.shape.size c = _
        have hl := (h2 H1.next).2 (Or.inl rfl)
        have hc2 := h3 H1.next t.shape.size
        simp only [if_true, Nat.lt_irrefl, if_false] at hc2
        unfold Heap.put
        unfold Heap.live at hl
        unfold Heap.cellAt at hc2
        cases hb : H2.blocks H1.next with
        | none => rw [hb] at hl; cases hl
        | some buf =>
          rw [hb] at hc2
          have hc2' : buf[t.shape.size]? = none := hc2
          have : buf.length ≤ t.shape.size := List.getElem?_eq_none_iff.1 hc2'
          simp only [hb, Nat.zero_add]
          rw [if_neg (by omega)]
    obtain ⟨e, he⟩ := hstep
    refine ⟨e, ?_⟩
    have mono : ∀ (k : Nat) (m : Nat) (h : Heap α) (body : Nat → Heap α → Res (Heap α)),
        forN m h body = .error e → forN (m + k) h body = .error e := by
      intro k m h body hm
      induction k with
      | zero => exact hm
      | succ k ih => rw [← Nat.add_assoc, forN_succ, ih]; rfl
    have := mono (a.shape.size - (t.shape.size + 1)) _ _ _ he
    unfold copyLoop
    rw [show t.shape.size + 1 + (a.shape.size - (t.shape.size + 1)) = a.shape.size by omega] at this
    exact this
  obtain ⟨e, he⟩ := key
  refine ⟨e, ?_⟩
  cases hak : a.kind
  · exact absurd hak hk
  · simp only [he]; rfl
  · simp only [he]; rfl

/-- C06 violated: a default-constructed matrix resized to a non-empty (h,w) and filled can be copied
without error, but the copy has no elements. -/
theorem C06_resized_matrix_copy_violated (H : Heap α) (h w : Nat) (v : α) (hn : 0 < wmul h w) :
    Ok (do
      let (H, a) ← Obj.resize H (Obj.default .mat) 1 h w
      let H ← a.fill H v
      let (_, c) ← Obj.copyCtor H a
      return (a, c)) (fun (a, c) => a.shape.size = wmul h w ∧ c.shape.size = 0 ∧ c.shape.size ≠ a.shape.size) := by
  have e1 : Obj.resize H (Obj.default .mat) 1 h w =
      .ok ((H.new (wmul h w)).1, ⟨.mat, .at H.next 0, ⟨0, h, w, wmul h w⟩⟩) := rfl
  rw [e1, bind_ok]
  show Ok (fillLoop (H.new (wmul h w)).1 (.at H.next 0) (wmul h w) v >>= _) _
  rw [fillLoop_eq]
  refine (new_loop (H := H) (Nat.le_refl _) (new := fun _ => some v) (fun _ _ _ _ => rfl)).bind (fun H' _ => ?_)
  unfold Obj.copyCtor copyCtorShape
  have h0 : wmul (wmul 0 h) w = 0 := by rw [wmul_zero_left, wmul_zero_left]
  simp only [Shape.mk2, h0]
  refine Ok_ok.2 ⟨rfl, rfl, ?_⟩
  show (0 : Nat) ≠ wmul h w
  omega

/-- C06, the part that holds: after the value constructor (depth 1) the copy is a deep copy. -/
theorem C06_valued_matrix_copy_partial (H : Heap α) (hw : H.WF) (h w : Nat) (hh : h < W64) (v : α) :
    Ok (do
      let (H, a) ← Obj.valued H .mat 1 h w v
      let (H', c) ← Obj.copyCtor H a
      return (H, H', a, c)) (fun (H, H', a, c) => a.shape.size = wmul h w ∧ DeepCopy H H' a c (fun _ => v)) := by
  unfold Obj.valued
  simp only [Obj.sized, bind_assoc_res, fillLoop_eq, pure_eq_ok, bind_ok]
  refine (new_loop (H := H) (n := wmul h w) (Nat.le_refl _) (new := fun _ => some v)
    (fun _ _ _ _ => rfl)).bind (fun H' ⟨h1, h2, h3⟩ => ?_)
  have hw' : H'.WF := by
    intro b hb
    rcases (h2 b).1 hb with e | e
    · omega
    · have := hw b e; omega
  refine (C03_copy_ctor_deep H' hw' ⟨.mat, .at H.next 0, Shape.mk2 h w⟩ (fun _ => v)
    (Or.inr ⟨rfl, hh, rfl⟩) ?_).bind (fun (H2, c) hD => Ok_ok.2 ⟨rfl, hD⟩)
  refine Or.inr ⟨H.next, 0, rfl, fun i hi => ?_⟩
  have hi' : i < wmul h w := hi
  rw [h3]; simp [hi']

/-- Non-vacuity for C03–C06: a 2x1 matrix object in a heap with one live block, with the claimed contents. -/
example : ∃ (H : Heap Nat) (t : Obj) (f : Nat → Nat), H.WF ∧ t.kind = .mat ∧ t.shape = Shape.mk2 2 1 ∧
    H.Holds t.data t.shape.size f ∧ f 0 = 5 ∧ f 1 = 6 ∧ Separate H (Obj.default .mat) t := by
  refine ⟨⟨fun b => if b = 0 then some [some 5, some 6] else none, 1⟩, ⟨.mat, .at 0 0, Shape.mk2 2 1⟩,
    fun i => 5 + i, ?_, rfl, rfl, Or.inr ⟨0, 0, rfl, ?_⟩, rfl, rfl, Or.inl rfl⟩
  · intro b hb
    by_cases e : b = 0
    · subst e; exact Nat.zero_lt_one
    · simp [Heap.live, e] at hb
  · intro i hi
    have hi : i < 2 := hi
    have : i = 0 ∨ i = 1 := by omega
    rcases this with rfl | rfl <;> rfl

/-! ## C07 moves -/

/-- Move construction: the new object takes allocation and shape, the store is not touched, the source keeps
no storage, destroying it frees nothing. -/
theorem C07_move_ctor (H : Heap α) (t : Obj) :
    t.moveCtor.1 = t ∧ t.moveCtor.2.data = .null ∧ t.moveCtor.2.destroy H = .ok H := ⟨rfl, rfl, rfl⟩

/-- Move assignment: the destination gets exactly the source's allocation, size and elements, its former
allocation is freed (and nothing else), the source keeps no storage and destroying it frees nothing. -/
theorem C07_move_assign (H : Heap α) (hw : H.WF) (a t : Obj) (f : Nat → α)
    (hs : Separate H a t) (ht : H.Holds t.data t.shape.size f) :
    Ok (Obj.moveAssign H a t) (fun (H', o, t') =>
      o.data = t.data ∧ o.shape.size = t.shape.size ∧ o.shape.w = t.shape.w ∧
      (a.kind ≠ .vec → o.shape.h = t.shape.h) ∧ (a.kind = .ten → o.shape = t.shape) ∧
      H'.Holds o.data o.shape.size f ∧ H'.next = H.next ∧
      (∀ b, H'.live b ↔ H.live b ∧ a.data ≠ .at b 0) ∧
      t'.data = .null ∧ t'.destroy H' = .ok H') := by
  unfold Obj.moveAssign
  refine (delete_sep hw hs ht).bind (fun H1 ⟨hw1, hn1, ht1, hl1, hc1⟩ => Ok_ok.2 ?_)
  cases hak : a.kind <;>
    exact ⟨rfl, rfl, rfl, by simp, by simp, ht1, hn1, hl1, rfl, rfl⟩

/-! ## C08 in-place element-wise members -/

/-- `x.add(y)` (also `x.add(x)`). -/
theorem C08_add [Add α] (H : Heap α) (x y : Obj) (f g : Nat → α)
    (hx : H.Holds x.data x.shape.size f) (hy : H.Holds y.data x.shape.size g)
    (hn : NoClobber x.data y.data x.shape.size) :
    Ok (x.add H y) (fun H' => H'.Holds x.data x.shape.size (fun i => f i + g i) ∧
      H.SameExcept H' x.data x.shape.size) := by
  unfold Obj.add; rw [assignPtr_eq]
  refine ewLoop_total hx.room (fun pb po e i hi h' hh => ?_)
  rw [load_src hx (e ▸ NoClobber.refl _ _) hi hh, bind_ok, load_src hy (e ▸ hn) hi hh, bind_ok]; rfl

/-- `x.sub(y)` (also `x.sub(x)`). -/
theorem C08_sub [Sub α] (H : Heap α) (x y : Obj) (f g : Nat → α)
    (hx : H.Holds x.data x.shape.size f) (hy : H.Holds y.data x.shape.size g)
    (hn : NoClobber x.data y.data x.shape.size) :
    Ok (x.sub H y) (fun H' => H'.Holds x.data x.shape.size (fun i => f i - g i) ∧
      H.SameExcept H' x.data x.shape.size) := by
  unfold Obj.sub; rw [assignPtr_eq]
  refine ewLoop_total hx.room (fun pb po e i hi h' hh => ?_)
  rw [load_src hx (e ▸ NoClobber.refl _ _) hi hh, bind_ok, load_src hy (e ▸ hn) hi hh, bind_ok]; rfl

/-- `x.mul(y)` (also `x.mul(x)`). -/
theorem C08_mul [Mul α] (H : Heap α) (x y : Obj) (f g : Nat → α)
    (hx : H.Holds x.data x.shape.size f) (hy : H.Holds y.data x.shape.size g)
    (hn : NoClobber x.data y.data x.shape.size) :
    Ok (x.mul H y) (fun H' => H'.Holds x.data x.shape.size (fun i => f i * g i) ∧
      H.SameExcept H' x.data x.shape.size) := by
  unfold Obj.mul; rw [assignPtr_eq]
  refine ewLoop_total hx.room (fun pb po e i hi h' hh => ?_)
  rw [load_src hx (e ▸ NoClobber.refl _ _) hi hh, bind_ok, load_src hy (e ▸ hn) hi hh, bind_ok]; rfl

/-- `x.add(y, z)`, any of the three may be the same object. -/
theorem C08_add2 [Add α] (H : Heap α) (x y z : Obj) (f g : Nat → α)
    (hx : H.Room x.data x.shape.size)
    (hy : H.Holds y.data x.shape.size f) (hz : H.Holds z.data x.shape.size g)
    (hn : NoClobber x.data y.data x.shape.size) (hn' : NoClobber x.data z.data x.shape.size) :
    Ok (x.add2 H y z) (fun H' => H'.Holds x.data x.shape.size (fun i => f i + g i) ∧
      H.SameExcept H' x.data x.shape.size) := by
  unfold Obj.add2; rw [assignPtrPtr_eq]
  refine ewLoop_total hx (fun pb po e i hi h' hh => ?_)
  rw [load_src hy (e ▸ hn) hi hh, bind_ok, load_src hz (e ▸ hn') hi hh, bind_ok]; rfl

/-- `x.sub(y, z)`. -/
theorem C08_sub2 [Sub α] (H : Heap α) (x y z : Obj) (f g : Nat → α)
    (hx : H.Room x.data x.shape.size)
    (hy : H.Holds y.data x.shape.size f) (hz : H.Holds z.data x.shape.size g)
    (hn : NoClobber x.data y.data x.shape.size) (hn' : NoClobber x.data z.data x.shape.size) :
    Ok (x.sub2 H y z) (fun H' => H'.Holds x.data x.shape.size (fun i => f i - g i) ∧
      H.SameExcept H' x.data x.shape.size) := by
  unfold Obj.sub2; rw [assignPtrPtr_eq]
  refine ewLoop_total hx (fun pb po e i hi h' hh => ?_)
  rw [load_src hy (e ▸ hn) hi hh, bind_ok, load_src hz (e ▸ hn') hi hh, bind_ok]; rfl

/-- `x.mul(y, z)`. -/
theorem C08_mul2 [Mul α] (H : Heap α) (x y z : Obj) (f g : Nat → α)
    (hx : H.Room x.data x.shape.size)
    (hy : H.Holds y.data x.shape.size f) (hz : H.Holds z.data x.shape.size g)
    (hn : NoClobber x.data y.data x.shape.size) (hn' : NoClobber x.data z.data x.shape.size) :
    Ok (x.mul2 H y z) (fun H' => H'.Holds x.data x.shape.size (fun i => f i * g i) ∧
      H.SameExcept H' x.data x.shape.size) := by
  unfold Obj.mul2; rw [assignPtrPtr_eq]
  refine ewLoop_total hx (fun pb po e i hi h' hh => ?_)
  rw [load_src hy (e ▸ hn) hi hh, bind_ok, load_src hz (e ▸ hn') hi hh, bind_ok]; rfl

/-- `x.join(c)` multiplies every element by `c` from the right. -/
theorem C08_join [Mul α] (H : Heap α) (x : Obj) (c : α) (f : Nat → α)
    (hx : H.Holds x.data x.shape.size f) :
    Ok (x.join H c) (fun H' => H'.Holds x.data x.shape.size (fun i => f i * c) ∧
      H.SameExcept H' x.data x.shape.size) := by
  unfold Obj.join; rw [assignConst_eq]
  refine ewLoop_total hx.room (fun pb po e i hi h' hh => ?_)
  rw [load_src hx (e ▸ NoClobber.refl _ _) hi hh, bind_ok]; rfl

/-- `x.join(c, y)`. -/
theorem C08_join2 [Mul α] (H : Heap α) (x y : Obj) (c : α) (g : Nat → α)
    (hx : H.Room x.data x.shape.size) (hy : H.Holds y.data x.shape.size g)
    (hn : NoClobber x.data y.data x.shape.size) :
    Ok (x.join2 H c y) (fun H' => H'.Holds x.data x.shape.size (fun i => c * g i) ∧
      H.SameExcept H' x.data x.shape.size) := by
  unfold Obj.join2; rw [assignValPtr_eq]
  refine ewLoop_total hx (fun pb po e i hi h' hh => ?_)
  rw [load_src hy (e ▸ hn) hi hh, bind_ok]; rfl

/-- `x.apply(f)`. -/
theorem C08_apply (H : Heap α) (x : Obj) (φ : α → α) (f : Nat → α)
    (hx : H.Holds x.data x.shape.size f) :
    Ok (x.apply H φ) (fun H' => H'.Holds x.data x.shape.size (fun i => φ (f i)) ∧
      H.SameExcept H' x.data x.shape.size) := by
  unfold Obj.apply; rw [applyLoop_eq]
  refine ewLoop_total hx.room (fun pb po e i hi h' hh => ?_)
  rw [load_src hx (e ▸ NoClobber.refl _ _) hi hh, bind_ok]; rfl

/-- `x.apply(f, y)`. -/
theorem C08_apply2 (H : Heap α) (x y : Obj) (φ : α → α) (g : Nat → α)
    (hx : H.Room x.data x.shape.size) (hy : H.Holds y.data x.shape.size g)
    (hn : NoClobber x.data y.data x.shape.size) :
    Ok (x.apply2 H φ y) (fun H' => H'.Holds x.data x.shape.size (fun i => φ (g i)) ∧
      H.SameExcept H' x.data x.shape.size) := by
  unfold Obj.apply2; rw [applyPtr_eq]
  refine ewLoop_total hx (fun pb po e i hi h' hh => ?_)
  rw [load_src hy (e ▸ hn) hi hh, bind_ok]; rfl

/-- `x.fill(c)`. -/
theorem C08_fill (H : Heap α) (x : Obj) (c : α) (hx : H.Room x.data x.shape.size) :
    Ok (x.fill H c) (fun H' => H'.Holds x.data x.shape.size (fun _ => c) ∧
      H.SameExcept H' x.data x.shape.size) := by
  unfold Obj.fill; rw [fillLoop_eq]
  exact ewLoop_total hx (fun pb po e i hi h' hh => rfl)

/-- `x.fill(generator)` calls the generator once per element, front to back: element `i` receives the result of call `i`, where
the generator goes from state to state. -/
theorem C08_fill_generator {γ : Type _} (H : Heap α) (x : Obj) (gen : γ → α × γ) (g : γ) (hx : H.Room x.data x.shape.size) :
    Ok (fillGen H x.data x.shape.size gen g) (fun r =>
      r.1.Holds x.data x.shape.size (fun i => (gen (Nat.iterate (fun s => (gen s).2) i g)).1) ∧
      H.SameExcept r.1 x.data x.shape.size ∧ r.2 = Nat.iterate (fun s => (gen s).2) x.shape.size g) := by
  have key : ∀ (p : Ptr) (n : Nat), fillGen H p n gen g =
      ewLoop (fun _ i => .ok (some (gen (Nat.iterate (fun s => (gen s).2) i g)).1)) H p n >>=
        fun H' => .ok (H', Nat.iterate (fun s => (gen s).2) n g) := by
    intro p n
    induction n with
    | zero => rfl
    | succ n ih =>
      unfold fillGen ewLoop at ih ⊢
      rw [forN_succ, ih, forN_succ]
      simp only [bind_assoc_res, bind_ok]
      congr 1
      funext H'
      simp only [Heap.store, pure_eq_ok]
      cases H'.put p n (some (gen (Nat.iterate (fun s => (gen s).2) n g)).1) with
      | error e => rfl
      | ok H'' => simp only [bind_ok, Function.iterate_succ_apply']
  rw [key]
  refine (ewLoop_total hx (fun pb po e i hi h' hh => rfl)).bind (fun H' ⟨h1, h2⟩ => Ok_ok.2 ⟨h1, h2, rfl⟩)

/-- `x.copy(y)`, both for `y` different from `x` and for `x.copy(x)`. -/
theorem C08_copy (H : Heap α) (x y : Obj) (same : Bool) (g : Nat → α)
    (hx : H.Room x.data x.shape.size) (hy : H.Holds y.data x.shape.size g)
    (hsame : same = true → x = y) (hn : NoClobber x.data y.data x.shape.size) :
    Ok (x.copy H y same) (fun H' => H'.Holds x.data x.shape.size g ∧ H.SameExcept H' x.data x.shape.size) := by
  unfold Obj.copy
  cases same with
  | true =>
    rw [if_pos rfl, Ok_ok, hsame rfl]
    exact ⟨by rw [← hsame rfl]; rw [hsame rfl]; exact (hsame rfl) ▸ hy, Heap.SameExcept.refl _ _ _⟩
  | false =>
    rw [if_neg (by decide), copyLoop_eq]
    refine ewLoop_total hx (fun pb po e i hi h' hh => ?_)
    rcases hy with h0 | ⟨qb, qo, e', hc⟩
    · omega
    · rw [e'] at hn ⊢
      exact Heap.cell_of ((overlay_src (e ▸ hn) hi hh).trans (hc i hi))

/-- Disjoint or identical storage satisfies the aliasing hypothesis, so the theorems above cover every
alias pattern of whole tensors. -/
theorem C08_alias_patterns (b o b' o' n : Nat) (h : b ≠ b' ∨ (b = b' ∧ o = o') ∨ o + n ≤ o' ∨ o' + n ≤ o) :
    NoClobber (.at b o) (.at b' o') n := by
  intro pb po qb qo h1 h2 h3
  cases h1; cases h2; omega

/-! ## C09 value-returning const members -/

/-- Every value-returning const element-wise member of a non-empty tensor dereferences null. -/
theorem C09_const_members_violated [Add α] [Sub α] [Mul α] (H : Heap α) (x y : Obj) (φ : α → α) (c : α)
    (f g : Nat → α) (hn : 0 < x.shape.size)
    (hx : H.Holds x.data x.shape.size f) (hy : H.Holds y.data x.shape.size g) :
    x.addConst H y = .error .nullDeref ∧ x.subConst H y = .error .nullDeref ∧
    x.mulConst H y = .error .nullDeref ∧ x.joinConst H c = .error .nullDeref ∧
    x.applyConst H φ = .error .nullDeref := by
  have lx : H.load x.data 0 = .ok (f 0) := by
    rcases hx with h | ⟨b, o, e, h⟩
    · omega
    · rw [e]; exact Heap.load_of (h 0 hn)
  have ly : H.load y.data 0 = .ok (g 0) := by
    rcases hy with h | ⟨b, o, e, h⟩
    · omega
    · rw [e]; exact Heap.load_of (h 0 hn)
  have key : ∀ rd : Heap α → Nat → Res (Option α), (∃ c, rd H 0 = .ok c) →
      (ewLoop rd H x.constTmp.data x.constTmp.shape.size >>= fun H => (.ok (H, x.constTmp) : Res (Heap α × Obj))) =
      .error .nullDeref := by
    rintro rd ⟨c, hc⟩
    have : ewLoop rd H .null x.shape.size = .error .nullDeref := ewLoop_null hn hc
    show (ewLoop rd H .null x.shape.size >>= _) = _
    rw [this]; rfl
  refine ⟨?_, ?_, ?_, ?_, ?_⟩
  · unfold Obj.addConst Obj.add2; rw [assignPtrPtr_eq]
    exact key _ ⟨some (f 0 + g 0), by simp only [lx, ly, bind_ok, pure_eq_ok]⟩
  · unfold Obj.subConst Obj.sub2; rw [assignPtrPtr_eq]
    exact key _ ⟨some (f 0 - g 0), by simp only [lx, ly, bind_ok, pure_eq_ok]⟩
  · unfold Obj.mulConst Obj.mul2; rw [assignPtrPtr_eq]
    exact key _ ⟨some (f 0 * g 0), by simp only [lx, ly, bind_ok, pure_eq_ok]⟩
  · unfold Obj.joinConst Obj.join2; rw [assignValPtr_eq]
    exact key _ ⟨some (c * f 0), by simp only [lx, bind_ok, pure_eq_ok]⟩
  · unfold Obj.applyConst Obj.apply2; rw [applyPtr_eq]
    exact key _ ⟨some (φ (f 0)), by simp only [lx, bind_ok, pure_eq_ok]⟩

/-- C09, the part that holds: on an empty tensor they return an empty tensor. -/
theorem C09_const_members_partial [Add α] (H : Heap α) (x y : Obj) (hn : x.shape.size = 0) :
    Ok (x.addConst H y) (fun (H', o) => H' = H ∧ o.shape.size = 0) := by
  unfold Obj.addConst Obj.add2 Obj.constTmp
  rw [hn]
  exact Ok_ok.2 ⟨rfl, rfl⟩

/-! ## C10 views -/

/-- A view over a tensor designates, for every index (1-, 2- or 3-dimensional) and in every later state of the
store, the same cells: reads agree and writes have the same effect, in both directions. -/
theorem C10_view_aliases (a : Obj) (H : Heap α) :
    let v := Obj.viewOf a.kind a.shape a.data
    (∀ i, v.get1 H i = a.get1 H i) ∧ (∀ i j, v.get2 H i j = a.get2 H i j) ∧
    (∀ i x, v.set1 H i x = a.set1 H i x) ∧ (∀ i j x, v.set2 H i j x = a.set2 H i j x) ∧
    (a.kind = .ten → (∀ i j k, v.get3 H i j k = a.get3 H i j k) ∧
      (∀ i j k x, v.set3 H i j k x = a.set3 H i j k x) ∧ v.shape = a.shape) := by
  rcases a with ⟨k, p, s⟩
  cases k <;> refine ⟨?_, ?_, ?_, ?_, ?_⟩ <;> intros <;> first | rfl | trivial | contradiction | skip
  exact ⟨fun _ _ _ => rfl, fun _ _ _ _ => rfl, rfl⟩

/-- Copying, assigning and destroying views changes neither the store nor any owning object; making a
view does not either, and writing through one only changes the contents of one cell: no view operation
allocates or frees. -/
theorem C10_views_never_own (w w' : World α) (v u x i : Nat) (a : α) :
    (w.step (.viewMake v x) = .ok w' → w'.heap = w.heap ∧ w'.own = w.own) ∧
    (w.step (.viewCopy v u) = .ok w' → w'.heap = w.heap ∧ w'.own = w.own) ∧
    (w.step (.viewAssign v u) = .ok w' → w'.heap = w.heap ∧ w'.own = w.own) ∧
    (w.step (.viewDestroy v) = .ok w' → w'.heap = w.heap ∧ w'.own = w.own) ∧
    (w.step (.viewWrite v i a) = .ok w' → w'.own = w.own ∧ w'.heap.next = w.heap.next ∧
      ∀ b, w'.heap.live b ↔ w.heap.live b) := by
  have hlook : ∀ {β : Type} (m : Nat → Option Obj) (x : Nat) (k : Obj → Res (World α)) (r : World α),
      (look m x >>= k) = .ok r → ∃ o, m x = some o ∧ k o = .ok r := by
    intro _ m x k r h
    unfold look at h
    cases hm : m x with
    | none => rw [hm] at h; cases h
    | some o => rw [hm] at h; exact ⟨o, rfl, h⟩
  refine ⟨fun h => ?_, fun h => ?_, fun h => ?_, fun h => ?_, fun h => ?_⟩
  · obtain ⟨o, _, h⟩ := hlook (β := Unit) _ _ _ _ h; cases h; exact ⟨rfl, rfl⟩
  · obtain ⟨o, _, h⟩ := hlook (β := Unit) _ _ _ _ h; cases h; exact ⟨rfl, rfl⟩
  · obtain ⟨o, _, h⟩ := hlook (β := Unit) _ _ _ _ h
    obtain ⟨o', _, h⟩ := hlook (β := Unit) _ _ _ _ h
    split at h <;> cases h <;> exact ⟨rfl, rfl⟩
  · obtain ⟨o, _, h⟩ := hlook (β := Unit) _ _ _ _ h; cases h; exact ⟨rfl, rfl⟩
  · obtain ⟨o, _, h⟩ := hlook (β := Unit) _ _ _ _ h
    cases hs : o.set1 w.heap i a with
    | error e => rw [hs] at h; cases h
    | ok H' =>
      rw [hs] at h; cases h
      unfold Obj.set1 Heap.store Heap.put at hs
      cases hd : o.data with
      | null => rw [hd] at hs; cases hs
      | «at» b off =>
        rw [hd] at hs; dsimp only at hs
        cases hb : w.heap.blocks b with
        | none => rw [hb] at hs; cases hs
        | some buf =>
          rw [hb] at hs; dsimp only at hs
          split at hs
          · cases hs
            refine ⟨rfl, rfl, fun b' => ?_⟩
            unfold Heap.live
            by_cases e : b' = b
            · subst e; simp [hb]
            · simp [e]
          · cases hs

/-- Copy construction and copy assignment of views (of the same class) make the left view designate the cells of the right
one: same size, and the same element for every index in every state of the store. Nothing else changes. -/
theorem C10_view_copies (w : World α) (v u : Nat) (t : Obj) (hu : w.view u = some t) :
    (∃ w', w.step (.viewCopy v u) = .ok w' ∧ ∃ c, w'.view v = some c ∧ c.kind = t.kind ∧ c.shape.size = t.shape.size ∧
      (∀ H : Heap α, (∀ i, c.get1 H i = t.get1 H i) ∧ (∀ i j, c.get2 H i j = t.get2 H i j) ∧
        (∀ i j k, c.get3 H i j k = t.get3 H i j k)) ∧ ∀ z, z ≠ v → w'.view z = w.view z) ∧
    ∀ a, w.view v = some a → a.kind = t.kind →
      ∃ w', w.step (.viewAssign v u) = .ok w' ∧ ∃ c, w'.view v = some c ∧ c.kind = t.kind ∧ c.shape.size = t.shape.size ∧
      (∀ H : Heap α, (∀ i, c.get1 H i = t.get1 H i) ∧ (∀ i j, c.get2 H i j = t.get2 H i j) ∧
        (t.kind = .ten → ∀ i j k, c.get3 H i j k = t.get3 H i j k)) ∧ ∀ z, z ≠ v → w'.view z = w.view z := by
  have hl : look w.view u = .ok t := by simp [look, hu]
  refine ⟨⟨{ w with view := upd w.view v (some t) }, ?_, t, by simp [upd], rfl, rfl, fun H => ⟨fun _ => rfl, fun _ _ => rfl,
    fun _ _ _ => rfl⟩, fun z hz => by simp [upd, hz]⟩, fun a ha hk => ?_⟩
  · show (look w.view u >>= _) = _
    rw [hl]; rfl
  · have hl' : look w.view v = .ok a := by simp [look, ha]
    by_cases e : v = u
    · subst e
      rw [hu] at ha; cases ha
      refine ⟨w, ?_, t, hu, rfl, rfl, fun H => ⟨fun _ => rfl, fun _ _ => rfl, fun _ _ _ _ => rfl⟩, fun _ _ => rfl⟩
      show (look w.view v >>= _) = _
      rw [hl]; simp
    · refine ⟨{ w with view := upd w.view v (some (a.viewAssign t)) }, ?_, a.viewAssign t, by simp [upd], ?_⟩
      · show (look w.view v >>= _) = _
        rw [hl', bind_ok, hl, bind_ok, if_neg e]; rfl
      · rcases a with ⟨k, p, s⟩
        rcases t with ⟨k', p', s'⟩
        dsimp only at hk
        subst hk
        refine ⟨?_, ?_, fun H => ⟨fun i => ?_, fun i j => ?_, fun h i j l => ?_⟩, fun z hz => by simp [upd, hz]⟩
        · cases k <;> rfl
        · cases k <;> rfl
        · cases k <;> rfl
        · cases k <;> rfl
        · dsimp only at h; subst h; rfl

example : ∃ w' : World Nat, ((World.init : World Nat).run [.valueCtor 0 .mat 1 2 3 7, .valueCtor 1 .mat 1 4 4 9, .viewMake 5 0, .viewMake 6 1,
    .viewAssign 5 6]) = .ok w' ∧ (w'.view 5).map (fun o => o.get2 w'.heap 3 3) = some (.ok 9) := ⟨_, rfl, rfl⟩

/-- A view over a range `[first, last)` of `n` elements is one row of `n` elements, element `k` of which is the `k`-th of the range:
`v(k)`, for a matrix view also `v(0,k)`, for a tensor view also `v(0,0,k)`; writes likewise. -/
theorem C10_view_range (H : Heap α) (p : Ptr) (n : Nat) (hn : n < W64) :
    (∀ κ, (Obj.viewRange κ p n).shape.size = n ∧ (Obj.viewRange κ p n).shape.w = n ∧
      ∀ i, (Obj.viewRange κ p n).get1 H i = H.load p i ∧ ∀ a, (Obj.viewRange κ p n).set1 H i a = H.store p i a) ∧
    (Obj.viewRange .mat p n).shape.h = 1 ∧ (Obj.viewRange .ten p n).shape.d = 1 ∧ (Obj.viewRange .ten p n).shape.h = 1 ∧
    ∀ k, (Obj.viewRange .mat p n).get2 H 0 k = H.load p k ∧ (Obj.viewRange .ten p n).get3 H 0 0 k = H.load p k := by
  have e : wmul 1 n = n := by unfold wmul; rw [Nat.one_mul]; exact Nat.mod_eq_of_lt hn
  have e' : wmul (wmul 1 1) n = n := by rw [show wmul 1 1 = 1 from rfl, e]
  refine ⟨fun κ => ?_, rfl, rfl, rfl, fun k => ⟨?_, ?_⟩⟩
  · cases κ
    · exact ⟨rfl, rfl, fun i => ⟨rfl, fun a => rfl⟩⟩
    · exact ⟨e, rfl, fun i => ⟨rfl, fun a => rfl⟩⟩
    · exact ⟨e', rfl, fun i => ⟨rfl, fun a => rfl⟩⟩
  · show H.load p (0 * n + k) = _
    rw [Nat.zero_mul, Nat.zero_add]
  · show H.load p ((0 * 1 + 0) * n + k) = _
    rw [Nat.zero_mul, Nat.zero_add]

/-- The size of a view made from `shape()` and `data()`: equal to the owner's size for every consistent
tensor, for a matrix of depth 1, and for a vector whose width field is its size. -/
theorem C10_view_size (a : Obj) (h : match a.kind with
    | .vec => a.shape.w = a.shape.size
    | .mat => a.shape.d = 1 ∧ a.shape.size = wmul a.shape.h a.shape.w
    | .ten => True) : (Obj.viewOf a.kind a.shape a.data).shape.size = a.shape.size := by
  rcases a with ⟨k, p, s⟩
  cases k
  · exact h
  · show wmul (wmul s.d s.h) s.w = s.size
    have h' : s.d = 1 ∧ s.size = wmul s.h s.w := h
    rw [h'.1, wmul_one_left, h'.2]
  · rfl

/-! ## C11 reshape -/

/-- `reshape(d,h,w)` of a tensor keeps storage and size, touches no memory, and cell (i,j,k) of the new shape
is element `(i*h+j)*w+k` of the storage; reshaping back restores the object. -/
theorem C11_reshape (H : Heap α) (a : Obj) (hk : a.kind = .ten) (d h w : Nat) (f : Nat → α)
    (hsz : d * h * w = a.shape.size) (ha : H.Holds a.data a.shape.size f) :
    (a.reshape d h w).data = a.data ∧ (a.reshape d h w).shape.size = a.shape.size ∧
    (∀ i j k, i < d → j < h → k < w → (a.reshape d h w).get3 H i j k = .ok (f ((i * h + j) * w + k))) ∧
    (a.reshape d h w).reshape a.shape.d a.shape.h a.shape.w = a := by
  rcases a with ⟨k, p, s⟩
  have hk : k = .ten := hk
  subst hk
  refine ⟨rfl, rfl, fun i j k hi hj hk => ?_, rfl⟩
  have hlt := idx3_lt hi hj hk
  have hsz' : d * h * w = s.size := hsz
  show H.load p ((i * h + j) * w + k) = _
  rcases ha with h0 | ⟨b, o, e, hc⟩
  · have h0 : s.size = 0 := h0
    omega
  · have e : p = .at b o := e
    rw [e]
    refine Heap.load_of (hc _ ?_)
    show _ < s.size
    omega

/-- The matrix version. -/
theorem C11_reshape_matrix (H : Heap α) (a : Obj) (hk : a.kind = .mat) (d h w : Nat) (f : Nat → α)
    (hsz : h * w = a.shape.size) (ha : H.Holds a.data a.shape.size f) :
    (a.reshape d h w).data = a.data ∧ (a.reshape d h w).shape.size = a.shape.size ∧
    (∀ i j, i < h → j < w → (a.reshape d h w).get2 H i j = .ok (f (i * w + j))) ∧
    (a.reshape d h w).reshape d a.shape.h a.shape.w = a := by
  rcases a with ⟨k, p, s⟩
  have hk : k = .mat := hk
  subst hk
  refine ⟨rfl, rfl, fun i j hi hj => ?_, rfl⟩
  have hlt := idx2_lt hi hj
  have hsz' : h * w = s.size := hsz
  show H.load p (i * w + j) = _
  rcases ha with h0 | ⟨b, o, e, hc⟩
  · have h0 : s.size = 0 := h0
    omega
  · have e : p = .at b o := e
    rw [e]
    refine Heap.load_of (hc _ ?_)
    show _ < s.size
    omega

example : ∃ (H : Heap Nat) (a : Obj), a.kind = .ten ∧ a.shape = Shape.mk3 2 1 3 ∧
    H.Holds a.data a.shape.size (fun i => 10 * i) ∧ 1 * 3 * 2 = a.shape.size := by
  refine ⟨⟨fun b => if b = 0 then some [some 0, some 10, some 20, some 30, some 40, some 50] else none, 1⟩,
    ⟨.ten, .at 0 0, Shape.mk3 2 1 3⟩, rfl, rfl, Or.inr ⟨0, 0, rfl, ?_⟩, rfl⟩
  intro i hi
  have hi : i < 6 := hi
  have : i = 0 ∨ i = 1 ∨ i = 2 ∨ i = 3 ∨ i = 4 ∨ i = 5 := by omega
  rcases this with rfl | rfl | rfl | rfl | rfl | rfl <;> rfl

/-! ## C63 `resize(other.shape())` -/

/-- For matrices and tensors, `b.resize(a.shape())` after `a.resize(d,h,w)` gives `b` the size of `a`. -/
theorem C63_resize_shape_partial (H : Heap α) (a b : Obj) (hk : a.kind = b.kind) (hv : a.kind ≠ .vec)
    (d h w : Nat) (ha : a.data = .null) (hb : b.data = .null) :
    Ok (do
      let (H, a) ← a.resize H d h w
      let (_, b) ← b.resizeShape H a.shape
      return (a, b)) (fun (a', b') => b'.shape.size = a'.shape.size) := by
  rcases a with ⟨ka, pa, sa⟩
  rcases b with ⟨kb, pb, sb⟩
  have ha : pa = .null := ha
  have hb : pb = .null := hb
  have hk : ka = kb := hk
  subst ha hb hk
  cases ka
  · exact absurd rfl hv
  · exact Ok_ok.2 rfl
  · exact Ok_ok.2 rfl

/-- For vectors it is violated for every size other than 1: the width field of a resized vector is 1. -/
theorem C63_resize_shape_violated (H : Heap α) (n : Nat) (hn : n < W64) (h1 : n ≠ 1) :
    Ok (do
      let (H, a) ← (Obj.default .vec).resize H 1 1 n
      let (_, b) ← (Obj.default .vec).resizeShape H a.shape
      return (a, b)) (fun (a', b') => a'.shape.size = n ∧ b'.shape.size = 1 ∧ b'.shape.size ≠ a'.shape.size) := by
  have e1 : wmul (wmul 1 n) 1 = n := by
    rw [wmul_one_left]; unfold wmul; rw [Nat.mul_one, Nat.mod_eq_of_lt hn]
  refine Ok_ok.2 ⟨e1, rfl, ?_⟩
  show (1 : Nat) ≠ wmul (wmul 1 n) 1
  rw [e1]; exact fun h => h1 h.symm

end Trixy
