import Verif.Spec.Container
import Verif.Proof.Base
/- Container: effect of every operation on the free store, and the invariant of histories. -/
namespace Trixy

variable {α : Type _}

/-! ### Blocks -/

/-- Replace one allocation of a heap. -/
def Heap.setB (h : Heap α) (b : Nat) (x : Option (Buf α)) : Heap α :=
  ⟨fun b' => if b' = b then x else h.blocks b', h.next⟩

@[simp] theorem setB_next (h : Heap α) (b x) : (h.setB b x).next = h.next := rfl
@[simp] theorem setB_self (h : Heap α) (b x) : (h.setB b x).blocks b = x := by simp [Heap.setB]
theorem setB_ne (h : Heap α) {b b' : Nat} (x) (hb : b' ≠ b) : (h.setB b x).blocks b' = h.blocks b' := by
  simp [Heap.setB, hb]
@[simp] theorem setB_setB (h : Heap α) (b x y) : (h.setB b x).setB b y = h.setB b y := by
  unfold Heap.setB; congr 1; funext b'; by_cases e : b' = b <;> simp [e]
theorem setB_comm (h : Heap α) {b b' : Nat} (x y) (hb : b ≠ b') :
    (h.setB b x).setB b' y = (h.setB b' y).setB b x := by
  unfold Heap.setB; congr 1; funext c
  by_cases e : c = b
  · subst e; simp [hb]
  · by_cases e' : c = b'
    · subst e'; simp [hb.symm]
    · simp [e, e']
theorem setB_get (h : Heap α) {b : Nat} {x} (hb : h.blocks b = x) : h.setB b x = h := by
  unfold Heap.setB
  cases h; congr 1; funext c
  by_cases e : c = b <;> simp [e]; exact hb.symm

theorem cell_blk {h : Heap α} {b i : Nat} {buf : Buf α} {c} (hb : h.blocks b = some buf) (hc : buf[i]? = some c) :
    h.cell (.at b 0) i = .ok c := by
  simp [Heap.cell, hb, hc]

theorem put_blk {h : Heap α} {b i : Nat} {buf : Buf α} (hb : h.blocks b = some buf) (hi : i < buf.length) (c) :
    h.put (.at b 0) i c = .ok (h.setB b (some (List.set buf i c))) := by
  simp [Heap.put, hb, hi, Heap.setB]

theorem lt_of_getElem? {β : Type _} {l : List β} {i : Nat} {c : β} (h : l[i]? = some c) : i < l.length := by
  refine Nat.lt_of_not_le (fun hn => ?_)
  rw [List.getElem?_eq_none hn] at h; cases h

theorem construct_blk {s : Store α} {b i : Nat} {buf : Buf α} (hb : s.heap.blocks b = some buf)
    (hc : buf[i]? = some none) (v : α) :
    s.construct (.at b 0) i v = .ok ⟨s.heap.setB b (some (List.set buf i (some v))), s.moves⟩ := by
  unfold Store.construct
  rw [cell_blk hb hc, bind_ok]
  dsimp only
  rw [put_blk hb (lt_of_getElem? hc)]; rfl

theorem destroyAt_blk {s : Store α} {b i : Nat} {buf : Buf α} {v : α} (hb : s.heap.blocks b = some buf)
    (hc : buf[i]? = some (some v)) :
    s.destroyAt (.at b 0) i = .ok ⟨s.heap.setB b (some (List.set buf i none)), s.moves⟩ := by
  unfold Store.destroyAt
  rw [cell_blk hb hc, bind_ok]
  dsimp only
  rw [put_blk hb (lt_of_getElem? hc)]; rfl

theorem load_blk {h : Heap α} {b i : Nat} {buf : Buf α} {v : α} (hb : h.blocks b = some buf)
    (hc : buf[i]? = some (some v)) : h.load (.at b 0) i = .ok v := by
  unfold Heap.load; rw [cell_blk hb hc]; rfl

/-- A block holding the elements `l` followed by `m` raw cells. -/
def Blk (l : List α) (m : Nat) : Buf α := l.map some ++ List.replicate m none

@[simp] theorem Blk_length (l : List α) (m : Nat) : (Blk l m).length = l.length + m := by simp [Blk]

theorem Blk_get (l : List α) (m i : Nat) (h : i < l.length) : (Blk l m)[i]? = some (some l[i]) := by
  unfold Blk
  rw [List.getElem?_append_left (by simpa using h)]
  simp [h]

theorem Blk_raw (l : List α) (m : Nat) (h : 0 < m) : (Blk l m)[l.length]? = some none := by
  unfold Blk
  rw [List.getElem?_append_right (by simp)]
  simp [h]

theorem Blk_push (l : List α) (m : Nat) (v : α) : List.set (Blk l (m + 1)) l.length (some v) = Blk (l ++ [v]) m := by
  unfold Blk
  rw [List.set_append_right _ _ (by simp)]
  simp [List.replicate_succ]

theorem Blk_pop (l : List α) (m : Nat) (v : α) : List.set (Blk (l ++ [v]) m) l.length none = Blk l (m + 1) := by
  unfold Blk
  rw [List.set_append_left _ _ (by simp)]
  simp [List.replicate_succ]

theorem Blk_set (l : List α) (m i : Nat) (v : α) (h : i < l.length) :
    List.set (Blk l m) i (some v) = Blk (l.set i v) m := by
  unfold Blk
  rw [List.set_append_left _ _ (by simpa using h), List.map_set]

theorem rawBlock_replicate (m : Nat) : rawBlock (List.replicate m none : Buf α) = true := by
  simp [rawBlock]

theorem bind_assoc_res' {β γ δ : Type _} (r : Res β) (k : β → Res γ) (l : γ → Res δ) :
    ((r >>= k) >>= l) = (r >>= fun x => k x >>= l) := by
  cases r <;> rfl

/-! ### Loops -/

/-- Constructing the elements `xs` behind the elements `l`. -/
theorem construct_loop {H : Heap α} {mv b : Nat} {l xs : List α} {m : Nat}
    {body : Nat → Store α → Res (Store α)} (hn : xs.length ≤ m)
    (hbody : ∀ i s (hi : i < xs.length), s.heap.blocks b = some (Blk (l ++ xs.take i) (m - i)) →
      (∀ b', b' ≠ b → s.heap.blocks b' = H.blocks b') → body i s = s.construct (.at b 0) (l.length + i) xs[i]) :
    forN xs.length (⟨H.setB b (some (Blk l m)), mv⟩ : Store α) body =
      .ok ⟨H.setB b (some (Blk (l ++ xs) (m - xs.length))), mv⟩ := by
  apply Ok.eq
  refine (forN_spec (fun i s => s = (⟨H.setB b (some (Blk (l ++ xs.take i) (m - i))), mv⟩ : Store α)) (by simp) ?_).mono
    (fun s hs => by rw [hs, List.take_length])
  rintro i hi s rfl
  rw [hbody i _ hi (by simp) (fun b' hb' => setB_ne _ _ hb')]
  have e : l.length + i = (l ++ xs.take i).length := by simp; omega
  rw [construct_blk (buf := Blk (l ++ xs.take i) (m - i)) (by simp)
    (by rw [e]; exact Blk_raw _ _ (by omega))]
  refine Ok_ok.2 ?_
  have e2 : m - i = (m - (i + 1)) + 1 := by omega
  rw [e, e2, Blk_push, List.append_assoc, List.take_append_getElem hi]
  simp

/-- Destroying the elements from position `n` on (front to back). -/
theorem destroy_loop {H : Heap α} {mv b : Nat} {l : List α} {m n : Nat} (hn : n ≤ l.length) :
    forLoop n l.length (⟨H.setB b (some (Blk l m)), mv⟩ : Store α) (fun i s => s.destroyAt (.at b 0) i) =
      .ok ⟨H.setB b (some (Blk (l.take n) (l.length - n + m))), mv⟩ := by
  apply Ok.eq
  refine (forLoop_spec (fun i s => s = ⟨H.setB b (some ((l.take n).map some ++ (List.replicate (i - n) none ++
    ((l.drop i).map some ++ List.replicate m none)))), mv⟩) hn ?_ ?_).mono ?_
  · congr 3
    unfold Blk
    rw [Nat.sub_self, List.replicate_zero, List.nil_append, ← List.append_assoc, ← List.map_append, List.take_append_drop]
  · rintro i h1 h2 s rfl
    have hget : ((l.take n).map some ++ (List.replicate (i - n) none ++
        ((l.drop i).map some ++ List.replicate m none)))[i]? = some (some l[i]) := by
      rw [List.getElem?_append_right (by simp; omega), List.getElem?_append_right (by simp; omega)]
      have : i - (List.map some (List.take n l)).length - (List.replicate (i - n) (none : Option α)).length = 0 := by
        simp; omega
      rw [this, List.drop_eq_getElem_cons h2]; rfl
    rw [destroyAt_blk (by simp) hget]
    refine Ok_ok.2 ?_
    dsimp only
    rw [setB_setB]
    congr 3
    have hl : (List.map some (List.take n l)).length = n := by simp; omega
    rw [List.set_append_right _ _ (by rw [hl]; omega), hl,
      List.set_append_right _ _ (by simp), List.length_replicate, Nat.sub_self, List.drop_eq_getElem_cons h2]
    simp only [List.map_cons, List.cons_append, List.set_cons_zero]
    rw [show i + 1 - n = (i - n) + 1 by omega, List.replicate_succ']
    simp
  · rintro s rfl
    congr 3
    unfold Blk
    rw [List.drop_length, List.map_nil, List.nil_append, List.replicate_append_replicate]

/-! ### What a container represents -/

/-- Container `c` over heap `H` represents `a` (`none` = moved-from). -/
def Rep (H : Heap α) (c : Cont) : Option (List α) → Prop
  | none => c.data = .null
  | some l => (c.data = .null ∧ c.size = 0 ∧ c.cap = 0 ∧ l = []) ∨
      ∃ b m, c.data = .at b 0 ∧ H.blocks b = some (Blk l m) ∧ c.size = l.length ∧ c.size ≤ c.cap ∧ c.cap ≤ l.length + m

/-- Live allocations have names below `next`. -/
def Fresh (H : Heap α) : Prop := ∀ b, (H.blocks b).isSome = true → b < H.next

/-- From heap `H`, where the object owns `p`, to heap `H'`, where it owns `p'`: nothing else changes, the new
allocation is fresh and the old one is freed if it is no longer owned. -/
structure Delta (H : Heap α) (p : Ptr) (H' : Heap α) (p' : Ptr) : Prop where
  next : H.next ≤ H'.next
  frame : ∀ b, p ≠ .at b 0 → p' ≠ .at b 0 → H'.blocks b = H.blocks b
  fresh : ∀ b, p' = .at b 0 → p = .at b 0 ∨ (H.next ≤ b ∧ b < H'.next)
  freed : ∀ b, p = .at b 0 → p' ≠ .at b 0 → H'.blocks b = none
  zero : ∀ b o, p' = .at b o → o = 0

theorem Delta.refl (H : Heap α) {p : Ptr} (hz : ∀ b o, p = .at b o → o = 0) : Delta H p H p :=
  ⟨Nat.le_refl _, fun _ _ _ => rfl, fun _ h => Or.inl h, fun _ h h' => absurd h h', hz⟩

theorem Delta.same {H : Heap α} {b : Nat} (x : Option (Buf α)) : Delta H (.at b 0) (H.setB b x) (.at b 0) :=
  ⟨Nat.le_refl _, fun b' h _ => setB_ne _ _ (fun e => h (by rw [e])), fun _ h => Or.inl h,
    fun _ h h' => absurd h h', fun _ _ h => (by cases h; rfl)⟩

theorem Delta.trans {H H' H'' : Heap α} {p p' p'' : Ptr} (hf : Fresh H) (hp : ∀ b, p = .at b 0 → b < H.next)
    (d : Delta H p H' p') (e : Delta H' p' H'' p'') : Delta H p H'' p'' := by
  have _ := hf
  refine ⟨Nat.le_trans d.next e.next, fun b h h'' => ?_, fun b h => ?_, fun b h h'' => ?_, e.zero⟩
  · by_cases h' : p' = .at b 0
    · rw [e.freed b h' h'']
      rcases d.fresh b h' with h1 | ⟨h1, _⟩
      · exact absurd h1 h
      · cases hb : H.blocks b with
        | none => rfl
        | some buf =>
          have := hf b (by rw [hb]; rfl)
          omega
    · rw [e.frame b h' h'', d.frame b h h']
  · rcases e.fresh b h with h1 | ⟨h1, h2⟩
    · rcases d.fresh b h1 with h2 | ⟨h2, h3⟩
      · exact Or.inl h2
      · exact Or.inr ⟨h2, Nat.lt_of_lt_of_le h3 e.next⟩
    · exact Or.inr ⟨Nat.le_trans d.next h1, h2⟩
  · by_cases h' : p' = .at b 0
    · exact e.freed b h' h''
    · rw [e.frame b h' h'']
      exact d.freed b h h'

theorem new_setB (H : Heap α) (n : Nat) : (H.new n).1 = ⟨(H.setB H.next (some (Buf.alloc n))).blocks, H.next + 1⟩ := rfl

/-- A fresh allocation. -/
theorem Delta.alloc {H : Heap α} {n : Nat} (x : Option (Buf α)) :
    Delta H .null ((H.new n).1.setB H.next x) (.at H.next 0) :=
  ⟨Nat.le_succ _, fun b _ h => by
    have : b ≠ H.next := fun e => h (by rw [e])
    rw [setB_ne _ _ this]; simp [Heap.new, this],
    fun b h => by cases h; exact Or.inr ⟨Nat.le_refl _, Nat.lt_succ_self _⟩, fun _ h => (by cases h),
    fun _ _ h => (by cases h; rfl)⟩

theorem Fresh.setB {H : Heap α} (hf : Fresh H) {b : Nat} (hb : b < H.next) (x) : Fresh (H.setB b x) := by
  intro b' h
  by_cases e : b' = b
  · rw [e]; exact hb
  · rw [setB_ne _ _ e] at h; exact hf b' h

theorem Fresh.new {H : Heap α} (hf : Fresh H) (n : Nat) : Fresh (H.new n).1 := by
  intro b h
  show b < H.next + 1
  by_cases e : b = H.next
  · omega
  · have : ((H.new n).1).blocks b = H.blocks b := by simp [Heap.new, e]
    rw [this] at h
    have := hf b h; omega

/-! ### Operations -/

/-- Destroying all elements and releasing the storage. -/
theorem drop_spec {s : Store α} {c : Cont} {a : Option (List α)} (hr : Rep s.heap c a) :
    Ok (Cont.destruct s c) (fun s' => Delta s.heap c.data s'.heap .null ∧ s'.moves = s.moves ∧
      s'.heap.next = s.heap.next ∧ (∀ b, (s'.heap.blocks b).isSome = true → (s.heap.blocks b).isSome = true)) := by
  have hnull : c.data = .null → Ok (Cont.destruct s c) (fun s' => Delta s.heap c.data s'.heap .null ∧
      s'.moves = s.moves ∧ s'.heap.next = s.heap.next ∧
      (∀ b, (s'.heap.blocks b).isSome = true → (s.heap.blocks b).isSome = true)) := by
    intro h
    unfold Cont.destruct
    rw [h]
    exact Ok_ok.2 ⟨Delta.refl _ (by simp), rfl, rfl, fun _ h => h⟩
  cases a with
  | none => exact hnull hr
  | some l =>
    rcases hr with ⟨h, _⟩ | ⟨b, m, hd, hb, hsz, hle, hcap⟩
    · exact hnull h
    · unfold Cont.destruct Store.destroyRange
      rw [hd, hsz]
      dsimp only
      have h0 : s = ⟨s.heap.setB b (some (Blk l m)), s.moves⟩ := by rw [setB_get _ hb]
      rw [h0, destroy_loop (Nat.zero_le _), bind_ok]
      unfold Store.deallocate
      simp only [setB_self]
      have : Blk (l.take 0) (l.length - 0 + m) = List.replicate (l.length + m) none := by simp [Blk]
      rw [this, rawBlock_replicate, if_pos rfl]
      have hdel : (s.heap.setB b (some (List.replicate (l.length + m) none))).delete (.at b 0) =
          .ok (s.heap.setB b none) := by
        unfold Heap.delete
        simp [Heap.setB]
        funext b'; by_cases e : b' = b <;> simp [e]
      rw [hdel]
      have hd' : Delta s.heap (.at b 0) (s.heap.setB b none) .null :=
        ⟨Nat.le_refl _, fun b' h _ => setB_ne _ _ (fun e => h (by rw [e])), fun _ h => (by cases h),
          fun b' h _ => (by cases h; simp), fun _ _ h => (by cases h)⟩
      refine Ok_ok.2 ⟨?_, rfl, rfl, fun b' h => ?_⟩
      · rw [setB_get _ hb]; exact hd'
      · rw [setB_get _ hb]
        by_cases e : b' = b
        · subst e; rw [hb]; rfl
        · have := setB_ne s.heap none e
          rw [← this]; exact h

theorem alloc_eq (s : Store α) (n : Nat) : s.allocate n =
    (⟨(s.heap.new n).1.setB s.heap.next (some (Blk [] n)), s.moves⟩, .at s.heap.next 0) := by
  unfold Store.allocate
  rw [setB_get]; rfl
  simp [Heap.new, Blk, Buf.alloc]

theorem new_blocks_ne (H : Heap α) (n : Nat) {b : Nat} (hb : b ≠ H.next) : (H.new n).1.blocks b = H.blocks b := by
  simp [Heap.new, hb]

/-- Allocation of `n` cells, the first ones being constructed. -/
theorem alloc_loop {s : Store α} {n : Nat} {xs : List α} {body : Nat → Store α → Res (Store α)} (hn : xs.length ≤ n)
    (hbody : ∀ i s' (hi : i < xs.length), (∀ b', b' ≠ s.heap.next → s'.heap.blocks b' = s.heap.blocks b') →
      body i s' = s'.construct (.at s.heap.next 0) i xs[i]) :
    forN xs.length (s.allocate n).1 body =
      .ok ⟨(s.heap.new n).1.setB s.heap.next (some (Blk xs (n - xs.length))), s.moves⟩ := by
  rw [alloc_eq]
  refine (construct_loop (l := []) hn (fun i s' hi _ hf => ?_)).trans (by simp)
  rw [hbody i s' hi (fun b' hb' => by rw [hf b' hb', new_blocks_ne _ _ hb'])]
  simp

/-- What a constructor or an operation on one container establishes. -/
structure OpSpec (H : Heap α) (p : Ptr) (a' : Option (List α)) (H' : Heap α) (c' : Cont) : Prop where
  delta : Delta H p H' c'.data
  rep : Rep H' c' a'

theorem sized_spec (dflt : α) (s : Store α) (n : Nat) :
    Ok (Cont.sized dflt s n) (fun r => OpSpec s.heap .null (some (List.replicate n dflt)) r.1.heap r.2) := by
  unfold Cont.sized
  have hp : (s.allocate n).2 = .at s.heap.next 0 := rfl
  have := alloc_loop (s := s) (n := n) (xs := List.replicate n dflt) (by simp)
    (body := fun i s' => s'.construct (.at s.heap.next 0) i dflt) (fun i s' hi _ => by simp)
  rw [List.length_replicate] at this
  simp only [hp]
  rw [this, bind_ok]
  refine Ok_ok.2 ⟨Delta.alloc _, Or.inr ⟨_, _, rfl, setB_self _ _ _, by simp, by simp, by simp⟩⟩

theorem ofList_spec (s : Store α) (l : List α) :
    Ok (Cont.ofList s l) (fun r => OpSpec s.heap .null (some l) r.1.heap r.2) := by
  unfold Cont.ofList
  have hp : (s.allocate l.length).2 = .at s.heap.next 0 := rfl
  simp only [hp]
  rw [alloc_loop (xs := l) (Nat.le_refl _), bind_ok]
  rotate_left
  · intro i s' hi _
    rw [List.getElem?_eq_getElem hi]
  refine Ok_ok.2 ⟨Delta.alloc _, Or.inr ⟨_, _, rfl, setB_self _ _ _, by simp, by simp, by simp⟩⟩

theorem Rep.lt {H : Heap α} (hf : Fresh H) {c : Cont} {a} (h : Rep H c a) {b : Nat} (hb : c.data = .at b 0) :
    b < H.next := by
  cases a with
  | none => rw [show c.data = .null from h] at hb; cases hb
  | some l =>
    rcases h with ⟨h, _⟩ | ⟨b', m, h1, h2, _⟩
    · rw [h] at hb; cases hb
    · rw [h1] at hb; cases hb; exact hf b (by rw [h2]; rfl)

theorem Rep.zero {H : Heap α} {c : Cont} {a} (h : Rep H c a) : ∀ b o, c.data = .at b o → o = 0 := by
  intro b o hb
  cases a with
  | none => rw [show c.data = .null from h] at hb; cases hb
  | some l =>
    rcases h with ⟨h, _⟩ | ⟨b', m, h1, h2, _⟩
    · rw [h] at hb; cases hb
    · rw [h1] at hb; cases hb; rfl

/-- Copying all elements of `src` into a fresh allocation of `n ≥ size` cells. -/
theorem copy_alloc {s : Store α} (hf : Fresh s.heap) {src : Cont} {l : List α} (hr : Rep s.heap src (some l)) {n : Nat}
    (hn : l.length ≤ n) : copyElems (s.allocate n).1 (.at s.heap.next 0) src.data src.size =
      .ok ⟨(s.heap.new n).1.setB s.heap.next (some (Blk l (n - l.length))), s.moves⟩ := by
  have hsz : src.size = l.length := by
    rcases hr with ⟨_, h, _, h'⟩ | ⟨b, m, _, _, h, _⟩
    · rw [h, h']; rfl
    · exact h
  unfold copyElems
  rw [hsz]
  refine alloc_loop hn (fun i s' hi hfr => ?_)
  rcases hr with ⟨_, _, _, h'⟩ | ⟨b, m, hd, hb, _, _⟩
  · rw [h'] at hi; exact absurd hi (Nat.not_lt_zero _)
  · have hne : b ≠ s.heap.next := Nat.ne_of_lt (hf b (by rw [hb]; rfl))
    rw [hd, load_blk (buf := Blk l m) (by rw [hfr b hne, hb]) (Blk_get l m i hi), bind_ok]

theorem Rep.size {H : Heap α} {c : Cont} {l : List α} (hr : Rep H c (some l)) :
    c.size = l.length ∧ c.size ≤ c.cap := by
  rcases hr with ⟨_, h, h2, h'⟩ | ⟨b, m, _, _, h, h2, _⟩
  · rw [h, h', h2]; exact ⟨rfl, Nat.le_refl _⟩
  · exact ⟨h, h2⟩

/-- Copy construction is right if the source has no spare capacity. -/
theorem copyCtor_spec {s : Store α} (hf : Fresh s.heap) {src : Cont} {l : List α} (hr : Rep s.heap src (some l))
    (hcap : src.size = src.cap) :
    Ok (Cont.copyCtor s src) (fun r => OpSpec s.heap .null (some l) r.1.heap r.2) := by
  unfold Cont.copyCtor
  have hsz := hr.size.1
  have hp : (s.allocate src.size).2 = .at s.heap.next 0 := rfl
  simp only [hp]
  rw [copy_alloc hf hr (by omega), bind_ok]
  refine Ok_ok.2 ⟨Delta.alloc _, Or.inr ⟨_, _, rfl, setB_self _ _ _, hsz, by simp [hcap], ?_⟩⟩
  simp only; omega

theorem Fresh.delta {H H' : Heap α} {p p' : Ptr} (hf : Fresh H) (hp : ∀ b, p = .at b 0 → b < H.next)
    (d : Delta H p H' p') : Fresh H' := by
  intro b hb
  by_cases h' : p' = .at b 0
  · rcases d.fresh b h' with h | ⟨_, h⟩
    · exact Nat.lt_of_lt_of_le (hp b h) d.next
    · exact h
  · by_cases h : p = .at b 0
    · rw [d.freed b h h'] at hb; cases hb
    · rw [d.frame b h h'] at hb; exact Nat.lt_of_lt_of_le (hf b hb) d.next

/-- A container other than the changed one keeps what it represents. -/
theorem Rep.frame {H H' : Heap α} {p p' : Ptr} (hf : Fresh H) (d : Delta H p H' p') {c : Cont} {a}
    (hr : Rep H c a) (hne : ∀ b, c.data = .at b 0 → p ≠ .at b 0) : Rep H' c a := by
  cases a with
  | none => exact hr
  | some l =>
    rcases hr with h | ⟨b, m, h1, h2, h3⟩
    · exact Or.inl h
    · refine Or.inr ⟨b, m, h1, ?_, h3⟩
      rw [d.frame b (hne b h1), h2]
      intro e
      rcases d.fresh b e with h | ⟨h, _⟩
      · exact hne b h1 h
      · exact absurd (hf b (by rw [h2]; rfl)) (by omega)

theorem copyAssign_spec {s : Store α} (hf : Fresh s.heap) {c src : Cont} {a} {l : List α} (hc : Rep s.heap c a)
    (hr : Rep s.heap src (some l)) (hne : ∀ b, src.data = .at b 0 → c.data ≠ .at b 0) :
    Ok (Cont.copyAssign s c src) (fun r => OpSpec s.heap c.data (some l) r.1.heap r.2) := by
  unfold Cont.copyAssign
  obtain ⟨s1, e1, d1, _, _, _⟩ := drop_spec hc
  unfold Cont.destruct at e1
  rw [← bind_assoc_res', e1, bind_ok]
  have hlt : ∀ b, c.data = .at b 0 → b < s.heap.next := fun b hb => hc.lt hf hb
  have hf1 := hf.delta hlt d1
  have hr1 := hr.frame hf d1 hne
  have hp : (s1.allocate src.cap).2 = .at s1.heap.next 0 := rfl
  simp only [hp]
  have hs := hr.size
  rw [copy_alloc hf1 hr1 (by omega), bind_ok]
  refine Ok_ok.2 ⟨d1.trans hf hlt (Delta.alloc _), Or.inr ⟨_, _, rfl, setB_self _ _ _, hs.1, hs.2, ?_⟩⟩
  simp only; omega

theorem reserve_null {moved : α → α} {s : Store α} {c : Cont} (h1 : c.data = .null) (h2 : c.size = 0) {n : Nat}
    (hn : n > c.cap) : c.reserve moved s n =
      .ok (⟨(s.heap.new n).1.setB s.heap.next (some (Blk [] n)), s.moves⟩, ⟨.at s.heap.next 0, 0, n⟩) := by
  unfold Cont.reserve
  rw [if_pos hn, h1, h2, alloc_eq]
  rfl

theorem moveOut_blk {moved : α → α} {s : Store α} {b i : Nat} {buf : Buf α} {v : α} (hb : s.heap.blocks b = some buf)
    (hc : buf[i]? = some (some v)) : s.moveOut moved (.at b 0) i =
      .ok (v, ⟨s.heap.setB b (some (List.set buf i (some (moved v)))), s.moves + 1⟩) := by
  unfold Store.moveOut
  rw [load_blk hb hc, bind_ok, put_blk hb (lt_of_getElem? hc)]; rfl

theorem Blk_moved (moved : α → α) (l : List α) (m i : Nat) (hi : i < l.length) :
    List.set (Blk ((l.take i).map moved ++ l.drop i) m) i (some (moved l[i])) =
      Blk ((l.take (i + 1)).map moved ++ l.drop (i + 1)) m := by
  have hlen : ((l.take i).map moved).length = i := by simp; omega
  rw [Blk_set _ _ _ _ (by simp; omega)]
  congr 1
  rw [List.set_append_right _ _ (by rw [hlen]; exact Nat.le_refl _), hlen, Nat.sub_self, List.drop_eq_getElem_cons hi,
    List.set_cons_zero, List.take_succ_eq_append_getElem hi, List.map_append, List.append_assoc]
  rfl

theorem reserve_at {moved : α → α} {s : Store α} (hf : Fresh s.heap) {c : Cont} {l : List α} {b m : Nat}
    (hd : c.data = .at b 0) (hb : s.heap.blocks b = some (Blk l m)) (hsz : c.size = l.length) {n : Nat}
    (hn : n > c.cap) (hln : l.length ≤ n) : c.reserve moved s n =
      .ok (⟨((s.heap.new n).1.setB s.heap.next (some (Blk l (n - l.length)))).setB b none, s.moves + l.length⟩,
        ⟨.at s.heap.next 0, l.length, n⟩) := by
  unfold Cont.reserve
  have hne : b ≠ s.heap.next := Nat.ne_of_lt (hf b (by rw [hb]; rfl))
  rw [if_pos hn, hd, hsz]
  have hp : (s.allocate n).2 = .at s.heap.next 0 := rfl
  simp only [hp]
  have loop : forN l.length (s.allocate n).1 (fun i s' => do
      let (v, s') ← s'.moveOut moved (.at b 0) i
      s'.construct (.at s.heap.next 0) i v) =
      .ok ⟨((s.heap.new n).1.setB s.heap.next (some (Blk l (n - l.length)))).setB b (some (Blk (l.map moved) m)),
        s.moves + l.length⟩ := by
    apply Ok.eq
    refine (forN_spec (fun i s' => s' = (⟨((s.heap.new n).1.setB s.heap.next (some (Blk (l.take i) (n - i)))).setB b
      (some (Blk ((l.take i).map moved ++ l.drop i) m)), s.moves + i⟩ : Store α)) ?_ ?_).mono
      (fun s' hs => by rw [hs]; simp)
    · rw [alloc_eq]
      congr 1
      rw [List.take_zero, List.map_nil, List.nil_append, List.drop_zero, Nat.sub_zero, Nat.add_zero]
      rw [setB_get ((s.heap.new n).1.setB s.heap.next (some (Blk [] n))) (b := b) (x := some (Blk l m))
        (by rw [setB_ne _ _ hne, new_blocks_ne _ _ hne, hb])]
    · rintro i hi s' rfl
      have hget : (Blk ((l.take i).map moved ++ l.drop i) m)[i]? = some (some l[i]) := by
        rw [Blk_get _ _ _ (by simp; omega)]
        congr 2
        rw [List.getElem_append_right (by simp; omega)]
        simp only [List.length_map, List.length_take, List.getElem_drop]
        congr 1; omega
      rw [moveOut_blk (setB_self _ _ _) hget, bind_ok]
      dsimp only
      rw [setB_setB, Blk_moved moved l m i hi]
      have e : i = (l.take i).length := by simp; omega
      rw [construct_blk (b := s.heap.next) (buf := Blk (l.take i) (n - i))
        (by rw [setB_ne _ _ hne.symm, setB_self]) (by conv => lhs; arg 2; rw [e]
                                                      exact Blk_raw _ _ (by omega))]
      refine Ok_ok.2 ?_
      dsimp only
      have e2 : n - i = (n - (i + 1)) + 1 := by omega
      have e3 : List.set (Blk (List.take i l) (n - i)) i (some l[i]) = Blk (l.take (i + 1)) (n - (i + 1)) := by
        have := Blk_push (l.take i) (n - (i + 1)) l[i]
        rw [← e] at this
        rw [e2, this, List.take_succ_eq_append_getElem hi]
      rw [e3, setB_comm _ _ _ hne.symm, setB_comm _ _ _ hne.symm, setB_setB]
      congr 1
  refine (congrArg (· >>= _) loop).trans ?_
  rw [bind_ok]
  have hrep : Rep (⟨((s.heap.new n).1.setB s.heap.next (some (Blk l (n - l.length)))).setB b (some (Blk (l.map moved) m)),
        s.moves + l.length⟩ : Store α).heap ⟨.at b 0, l.length, l.length⟩ (some (l.map moved)) :=
    Or.inr ⟨b, m, rfl, setB_self _ _ _, by simp, Nat.le_refl _, by simp⟩
  unfold Store.destroyRange
  dsimp only
  have hlm : l.length = (l.map moved).length := by simp
  have hdl := destroy_loop (H := (s.heap.new n).1.setB s.heap.next (some (Blk l (n - l.length)))) (mv := s.moves + l.length)
    (b := b) (l := l.map moved) (m := m) (n := 0) (Nat.zero_le _)
  rw [← hlm] at hdl
  rw [hdl, bind_ok]
  unfold Store.deallocate
  simp only [setB_self]
  have : Blk ((l.map moved).take 0) (l.length - 0 + m) = List.replicate (l.length + m) none := by simp [Blk]
  rw [this, rawBlock_replicate, if_pos rfl]
  have hdel : (((s.heap.new n).1.setB s.heap.next (some (Blk l (n - l.length)))).setB b
      (some (List.replicate (l.length + m) none))).delete (.at b 0) =
      .ok (((s.heap.new n).1.setB s.heap.next (some (Blk l (n - l.length)))).setB b none) := by
    unfold Heap.delete
    simp [Heap.setB]
    funext b'; by_cases e : b' = b <;> simp [e]
  rw [hdel]; rfl

theorem Delta.realloc {H : Heap α} (hf : Fresh H) {b n : Nat} (hb : (H.blocks b).isSome = true) (x : Option (Buf α)) :
    Delta H (.at b 0) (((H.new n).1.setB H.next x).setB b none) (.at H.next 0) := by
  have hne : b ≠ H.next := Nat.ne_of_lt (hf b hb)
  refine ⟨Nat.le_succ _, fun b' h h' => ?_, fun b' h => ?_, fun b' h _ => ?_, fun _ _ h => (by cases h; rfl)⟩
  · rw [setB_ne _ _ (fun e => h (by rw [e])), setB_ne _ _ (fun e => h' (by rw [e])),
      new_blocks_ne _ _ (fun e => h' (by rw [e]))]
  · cases h; exact Or.inr ⟨Nat.le_refl _, Nat.lt_succ_self _⟩
  · cases h; exact setB_self _ _ _

/-- `reserve`: same elements, capacity at least `n`; one move per element if it reallocates. -/
theorem reserve_spec {moved : α → α} {s : Store α} (hf : Fresh s.heap) {c : Cont} {l : List α}
    (hr : Rep s.heap c (some l)) (n : Nat) :
    Ok (c.reserve moved s n) (fun r => OpSpec s.heap c.data (some l) r.1.heap r.2 ∧
      r.2.cap = max c.cap n ∧ r.1.moves = s.moves + (if n > c.cap then l.length else 0)) := by
  by_cases hn : n > c.cap
  · rw [if_pos hn]
    have hs := hr.size
    rcases hr with ⟨h1, h2, h3, h4⟩ | ⟨b, m, hd, hb, hsz, hle, hcap⟩
    · rw [reserve_null h1 h2 hn]
      subst h4
      refine Ok_ok.2 ⟨⟨by rw [h1]; exact Delta.alloc _, Or.inr ⟨_, _, rfl, setB_self _ _ _, rfl, Nat.zero_le _, by simp⟩⟩, ?_, rfl⟩
      rw [Nat.max_eq_right (by omega)]
    · have hne : b ≠ s.heap.next := Nat.ne_of_lt (hf b (by rw [hb]; rfl))
      rw [reserve_at hf hd hb hsz hn (by omega)]
      refine Ok_ok.2 ⟨⟨by rw [hd]; exact Delta.realloc hf (by rw [hb]; rfl) _,
        Or.inr ⟨_, n - l.length, rfl, by rw [setB_ne _ _ hne.symm, setB_self], rfl, by show l.length ≤ n; omega, by show n ≤ _; omega⟩⟩, ?_, rfl⟩
      rw [Nat.max_eq_right (by omega)]
  · rw [if_neg hn]
    unfold Cont.reserve
    rw [if_neg hn]
    exact Ok_ok.2 ⟨⟨Delta.refl _ hr.zero, hr⟩, by rw [Nat.max_eq_left (by omega)], rfl⟩

/-- Constructing at the end of a container with room. -/
theorem fill_spec {s : Store α} {c : Cont} {l xs : List α} (hr : Rep s.heap c (some l))
    (hroom : l.length + xs.length ≤ c.cap) (body : Nat → Store α → Res (Store α))
    (hbody : ∀ i s' (hi : i < xs.length), body i s' = s'.construct c.data (l.length + i) xs[i]) :
    Ok (forN xs.length s body) (fun s' => OpSpec s.heap c.data (some (l ++ xs)) s'.heap ⟨c.data, l.length + xs.length, c.cap⟩ ∧
      s'.moves = s.moves) := by
  have hrz := hr.zero
  rcases hr with ⟨h1, h2, h3, h4⟩ | ⟨b, m, hd, hb, hsz, hle, hcap⟩
  · have hx : xs = [] := List.length_eq_zero_iff.1 (by omega)
    subst hx h4
    refine Ok_ok.2 ⟨⟨Delta.refl _ hrz, Or.inl ⟨h1, rfl, h3, rfl⟩⟩, rfl⟩
  · have h0 : s = ⟨s.heap.setB b (some (Blk l m)), s.moves⟩ := by rw [setB_get _ hb]
    have := construct_loop (H := s.heap) (mv := s.moves) (b := b) (l := l) (xs := xs) (m := m) (body := body) (by omega)
      (fun i s' hi _ _ => by rw [hbody i s' hi, hd])
    rw [h0, this]
    refine Ok_ok.2 ⟨⟨?_, Or.inr ⟨b, _, hd, setB_self _ _ _, by simp, by simpa using hroom, by simp; omega⟩⟩, rfl⟩
    rw [hd, setB_get _ hb]
    exact Delta.same _

theorem OpSpec.trans {H H' H'' : Heap α} {p : Ptr} {a a' : Option (List α)} {c c' : Cont} (hf : Fresh H)
    (hp : ∀ b, p = .at b 0 → b < H.next) (d : OpSpec H p a H' c) (e : OpSpec H' c.data a' H'' c') :
    OpSpec H p a' H'' c' := ⟨d.delta.trans hf hp e.delta, e.rep⟩

theorem emplaceBack_spec {moved : α → α} {s : Store α} (hf : Fresh s.heap) {c : Cont} {l : List α}
    (hr : Rep s.heap c (some l)) (v : α) :
    Ok (c.emplaceBack moved s v) (fun r => OpSpec s.heap c.data (some (l ++ [v])) r.1.heap r.2 ∧
      r.2.cap = (if c.size = c.cap then c.cap * 2 + 1 else c.cap) ∧
      r.1.moves = s.moves + (if c.size = c.cap then l.length else 0)) := by
  unfold Cont.emplaceBack
  have hlt : ∀ b, c.data = .at b 0 → b < s.heap.next := fun b hb => hr.lt hf hb
  have h1 : Ok (c.grow moved s)
      (fun r => OpSpec s.heap c.data (some l) r.1.heap r.2 ∧ l.length + 1 ≤ r.2.cap ∧
        r.2.cap = (if c.size = c.cap then c.cap * 2 + 1 else c.cap) ∧
        r.1.moves = s.moves + (if c.size = c.cap then l.length else 0)) := by
    have hs := hr.size
    unfold Cont.grow
    by_cases e : c.size = c.cap
    · rw [if_pos e, if_pos e, if_pos e]
      refine (reserve_spec hf hr _).mono (fun r hr' => ⟨hr'.1, ?_, ?_, ?_⟩)
      · rw [hr'.2.1]; omega
      · rw [hr'.2.1]; omega
      · rw [hr'.2.2, if_pos (by omega)]
    · rw [if_neg e, if_neg e, if_neg e]
      exact Ok_ok.2 ⟨⟨Delta.refl _ hr.zero, hr⟩, by show _ ≤ c.cap; omega, rfl, rfl⟩
  refine h1.bind (fun r ⟨sp, hroom, hcap, hmv⟩ => ?_)
  obtain ⟨s1, c1⟩ := r
  dsimp only at sp hroom hcap hmv ⊢
  have hs1 := sp.rep.size
  have := fill_spec (xs := [v]) sp.rep (by simpa using hroom) (fun i s' => s'.construct c1.data (l.length + i) v)
    (fun i s' hi => by simp at hi; subst hi; rfl)
  simp only [List.length_singleton, forN_succ, forN_zero, bind_ok, Nat.add_zero] at this
  rw [hs1.1]
  refine this.bind (fun s2 h2 => Ok_ok.2 ⟨sp.trans hf hlt h2.1, hcap, ?_⟩)
  show s2.moves = _
  rw [h2.2, hmv]

theorem popBack_spec {s : Store α} {c : Cont} {l : List α} (hr : Rep s.heap c (some l)) (hne : l ≠ []) :
    Ok (c.popBack s) (fun r => OpSpec s.heap c.data (some l.dropLast) r.1.heap r.2) := by
  have hpos : 0 < l.length := List.length_pos_iff.2 hne
  rcases hr with ⟨_, _, _, h⟩ | ⟨b, m, hd, hb, hsz, hle, hcap⟩
  · exact absurd h hne
  · unfold Cont.popBack
    rw [if_neg (by omega), hd, hsz]
    rw [destroyAt_blk hb (Blk_get l m _ (by omega)), bind_ok]
    have e : l = l.dropLast ++ [l.getLast hne] := (List.dropLast_concat_getLast hne).symm
    have e2 : List.set (Blk l m) (l.length - 1) none = Blk l.dropLast (m + 1) := by
      have := Blk_pop l.dropLast m (l.getLast hne)
      rw [← e, List.length_dropLast] at this
      exact this
    rw [e2]
    refine Ok_ok.2 ⟨Delta.same _, Or.inr ⟨b, m + 1, rfl, setB_self _ _ _, ?_, ?_, ?_⟩⟩
    · simp
    · show l.length - 1 ≤ c.cap; omega
    · show c.cap ≤ _; simp; omega

theorem write_spec {s : Store α} {c : Cont} {l : List α} (hr : Rep s.heap c (some l)) {i : Nat} (hi : i < l.length)
    (v : α) : Ok (c.write s i v) (fun s' => OpSpec s.heap c.data (some (l.set i v)) s'.heap c) := by
  rcases hr with ⟨_, _, _, h⟩ | ⟨b, m, hd, hb, hsz, hle, hcap⟩
  · rw [h] at hi; exact absurd hi (Nat.not_lt_zero _)
  · unfold Cont.write Heap.store
    rw [hd, load_blk hb (Blk_get l m i hi), bind_ok, put_blk hb (by simp; omega), bind_ok, Blk_set _ _ _ _ hi]
    refine Ok_ok.2 ⟨by rw [hd]; exact Delta.same _, Or.inr ⟨b, m, hd, setB_self _ _ _, ?_, hle, ?_⟩⟩
    · rw [hsz]; simp
    · simpa using hcap

theorem resize_spec {moved : α → α} {s : Store α} (hf : Fresh s.heap) {c : Cont} {l : List α}
    (hr : Rep s.heap c (some l)) (n : Nat) (arg : Nat → α) :
    Ok (c.resize moved s n arg) (fun r => OpSpec s.heap c.data
      (some (if n ≤ l.length then l.take n else l ++ (List.range (n - l.length)).map arg)) r.1.heap r.2) := by
  unfold Cont.resize
  have hlt : ∀ b, c.data = .at b 0 → b < s.heap.next := fun b hb => hr.lt hf hb
  have hs := hr.size
  by_cases hn : n > c.cap
  · rw [if_pos hn, if_neg (by omega)]
    refine (reserve_spec (moved := moved) hf hr n).bind (fun r ⟨sp, hcap, _⟩ => ?_)
    obtain ⟨s1, c1⟩ := r
    dsimp only at sp hcap ⊢
    have hs1 := sp.rep.size
    have hc1 : c1.cap = n := by rw [hcap]; omega
    have hx : ((List.range (n - l.length)).map arg).length = n - l.length := by simp
    have := fill_spec (xs := (List.range (n - l.length)).map arg) sp.rep (by rw [hx]; omega)
      (fun i s' => s'.construct c1.data (l.length + i) (arg (l.length + i - l.length)))
      (fun i s' hi => by simp)
    rw [hx] at this
    unfold fillElems forLoop
    rw [hs1.1]
    refine this.bind (fun s2 h2 => Ok_ok.2 ?_)
    refine sp.trans hf hlt ?_
    have e : (⟨c1.data, l.length + (n - l.length), c1.cap⟩ : Cont) = { c1 with size := n, cap := n } := by
      rw [hc1]; congr 1; omega
    have h3 := h2.1
    rw [e] at h3; exact h3
  · rw [if_neg hn]
    by_cases hn2 : n < c.size
    · rw [if_pos hn2, if_pos (by omega)]
      rcases hr with ⟨_, h, _⟩ | ⟨b, m, hd, hb, hsz, hle, hcap⟩
      · omega
      · unfold Store.destroyRange
        rw [hd, hsz]
        dsimp only
        have h0 : s = ⟨s.heap.setB b (some (Blk l m)), s.moves⟩ := by rw [setB_get _ hb]
        have hdl := destroy_loop (H := s.heap) (mv := s.moves) (b := b) (l := l) (m := m) (n := n) (by omega)
        rw [← h0] at hdl
        rw [hdl, bind_ok]
        refine Ok_ok.2 ⟨Delta.same _, Or.inr ⟨b, _, rfl, setB_self _ _ _, ?_, ?_, ?_⟩⟩
        · show n = _; simp; omega
        · show n ≤ c.cap; omega
        · show c.cap ≤ _; simp; omega
    · rw [if_neg hn2]
      have hx : ((List.range (n - l.length)).map arg).length = n - l.length := by simp
      have := fill_spec (xs := (List.range (n - l.length)).map arg) hr (by rw [hx]; omega)
        (fun i s' => s'.construct c.data (l.length + i) (arg (l.length + i - l.length)))
        (fun i s' hi => by simp)
      rw [hx] at this
      unfold fillElems forLoop
      rw [hs.1]
      refine this.bind (fun s2 h2 => Ok_ok.2 ?_)
      have h3 := h2.1
      have e : (⟨c.data, l.length + (n - l.length), c.cap⟩ : Cont) = { c with size := n } := by
        congr 1; omega
      rw [e] at h3
      have e2 : (if n ≤ l.length then l.take n else l ++ (List.range (n - l.length)).map arg) =
          l ++ (List.range (n - l.length)).map arg := by
        by_cases h : n ≤ l.length
        · have : n = l.length := by omega
          subst this; simp
        · rw [if_neg h]
      rw [e2]; exact h3

end Trixy
