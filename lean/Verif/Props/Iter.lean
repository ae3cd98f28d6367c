import Verif.Model.Iter
import Verif.Props.Container
import Verif.Proof.Heap
/- C76: iterators of Container. -/
namespace Trixy

variable {α : Type _}

theorem ptrAdd_blk {H : Heap α} {b o n : Nat} {l : List α} {m : Nat} (hb : H.blocks b = some (Blk l m)) (h : o + n ≤ l.length) :
    ptrAdd H (.at b o) n = .ok (.at b (o + n)) := by
  unfold ptrAdd
  dsimp only
  rw [hb]
  dsimp only
  rw [if_pos]
  rw [Blk_length]; omega

theorem load_off {H : Heap α} {b o i : Nat} {l : List α} {m : Nat} (hb : H.blocks b = some (Blk l m)) (h : o + i < l.length) :
    H.load (.at b o) i = .ok (l[o + i]) := by
  refine Heap.load_of ?_
  unfold Heap.cellAt
  rw [hb]
  exact Blk_get l m (o + i) h

theorem advance_blk {s : Store α} {b : Nat} {l : List α} {m : Nat} (hb : s.heap.blocks b = some (Blk l m)) :
    ∀ k, k ≤ l.length → Iter.advance s (.at b 0) k = .ok (.at b k) := by
  intro k
  induction k with
  | zero => intro _; rfl
  | succ k ih =>
    intro h
    show (Iter.advance s (.at b 0) k >>= _) = _
    rw [ih (by omega), bind_ok]
    exact ptrAdd_blk hb (by omega)

theorem walk_blk {s : Store α} {b : Nat} {l : List α} {m : Nat} (hb : s.heap.blocks b = some (Blk l m)) :
    ∀ fuel k acc, k ≤ l.length → l.length - k ≤ fuel →
      Iter.walk s (.at b l.length) fuel (.at b k) acc = .ok (acc ++ l.drop k) := by
  intro fuel
  induction fuel with
  | zero =>
    intro k acc hk hf
    rw [List.drop_of_length_le (by omega), List.append_nil]; rfl
  | succ fuel ih =>
    intro k acc hk hf
    unfold Iter.walk
    by_cases e : k = l.length
    · subst e
      rw [if_pos (by simp [Iter.eq]), List.drop_length, List.append_nil]
    · have hlt : k < l.length := by omega
      rw [if_neg (by simp [Iter.eq, e])]
      unfold Iter.deref Iter.inc
      rw [load_off hb (o := k) (i := 0) (by omega), bind_ok, ptrAdd_blk hb (by omega), bind_ok, ih (k + 1) _ (by omega) (by omega)]
      rw [List.append_assoc, List.drop_eq_getElem_cons hlt]
      rfl

/-! ## C76 -/

/-- In every reached state, for a container with the elements `l`: `k` increments from `begin()` reach element `k` and, for
`k = l.length` and no smaller `k`, `end()`; distances count the elements; indexing from there reaches the following elements; a
decrement goes back; and the loop from `begin()` to `end()` visits exactly the elements, in order. -/
theorem C76_traverse_partial (dflt : α) (moved : α → α) (ops : List (COp α))
    (hv : CValidHist dflt moved CWorld.init (fun _ => none) ops) (w : CWorld α) (hw : CWorld.init.run dflt moved ops = .ok w)
    (x : Nat) (l : List α) (hx : absRun dflt (fun _ => none) ops x = some (some l)) :
    ∃ c last, w.conts x = some c ∧ c.end_ w.store = .ok last ∧ Iter.diff last c.begin = .ok (l.length : Int) ∧
      (∀ fuel, l.length ≤ fuel → Iter.walk w.store last fuel c.begin [] = .ok l) ∧
      ∀ k, k ≤ l.length → ∃ p, Iter.advance w.store c.begin k = .ok p ∧ (Iter.eq p last = true ↔ k = l.length) ∧
        Iter.diff p c.begin = .ok (k : Int) ∧
        (∀ h : k < l.length, Iter.deref w.store p = .ok l[k]) ∧
        (∀ i, ∀ h : k + i < l.length, Iter.idx w.store p i = .ok l[k + i]) ∧
        (∀ k', k = k' + 1 → Iter.dec w.store p = Iter.advance w.store c.begin k') := by
  obtain ⟨w', h1, I⟩ := run_cinv (dflt := dflt) (moved := moved) ops CInv.init hv
  rw [hw] at h1; cases h1
  obtain ⟨c, hc, hr⟩ := I.rep x _ hx
  rcases hr with ⟨hd, hs, _, rfl⟩ | ⟨b, m, hd, hb, hs, _⟩
  · refine ⟨c, .null, hc, ?_, ?_, fun fuel _ => ?_, fun k hk => ⟨.null, ?_, ?_, ?_, ?_, ?_, ?_⟩⟩
    · unfold Cont.end_; rw [hd, hs]; rfl
    · unfold Cont.begin; rw [hd]; rfl
    · unfold Cont.begin; rw [hd]
      cases fuel <;> rfl
    · have : k = 0 := by simpa using hk
      subst this
      unfold Cont.begin; rw [hd]; rfl
    · have : k = 0 := by simpa using hk
      simp [Iter.eq, this]
    · have : k = 0 := by simpa using hk
      unfold Cont.begin; rw [hd, this]; rfl
    · intro h; simp at h
    · intro i h; simp at h
    · intro k' h; subst h; simp at hk
  · have hbeg : c.begin = .at b 0 := hd
    have hadv := advance_blk hb
    refine ⟨c, .at b l.length, hc, ?_, ?_, fun fuel hf => ?_, fun k hk => ⟨.at b k, ?_, ?_, ?_, ?_, ?_, ?_⟩⟩
    · unfold Cont.end_; rw [hd, hs, ptrAdd_blk hb (by omega), Nat.zero_add]
    · rw [hbeg]; simp [Iter.diff, ptrDiff]
    · rw [hbeg, walk_blk hb fuel 0 [] (by omega) (by omega)]; rfl
    · rw [hbeg]; exact hadv k hk
    · simp [Iter.eq]
    · rw [hbeg]; simp [Iter.diff, ptrDiff]
    · intro h; exact load_off hb (o := k) (i := 0) (by omega)
    · intro i h; exact load_off hb h
    · intro k' h
      subst h
      rw [hbeg, hadv k' (by omega)]
      unfold Iter.dec ptrSub
      dsimp only
      rw [hb]
      dsimp only
      rw [if_pos (by omega)]; rfl

/-- Violated: `it + n` and `it - n` are `it`. In every reached state, for every number of elements `n` that may be added,
`begin() + n` designates the first element; it is not equal to the iterator reached by `n` increments unless `n = 0`. -/
theorem C76_plus_violated (dflt : α) (moved : α → α) (ops : List (COp α))
    (hv : CValidHist dflt moved CWorld.init (fun _ => none) ops) (w : CWorld α) (hw : CWorld.init.run dflt moved ops = .ok w)
    (x : Nat) (l : List α) (hx : absRun dflt (fun _ => none) ops x = some (some l)) (n : Nat) (h0 : 0 < n) (hn : n ≤ l.length) :
    ∃ c p q v last, w.conts x = some c ∧ Iter.plus w.store c.begin n = .ok p ∧ Iter.deref w.store p = .ok v ∧ l.head? = some v ∧
      Iter.advance w.store c.begin n = .ok q ∧ Iter.eq p q = false ∧
      c.end_ w.store = .ok last ∧ Iter.minus w.store last n = .ok last := by
  obtain ⟨w', h1, I⟩ := run_cinv (dflt := dflt) (moved := moved) ops CInv.init hv
  rw [hw] at h1; cases h1
  obtain ⟨c, hc, hr⟩ := I.rep x _ hx
  rcases hr with ⟨hd, hs, _, rfl⟩ | ⟨b, m, hd, hb, hs, _⟩
  · simp at hn; omega
  · have hbeg : c.begin = .at b 0 := hd
    refine ⟨c, .at b 0, .at b n, l[0]'(by omega), .at b l.length, hc, ?_, ?_, ?_, ?_, ?_, ?_, ?_⟩
    · rw [hbeg]; unfold Iter.plus
      rw [ptrAdd_blk hb (by omega)]; rfl
    · exact load_off hb (o := 0) (i := 0) (by omega)
    · rw [List.head?_eq_getElem?, List.getElem?_eq_getElem]
    · rw [hbeg]; exact advance_blk hb n hn
    · simp [Iter.eq]; omega
    · unfold Cont.end_; rw [hd, hs, ptrAdd_blk hb (by omega), Nat.zero_add]
    · unfold Iter.minus ptrSub
      dsimp only
      rw [hb]
      dsimp only
      rw [if_pos hn]; rfl

/-- Non-vacuity: `begin() + 2` of `[5, 6, 7]` is `5`. -/
example : ∃ c p, (∃ w, CWorld.init.run (0 : Nat) id [.ofList 0 [5, 6], .emplaceBack 0 7] = .ok w ∧ w.conts 0 = some c ∧
    Iter.plus w.store c.begin 2 = .ok p ∧ Iter.deref w.store p = .ok 5) := by
  exact ⟨_, _, _, rfl, rfl, rfl, rfl⟩

end Trixy
