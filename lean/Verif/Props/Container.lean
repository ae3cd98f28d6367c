import Verif.Proof.ContainerWorld
/- Properties C22–C25, C64 and the container part of C60. -/
namespace Trixy

variable {α : Type _}

/-! ## C22 a container is a list -/

/-- After every valid history (any number of containers) every operation has succeeded, and every container shows
exactly the list obtained by the same history on lists; the allocated length is at least `capacity()`. -/
theorem C22_refines_list (dflt : α) (moved : α → α) (ops : List (COp α))
    (hv : CValidHist dflt moved CWorld.init (fun _ => none) ops) :
    Ok (CWorld.init.run dflt moved ops) (fun w => ∀ x l, absRun dflt (fun _ => none) ops x = some (some l) →
      ∃ c, w.conts x = some c ∧ Shows w.store c l ∧
        (c.cap = 0 ∨ ∃ b buf, c.data = .at b 0 ∧ w.store.heap.blocks b = some buf ∧ c.cap ≤ buf.length)) := by
  refine (run_cinv ops CInv.init hv).mono (fun w I x l hx => ?_)
  obtain ⟨c, hc, hr⟩ := I.rep x _ hx
  have hs := hr.size
  refine ⟨c, hc, ⟨hs.1, hs.2, ?_, hr.iterate, fun i hi => ?_, fun hne => ⟨?_, ?_⟩⟩, ?_⟩
  · simp only [Cont.empty, beq_iff_eq, hs.1, List.length_eq_zero_iff]
  · rcases hr with ⟨_, _, _, h⟩ | ⟨b, m, hd, hb, _⟩
    · subst h; exact absurd hi (Nat.not_lt_zero _)
    · unfold Cont.at_; rw [hd]; exact load_blk hb (Blk_get l m i hi)
  · rcases hr with ⟨_, _, _, h⟩ | ⟨b, m, hd, hb, _⟩
    · exact absurd h hne
    · unfold Cont.front; rw [hd]
      have hp : 0 < l.length := List.length_pos_iff.2 hne
      rw [load_blk hb (Blk_get l m 0 hp), List.head_eq_getElem]
  · rcases hr with ⟨_, _, _, h⟩ | ⟨b, m, hd, hb, _⟩
    · exact absurd h hne
    · have hp : 0 < l.length := List.length_pos_iff.2 hne
      unfold Cont.back
      rw [if_neg (by omega), hd, hs.1, load_blk hb (Blk_get l m (l.length - 1) (by omega)), List.getLast_eq_getElem]
  · rcases hr with ⟨_, _, h, _⟩ | ⟨b, m, hd, hb, _, _, h⟩
    · exact Or.inl h
    · exact Or.inr ⟨b, _, hd, hb, by rw [Blk_length]; exact h⟩

/-! ## C24 element lifetimes -/

/-- No valid history constructs over a live element, destroys or reads a dead one, or releases storage in which
elements live; at any point the live elements are exactly those of the existing containers, and once all
containers are destroyed no storage and hence no element is left. -/
theorem C24_lifetimes (dflt : α) (moved : α → α) (ops : List (COp α))
    (hv : CValidHist dflt moved CWorld.init (fun _ => none) ops) :
    Ok (CWorld.init.run dflt moved ops) (fun w =>
      (∀ b buf, w.store.heap.blocks b = some buf → ∃ x c l, w.conts x = some c ∧ c.data = .at b 0 ∧
        absRun dflt (fun _ => none) ops x = some (some l) ∧ buf.filterMap id = l) ∧
      ((∀ x, absRun dflt (fun _ => none) ops x = none) → ∀ b, w.store.heap.blocks b = none)) := by
  refine (run_cinv ops CInv.init hv).mono (fun w I => ?_)
  have key : ∀ b buf, w.store.heap.blocks b = some buf → ∃ x c l, w.conts x = some c ∧ c.data = .at b 0 ∧
        absRun dflt (fun _ => none) ops x = some (some l) ∧ buf.filterMap id = l := by
    intro b buf hb
    obtain ⟨x, hx⟩ := I.noleak b (by rw [hb]; rfl)
    cases ha : absRun dflt (fun _ => none) ops x with
    | none => rw [ownPtr, I.absent x ha] at hx; cases hx
    | some a =>
      obtain ⟨c, hc, hr⟩ := I.rep x a ha
      have hd : c.data = .at b 0 := by simpa [ownPtr, hc] using hx
      cases a with
      | none => rw [show c.data = .null from hr] at hd; cases hd
      | some l =>
        rcases hr with ⟨h, _⟩ | ⟨b', m, h1, h2, _⟩
        · rw [h] at hd; cases hd
        · rw [h1] at hd; cases hd
          rw [hb] at h2; cases h2
          refine ⟨x, c, l, hc, h1, ha, ?_⟩
          simp [Blk, List.filterMap_append]
  refine ⟨key, fun hn b => ?_⟩
  cases hb : w.store.heap.blocks b with
  | none => rfl
  | some buf =>
    obtain ⟨x, c, l, _, _, h, _⟩ := key b buf hb
    rw [hn x] at h; cases h

/-- Non-vacuity of the hypotheses of C22, C24: a history with growth, reallocation, assignment, moves and
destruction of every object satisfies `CValidHist`. -/
def exHist : List (COp Nat) :=
  [.default 0, .emplaceBack 0 5, .emplaceBack 0 6, .ofList 1 [1, 2, 3], .copyAssign 0 1, .resize 0 5 (lvalueArg 9),
   .popBack 0, .copyCtor 3 1, .moveCtor 2 0, .moveAssign 1 2, .save 1, .emplaceBack 1 4, .write 1 0 8,
   .destroy 0, .destroy 2, .destroy 1, .destroy 3]
theorem exHist_valid : CValidHist 0 (fun _ => 0) CWorld.init (fun _ => none) exHist := by
  unfold exHist
  refine ⟨rfl, fun w h => ?_⟩; cases h
  refine ⟨⟨_, rfl⟩, fun w h => ?_⟩; cases h
  refine ⟨⟨_, rfl⟩, fun w h => ?_⟩; cases h
  refine ⟨rfl, fun w h => ?_⟩; cases h
  refine ⟨⟨by simp [absStep, aset], by simp [absStep, aset], fun _ => ⟨_, rfl⟩⟩, fun w h => ?_⟩; cases h
  refine ⟨⟨_, rfl⟩, fun w h => ?_⟩; cases h
  refine ⟨⟨_, rfl, by simp⟩, fun w h => ?_⟩; cases h
  refine ⟨⟨rfl, ⟨_, rfl⟩, fun c h => by cases h; rfl⟩, fun w h => ?_⟩; cases h
  refine ⟨⟨rfl, by simp [absStep, aset]⟩, fun w h => ?_⟩; cases h
  refine ⟨⟨by simp [absStep, aset], by simp [absStep, aset]⟩, fun w h => ?_⟩; cases h
  refine ⟨⟨_, rfl⟩, fun w h => ?_⟩; cases h
  refine ⟨⟨_, rfl⟩, fun w h => ?_⟩; cases h
  refine ⟨⟨_, rfl, by simp⟩, fun w h => ?_⟩; cases h
  refine ⟨fun h => (by cases h), fun w h => ?_⟩; cases h
  refine ⟨fun h => (by cases h), fun w h => ?_⟩; cases h
  refine ⟨fun h => (by cases h), fun w h => ?_⟩; cases h
  refine ⟨fun h => (by cases h), fun w h => ?_⟩; cases h
  trivial
example : absRun 0 (fun _ => none) (exHist.take 13) 1 = some (some [8, 2, 3, 9, 4]) := by decide

/-! ## C23 copy construction -/

theorem run_append (dflt : α) (moved : α → α) (ops ops' : List (COp α)) : ∀ w : CWorld α,
    w.run dflt moved (ops ++ ops') = (do let w ← w.run dflt moved ops; w.run dflt moved ops') := by
  induction ops with
  | nil => intro w; rfl
  | cons op ops ih =>
    intro w
    rw [List.cons_append]
    show (w.step dflt moved op >>= fun w => w.run dflt moved (ops ++ ops')) =
      ((w.step dflt moved op >>= fun w => w.run dflt moved ops) >>= _)
    rw [bind_assoc_res']
    congr 1; funext w'; exact ih w'

theorem copy_push_oob {moved : α → α} {s : Store α} (hf : Fresh s.heap) {c : Cont} {l : List α}
    (hr : Rep s.heap c (some l)) (hsp : c.size < c.cap) (v : α) :
    Ok (Cont.copyCtor s c) (fun r => r.2.emplaceBack moved r.1 v = .error .oob) := by
  unfold Cont.copyCtor
  have hsz := hr.size.1
  have hp : (s.allocate c.size).2 = .at s.heap.next 0 := rfl
  simp only [hp]
  rw [copy_alloc hf hr (by omega), bind_ok]
  refine Ok_ok.2 ?_
  show Cont.emplaceBack moved _ ⟨.at s.heap.next 0, c.size, c.cap⟩ v = _
  unfold Cont.emplaceBack Cont.grow
  rw [if_neg (by show c.size ≠ c.cap; omega), bind_ok]
  show (Store.construct _ (.at s.heap.next 0) c.size v >>= _) = _
  have : Heap.cell (((s.heap.new c.size).1.setB s.heap.next (some (Blk l (c.size - l.length))))) (.at s.heap.next 0) c.size
      = .error .oob := by
    unfold Heap.cell
    simp [Blk, hsz]
  unfold Store.construct
  rw [show (Heap.cell _ _ _ : Res (Option α)) = .error .oob from this]
  rfl

/-- The property of a copy of container `x` named `y`: copying and then appending works. -/
def CopyUsable (dflt : α) (moved : α → α) (w : CWorld α) (x y : Nat) : Prop :=
  ∀ v, ∃ w', w.run dflt moved [.copyCtor y x, .emplaceBack y v] = .ok w'

/-- Violation: after any history that leaves `x` with spare capacity, copy constructing `y` from `x` and appending
any element to `y` writes outside the allocation of `y`. -/
theorem C23_copy_ctor_violated (dflt : α) (moved : α → α) (ops : List (COp α))
    (hv : CValidHist dflt moved CWorld.init (fun _ => none) ops) (x y : Nat) (l : List α)
    (hx : absRun dflt (fun _ => none) ops x = some (some l)) (v : α) :
    Ok (CWorld.init.run dflt moved ops) (fun w => ∀ c, w.conts x = some c → c.size < c.cap →
      w.run dflt moved [.copyCtor y x, .emplaceBack y v] = .error .oob) := by
  refine (run_cinv ops CInv.init hv).mono (fun w I c hc hsp => ?_)
  obtain ⟨c', hc', hr⟩ := I.rep x _ hx
  rw [hc] at hc'; cases hc'
  obtain ⟨r, e, h⟩ := copy_push_oob (moved := moved) I.fresh hr hsp v
  unfold CWorld.run CWorld.step
  dsimp only
  rw [show w.get x = .ok c by simp [CWorld.get, hc], bind_ok, e, bind_ok]
  show (CWorld.run dflt moved _ [.emplaceBack y v]) = _
  unfold CWorld.run CWorld.step
  dsimp only
  rw [show CWorld.get _ y = .ok r.2 by simp [CWorld.get], bind_ok, h]
  rfl

/-- What holds: a copy of a container is usable exactly when the source has no spare capacity; and then (C22) it
behaves like its source under every later history. -/
theorem C23_copy_ctor_partial (dflt : α) (moved : α → α) (ops : List (COp α))
    (hv : CValidHist dflt moved CWorld.init (fun _ => none) ops) (x y : Nat) (l : List α) [Nonempty α]
    (hx : absRun dflt (fun _ => none) ops x = some (some l)) (hy : absRun dflt (fun _ => none) ops y = none) :
    Ok (CWorld.init.run dflt moved ops) (fun w => ∀ c, w.conts x = some c →
      (CopyUsable dflt moved w x y ↔ c.size = c.cap) ∧
      (c.size = c.cap → ∀ later, CValidHist dflt moved CWorld.init (fun _ => none) (ops ++ .copyCtor y x :: later) ↔
        ∀ w', w.step dflt moved (.copyCtor y x) = .ok w' →
          CValidHist dflt moved w' (aset (absRun dflt (fun _ => none) ops) y (some (some l))) later)) := by
  obtain ⟨w, e, I⟩ := run_cinv ops (CInv.init (α := α)) hv
  refine ⟨w, e, fun c hc => ⟨⟨fun hu => ?_, fun heq v => ?_⟩, fun heq later => ?_⟩⟩
  · obtain ⟨c', hc', hr⟩ := I.rep x _ hx
    rw [hc] at hc'; cases hc'
    refine Nat.le_antisymm hr.size.2 (Nat.le_of_not_lt (fun hsp => ?_))
    obtain ⟨v⟩ := ‹Nonempty α›
    obtain ⟨w', e', h⟩ := C23_copy_ctor_violated dflt moved ops hv x y l hx v
    rw [e] at e'; cases e'
    obtain ⟨w'', h'⟩ := hu v
    rw [h c hc hsp] at h'; cases h'
  · have h1 : CValid w (absRun dflt (fun _ => none) ops) (.copyCtor y x) :=
      ⟨hy, ⟨l, hx⟩, fun c' hc' => by rw [hc] at hc'; cases hc'; exact heq⟩
    obtain ⟨w', e', I'⟩ := step_cinv (dflt := dflt) (moved := moved) I (.copyCtor y x) h1
    have h2 : CValid w' (absStep dflt (absRun dflt (fun _ => none) ops) (.copyCtor y x)) (.emplaceBack y v) :=
      ⟨l, by show aset _ _ _ _ = _; rw [aset_self, hx]⟩
    obtain ⟨w'', e'', _⟩ := step_cinv (dflt := dflt) (moved := moved) I' (.emplaceBack y v) h2
    refine ⟨w'', ?_⟩
    unfold CWorld.run
    rw [e', bind_ok]
    unfold CWorld.run
    rw [e'', bind_ok]; rfl
  · have h1 : CValid w (absRun dflt (fun _ => none) ops) (.copyCtor y x) :=
      ⟨hy, ⟨l, hx⟩, fun c' hc' => by rw [hc] at hc'; cases hc'; exact heq⟩
    have gen : ∀ (ops : List (COp α)) (w0 w : CWorld α) (A : AState α) (later : List (COp α)),
        CValidHist dflt moved w0 A ops → w0.run dflt moved ops = .ok w →
        (CValidHist dflt moved w0 A (ops ++ later) ↔ CValidHist dflt moved w (absRun dflt A ops) later) := by
      intro ops
      induction ops with
      | nil => intro w0 w A later _ e; cases e; exact Iff.rfl
      | cons op ops ih =>
        intro w0 w A later hv e
        unfold CWorld.run at e
        cases es : w0.step dflt moved op with
        | error u => rw [es] at e; cases e
        | ok w1 =>
          rw [es, bind_ok] at e
          have := ih w1 w (absStep dflt A op) later (hv.2 w1 es) e
          constructor
          · intro h; exact this.1 (h.2 w1 es)
          · intro h
            refine ⟨hv.1, fun w' e' => ?_⟩
            rw [es] at e'; cases e'
            exact this.2 h
    have := gen ops CWorld.init w (fun _ => none) (.copyCtor y x :: later) hv e
    rw [this]
    have hA : absStep dflt (absRun dflt (fun _ => none) ops) (.copyCtor y x) =
        aset (absRun dflt (fun _ => none) ops) y (some (some l)) := by
      show aset _ _ _ = _; rw [hx]
    constructor
    · intro h; rw [← hA]; exact h.2
    · intro h; refine ⟨h1, ?_⟩; rw [hA]; exact h

/-- Non-vacuity: a container with spare capacity arises from two appends … -/
example : ∃ w c, CWorld.init.run 0 (fun _ => 0) [.default 0, .emplaceBack 0 5, .emplaceBack 0 6] = .ok w ∧
    w.conts 0 = some c ∧ c.size < c.cap := ⟨_, _, rfl, rfl, by decide⟩

/-! ## C25 amortised growth -/

/-- `n` appends to a default constructed container perform fewer than `2 n` element moves in total and leave
`capacity() ≤ 2 n + 1` (even `< 2 n` for `n > 0`). -/
theorem C25_amortised (dflt : α) (moved : α → α) (x : Nat) (vs : List α) :
    Ok (CWorld.init.run dflt moved (.default x :: vs.map (fun v => .emplaceBack x v))) (fun w =>
      (vs ≠ [] → w.store.moves < 2 * vs.length) ∧ (vs = [] → w.store.moves = 0) ∧
      ∃ c, w.conts x = some c ∧ c.size = vs.length ∧ c.cap ≤ 2 * vs.length + 1) := by
  have gen : ∀ (vs l : List α) (w : CWorld α) (c : Cont), Fresh w.store.heap → Rep w.store.heap c (some l) →
      w.conts x = some c → w.store.moves ≤ c.cap → c.cap ≤ 2 * l.length - 1 →
      Ok (w.run dflt moved (vs.map (fun v => .emplaceBack x v))) (fun w' => ∃ c', w'.conts x = some c' ∧
        w'.store.moves ≤ c'.cap ∧ c'.size = l.length + vs.length ∧ c'.cap ≤ 2 * (l.length + vs.length) - 1) := by
    intro vs
    induction vs with
    | nil => intro l w c _ hr hc hm hcap; exact Ok_ok.2 ⟨c, hc, hm, hr.size.1, hcap⟩
    | cons v vs ih =>
      intro l w c hf hr hc hm hcap
      obtain ⟨r, e, ho, hcap', hmv⟩ := emplaceBack_spec (moved := moved) hf hr v
      have hsz := hr.size
      have := ih (l ++ [v]) ⟨r.1, cset w.conts x (some r.2)⟩ r.2
        (hf.delta (fun b hb => hr.lt hf hb) ho.delta) ho.rep (cset_self _ _ _)
        (by show r.1.moves ≤ _; rw [hmv, hcap']; split <;> omega)
        (by rw [hcap']; simp only [List.length_append, List.length_singleton]; split <;> omega)
      rw [List.map_cons]
      unfold CWorld.run CWorld.step
      dsimp only
      rw [show w.get x = .ok c by simp [CWorld.get, hc], bind_ok, e, bind_ok]
      refine this.mono (fun w' hw' => ?_)
      obtain ⟨c', h1, h2, h3, h4⟩ := hw'
      simp only [List.length_append, List.length_nil, List.length_cons] at h3 h4 ⊢
      exact ⟨c', h1, h2, by omega, by omega⟩
  have h0 := gen vs [] ⟨⟨Heap.empty, 0⟩, cset (fun _ => none) x (some Cont.default)⟩ Cont.default
    CInv.init.fresh (Or.inl ⟨rfl, rfl, rfl, rfl⟩) (by simp) (Nat.le_refl _) (by simp [Cont.default])
  refine h0.mono (fun w hw => ?_)
  obtain ⟨c, h1, h2, h3, h4⟩ := hw
  simp only [List.length_nil, Nat.zero_add] at h3 h4
  refine ⟨fun hne => ?_, fun he => ?_, c, h1, h3, by omega⟩
  · have : 0 < vs.length := List.length_pos_iff.2 hne
    omega
  · subst he; simp at h4; omega

example : (CWorld.init.run 0 (fun _ => 0) (.default 0 :: [7, 8, 9, 10].map (fun v => .emplaceBack 0 v))).toOption.map
    (fun w => w.store.moves) = some 4 := rfl

/-! ## C64 resize with an argument -/

/-- `resize(n, v)` with an lvalue argument: all new elements equal `v`. -/
theorem C64_resize_partial (moved : α → α) (s : Store α) (hf : Fresh s.heap) (c : Cont) (l : List α)
    (hr : Rep s.heap c (some l)) (n : Nat) (v : α) :
    Ok (c.resize moved s n (lvalueArg v)) (fun r => r.2.size = n ∧ ∀ i, i < n → r.2.at_ r.1 i =
      .ok (if h : i < l.length then l[i] else v)) := by
  refine (resize_spec (moved := moved) hf hr n (lvalueArg v)).mono (fun r ho => ?_)
  have hrep := ho.rep
  have hs := hrep.size
  have hlen : (if n ≤ l.length then l.take n else l ++ (List.range (n - l.length)).map (lvalueArg v)).length = n := by
    split <;> simp <;> omega
  refine ⟨by rw [hs.1, hlen], fun i hi => ?_⟩
  rcases hrep with ⟨_, _, _, h⟩ | ⟨b, m, hd, hb, _⟩
  · rw [h] at hlen; simp at hlen; omega
  · unfold Cont.at_
    rw [hd, load_blk hb (Blk_get _ m i (by rw [hlen]; exact hi))]
    congr 1
    by_cases h1 : n ≤ l.length
    · simp only [if_pos h1, List.getElem_take]; rw [dif_pos (by omega)]
    · simp only [if_neg h1]
      by_cases h2 : i < l.length
      · rw [dif_pos h2, List.getElem_append_left h2]
      · rw [dif_neg h2, List.getElem_append_right (by omega)]; simp [lvalueArg]

/-- Violation: `resize(n, std::move(v))` growing by at least two elements moves from `v` repeatedly, so the second new
element is the moved-from value, which differs from `v` for types that empty themselves when moved from. -/
theorem C64_resize_violated (moved : α → α) (s : Store α) (hf : Fresh s.heap) (c : Cont) (l : List α)
    (hr : Rep s.heap c (some l)) (n : Nat) (v : α) (hn : l.length + 2 ≤ n) (hm : moved v ≠ v) :
    Ok (c.resize moved s n (rvalueArg moved v)) (fun r => r.2.at_ r.1 (l.length + 1) = .ok (moved v) ∧
      r.2.at_ r.1 (l.length + 1) ≠ .ok v) := by
  refine (resize_spec (moved := moved) hf hr n (rvalueArg moved v)).mono (fun r ho => ?_)
  have hrep := ho.rep
  have key : r.2.at_ r.1 (l.length + 1) = .ok (moved v) := by
    rw [if_neg (by omega)] at hrep
    have hlen : (l ++ (List.range (n - l.length)).map (rvalueArg moved v)).length = n := by simp; omega
    rcases hrep with ⟨_, _, _, h⟩ | ⟨b, m, hd, hb, _⟩
    · rw [h] at hlen; simp at hlen; omega
    · unfold Cont.at_
      rw [hd, load_blk hb (Blk_get _ m (l.length + 1) (by rw [hlen]; omega)), List.getElem_append_right (by omega)]
      simp [rvalueArg]
  refine ⟨key, ?_⟩
  rw [key]; intro h; injection h with h; exact hm h

/-- Non-vacuity for C64: a reachable container and a type with a distinct moved-from value. -/
example : ∃ (s : Store (List Nat)) (c : Cont), Fresh s.heap ∧ Rep s.heap c (some []) ∧
    (fun _ => [] : List Nat → List Nat) [1] ≠ [1] :=
  ⟨⟨Heap.empty, 0⟩, Cont.default, CInv.init.fresh, Or.inl ⟨rfl, rfl, rfl, rfl⟩, by decide⟩

end Trixy
