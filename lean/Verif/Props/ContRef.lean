import Verif.Props.Container
import Verif.Props.LossRace
import Verif.Proof.TensorVal
import Verif.Spec.ContRef
/- Property C94: references to elements of a container. -/
namespace Trixy

variable {α : Type}

/-! ### Elements as arguments -/

theorem Rep.load {H : Heap α} {c : Cont} {l : List α} (hr : Rep H c (some l)) {i : Nat} (hi : i < l.length) : H.load c.data i = .ok l[i] := by
  rcases hr with ⟨_, _, _, h⟩ | ⟨b, m, hd, hb, _⟩
  · subst h; exact absurd hi (Nat.not_lt_zero _)
  · rw [hd]; exact load_blk hb (Blk_get l m i hi)

/-- Growth does not disturb the elements of another container. -/
theorem grow_other {moved : α → α} {s : Store α} (hf : Fresh s.heap) {c cy : Cont} {l ly : List α} (hr : Rep s.heap c (some l))
    (hy : Rep s.heap cy (some ly)) (hne : ∀ b, cy.data = .at b 0 → c.data ≠ .at b 0) (n : Nat) :
    Ok (c.reserve moved s n) (fun r => Rep r.1.heap cy (some ly) ∧ ∀ b, cy.data = .at b 0 → r.2.data ≠ .at b 0) := by
  refine (reserve_spec hf hr n).mono (fun r h => ⟨hy.frame hf h.1.delta hne, fun b hb hd => ?_⟩)
  rcases h.1.delta.fresh b hd with h1 | h1
  · exact hne b hb h1
  · have := hy.lt hf hb
    omega

/-- Constructing in a block leaves the other blocks alone. -/
theorem construct_load {s s' : Store α} {d p : Ptr} {k i : Nat} {v a : α} (h : s.construct d k v = .ok s') (hl : s.heap.load p i = .ok a) :
    s'.heap.load p i = .ok a := by
  unfold Store.construct at h
  obtain ⟨c, hc, h⟩ := Losses.bind_inv h
  cases c with
  | some _ => cases h
  | none =>
    dsimp only at h
    obtain ⟨H', hp, h⟩ := Losses.bind_inv h
    cases h
    show H'.load p i = _
    unfold Heap.load at hl ⊢
    obtain ⟨cx, hcx, hl⟩ := Losses.bind_inv hl
    cases cx with
    | none => cases hl
    | some x =>
      cases hl
      have key : H'.cell p i = .ok (some a) := by
        cases d with
        | null => cases hp
        | «at» db dofs =>
          cases p with
          | null => cases hcx
          | «at» pb po =>
            unfold Heap.put at hp
            unfold Heap.cell at hc hcx ⊢
            dsimp only at hp hc hcx ⊢
            cases hb : s.heap.blocks db with
            | none => rw [hb] at hp; cases hp
            | some buf =>
              rw [hb] at hp hc
              dsimp only at hp hc
              by_cases hlt : dofs + k < buf.length
              · rw [if_pos hlt] at hp
                cases hp
                dsimp only
                by_cases e : pb = db
                · subst e
                  rw [hb] at hcx
                  simp only [if_pos]
                  dsimp only at hcx
                  by_cases e2 : po + i = dofs + k
                  · rw [e2] at hcx
                    rw [hcx] at hc
                    cases hc
                  · rw [List.getElem?_set_ne (fun e => e2 e.symm)]
                    exact hcx
                · simp only [if_neg e]
                  exact hcx
              · rw [if_neg hlt] at hp; cases hp
      rw [key]; rfl

theorem forN_inv_congr {σ : Type _} (I : σ → Prop) {n : Nat} {s : σ} {f g : Nat → σ → Res σ} (h0 : I s)
    (h : ∀ k s, k < n → I s → f k s = g k s ∧ ∀ s', g k s = .ok s' → I s') :
    forN n s f = forN n s g ∧ ∀ s', forN n s g = .ok s' → I s' := by
  induction n with
  | zero => exact ⟨rfl, fun s' e => by cases e; exact h0⟩
  | succ n ih =>
    obtain ⟨h1, h2⟩ := ih (fun k s hk => h k s (by omega))
    rw [forN_succ, forN_succ, h1]
    cases e : forN n s g with
    | error u => exact ⟨rfl, fun s' e' => by cases e'⟩
    | ok s1 => exact h n s1 (by omega) (h2 s1 e)

/-- While the referenced element stays alive every construction copies its value. -/
theorem fillRef_eq {s : Store α} {d p : Ptr} {lo hi i : Nat} {v : α} (hl : s.heap.load p i = .ok v) :
    fillElemsRef s d lo hi p i = fillElems s d lo hi (lvalueArg v) := by
  unfold fillElemsRef fillElems forLoop
  refine (forN_inv_congr (fun s => s.heap.load p i = .ok v) hl (fun k s _ hs => ⟨?_, fun s' e => construct_load e hs⟩)).1
  dsimp only
  rw [hs]; rfl

/-- Appending a copy of an element — of another container, or of the container itself while it has spare capacity — is the same as appending the
value of that element (so that everything proved of `emplace_back(v)` holds). -/
theorem C94_push_partial (dflt : α) (moved : α → α) (ops : List (COp α)) (hv : CValidHist dflt moved CWorld.init (fun _ => none) ops)
    (x y : Nat) (l ly : List α) (hx : absRun dflt (fun _ => none) ops x = some (some l))
    (hy : absRun dflt (fun _ => none) ops y = some (some ly)) (i : Nat) (hi : i < ly.length) :
    Ok (CWorld.init.run dflt moved ops) (fun w => ∃ c cy, w.conts x = some c ∧ w.conts y = some cy ∧
      (x ≠ y ∨ c.size < c.cap → c.emplaceBackRef moved w.store cy.data i = c.emplaceBack moved w.store ly[i])) := by
  refine (run_cinv ops CInv.init hv).mono (fun w I => ?_)
  obtain ⟨c, hc, hr⟩ := I.rep x _ hx
  obtain ⟨cy, hcy, hry⟩ := I.rep y _ hy
  refine ⟨c, cy, hc, hcy, fun h => ?_⟩
  unfold Cont.emplaceBackRef Cont.emplaceBack Cont.grow
  by_cases e : c.size = c.cap
  · have hxy : x ≠ y := by
      rcases h with h | h
      · exact h
      · omega
    rw [if_pos e]
    obtain ⟨⟨s1, c1⟩, e1, h1, _⟩ := grow_other (moved := moved) I.fresh hr hry
      (fun b hb hb' => hxy (I.inj x y b (by simpa [ownPtr, hc] using hb') (by simpa [ownPtr, hcy] using hb))) (c.cap * 2 + 1)
    rw [e1, bind_ok, bind_ok]
    dsimp only
    rw [h1.load hi, bind_ok]
  · rw [if_neg e, bind_ok, bind_ok]
    dsimp only
    rw [hry.load hi, bind_ok]

/-- The same for `resize(n, r)`. -/
theorem C94_resize_partial (dflt : α) (moved : α → α) (ops : List (COp α)) (hv : CValidHist dflt moved CWorld.init (fun _ => none) ops)
    (x y : Nat) (l ly : List α) (hx : absRun dflt (fun _ => none) ops x = some (some l))
    (hy : absRun dflt (fun _ => none) ops y = some (some ly)) (i : Nat) (hi : i < ly.length) (n : Nat) :
    Ok (CWorld.init.run dflt moved ops) (fun w => ∃ c cy, w.conts x = some c ∧ w.conts y = some cy ∧
      (x ≠ y ∨ n ≤ c.cap → c.resizeRef moved w.store n cy.data i = c.resize moved w.store n (lvalueArg ly[i]))) := by
  refine (run_cinv ops CInv.init hv).mono (fun w I => ?_)
  obtain ⟨c, hc, hr⟩ := I.rep x _ hx
  obtain ⟨cy, hcy, hry⟩ := I.rep y _ hy
  refine ⟨c, cy, hc, hcy, fun h => ?_⟩
  unfold Cont.resizeRef Cont.resize
  by_cases hn : n > c.cap
  · have hxy : x ≠ y := by
      rcases h with h | h
      · exact h
      · omega
    rw [if_pos hn, if_pos hn]
    obtain ⟨⟨s1, c1⟩, e1, h1, _⟩ := grow_other (moved := moved) I.fresh hr hry
      (fun b hb hb' => hxy (I.inj x y b (by simpa [ownPtr, hc] using hb') (by simpa [ownPtr, hcy] using hb))) n
    rw [e1, bind_ok, bind_ok]
    dsimp only
    rw [fillRef_eq (h1.load hi)]
  · rw [if_neg hn, if_neg hn, fillRef_eq (hry.load hi)]

/-- After a reallocation the old storage is gone. -/
theorem reserve_dangling {moved : α → α} {s : Store α} (hf : Fresh s.heap) {c : Cont} {l : List α} (hr : Rep s.heap c (some l)) (hl : l ≠ [])
    {n : Nat} (hn : n > c.cap) : Ok (c.reserve moved s n) (fun r => ∀ i, r.1.heap.load c.data i = .error .useAfterFree) := by
  rcases hr with ⟨_, _, _, h⟩ | ⟨b, m, hd, hb, hsz, hle, hcap⟩
  · exact absurd h hl
  · rw [reserve_at hf hd hb hsz hn (by omega)]
    refine Ok_ok.2 (fun i => ?_)
    rw [hd]
    unfold Heap.load Heap.cell
    dsimp only
    rw [setB_self]
    rfl

/-- Violated: appending an element of the container itself when it is full — `c.emplace_back(c[i])` with `size() == capacity()` — reads the element after
its storage has been released, whatever happened before, whatever the elements. -/
theorem C94_push_violated (dflt : α) (moved : α → α) (ops : List (COp α)) (hv : CValidHist dflt moved CWorld.init (fun _ => none) ops)
    (x : Nat) (l : List α) (hx : absRun dflt (fun _ => none) ops x = some (some l)) (i : Nat) (hi : i < l.length) :
    Ok (CWorld.init.run dflt moved ops) (fun w => ∃ c, w.conts x = some c ∧
      (c.size = c.cap → c.emplaceBackRef moved w.store c.data i = .error .useAfterFree)) := by
  refine (run_cinv ops CInv.init hv).mono (fun w I => ?_)
  obtain ⟨c, hc, hr⟩ := I.rep x _ hx
  refine ⟨c, hc, fun e => ?_⟩
  unfold Cont.emplaceBackRef Cont.grow
  rw [if_pos e]
  obtain ⟨⟨s1, c1⟩, e1, h1⟩ := reserve_dangling (moved := moved) I.fresh hr (fun h => by rw [h] at hi; exact absurd hi (Nat.not_lt_zero _))
    (n := c.cap * 2 + 1) (by omega)
  rw [e1, bind_ok]
  dsimp only
  rw [h1 i]; rfl

/-- Violated: `c.resize(n, c[i])` with `n > capacity()`. -/
theorem C94_resize_violated (dflt : α) (moved : α → α) (ops : List (COp α)) (hv : CValidHist dflt moved CWorld.init (fun _ => none) ops)
    (x : Nat) (l : List α) (hx : absRun dflt (fun _ => none) ops x = some (some l)) (i : Nat) (hi : i < l.length) (n : Nat) :
    Ok (CWorld.init.run dflt moved ops) (fun w => ∃ c, w.conts x = some c ∧
      (n > c.cap → c.resizeRef moved w.store n c.data i = .error .useAfterFree)) := by
  refine (run_cinv ops CInv.init hv).mono (fun w I => ?_)
  obtain ⟨c, hc, hr⟩ := I.rep x _ hx
  refine ⟨c, hc, fun e => ?_⟩
  unfold Cont.resizeRef
  rw [if_pos e]
  obtain ⟨⟨s1, c1⟩, e1, h1, h2, _⟩ := (reserve_dangling (moved := moved) I.fresh hr (fun h => by rw [h] at hi; exact absurd hi (Nat.not_lt_zero _))
    (n := n) e).and (reserve_spec (moved := moved) I.fresh hr n)
  rw [e1, bind_ok]
  dsimp only at h1 h2 ⊢
  have hsz : c1.size < n := by
    have h3 := h2.rep.size.1
    have h4 := hr.size
    omega
  have : fillElemsRef s1 c1.data c1.size n c.data i = .error .useAfterFree := by
    unfold fillElemsRef forLoop
    refine forN_err (k := 0) (fun _ s => s = s1) (by omega) rfl (fun k hk => by omega) (fun s hs => ?_)
    rw [hs]; dsimp only; rw [h1 i]; rfl
  rw [this]; rfl

/-! ### Stability -/

theorem step_stays {dflt : α} {moved : α → α} {w w' : CWorld α} {x : Nat} {c : Cont} (hc : w.conts x = some c) (op : COp α)
    (h : StaysPut w x op) (e : w.step dflt moved op = .ok w') : ∃ c', w'.conts x = some c' ∧ c'.data = c.data := by
  have get_x : ∀ y c1, w.get y = .ok c1 → y = x → c1 = c := fun y c1 e1 e2 => by
    subst e2; unfold CWorld.get at e1; rw [hc] at e1; cases e1; rfl
  have ne : ∀ (y : Nat) (o : Option Cont), y ≠ x → cset w.conts y o x = some c := fun y o hy => by
    rw [cset_ne _ _ (fun e => hy e.symm)]; exact hc
  cases op with
  | default y => cases e; exact ⟨c, ne _ _ h, rfl⟩
  | sized y n =>
    obtain ⟨⟨s1, c1⟩, _, e⟩ := Losses.bind_inv e
    cases e; exact ⟨c, ne _ _ h, rfl⟩
  | ofList y l =>
    obtain ⟨⟨s1, c1⟩, _, e⟩ := Losses.bind_inv e
    cases e; exact ⟨c, ne _ _ h, rfl⟩
  | copyCtor y z =>
    obtain ⟨c0, _, e⟩ := Losses.bind_inv e
    obtain ⟨⟨s1, c1⟩, _, e⟩ := Losses.bind_inv e
    cases e; exact ⟨c, ne _ _ h, rfl⟩
  | moveCtor y z =>
    obtain ⟨c0, _, e⟩ := Losses.bind_inv e
    cases e
    refine ⟨c, ?_, rfl⟩
    show cset (cset w.conts z _) y _ x = _
    rw [cset_ne _ _ (fun e => h.1 e.symm)]
    exact ne _ _ h.2
  | copyAssign y z =>
    obtain ⟨c0, _, e⟩ := Losses.bind_inv e
    obtain ⟨c1, _, e⟩ := Losses.bind_inv e
    by_cases hyz : y = z
    · rw [if_pos hyz] at e; cases e; exact ⟨c, hc, rfl⟩
    · rw [if_neg hyz] at e
      obtain ⟨⟨s1, c2⟩, _, e⟩ := Losses.bind_inv e
      cases e
      exact ⟨c, ne _ _ (h.resolve_right hyz), rfl⟩
  | moveAssign y z =>
    obtain ⟨c0, _, e⟩ := Losses.bind_inv e
    obtain ⟨c1, _, e⟩ := Losses.bind_inv e
    by_cases hyz : y = z
    · rw [if_pos hyz] at e; cases e; exact ⟨c, hc, rfl⟩
    · rw [if_neg hyz] at e
      obtain ⟨⟨s1, c2, c3⟩, _, e⟩ := Losses.bind_inv e
      cases e
      have h' := h.resolve_right hyz
      refine ⟨c, ?_, rfl⟩
      show cset (cset w.conts z _) y _ x = _
      rw [cset_ne _ _ (fun e => h'.1 e.symm)]
      exact ne _ _ h'.2
  | resize y n arg =>
    obtain ⟨c0, e0, e⟩ := Losses.bind_inv e
    obtain ⟨⟨s1, c1⟩, e1, e⟩ := Losses.bind_inv e
    cases e
    by_cases hy : y = x
    · have hcap := h hy c hc
      have := get_x y c0 e0 hy
      subst this hy
      refine ⟨c1, cset_self _ _ _, ?_⟩
      unfold Cont.resize at e1
      rw [if_neg (by omega)] at e1
      by_cases hs : n < c0.size
      · rw [if_pos hs] at e1
        obtain ⟨s2, _, e1⟩ := Losses.bind_inv e1
        cases e1; rfl
      · rw [if_neg hs] at e1
        obtain ⟨s2, _, e1⟩ := Losses.bind_inv e1
        cases e1; rfl
    · exact ⟨c, ne _ _ hy, rfl⟩
  | reserve y n =>
    obtain ⟨c0, e0, e⟩ := Losses.bind_inv e
    obtain ⟨⟨s1, c1⟩, e1, e⟩ := Losses.bind_inv e
    cases e
    by_cases hy : y = x
    · have hcap := h hy c hc
      have := get_x y c0 e0 hy
      subst this hy
      refine ⟨c1, cset_self _ _ _, ?_⟩
      unfold Cont.reserve at e1
      rw [if_neg (by omega)] at e1
      cases e1; rfl
    · exact ⟨c, ne _ _ hy, rfl⟩
  | emplaceBack y v =>
    obtain ⟨c0, e0, e⟩ := Losses.bind_inv e
    obtain ⟨⟨s1, c1⟩, e1, e⟩ := Losses.bind_inv e
    cases e
    by_cases hy : y = x
    · have hcap := h hy c hc
      have := get_x y c0 e0 hy
      subst this hy
      refine ⟨c1, cset_self _ _ _, ?_⟩
      unfold Cont.emplaceBack Cont.grow at e1
      rw [if_neg (by omega), bind_ok] at e1
      obtain ⟨s2, _, e1⟩ := Losses.bind_inv e1
      cases e1; rfl
    · exact ⟨c, ne _ _ hy, rfl⟩
  | popBack y =>
    obtain ⟨c0, e0, e⟩ := Losses.bind_inv e
    obtain ⟨⟨s1, c1⟩, e1, e⟩ := Losses.bind_inv e
    cases e
    by_cases hy : y = x
    · have := get_x y c0 e0 hy
      subst this hy
      refine ⟨c1, cset_self _ _ _, ?_⟩
      unfold Cont.popBack at e1
      by_cases hs : c0.size = 0
      · rw [if_pos hs] at e1; cases e1
      · rw [if_neg hs] at e1
        obtain ⟨s2, _, e1⟩ := Losses.bind_inv e1
        cases e1; rfl
    · exact ⟨c, ne _ _ hy, rfl⟩
  | write y i v =>
    obtain ⟨c0, e0, e⟩ := Losses.bind_inv e
    obtain ⟨s1, e1, e⟩ := Losses.bind_inv e
    cases e
    exact ⟨c, hc, rfl⟩
  | save y =>
    obtain ⟨c0, e0, e⟩ := Losses.bind_inv e
    obtain ⟨⟨s1, c1⟩, e1, e⟩ := Losses.bind_inv e
    cases e
    by_cases hy : y = x
    · have := get_x y c0 e0 hy
      subst this hy
      refine ⟨c1, cset_self _ _ _, ?_⟩
      unfold Cont.save at e1
      obtain ⟨s2, _, e1⟩ := Losses.bind_inv e1
      cases e1; rfl
    · exact ⟨c, ne _ _ hy, rfl⟩
  | destroy y =>
    obtain ⟨c0, e0, e⟩ := Losses.bind_inv e
    obtain ⟨s1, e1, e⟩ := Losses.bind_inv e
    cases e
    exact ⟨c, ne _ _ h, rfl⟩

/-- As long as container `x` stays within its capacity (and whatever happens to other containers) its storage does not move: a pointer, reference or
iterator to element `i` taken before shows element `i` of the list the container is now. -/
theorem C94_stable (dflt : α) (moved : α → α) (ops ops' : List (COp α))
    (hv : CValidHist dflt moved CWorld.init (fun _ => none) ops) (x : Nat) (l l' : List α)
    (hx : absRun dflt (fun _ => none) ops x = some (some l)) :
    Ok (CWorld.init.run dflt moved ops) (fun w => ∃ c, w.conts x = some c ∧
      (CValidHist dflt moved w (absRun dflt (fun _ => none) ops) ops' → StaysPutHist dflt moved w x ops' →
        absRun dflt (absRun dflt (fun _ => none) ops) ops' x = some (some l') →
        Ok (w.run dflt moved ops') (fun w' => (∃ c', w'.conts x = some c' ∧ c'.data = c.data) ∧
          ∀ i (hi : i < l'.length), w'.store.heap.load c.data i = .ok l'[i]))) := by
  refine (run_cinv ops CInv.init hv).mono (fun w I => ?_)
  obtain ⟨c, hc, _⟩ := I.rep x _ hx
  refine ⟨c, hc, fun hv' hs hx' => ?_⟩
  have key : ∀ (os : List (COp α)) (w : CWorld α) (A : AState α), CInv w A → CValidHist dflt moved w A os → StaysPutHist dflt moved w x os →
      ∀ c1, w.conts x = some c1 → Ok (w.run dflt moved os) (fun w' => ∃ c', w'.conts x = some c' ∧ c'.data = c1.data) := by
    intro os
    induction os with
    | nil => exact fun w A _ _ _ c1 h1 => Ok_ok.2 ⟨c1, h1, rfl⟩
    | cons op os ih =>
      intro w A I ⟨v1, v2⟩ ⟨s1, s2⟩ c1 h1
      obtain ⟨w', e, I'⟩ := step_cinv (dflt := dflt) (moved := moved) I op v1
      obtain ⟨c2, h2, h3⟩ := step_stays h1 op s1 e
      show Ok (w.step dflt moved op >>= _) _
      rw [e]
      refine (ih w' _ I' (v2 w' e) (s2 w' e) c2 h2).mono (fun w'' h'' => ?_)
      obtain ⟨c', h4, h5⟩ := h''
      exact ⟨c', h4, h5.trans h3⟩
  obtain ⟨w', e, ⟨c', h1, h2⟩, I'⟩ := (key ops' w _ I hv' hs c hc).and (run_cinv ops' I hv')
  refine ⟨w', e, ⟨c', h1, h2⟩, fun i hi => ?_⟩
  obtain ⟨c'', h3, hr⟩ := I'.rep x _ hx'
  rw [h1] at h3; cases h3
  rw [← h2]
  exact hr.load hi

/-- `reserve(n)` makes `capacity()` at least `n`, so that the container can then grow to `n` elements in place. -/
theorem C94_reserve (dflt : α) (moved : α → α) (ops : List (COp α)) (hv : CValidHist dflt moved CWorld.init (fun _ => none) ops)
    (x : Nat) (l : List α) (hx : absRun dflt (fun _ => none) ops x = some (some l)) (n : Nat) :
    Ok (CWorld.init.run dflt moved ops) (fun w => ∃ c, w.conts x = some c ∧
      Ok (c.reserve moved w.store n) (fun r => n ≤ r.2.cap ∧ r.2.size = l.length ∧ (n ≤ c.cap → r.2 = c ∧ r.1 = w.store))) := by
  refine (run_cinv ops CInv.init hv).mono (fun w I => ?_)
  obtain ⟨c, hc, hr⟩ := I.rep x _ hx
  refine ⟨c, hc, ?_⟩
  obtain ⟨r, e, h1, h2, _⟩ := reserve_spec (moved := moved) I.fresh hr n
  refine ⟨r, e, by rw [h2]; omega, h1.rep.size.1, fun hn => ?_⟩
  unfold Cont.reserve at e
  rw [if_neg (by omega)] at e
  cases e; exact ⟨rfl, rfl⟩

/-! ### Non-vacuity -/

def exRefHist : List (COp Nat) := [.ofList 0 [4, 5], .reserve 0 3, .ofList 1 [7, 8]]
theorem exRefHist_valid : CValidHist 0 (fun _ => 0) CWorld.init (fun _ => none) exRefHist := by
  unfold exRefHist
  refine ⟨rfl, fun w h => ?_⟩; cases h
  refine ⟨⟨_, rfl⟩, fun w h => ?_⟩; cases h
  refine ⟨rfl, fun w h => ?_⟩; cases h
  trivial
example : absRun 0 (fun _ => none) exRefHist 0 = some (some [4, 5]) ∧ absRun 0 (fun _ => none) exRefHist 1 = some (some [7, 8]) := ⟨rfl, rfl⟩
/-- Container 0 has room for one more element, container 1 is full. -/
example : Ok (CWorld.init.run 0 (fun _ => 0) exRefHist) (fun w => (w.conts 0).map (fun c => (c.size, c.cap)) = some (2, 3) ∧
    (w.conts 1).map (fun c => (c.size, c.cap)) = some (2, 2) ∧
    StaysPutHist 0 (fun _ => 0) w 0 [.emplaceBack 0 6, .write 0 1 9, .destroy 1, .popBack 0]) := by
  refine ⟨_, rfl, rfl, rfl, ⟨fun _ c h => ?_, fun w h => ?_⟩⟩
  · cases h; decide
  · cases h
    refine ⟨trivial, fun w h => ?_⟩; cases h
    refine ⟨(by decide : 1 ≠ 0), fun w h => ?_⟩; cases h
    exact ⟨trivial, fun _ _ => trivial⟩

end Trixy
