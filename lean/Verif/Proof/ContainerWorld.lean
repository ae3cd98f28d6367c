import Verif.Proof.Container
/- The invariant of container histories. -/
namespace Trixy

variable {α : Type _}

/-- Storage owned by name `x` (null if there is no such object). -/
def ownPtr (conts : Nat → Option Cont) (x : Nat) : Ptr := ((conts x).map Cont.data).getD .null

/-- Invariant relating a world to its abstraction. -/
structure CInv (w : CWorld α) (A : AState α) : Prop where
  fresh : Fresh w.store.heap
  rep : ∀ x a, A x = some a → ∃ c, w.conts x = some c ∧ Rep w.store.heap c a
  absent : ∀ x, A x = none → w.conts x = none
  inj : ∀ x y b, ownPtr w.conts x = .at b 0 → ownPtr w.conts y = .at b 0 → x = y
  noleak : ∀ b, (w.store.heap.blocks b).isSome = true → ∃ x, ownPtr w.conts x = .at b 0

theorem CInv.init : CInv (CWorld.init : CWorld α) (fun _ => none) where
  fresh b h := by simp [CWorld.init, Heap.empty] at h
  rep x a h := by cases h
  absent x _ := rfl
  inj x y b h := by simp [CWorld.init, ownPtr] at h
  noleak b h := by simp [CWorld.init, Heap.empty] at h

@[simp] theorem cset_self (m : Nat → Option Cont) (x : Nat) (c) : cset m x c x = c := by simp [cset]
theorem cset_ne (m : Nat → Option Cont) {x y : Nat} (c) (h : y ≠ x) : cset m x c y = m y := by simp [cset, h]
@[simp] theorem aset_self (m : AState α) (x : Nat) (c) : aset m x c x = c := by simp [aset]
theorem aset_ne (m : AState α) {x y : Nat} (c) (h : y ≠ x) : aset m x c y = m y := by simp [aset, h]

theorem ownPtr_cset_self (m : Nat → Option Cont) (x : Nat) (c : Cont) : ownPtr (cset m x (some c)) x = c.data := by
  simp [ownPtr]
theorem ownPtr_cset_none (m : Nat → Option Cont) (x : Nat) : ownPtr (cset m x none) x = .null := by
  simp [ownPtr]
theorem ownPtr_cset_ne (m : Nat → Option Cont) {x y : Nat} (c) (h : y ≠ x) : ownPtr (cset m x c) y = ownPtr m y := by
  simp [ownPtr, cset_ne m c h]

theorem CInv.lt {w : CWorld α} {A : AState α} (I : CInv w A) {x b : Nat} (h : ownPtr w.conts x = .at b 0) :
    b < w.store.heap.next := by
  cases ha : A x with
  | none => rw [ownPtr, I.absent x ha] at h; cases h
  | some a =>
    obtain ⟨c, hc, hr⟩ := I.rep x a ha
    rw [ownPtr, hc] at h
    exact hr.lt I.fresh h

/-- Storage part of an update of the object named `x`. -/
theorem CInv.core {w : CWorld α} {A : AState α} (I : CInv w A) {x : Nat} {s' : Store α} {o : Option Cont} {p' : Ptr}
    (hp' : ownPtr (cset w.conts x o) x = p') (d : Delta w.store.heap (ownPtr w.conts x) s'.heap p') :
    Fresh s'.heap ∧ (∀ y z b, ownPtr (cset w.conts x o) y = .at b 0 → ownPtr (cset w.conts x o) z = .at b 0 → y = z) ∧
    (∀ b, (s'.heap.blocks b).isSome = true → ∃ y, ownPtr (cset w.conts x o) y = .at b 0) ∧
    (∀ y c a, y ≠ x → w.conts y = some c → Rep w.store.heap c a → Rep s'.heap c a) := by
  have hlt : ∀ b, ownPtr w.conts x = .at b 0 → b < w.store.heap.next := fun b h => I.lt h
  have key : ∀ y b, y ≠ x → p' = .at b 0 → ownPtr w.conts y = .at b 0 → False := by
    intro y b hy h1 h2
    rcases d.fresh b h1 with h | ⟨h, _⟩
    · exact hy (I.inj y x b h2 h)
    · exact absurd (I.lt h2) (by omega)
  refine ⟨I.fresh.delta hlt d, fun y z b hy hz => ?_, fun b hb => ?_, fun y c a hy hc hr => ?_⟩
  · by_cases ey : y = x <;> by_cases ez : z = x
    · rw [ey, ez]
    · rw [ey, hp'] at hy; rw [ownPtr_cset_ne _ _ ez] at hz; exact absurd hz (fun h => key z b ez hy h)
    · rw [ez, hp'] at hz; rw [ownPtr_cset_ne _ _ ey] at hy; exact absurd hy (fun h => key y b ey hz h)
    · rw [ownPtr_cset_ne _ _ ey] at hy; rw [ownPtr_cset_ne _ _ ez] at hz; exact I.inj y z b hy hz
  · by_cases h1 : p' = .at b 0
    · exact ⟨x, by rw [hp', h1]⟩
    · by_cases h2 : ownPtr w.conts x = .at b 0
      · rw [d.freed b h2 h1] at hb; cases hb
      · rw [d.frame b h2 h1] at hb
        obtain ⟨y, hy⟩ := I.noleak b hb
        have : y ≠ x := by rintro rfl; exact h2 hy
        exact ⟨y, by rw [ownPtr_cset_ne _ _ this]; exact hy⟩
  · refine hr.frame I.fresh d (fun b hb h => hy (I.inj y x b ?_ h))
    simp [ownPtr, hc, hb]

/-- Update or creation of the object named `x`. -/
theorem CInv.update {w : CWorld α} {A : AState α} (I : CInv w A) {x : Nat} {s' : Store α} {c' : Cont} {a'}
    (h : OpSpec w.store.heap (ownPtr w.conts x) a' s'.heap c') :
    CInv ⟨s', cset w.conts x (some c')⟩ (aset A x (some a')) := by
  obtain ⟨h1, h2, h3, h4⟩ := I.core (x := x) (o := some c') (ownPtr_cset_self _ _ _) h.delta
  refine ⟨h1, fun y a hy => ?_, fun y hy => ?_, h2, h3⟩
  · by_cases e : y = x
    · subst e
      rw [aset_self] at hy; cases hy
      exact ⟨c', cset_self _ _ _, h.rep⟩
    · rw [aset_ne _ _ e] at hy
      obtain ⟨c, hc, hr⟩ := I.rep y a hy
      exact ⟨c, by show cset _ _ _ _ = _; rw [cset_ne _ _ e, hc], h4 y c a e hc hr⟩
  · by_cases e : y = x
    · subst e; rw [aset_self] at hy; cases hy
    · rw [aset_ne _ _ e] at hy
      show cset _ _ _ _ = _
      rw [cset_ne _ _ e]; exact I.absent y hy

/-- Destruction of the object named `x`. -/
theorem CInv.remove {w : CWorld α} {A : AState α} (I : CInv w A) {x : Nat} {s' : Store α}
    (d : Delta w.store.heap (ownPtr w.conts x) s'.heap .null) :
    CInv ⟨s', cset w.conts x none⟩ (aset A x none) := by
  obtain ⟨h1, h2, h3, h4⟩ := I.core (x := x) (o := none) (ownPtr_cset_none _ _) d
  refine ⟨h1, fun y a hy => ?_, fun y hy => ?_, h2, h3⟩
  · by_cases e : y = x
    · subst e; rw [aset_self] at hy; cases hy
    · rw [aset_ne _ _ e] at hy
      obtain ⟨c, hc, hr⟩ := I.rep y a hy
      exact ⟨c, by show cset _ _ _ _ = _; rw [cset_ne _ _ e, hc], h4 y c a e hc hr⟩
  · by_cases e : y = x
    · subst e; exact cset_self _ _ _
    · rw [aset_ne _ _ e] at hy
      show cset _ _ _ _ = _
      rw [cset_ne _ _ e]; exact I.absent y hy

/-- Handing the storage of `y` over to `x`, which owns nothing. -/
theorem CInv.transfer {w : CWorld α} {A : AState α} (I : CInv w A) {x y : Nat} (hne : x ≠ y) {src : Cont} {a}
    (hy : w.conts y = some src) (ha : A y = some a) (hx : ownPtr w.conts x = .null) :
    CInv ⟨w.store, cset (cset w.conts y (some { src with data := .null })) x (some src)⟩
      (aset (aset A y (some none)) x (some a)) := by
  have hsrc : ownPtr w.conts y = src.data := by simp [ownPtr, hy]
  have own : ∀ z b, ownPtr (cset (cset w.conts y (some { src with data := .null })) x (some src)) z = .at b 0 →
      ownPtr w.conts (if z = x then y else z) = .at b 0 ∧ z ≠ y := by
    intro z b hz
    by_cases e : z = x
    · subst e; rw [ownPtr_cset_self] at hz; rw [if_pos rfl, hsrc]; exact ⟨hz, hne⟩
    · rw [ownPtr_cset_ne _ _ e] at hz
      by_cases e2 : z = y
      · subst e2; rw [ownPtr_cset_self] at hz; cases hz
      · rw [ownPtr_cset_ne _ _ e2] at hz; rw [if_neg e]; exact ⟨hz, e2⟩
  refine ⟨I.fresh, fun z a' hz => ?_, fun z hz => ?_, fun z z' b hz hz' => ?_, fun b hb => ?_⟩
  · by_cases e : z = x
    · subst e
      rw [aset_self] at hz; cases hz
      obtain ⟨c, hc, hr⟩ := I.rep y a ha
      rw [hy] at hc; cases hc
      exact ⟨src, cset_self _ _ _, hr⟩
    · rw [aset_ne _ _ e] at hz
      by_cases e2 : z = y
      · subst e2
        rw [aset_self] at hz; cases hz
        exact ⟨{ src with data := .null }, by show cset _ _ _ _ = _; rw [cset_ne _ _ e, cset_self], rfl⟩
      · rw [aset_ne _ _ e2] at hz
        obtain ⟨c, hc, hr⟩ := I.rep z a' hz
        exact ⟨c, by show cset _ _ _ _ = _; rw [cset_ne _ _ e, cset_ne _ _ e2, hc], hr⟩
  · by_cases e : z = x
    · subst e; rw [aset_self] at hz; cases hz
    · rw [aset_ne _ _ e] at hz
      by_cases e2 : z = y
      · subst e2; rw [aset_self] at hz; cases hz
      · rw [aset_ne _ _ e2] at hz
        show cset _ _ _ _ = _
        rw [cset_ne _ _ e, cset_ne _ _ e2]; exact I.absent z hz
  · obtain ⟨h1, h1'⟩ := own z b hz
    obtain ⟨h2, h2'⟩ := own z' b hz'
    have := I.inj _ _ b h1 h2
    by_cases e : z = x <;> by_cases e' : z' = x
    · rw [e, e']
    · rw [if_pos e, if_neg e'] at this; exact absurd this.symm h2'
    · rw [if_neg e, if_pos e'] at this; exact absurd this h1'
    · rw [if_neg e, if_neg e'] at this; exact this
  · obtain ⟨z, hz⟩ := I.noleak b hb
    by_cases e : z = y
    · subst e
      exact ⟨x, by show ownPtr (cset _ _ _) _ = _; rw [ownPtr_cset_self, ← hsrc]; exact hz⟩
    · have e2 : z ≠ x := by rintro rfl; rw [hx] at hz; cases hz
      exact ⟨z, by show ownPtr (cset _ _ _) _ = _; rw [ownPtr_cset_ne _ _ e2, ownPtr_cset_ne _ _ e]; exact hz⟩

theorem CInv.get {w : CWorld α} {A : AState α} (I : CInv w A) {x : Nat} (h : A x ≠ none) :
    ∃ a c, A x = some a ∧ w.conts x = some c ∧ w.get x = .ok c ∧ Rep w.store.heap c a ∧ ownPtr w.conts x = c.data := by
  cases ha : A x with
  | none => exact absurd ha h
  | some a =>
    obtain ⟨c, hc, hr⟩ := I.rep x a ha
    exact ⟨a, c, rfl, hc, by simp [CWorld.get, hc], hr, by simp [ownPtr, hc]⟩

theorem CInv.absentPtr {w : CWorld α} {A : AState α} (I : CInv w A) {x : Nat} (h : A x = none) :
    ownPtr w.conts x = .null := by simp [ownPtr, I.absent x h]

theorem Rep.iterate {s : Store α} {c : Cont} {l : List α} (hr : Rep s.heap c (some l)) : c.iterate s = .ok l := by
  apply Ok.eq
  unfold Cont.iterate
  rw [hr.size.1]
  refine (forN_spec (fun i acc => acc = l.take i) (by simp) (fun i hi acc hacc => ?_)).mono
    (fun acc h => by rw [h, List.take_length])
  rcases hr with ⟨_, _, _, h⟩ | ⟨b, m, hd, hb, _⟩
  · rw [h] at hi; exact absurd hi (Nat.not_lt_zero _)
  · rw [hd, load_blk hb (Blk_get l m i hi), bind_ok, hacc]
    refine Ok_ok.2 ?_
    rw [List.take_append_getElem hi]

theorem step_cinv {dflt : α} {moved : α → α} {w : CWorld α} {A : AState α} (I : CInv w A) (op : COp α)
    (hv : CValid w A op) : Ok (w.step dflt moved op) (fun w' => CInv w' (absStep dflt A op)) := by
  cases op with
  | default x =>
    refine Ok_ok.2 (I.update ⟨?_, Or.inl ⟨rfl, rfl, rfl, rfl⟩⟩)
    rw [I.absentPtr hv]; exact Delta.refl _ (fun _ _ h => by cases h)
  | sized x n =>
    refine (sized_spec dflt w.store n).bind (fun r hr => Ok_ok.2 (I.update ?_))
    rw [I.absentPtr hv]; exact hr
  | ofList x l =>
    refine (ofList_spec w.store l).bind (fun r hr => Ok_ok.2 (I.update ?_))
    rw [I.absentPtr hv]; exact hr
  | copyCtor x y =>
    obtain ⟨hx, ⟨l, hy⟩, hcap⟩ := hv
    obtain ⟨a, c, h1, h2, h3, h4, h5⟩ := I.get (x := y) (by rw [hy]; exact fun h => by cases h)
    rw [hy] at h1; cases h1
    unfold CWorld.step
    dsimp only
    rw [h3, bind_ok]
    refine (copyCtor_spec I.fresh h4 (hcap c h2)).bind (fun r hr => Ok_ok.2 ?_)
    show CInv _ (aset A x (A y))
    rw [hy]
    refine I.update ?_
    rw [I.absentPtr hx]; exact hr
  | moveCtor x y =>
    obtain ⟨hx, hy⟩ := hv
    obtain ⟨a, c, h1, h2, h3, h4, h5⟩ := I.get hy
    unfold CWorld.step
    dsimp only
    rw [h3, bind_ok]
    refine Ok_ok.2 ?_
    show CInv _ (aset (aset A y (some none)) x (A y))
    rw [h1]
    exact I.transfer (by rintro rfl; rw [hx] at h1; cases h1) h2 h1 (I.absentPtr hx)
  | copyAssign x y =>
    obtain ⟨hx, hy, hl⟩ := hv
    obtain ⟨a, c, h1, h2, h3, h4, h5⟩ := I.get hx
    obtain ⟨a', c', h1', h2', h3', h4', h5'⟩ := I.get hy
    unfold CWorld.step absStep
    dsimp only
    rw [h3, bind_ok, h3', bind_ok]
    by_cases e : x = y
    · rw [if_pos e, if_pos e]; exact Ok_ok.2 I
    · rw [if_neg e, if_neg e]
      obtain ⟨l, hl⟩ := hl e
      rw [hl] at h1'; cases h1'
      refine (copyAssign_spec I.fresh h4 h4' (fun b hb hb' => ?_)).bind (fun r hr => Ok_ok.2 ?_)
      · exact e (I.inj x y b (by rw [h5, hb']) (by rw [h5', hb]))
      · rw [hl]
        refine I.update ?_
        rw [h5]; exact hr
  | moveAssign x y =>
    obtain ⟨hx, hy⟩ := hv
    obtain ⟨a, c, h1, h2, h3, h4, h5⟩ := I.get hx
    obtain ⟨a', c', h1', h2', h3', h4', h5'⟩ := I.get hy
    unfold CWorld.step absStep
    dsimp only
    rw [h3, bind_ok, h3', bind_ok]
    by_cases e : x = y
    · rw [if_pos e, if_pos e]; exact Ok_ok.2 I
    · rw [if_neg e, if_neg e]
      obtain ⟨s1, e1, d1, _, _, _⟩ := drop_spec h4
      unfold Cont.destruct at e1
      unfold Cont.moveAssign
      rw [← bind_assoc_res' (w.store.destroyRange c.data 0 c.size), e1, bind_ok]
      refine Ok_ok.2 ?_
      have I1 : CInv ⟨s1, cset w.conts x none⟩ (aset A x none) := I.remove (by rw [h5]; exact d1)
      have e' : y ≠ x := fun h => e h.symm
      have I2 := I1.transfer (x := x) (y := y) e (src := c') (a := a')
        (by show cset _ _ _ _ = _; rw [cset_ne _ _ e']; exact h2') (by rw [aset_ne _ _ e']; exact h1')
        (ownPtr_cset_none _ _)
      have eA : aset (aset (aset A x none) y (some none)) x (some a') = aset (aset A y (some none)) x (A y) := by
        rw [h1']; funext z; unfold aset
        by_cases hz : z = x <;> simp [hz]
      have eC : cset (cset (cset w.conts x none) y (some { c' with data := .null })) x (some c') =
          cset (cset w.conts y (some { c' with data := .null })) x (some c') := by
        funext z; unfold cset
        by_cases hz : z = x <;> simp [hz]
      rw [eA] at I2
      dsimp only at I2
      rw [eC] at I2
      exact I2
  | resize x n arg =>
    obtain ⟨l, hl⟩ := hv
    obtain ⟨a, c, h1, h2, h3, h4, h5⟩ := I.get (x := x) (by rw [hl]; exact fun h => by cases h)
    rw [hl] at h1; cases h1
    unfold CWorld.step absStep
    dsimp only
    rw [h3, bind_ok, hl]
    refine (resize_spec I.fresh h4 n arg).bind (fun r hr => Ok_ok.2 (I.update ?_))
    rw [h5]; exact hr
  | reserve x n =>
    obtain ⟨l, hl⟩ := hv
    obtain ⟨a, c, h1, h2, h3, h4, h5⟩ := I.get (x := x) (by rw [hl]; exact fun h => by cases h)
    rw [hl] at h1; cases h1
    unfold CWorld.step absStep
    dsimp only
    rw [h3, bind_ok]
    refine (reserve_spec I.fresh h4 n).bind (fun r hr => Ok_ok.2 ?_)
    have := I.update (x := x) (s' := r.1) (c' := r.2) (a' := some l) (by rw [h5]; exact hr.1)
    have e : aset A x (some (some l)) = A := by
      funext z; unfold aset; by_cases hz : z = x <;> simp [hz]; exact hl.symm
    rw [e] at this; exact this
  | emplaceBack x v =>
    obtain ⟨l, hl⟩ := hv
    obtain ⟨a, c, h1, h2, h3, h4, h5⟩ := I.get (x := x) (by rw [hl]; exact fun h => by cases h)
    rw [hl] at h1; cases h1
    unfold CWorld.step absStep
    dsimp only
    rw [h3, bind_ok, hl]
    refine (emplaceBack_spec I.fresh h4 v).bind (fun r hr => Ok_ok.2 (I.update ?_))
    rw [h5]; exact hr.1
  | popBack x =>
    obtain ⟨l, hl, hne⟩ := hv
    obtain ⟨a, c, h1, h2, h3, h4, h5⟩ := I.get (x := x) (by rw [hl]; exact fun h => by cases h)
    rw [hl] at h1; cases h1
    unfold CWorld.step absStep
    dsimp only
    rw [h3, bind_ok, hl]
    refine (popBack_spec h4 hne).bind (fun r hr => Ok_ok.2 (I.update ?_))
    rw [h5]; exact hr
  | write x i v =>
    obtain ⟨l, hl, hi⟩ := hv
    obtain ⟨a, c, h1, h2, h3, h4, h5⟩ := I.get (x := x) (by rw [hl]; exact fun h => by cases h)
    rw [hl] at h1; cases h1
    unfold CWorld.step absStep
    dsimp only
    rw [h3, bind_ok, hl]
    refine (write_spec h4 hi v).bind (fun r hr => Ok_ok.2 ?_)
    have := I.update (x := x) (s' := r) (c' := c) (a' := some (l.set i v)) (by rw [h5]; exact hr)
    have e : cset w.conts x (some c) = w.conts := by
      funext z; unfold cset; by_cases hz : z = x <;> simp [hz]; exact h2.symm
    rw [e] at this; exact this
  | save x =>
    obtain ⟨l, hl⟩ := hv
    obtain ⟨a, c, h1, h2, h3, h4, h5⟩ := I.get (x := x) (by rw [hl]; exact fun h => by cases h)
    rw [hl] at h1; cases h1
    unfold CWorld.step absStep Cont.save
    dsimp only
    rw [h3, bind_ok, h4.iterate, bind_ok]
    refine Ok_ok.2 ?_
    have hrep : Rep w.store.heap { c with cap := c.size } (some l) := by
      rcases h4 with ⟨k1, k2, k3, k4⟩ | ⟨b, m, k1, k2, k3, k4, k5⟩
      · exact Or.inl ⟨k1, k2, k2, k4⟩
      · exact Or.inr ⟨b, m, k1, k2, k3, Nat.le_refl _, by show c.size ≤ _; omega⟩
    have := I.update (x := x) (s' := w.store) (c' := { c with cap := c.size }) (a' := some l)
      ⟨by rw [h5]; exact Delta.refl _ h4.zero, hrep⟩
    have e : aset A x (some (some l)) = A := by
      funext z; unfold aset; by_cases hz : z = x <;> simp [hz]; exact hl.symm
    rw [e] at this; exact this
  | destroy x =>
    obtain ⟨a, c, h1, h2, h3, h4, h5⟩ := I.get hv
    unfold CWorld.step absStep
    dsimp only
    rw [h3, bind_ok]
    refine (drop_spec h4).bind (fun s1 h => Ok_ok.2 (I.remove ?_))
    rw [h5]; exact h.1

theorem run_cinv {dflt : α} {moved : α → α} (ops : List (COp α)) : ∀ {w : CWorld α} {A : AState α}, CInv w A →
    CValidHist dflt moved w A ops → Ok (w.run dflt moved ops) (fun w' => CInv w' (absRun dflt A ops)) := by
  induction ops with
  | nil => intro w A I _; exact Ok_ok.2 I
  | cons op ops ih =>
    intro w A I ⟨h1, h2⟩
    obtain ⟨w', e, I'⟩ := step_cinv (dflt := dflt) (moved := moved) I op h1
    unfold CWorld.run
    rw [e, bind_ok]
    exact ih I' (h2 w' e)

end Trixy
