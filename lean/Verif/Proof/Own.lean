import Verif.Proof.Base
import Verif.Spec.Own
import Mathlib.Data.List.Perm.Basic
import Mathlib.Data.List.Nodup
namespace Trixy

/-- Every object created is either deleted or alive, once; the owning pointers are exactly the objects alive, once; pointers have the
right kind; names are unique. -/
structure OInv (objs : List (Nat × OObj)) (next : Nat) (deleted : List Nat) (nets : List (Nat × List Nat))
    (trains : List (Nat × Nat × Option Nat)) (c : List Nat) : Prop where
  hist : (deleted ++ objs.map Prod.fst).Perm (List.range next)
  own : (c ++ (nets.flatMap Prod.snd ++ (trains.filterMap (fun e => e.2.2) ++ objs.filterMap (fun e => e.2.owns)))).Perm (objs.map Prod.fst)
  netT : ∀ e ∈ nets, ∀ p ∈ e.2, (p, OObj.conv) ∈ objs ∨ ∃ a, (p, OObj.layer a) ∈ objs
  actT : ∀ e ∈ objs, ∀ a, e.2.owns = some a → (a, OObj.act) ∈ objs
  lossT : ∀ e ∈ trains, ∀ a, e.2.2 = some a → (a, OObj.loss) ∈ objs
  netN : (nets.map Prod.fst).Nodup
  trainN : (trains.map Prod.fst).Nodup

/-- The invariant of a world. -/
abbrev OWorld.Inv (w : OWorld) (c : List Nat) : Prop := OInv w.objs w.next w.deleted w.nets w.trains c

section
variable {objs objs' rest : List (Nat × OObj)} {next : Nat} {deleted : List Nat} {nets nets' : List (Nat × List Nat)}
  {trains trains' : List (Nat × Nat × Option Nat)} {c c' : List Nat}

theorem OInv.keys (I : OInv objs next deleted nets trains c) : (objs.map Prod.fst).Nodup :=
  ((I.hist.nodup_iff.2 List.nodup_range).of_append_right)

theorem OInv.unique (I : OInv objs next deleted nets trains c) {p : Nat} {o o' : OObj} (h : (p, o) ∈ objs) (h' : (p, o') ∈ objs) : o = o' := by
  have := I.keys
  exact congrArg Prod.snd (List.inj_on_of_nodup_map this h h' rfl)

theorem find_mem {β : Type} {l : List (Nat × β)} (hl : (l.map Prod.fst).Nodup) {p : Nat} {o : β} (h : (p, o) ∈ l) :
    l.find? (fun e => e.1 = p) = some (p, o) := by
  cases hf : l.find? (fun e => e.1 = p) with
  | none =>
    have := List.find?_eq_none.1 hf (p, o) h
    simp at this
  | some e =>
    have h1 := List.mem_of_find?_eq_some hf
    have h2 : e.1 = p := by simpa using List.find?_some hf
    exact congrArg some (List.inj_on_of_nodup_map hl h1 h h2)

theorem OInv.client (I : OInv objs next deleted nets trains c) (h : c'.Perm c) : OInv objs next deleted nets trains c' :=
  { I with own := (h.append_right _).trans I.own }

theorem OInv.perm (I : OInv objs next deleted nets trains c) (h : objs'.Perm objs) : OInv objs' next deleted nets trains c where
  hist := (((h.map Prod.fst).append_left _)).trans I.hist
  own := ((((h.filterMap _).append_left _).append_left _).append_left _).trans (I.own.trans (h.map Prod.fst).symm)
  netT e he p hp := by
    rcases I.netT e he p hp with h1 | ⟨a, h1⟩
    · exact Or.inl (h.mem_iff.2 h1)
    · exact Or.inr ⟨a, h.mem_iff.2 h1⟩
  actT e he a ha := h.mem_iff.2 (I.actT e (h.mem_iff.1 he) a ha)
  lossT e he a ha := h.mem_iff.2 (I.lossT e he a ha)
  netN := I.netN
  trainN := I.trainN

theorem OInv.permNets (I : OInv objs next deleted nets trains c) (h : nets'.Perm nets) : OInv objs next deleted nets' trains c where
  hist := I.hist
  own := (((h.flatMap_right _).append_right _).append_left _).trans I.own
  netT e he := I.netT e (h.mem_iff.1 he)
  actT := I.actT
  lossT := I.lossT
  netN := ((h.map Prod.fst).nodup_iff).2 I.netN
  trainN := I.trainN

theorem OInv.permTrains (I : OInv objs next deleted nets trains c) (h : trains'.Perm trains) : OInv objs next deleted nets trains' c where
  hist := I.hist
  own := ((((h.filterMap _).append_right _).append_left _).append_left _).trans I.own
  netT := I.netT
  actT := I.actT
  lossT e he := I.lossT e (h.mem_iff.1 he)
  netN := I.netN
  trainN := ((h.map Prod.fst).nodup_iff).2 I.trainN

/-- Every owned object is alive. -/
theorem OInv.live (I : OInv objs next deleted nets trains c) {p : Nat} (h : p ∈ c) : ∃ o, (p, o) ∈ objs := by
  have : p ∈ objs.map Prod.fst := I.own.mem_iff.1 (List.mem_append_left _ h)
  obtain ⟨⟨q, o⟩, h1, h2⟩ := List.mem_map.1 this
  exact ⟨o, by dsimp only at h2; rw [← h2]; exact h1⟩

theorem OInv.ownNodup (I : OInv objs next deleted nets trains c) :
    (c ++ (nets.flatMap Prod.snd ++ (trains.filterMap (fun e => e.2.2) ++ objs.filterMap (fun e => e.2.owns)))).Nodup :=
  I.own.nodup_iff.2 I.keys

/-- Deletion of an object without owning members. -/
theorem OInv.erase {p : Nat} {o : OObj} (I : OInv ((p, o) :: rest) next deleted nets trains (p :: c)) (ho : o.owns = none) :
    OInv rest next (deleted ++ [p]) nets trains c := by
  have nd := I.ownNodup
  rw [List.cons_append, List.nodup_cons] at nd
  have hp := nd.1
  have hA : ((p, o) :: rest).filterMap (fun e => e.2.owns) = rest.filterMap (fun e => e.2.owns) := by
    rw [List.filterMap_cons]; dsimp only; rw [ho]
  rw [hA] at hp
  simp only [List.mem_append, not_or] at hp
  obtain ⟨_, hpn, hpt, hpa⟩ := hp
  refine ⟨?_, ?_, fun e he q hq => ?_, fun e he a ha => ?_, fun e he a ha => ?_, I.netN, I.trainN⟩
  · have := I.hist
    rw [List.map_cons] at this
    rw [List.append_assoc]
    exact this
  · have := I.own
    rw [hA, List.map_cons, List.cons_append] at this
    exact (List.perm_cons p).1 this
  · have hne : q ≠ p := fun h => hpn (List.mem_flatMap.2 ⟨e, he, h ▸ hq⟩)
    rcases I.netT e he q hq with h1 | ⟨a, h1⟩
    · rcases List.mem_cons.1 h1 with h2 | h2
      · exact absurd (congrArg Prod.fst h2) hne
      · exact Or.inl h2
    · rcases List.mem_cons.1 h1 with h2 | h2
      · exact absurd (congrArg Prod.fst h2) hne
      · exact Or.inr ⟨a, h2⟩
  · have hne : a ≠ p := fun h => hpa (List.mem_filterMap.2 ⟨e, he, h ▸ ha⟩)
    rcases List.mem_cons.1 (I.actT e (List.mem_cons_of_mem _ he) a ha) with h2 | h2
    · exact absurd (congrArg Prod.fst h2) hne
    · exact h2
  · have hne : a ≠ p := fun h => hpt (List.mem_filterMap.2 ⟨e, he, h ▸ ha⟩)
    rcases List.mem_cons.1 (I.lossT e he a ha) with h2 | h2
    · exact absurd (congrArg Prod.fst h2) hne
    · exact h2

theorem mid_swap (p : Nat) (A B C D : List Nat) : (A ++ (B ++ (C ++ p :: D))).Perm (p :: A ++ (B ++ (C ++ D))) := by
  have h1 : (C ++ p :: D).Perm (p :: (C ++ D)) := List.perm_middle
  have h2 : (B ++ (C ++ p :: D)).Perm (p :: (B ++ (C ++ D))) := (h1.append_left B).trans List.perm_middle
  exact (h2.append_left A).trans List.perm_middle

theorem mid_swap2 (p : Nat) (A B C D : List Nat) : (A ++ (B ++ (p :: C ++ D))).Perm (p :: A ++ (B ++ (C ++ D))) := by
  have h2 : (B ++ (p :: C ++ D)).Perm (p :: (B ++ (C ++ D))) := List.perm_middle
  exact (h2.append_left A).trans List.perm_middle

/-- A layer's kind change between `layer a` and `layer b` keeps the kinds of everything else. -/
theorem layer_mem {l : Nat} {a b : Option Nat} {q : Nat}
    (h : (q, OObj.conv) ∈ (l, OObj.layer a) :: rest ∨ ∃ x, (q, OObj.layer x) ∈ (l, OObj.layer a) :: rest) :
    (q, OObj.conv) ∈ (l, OObj.layer b) :: rest ∨ ∃ x, (q, OObj.layer x) ∈ (l, OObj.layer b) :: rest := by
  rcases h with h | ⟨x, h⟩
  · rcases List.mem_cons.1 h with h | h
    · cases h
    · exact Or.inl (List.mem_cons_of_mem _ h)
  · rcases List.mem_cons.1 h with h | h
    · have : q = l := congrArg Prod.fst h
      rw [this]; exact Or.inr ⟨b, List.mem_cons_self ..⟩
    · exact Or.inr ⟨x, List.mem_cons_of_mem _ h⟩

theorem leaf_mem {l : Nat} {a b : Option Nat} {q : Nat} {o : OObj} (ho : ∀ x, o ≠ .layer x) (h : (q, o) ∈ (l, OObj.layer a) :: rest) :
    (q, o) ∈ (l, OObj.layer b) :: rest := by
  rcases List.mem_cons.1 h with h | h
  · exact absurd (congrArg Prod.snd h) (ho a)
  · exact List.mem_cons_of_mem _ h

/-- A layer gives up its activation. -/
theorem OInv.release {l a : Nat} (I : OInv ((l, .layer (some a)) :: rest) next deleted nets trains c) :
    OInv ((l, .layer none) :: rest) next deleted nets trains (a :: c) where
  hist := I.hist
  own := by
    have := I.own
    simp only [List.filterMap_cons, OObj.owns, List.map_cons] at this ⊢
    exact (mid_swap a c _ _ _).symm.trans this
  netT e he p hp := layer_mem (I.netT e he p hp)
  actT e he x hx := by
    rcases List.mem_cons.1 he with h | h
    · rw [h] at hx; cases hx
    · exact leaf_mem (fun _ h => by cases h) (I.actT e (List.mem_cons_of_mem _ h) x hx)
  lossT e he x hx := leaf_mem (fun _ h => by cases h) (I.lossT e he x hx)
  netN := I.netN
  trainN := I.trainN

/-- A layer takes an activation. -/
theorem OInv.capture {l a : Nat} (I : OInv ((l, .layer none) :: rest) next deleted nets trains (a :: c)) (ha : (a, OObj.act) ∈ rest) :
    OInv ((l, .layer (some a)) :: rest) next deleted nets trains c where
  hist := I.hist
  own := by
    have := I.own
    simp only [List.filterMap_cons, OObj.owns, List.map_cons] at this ⊢
    exact (mid_swap a c _ _ _).trans this
  netT e he p hp := layer_mem (I.netT e he p hp)
  actT e he x hx := by
    rcases List.mem_cons.1 he with h | h
    · rw [h] at hx; injection hx with hx; rw [← hx]; exact List.mem_cons_of_mem _ ha
    · exact leaf_mem (fun _ h => by cases h) (I.actT e (List.mem_cons_of_mem _ h) x hx)
  lossT e he x hx := leaf_mem (fun _ h => by cases h) (I.lossT e he x hx)
  netN := I.netN
  trainN := I.trainN

/-- Creation of an object without owning members. -/
theorem OInv.create {o : OObj} (I : OInv objs next deleted nets trains c) (ho : o.owns = none) :
    OInv ((next, o) :: objs) (next + 1) deleted nets trains (next :: c) where
  hist := by
    rw [List.map_cons, List.range_succ]
    exact List.perm_middle.trans ((I.hist.cons next).trans (List.perm_append_singleton _ _).symm)
  own := by
    rw [List.filterMap_cons]; dsimp only; rw [ho]
    exact I.own.cons next
  netT e he p hp := by
    rcases I.netT e he p hp with h | ⟨a, h⟩
    · exact Or.inl (List.mem_cons_of_mem _ h)
    · exact Or.inr ⟨a, List.mem_cons_of_mem _ h⟩
  actT e he x hx := by
    rcases List.mem_cons.1 he with h | h
    · rw [h] at hx; dsimp only at hx; rw [ho] at hx; cases hx
    · exact List.mem_cons_of_mem _ (I.actT e h x hx)
  lossT e he x hx := List.mem_cons_of_mem _ (I.lossT e he x hx)
  netN := I.netN
  trainN := I.trainN

/-- A network takes layers. -/
theorem OInv.takeNet {n : Nat} {ls qs : List Nat} (I : OInv objs next deleted ((n, ls) :: nets) trains (qs ++ c))
    (hq : ∀ p ∈ qs, (p, OObj.conv) ∈ objs ∨ ∃ a, (p, OObj.layer a) ∈ objs) : OInv objs next deleted ((n, ls ++ qs) :: nets) trains c where
  hist := I.hist
  own := by
    have := I.own
    simp only [List.flatMap_cons] at this ⊢
    refine List.Perm.trans ?_ this
    simp only [List.append_assoc]
    have h1 : (ls ++ (qs ++ (nets.flatMap Prod.snd ++ (trains.filterMap (fun e => e.2.2) ++ objs.filterMap (fun e => e.2.owns))))).Perm
        (qs ++ (ls ++ (nets.flatMap Prod.snd ++ (trains.filterMap (fun e => e.2.2) ++ objs.filterMap (fun e => e.2.owns))))) := by
      exact List.perm_append_comm_assoc ..
    refine (h1.append_left c).trans ?_
    exact List.perm_append_comm_assoc ..
  netT e he p hp := by
    rcases List.mem_cons.1 he with h | h
    · rw [h] at hp
      rcases List.mem_append.1 hp with h1 | h1
      · exact I.netT (n, ls) (List.mem_cons_self ..) p h1
      · exact hq p h1
    · exact I.netT e (List.mem_cons_of_mem _ h) p hp
  actT := I.actT
  lossT := I.lossT
  netN := I.netN
  trainN := I.trainN

/-- A new empty network. -/
theorem OInv.newNet {n : Nat} (I : OInv objs next deleted nets trains c) (hn : ∀ e ∈ nets, e.1 ≠ n) :
    OInv objs next deleted ((n, []) :: nets) trains c where
  hist := I.hist
  own := I.own
  netT e he p hp := by
    rcases List.mem_cons.1 he with h | h
    · rw [h] at hp; cases hp
    · exact I.netT e h p hp
  actT := I.actT
  lossT := I.lossT
  netN := by
    rw [List.map_cons, List.nodup_cons]
    refine ⟨fun h => ?_, I.netN⟩
    obtain ⟨e, h1, h2⟩ := List.mem_map.1 h
    exact hn e h1 h2
  trainN := I.trainN

/-- A network disappears; its layers are left to whoever deletes them. -/
theorem OInv.dropNet {n : Nat} {ls : List Nat} (I : OInv objs next deleted ((n, ls) :: nets) trains c) :
    OInv objs next deleted nets trains (ls ++ c) where
  hist := I.hist
  own := by
    have := I.own
    simp only [List.flatMap_cons] at this
    refine List.Perm.trans ?_ this
    rw [List.append_assoc, ← List.append_assoc c, List.append_assoc c]
    rw [List.append_assoc, ← List.append_assoc ls, ← List.append_assoc c]
    exact (List.perm_append_comm).append_right _
  netT e he := I.netT e (List.mem_cons_of_mem _ he)
  actT := I.actT
  lossT := I.lossT
  netN := by have := I.netN; rw [List.map_cons, List.nodup_cons] at this; exact this.2
  trainN := I.trainN

/-- A new training without a loss. -/
theorem OInv.newTrain {t n : Nat} (I : OInv objs next deleted nets trains c) (hn : ∀ e ∈ trains, e.1 ≠ t) :
    OInv objs next deleted nets ((t, n, none) :: trains) c where
  hist := I.hist
  own := I.own
  netT := I.netT
  actT := I.actT
  lossT e he a ha := by
    rcases List.mem_cons.1 he with h | h
    · rw [h] at ha; cases ha
    · exact I.lossT e h a ha
  netN := I.netN
  trainN := by
    rw [List.map_cons, List.nodup_cons]
    refine ⟨fun h => ?_, I.trainN⟩
    obtain ⟨e, h1, h2⟩ := List.mem_map.1 h
    exact hn e h1 h2

/-- A training gives up its loss. -/
theorem OInv.releaseLoss {t n a : Nat} (I : OInv objs next deleted nets ((t, n, some a) :: trains) c) :
    OInv objs next deleted nets ((t, n, none) :: trains) (a :: c) where
  hist := I.hist
  own := by
    have := I.own
    simp only [List.filterMap_cons] at this ⊢
    exact (mid_swap2 a c _ _ _).symm.trans this
  netT := I.netT
  actT := I.actT
  lossT e he x hx := by
    rcases List.mem_cons.1 he with h | h
    · rw [h] at hx; cases hx
    · exact I.lossT e (List.mem_cons_of_mem _ h) x hx
  netN := I.netN
  trainN := I.trainN

/-- A training takes a loss. -/
theorem OInv.captureLoss {t n a : Nat} (I : OInv objs next deleted nets ((t, n, none) :: trains) (a :: c)) (ha : (a, OObj.loss) ∈ objs) :
    OInv objs next deleted nets ((t, n, some a) :: trains) c where
  hist := I.hist
  own := by
    have := I.own
    simp only [List.filterMap_cons] at this ⊢
    exact (mid_swap2 a c _ _ _).trans this
  netT := I.netT
  actT := I.actT
  lossT e he x hx := by
    rcases List.mem_cons.1 he with h | h
    · rw [h] at hx; injection hx with hx; rw [← hx]; exact ha
    · exact I.lossT e (List.mem_cons_of_mem _ h) x hx
  netN := I.netN
  trainN := I.trainN

/-- A training without a loss disappears. -/
theorem OInv.dropTrain {t n : Nat} (I : OInv objs next deleted nets ((t, n, none) :: trains) c) :
    OInv objs next deleted nets trains c where
  hist := I.hist
  own := I.own
  netT := I.netT
  actT := I.actT
  lossT e he := I.lossT e (List.mem_cons_of_mem _ he)
  netN := I.netN
  trainN := by have := I.trainN; rw [List.map_cons, List.nodup_cons] at this; exact this.2

end

/-! ### The model's functions -/

/-- What a deletion leaves alone. -/
def OWorld.SameNames (w w' : OWorld) : Prop := w'.nets = w.nets ∧ w'.trains = w.trains ∧ w'.next = w.next

theorem OWorld.Inv.deref {w : OWorld} {c : List Nat} (I : w.Inv c) {p : Nat} {o : OObj} (h : (p, o) ∈ w.objs) : w.deref p = .ok o := by
  unfold OWorld.deref
  rw [find_mem I.keys h]

theorem OWorld.Inv.delLeaf {w : OWorld} {c : List Nat} {p : Nat} (I : w.Inv (p :: c)) {o : OObj} (h : (p, o) ∈ w.objs) (ho : o.owns = none) :
    Ok (w.delLeaf p) (fun w' => w'.Inv c ∧ w.SameNames w' ∧ w'.objs = w.objs.erase (p, o)) := by
  unfold OWorld.delLeaf
  rw [find_mem I.keys h]
  refine Ok_ok.2 ⟨?_, ⟨rfl, rfl, rfl⟩, rfl⟩
  have := (I.perm (List.perm_cons_erase h).symm).erase ho
  exact this

theorem OWorld.Inv.del {w : OWorld} {c : List Nat} {p : Nat} (I : w.Inv (p :: c)) :
    Ok (w.del p) (fun w' => w'.Inv c ∧ w.SameNames w') := by
  obtain ⟨o, h⟩ := I.live (List.mem_cons_self ..)
  have hf := find_mem I.keys h
  have leaf : o.owns = none → w.del p = w.delLeaf p → Ok (w.del p) (fun w' => w'.Inv c ∧ w.SameNames w') := fun ho e => by
    rw [e]; exact (Inv.delLeaf I h ho).mono (fun w' q => ⟨q.1, q.2.1⟩)
  cases o with
  | act => exact leaf rfl (by unfold OWorld.del; rw [hf])
  | loss => exact leaf rfl (by unfold OWorld.del; rw [hf])
  | conv => exact leaf rfl (by unfold OWorld.del; rw [hf])
  | layer a =>
    cases a with
    | none => exact leaf rfl (by unfold OWorld.del; rw [hf]; rfl)
    | some a =>
      have hperm := List.perm_cons_erase h
      have ha : (a, OObj.act) ∈ w.objs := I.actT _ h a rfl
      have ha' : (a, OObj.act) ∈ w.objs.erase (p, .layer (some a)) := (List.mem_erase_of_ne (by intro h; cases h)).2 ha
      have hperm2 := List.perm_cons_erase ha'
      have I1 := (I.perm hperm.symm).release
      have I2 := (I1.perm ((List.Perm.swap (p, OObj.layer none) (a, OObj.act) _).trans (hperm2.symm.cons (p, OObj.layer none)))).erase rfl
      have I3 := I2.erase rfl
      unfold OWorld.del
      rw [hf]
      dsimp only
      unfold OWorld.delOpt OWorld.delLeaf
      dsimp only
      rw [find_mem I.keys ha]
      dsimp only
      rw [bind_ok]
      dsimp only
      have hk : ((w.objs.erase (a, OObj.act)).map Prod.fst).Nodup := I.keys.sublist ((List.erase_sublist).map _)
      have hp' : (p, OObj.layer (some a)) ∈ w.objs.erase (a, .act) := (List.mem_erase_of_ne (by intro h; cases h)).2 h
      rw [find_mem hk hp']
      refine Ok_ok.2 ⟨?_, rfl, rfl, rfl⟩
      rw [List.erase_comm]
      exact I3

theorem OWorld.Inv.delAll {c : List Nat} (ps : List Nat) : ∀ {w : OWorld}, w.Inv (ps ++ c) →
    Ok (w.delAll ps) (fun w' => w'.Inv c ∧ w.SameNames w') := by
  induction ps with
  | nil => intro w I; exact Ok_ok.2 ⟨I, rfl, rfl, rfl⟩
  | cons p ps ih =>
    intro w I
    unfold OWorld.delAll
    refine (Inv.del I).bind (fun w1 q => ?_)
    refine (ih q.1).mono (fun w2 q2 => ⟨q2.1, q2.2.1.trans q.2.1, q2.2.2.1.trans q.2.2.1, q2.2.2.2.trans q.2.2.2⟩)

theorem erase_all {qs : List Nat} : ∀ {c : List Nat}, qs.Nodup → (∀ p ∈ qs, p ∈ c) → c.Perm (qs ++ qs.foldl List.erase c) := by
  induction qs with
  | nil => intro c _ _; exact .refl _
  | cons q qs ih =>
    intro c hn hc
    rw [List.nodup_cons] at hn
    have h1 := List.perm_cons_erase (hc q (List.mem_cons_self ..))
    refine h1.trans ((ih hn.2 (fun p hp => ?_)).cons q)
    exact (List.mem_erase_of_ne (fun h => hn.1 (by rw [← h]; exact hp))).2 (hc p (List.mem_cons_of_mem _ hp))

theorem OWorld.Inv.net {w : OWorld} {c : List Nat} (I : w.Inv c) {n : Nat} {ls : List Nat} (h : (n, ls) ∈ w.nets) : w.net n = .ok (n, ls) := by
  unfold OWorld.net; rw [find_mem I.netN h]

theorem OWorld.Inv.train {w : OWorld} {c : List Nat} (I : w.Inv c) {t : Nat} {x : Nat × Option Nat} (h : (t, x) ∈ w.trains) :
    w.train t = .ok (t, x) := by
  unfold OWorld.train; rw [find_mem I.trainN h]

theorem OWorld.Inv.touch {w : OWorld} {c : List Nat} (I : w.Inv c) (ls : List Nat) (hl : ∀ p ∈ ls, w.IsLayer p)
    (hn : ∀ p ∈ ls, (p, OObj.layer none) ∉ w.objs) : w.touch ls = .ok () := by
  induction ls with
  | nil => rfl
  | cons p ps ih =>
    have ih := ih (fun q hq => hl q (List.mem_cons_of_mem _ hq)) (fun q hq => hn q (List.mem_cons_of_mem _ hq))
    unfold OWorld.touch
    rcases hl p (List.mem_cons_self ..) with h | ⟨a, h⟩
    · rw [Inv.deref I h, bind_ok]; exact ih
    · rw [Inv.deref I h, bind_ok]
      cases a with
      | none => exact absurd h (hn p (List.mem_cons_self ..))
      | some a =>
        dsimp only
        rw [Inv.deref I (I.actT _ h a rfl), bind_ok]; exact ih

theorem OWorld.Inv.ff {w : OWorld} {c : List Nat} (I : w.Inv c) {n : Nat} {ls : List Nat} (h : (n, ls) ∈ w.nets) (hne : ls ≠ [])
    (hn : ∀ p ∈ ls, (p, OObj.layer none) ∉ w.objs) : w.ff ls = .ok () := by
  unfold OWorld.ff
  rw [if_neg hne]
  exact Inv.touch I ls (fun p hp => I.netT _ h p hp) hn

theorem OWorld.Inv.step {w : OWorld} {c : List Nat} (I : w.Inv c) (op : OOp) (hv : OValid w c op) :
    Ok (w.step op) (fun w' => w'.Inv (ownNext w c op)) := by
  cases op with
  | newAct => exact Ok_ok.2 (OInv.create I rfl)
  | newLoss => exact Ok_ok.2 (OInv.create I rfl)
  | newConv => exact Ok_ok.2 (OInv.create I rfl)
  | newLayer a =>
    cases a with
    | none => exact Ok_ok.2 (OInv.create I rfl)
    | some a =>
      obtain ⟨h1, h2⟩ := hv
      have I1 := OInv.create (o := .layer none) I rfl
      have hp : (a :: w.next :: c.erase a).Perm (w.next :: c) :=
        (List.Perm.swap _ _ _).trans ((List.perm_cons_erase h1).symm.cons _)
      exact Ok_ok.2 ((I1.client hp).capture h2)
  | connect l a =>
    -- the common part: a layer with its old activation released and deleted
    have old : ∀ o, (l, OObj.layer o) ∈ w.objs → Ok (w.delOpt o) (fun w' =>
        OInv ((l, .layer none) :: w'.objs.erase (l, .layer o)) w'.next w'.deleted w'.nets w'.trains c ∧
        ∀ b, (b, OObj.act) ∈ w.objs → some b ≠ o → (b, OObj.act) ∈ w'.objs.erase (l, .layer o)) := by
      intro o h
      cases o with
      | none =>
        refine Ok_ok.2 ⟨I.perm (List.perm_cons_erase h).symm, fun b hb _ => ?_⟩
        exact (List.mem_erase_of_ne (by intro h; cases h)).2 hb
      | some x =>
        have ha : (x, OObj.act) ∈ w.objs := I.actT _ h x rfl
        have hperm := List.perm_cons_erase h
        have ha' : (x, OObj.act) ∈ w.objs.erase (l, .layer (some x)) := (List.mem_erase_of_ne (by intro h; cases h)).2 ha
        have hperm2 := List.perm_cons_erase ha'
        have I1 := (I.perm hperm.symm).release
        have I2 := (I1.perm ((List.Perm.swap (l, OObj.layer none) (x, OObj.act) _).trans (hperm2.symm.cons (l, OObj.layer none)))).erase rfl
        unfold OWorld.delOpt OWorld.delLeaf
        dsimp only
        rw [find_mem I.keys ha]
        refine Ok_ok.2 ⟨?_, fun b hb hne => ?_⟩
        · dsimp only
          rw [List.erase_comm]
          exact I2
        · have hb1 : (b, OObj.act) ∈ w.objs.erase (x, OObj.act) :=
            (List.mem_erase_of_ne (fun h => hne (congrArg (fun e => some (Prod.fst e)) h))).2 hb
          exact (List.mem_erase_of_ne (by intro h; cases h)).2 hb1
    have kind : ∀ (P : Prop), w.IsLayer l → ((l, OObj.conv) ∈ w.objs → P) → (∀ o, (l, OObj.layer o) ∈ w.objs → P) → P := by
      intro P h h1 h2
      rcases h with h | ⟨o, h⟩
      · exact h1 h
      · exact h2 o h
    cases a with
    | none =>
      refine kind _ hv (fun h => ?_) (fun o h => ?_)
      · unfold OWorld.step OWorld.connect; dsimp only
        rw [Inv.deref I h, bind_ok]; exact Ok_ok.2 I
      · unfold OWorld.step OWorld.connect; dsimp only
        rw [Inv.deref I h, bind_ok]
        exact (old o h).bind (fun w' q => Ok_ok.2 q.1)
    | some a =>
      obtain ⟨hl, hc, ha⟩ := hv
      refine kind _ hl (fun h => ?_) (fun o h => ?_)
      · unfold OWorld.step OWorld.connect ownNext; dsimp only
        rw [Inv.deref I h, bind_ok, if_pos h]; exact Ok_ok.2 I
      · unfold OWorld.step OWorld.connect ownNext; dsimp only
        rw [Inv.deref I h, bind_ok, if_neg (fun h' => by cases I.unique h h')]
        refine (old o h).bind (fun w' q => Ok_ok.2 ?_)
        refine (q.1.client (List.perm_cons_erase hc).symm).capture (q.2 a ha (fun e => ?_))
        -- the client's activation is not the layer's
        have nd := I.ownNodup
        rw [List.nodup_append] at nd
        refine nd.2.2 a hc a ?_ rfl
        exact List.mem_append_right _ (List.mem_append_right _ (List.mem_filterMap.2 ⟨_, h, e.symm⟩))
  | netNew n => exact Ok_ok.2 (OInv.newNet I hv)
  | netFrom n ls =>
    obtain ⟨h1, h2, h3⟩ := hv
    have I1 := OInv.newNet I h1
    have := (I1.client (erase_all h2 (fun p hp => (h3 p hp).1)).symm).takeNet (fun p hp => (h3 p hp).2)
    exact Ok_ok.2 this
  | netCopy n m => exact absurd hv id
  | add n p =>
    obtain ⟨⟨ls, h1⟩, h2, h3⟩ := hv
    unfold OWorld.step; dsimp only
    rw [Inv.net I h1, bind_ok]
    refine Ok_ok.2 ?_
    have I1 := (I.permNets (List.perm_cons_erase h1).symm).client (c' := [p] ++ c.erase p) (List.perm_cons_erase h2).symm
    exact I1.takeNet (fun q hq => by rw [List.mem_singleton.1 hq]; exact h3)
  | feedforward n =>
    obtain ⟨ls, h1, h2, h3⟩ := hv
    unfold OWorld.step; dsimp only
    rw [Inv.net I h1, bind_ok]; dsimp only
    rw [Inv.ff I h1 h2 h3, bind_ok]
    exact Ok_ok.2 I
  | netDestroy n =>
    obtain ⟨ls, h1⟩ := hv
    unfold OWorld.step; dsimp only
    rw [Inv.net I h1, bind_ok]; dsimp only
    have I1 := (I.permNets (List.perm_cons_erase h1).symm).dropNet
    exact (Inv.delAll (w := { w with nets := w.nets.erase (n, ls) }) ls I1).mono (fun w' q => q.1)
  | trainNew t n =>
    obtain ⟨h1, ls, h2, h3⟩ := hv
    unfold OWorld.step; dsimp only
    rw [Inv.net I h2, bind_ok]; dsimp only
    have : ∃ o, w.lastLayer ls = .ok o := by
      unfold OWorld.lastLayer
      rw [List.getLast?_eq_getLast_of_ne_nil h3]
      have hl := I.netT _ h2 _ (List.getLast_mem h3)
      rcases hl with h | ⟨a, h⟩
      · exact ⟨_, Inv.deref I h⟩
      · exact ⟨_, Inv.deref I h⟩
    obtain ⟨o, ho⟩ := this
    rw [ho, bind_ok]
    exact Ok_ok.2 (OInv.newTrain I h1)
  | trainCopy t u => exact absurd hv id
  | setLoss t a =>
    have old : ∀ n x, (t, n, x) ∈ w.trains → Ok (w.delOpt x) (fun w' =>
        OInv w'.objs w'.next w'.deleted w'.nets ((t, n, none) :: w'.trains.erase (t, n, x)) c ∧
        ∀ b, (b, OObj.loss) ∈ w.objs → some b ≠ x → (b, OObj.loss) ∈ w'.objs) := by
      intro n x h
      have I0 := I.permTrains (List.perm_cons_erase h).symm
      cases x with
      | none => exact Ok_ok.2 ⟨I0, fun b hb _ => hb⟩
      | some x =>
        have hx : (x, OObj.loss) ∈ w.objs := I.lossT _ h x rfl
        have I1 := I0.releaseLoss
        have I2 := (I1.perm (List.perm_cons_erase hx).symm).erase rfl
        unfold OWorld.delOpt OWorld.delLeaf
        dsimp only
        rw [find_mem I.keys hx]
        refine Ok_ok.2 ⟨I2, fun b hb hne => ?_⟩
        exact (List.mem_erase_of_ne (fun h => hne (congrArg (fun e => some (Prod.fst e)) h))).2 hb
    cases a with
    | none =>
      obtain ⟨⟨t', n, x⟩, he, ht⟩ := hv
      dsimp only at ht; subst ht
      unfold OWorld.step; dsimp only
      rw [Inv.train I he, bind_ok]
      exact (old n x he).bind (fun w' q => Ok_ok.2 q.1)
    | some a =>
      obtain ⟨⟨⟨t', n, x⟩, he, ht⟩, hc, ha⟩ := hv
      dsimp only at ht; subst ht
      unfold OWorld.step; dsimp only
      rw [Inv.train I he, bind_ok]
      refine (old n x he).bind (fun w' q => Ok_ok.2 ?_)
      refine (q.1.client (List.perm_cons_erase hc).symm).captureLoss (q.2 a ha (fun e => ?_))
      have nd := I.ownNodup
      rw [List.nodup_append] at nd
      refine nd.2.2 a hc a ?_ rfl
      exact List.mem_append_right _ (List.mem_append_left _ (List.mem_filterMap.2 ⟨_, he, e.symm⟩))
  | evalLoss t =>
    obtain ⟨n, a, ls, h1, h2, h3, h4⟩ := hv
    unfold OWorld.step; dsimp only
    rw [Inv.train I h1, bind_ok]; dsimp only
    rw [Inv.net I h2, bind_ok]; dsimp only
    rw [Inv.ff I h2 h3 h4, bind_ok]
    unfold OWorld.derefLoss; dsimp only
    rw [Inv.deref I (I.lossT _ h1 a rfl), bind_ok]
    exact Ok_ok.2 I
  | trainDestroy t =>
    obtain ⟨⟨t', n, x⟩, he, ht⟩ := hv
    dsimp only at ht; subst ht
    unfold OWorld.step; dsimp only
    rw [Inv.train I he, bind_ok]; dsimp only
    have I0 := I.permTrains (List.perm_cons_erase he).symm
    cases x with
    | none => exact Ok_ok.2 I0.dropTrain
    | some x =>
      have hx : (x, OObj.loss) ∈ w.objs := I.lossT _ he x rfl
      have I1 := I0.releaseLoss.dropTrain
      exact (Inv.delLeaf (w := { w with trains := w.trains.erase (t', n, some x) }) I1 hx rfl).mono (fun w' q => q.1)
  | delete p =>
    have I1 : w.Inv (p :: c.erase p) := I.client (List.perm_cons_erase hv).symm
    exact (Inv.del I1).mono (fun w' q => q.1)

theorem OWorld.Inv.run (ops : List OOp) : ∀ {w : OWorld} {c : List Nat}, w.Inv c → OValidHist w c ops →
    Ok (w.run ops) (fun w' => w'.Inv (ownRun w c ops)) := by
  induction ops with
  | nil => intro w c I _; exact Ok_ok.2 I
  | cons op ops ih =>
    intro w c I ⟨h1, h2⟩
    obtain ⟨w', e, I'⟩ := Inv.step I op h1
    unfold OWorld.run ownRun
    rw [e, bind_ok]
    exact ih I' (h2 w' e)

theorem OWorld.Inv.init : OWorld.init.Inv [] := by
  refine ⟨?_, ?_, ?_, ?_, ?_, ?_, ?_⟩ <;> simp [OWorld.init]

end Trixy
