import Verif.Proof.Own
/-
C43: who deletes what. `Reached` states are those of programs that keep to the ownership discipline of Spec/Own.lean.
-/
namespace Trixy

theorem OWorld.Reached.inv {w : OWorld} {c : List Nat} (h : w.Reached c) : w.Inv c := by
  obtain ⟨ops, h1, h2, h3⟩ := h
  obtain ⟨w', e, I⟩ := OWorld.Inv.run ops OWorld.Inv.init h1
  rw [h2] at e; cases e
  rw [h3] at I; exact I

/-- C43: a program that hands over each object once never double-deletes, never uses a deleted object, and at every moment (every prefix
of such a program is such a program) each object ever created is either alive and owned by the client, a network, a training or a layer,
or has been deleted, exactly once. -/
theorem C43_ownership (ops : List OOp) (hv : OValidHist OWorld.init [] ops) :
    Ok (OWorld.init.run ops) (fun w => ∀ p,
      (w.Alive p ↔ w.Owned (ownRun OWorld.init [] ops) p) ∧
      (w.Alive p → w.deleted.count p = 0) ∧
      (p < w.next → ¬ w.Alive p → w.deleted.count p = 1) ∧
      (w.next ≤ p → ¬ w.Alive p ∧ w.deleted.count p = 0)) := by
  refine (OWorld.Inv.run ops OWorld.Inv.init hv).mono (fun w I p => ?_)
  have al : w.Alive p ↔ p ∈ w.objs.map Prod.fst :=
    ⟨fun ⟨o, h⟩ => List.mem_map.2 ⟨_, h, rfl⟩, fun h => by
      obtain ⟨⟨q, o⟩, h1, h2⟩ := List.mem_map.1 h
      exact ⟨o, by dsimp only at h2; rw [← h2]; exact h1⟩⟩
  have nd : (w.deleted ++ w.objs.map Prod.fst).Nodup := I.hist.nodup_iff.2 List.nodup_range
  have mem : p ∈ w.deleted ∨ w.Alive p ↔ p < w.next := by
    rw [al, ← List.mem_append, I.hist.mem_iff, List.mem_range]
  rw [List.nodup_append] at nd
  refine ⟨?_, fun h => ?_, fun h h' => ?_, fun h => ?_⟩
  · rw [al, ← I.own.mem_iff]
    unfold OWorld.Owned
    simp only [List.mem_append, List.mem_flatMap, List.mem_filterMap]
  · exact List.count_eq_zero.2 (fun hd => nd.2.2 p hd p (al.1 h) rfl)
  · exact List.count_eq_one_of_mem nd.1 ((mem.2 h).resolve_right h')
  · have h0 : ¬ (p ∈ w.deleted ∨ w.Alive p) := fun h1 => absurd (mem.1 h1) (Nat.not_lt.2 h)
    exact ⟨fun h1 => h0 (Or.inr h1), List.count_eq_zero.2 (fun h1 => h0 (Or.inl h1))⟩

/-- C43: nothing leaks. When all networks and trainings have been destroyed and the client has handed over or deleted everything else,
every object ever created has been deleted exactly once. -/
theorem C43_all_released {w : OWorld} {c : List Nat} (h : w.Reached c) (hn : w.nets = []) (ht : w.trains = []) (hc : c = []) :
    w.objs = [] ∧ ∀ p, p < w.next → w.deleted.count p = 1 := by
  have I := h.inv
  have ho : w.objs = [] := by
    -- the owning pointers are only those of layers, to activations, which own nothing
    have own := I.own
    rw [hn, ht, hc] at own
    simp only [List.flatMap_nil, List.filterMap_nil, List.nil_append] at own
    have hact : ∀ e ∈ w.objs, e.2 = OObj.act := by
      intro e he
      have h1 : e.1 ∈ w.objs.filterMap (fun e => e.2.owns) := own.mem_iff.2 (List.mem_map.2 ⟨e, he, rfl⟩)
      obtain ⟨e', h2, h3⟩ := List.mem_filterMap.1 h1
      have h4 := I.actT e' h2 e.1 h3
      exact I.unique (p := e.1) (o := e.2) he h4
    cases hobj : w.objs with
    | nil => rfl
    | cons e es =>
      exfalso
      have h1 : e.1 ∈ w.objs.filterMap (fun e => e.2.owns) :=
        own.mem_iff.2 (List.mem_map.2 ⟨e, by rw [hobj]; exact List.mem_cons_self .., rfl⟩)
      obtain ⟨e', h2, h3⟩ := List.mem_filterMap.1 h1
      rw [hact e' h2] at h3; cases h3
  refine ⟨ho, fun p hp => ?_⟩
  have hh := I.hist
  rw [ho, List.map_nil, List.append_nil] at hh
  exact List.count_eq_one_of_mem (hh.nodup_iff.2 List.nodup_range) (hh.mem_iff.2 (List.mem_range.2 hp))

/-! What the destructors and setters delete. -/

theorem OWorld.Inv.delExact {w : OWorld} {c : List Nat} {p : Nat} (I : w.Inv (p :: c)) {o : OObj} (h : (p, o) ∈ w.objs) :
    Ok (w.del p) (fun w' => w'.Inv c ∧ w'.deleted = w.deleted ++ (o.owns.toList ++ [p]) ∧
      ∀ q b, q ≠ p → ((q, OObj.layer b) ∈ w'.objs ↔ (q, OObj.layer b) ∈ w.objs)) := by
  have base := Inv.del I
  have hf := find_mem I.keys h
  obtain ⟨w', e, I', _⟩ := base
  refine ⟨w', e, I', ?_⟩
  have leaf : o.owns = none → w.del p = w.delLeaf p → w'.deleted = w.deleted ++ (o.owns.toList ++ [p]) ∧
      ∀ q b, q ≠ p → ((q, OObj.layer b) ∈ w'.objs ↔ (q, OObj.layer b) ∈ w.objs) := fun ho e2 => by
    rw [e2] at e
    unfold OWorld.delLeaf at e
    rw [hf] at e
    cases e
    refine ⟨by rw [ho]; rfl, fun q b hq => ?_⟩
    exact List.mem_erase_of_ne (fun h => hq (congrArg Prod.fst h))
  cases o with
  | act => exact leaf rfl (by unfold OWorld.del; rw [hf])
  | loss => exact leaf rfl (by unfold OWorld.del; rw [hf])
  | conv => exact leaf rfl (by unfold OWorld.del; rw [hf])
  | layer a =>
    cases a with
    | none => exact leaf rfl (by unfold OWorld.del; rw [hf]; rfl)
    | some a =>
      have ha : (a, OObj.act) ∈ w.objs := I.actT _ h a rfl
      unfold OWorld.del at e
      rw [hf] at e
      dsimp only at e
      unfold OWorld.delOpt OWorld.delLeaf at e
      dsimp only at e
      rw [find_mem I.keys ha] at e
      dsimp only at e
      rw [bind_ok] at e
      dsimp only at e
      have hk : ((w.objs.erase (a, OObj.act)).map Prod.fst).Nodup := I.keys.sublist ((List.erase_sublist).map _)
      have hp' : (p, OObj.layer (some a)) ∈ w.objs.erase (a, .act) := (List.mem_erase_of_ne (by intro h; cases h)).2 h
      rw [find_mem hk hp'] at e
      cases e
      refine ⟨List.append_assoc .., fun q b hq => ?_⟩
      exact (List.mem_erase_of_ne (fun h => hq (congrArg Prod.fst h))).trans (List.mem_erase_of_ne (by intro h; cases h))

theorem OWorld.Inv.delAllExact {c : List Nat} (ps : List Nat) : ∀ {w : OWorld}, w.Inv (ps ++ c) →
    Ok (w.delAll ps) (fun w' => w'.Inv c ∧ ∃ new, w'.deleted = w.deleted ++ new ∧
      ∀ q, q ∈ new ↔ q ∈ ps ∨ ∃ p ∈ ps, (p, OObj.layer (some q)) ∈ w.objs) := by
  induction ps with
  | nil => intro w I; exact Ok_ok.2 ⟨I, [], (List.append_nil _).symm, by simp⟩
  | cons p ps ih =>
    intro w I
    obtain ⟨o, h⟩ := I.live (p := p) (List.mem_cons_self ..)
    unfold OWorld.delAll
    have nd := (List.nodup_cons.1 I.ownNodup).1
    have hps : ∀ q ∈ ps, q ≠ p := fun q hq he => nd (he ▸ List.mem_append_left _ (List.mem_append_left _ hq))
    refine (Inv.delExact I h).bind (fun w1 ⟨I1, hd1, ho1⟩ => ?_)
    refine (ih I1).mono (fun w2 ⟨I2, new, hd2, hn⟩ => ⟨I2, o.owns.toList ++ [p] ++ new, ?_, fun q => ?_⟩)
    · rw [hd2, hd1, List.append_assoc]
    · have hex : (∃ r ∈ ps, (r, OObj.layer (some q)) ∈ w1.objs) ↔ ∃ r ∈ ps, (r, OObj.layer (some q)) ∈ w.objs :=
        ⟨fun ⟨r, h1, h2⟩ => ⟨r, h1, (ho1 r _ (hps r h1)).1 h2⟩, fun ⟨r, h1, h2⟩ => ⟨r, h1, (ho1 r _ (hps r h1)).2 h2⟩⟩
      have ho : q ∈ o.owns.toList ↔ (p, OObj.layer (some q)) ∈ w.objs := by
        rw [Option.mem_toList]
        constructor
        · intro hq
          have : o = .layer (some q) := by cases o <;> simp [OObj.owns] at hq; rw [hq]
          rw [← this]; exact h
        · intro hq
          rw [I.unique h hq]; rfl
      rw [List.mem_append, List.mem_append, hn, hex, ho, List.mem_singleton, List.mem_cons]
      constructor
      · rintro ((h1 | h1) | h1 | ⟨r, h1, h2⟩)
        · exact Or.inr ⟨p, List.mem_cons_self .., h1⟩
        · exact Or.inl (Or.inl h1)
        · exact Or.inl (Or.inr h1)
        · exact Or.inr ⟨r, List.mem_cons_of_mem _ h1, h2⟩
      · rintro ((h1 | h1) | ⟨r, h1, h2⟩)
        · exact Or.inl (Or.inr h1)
        · exact Or.inr (Or.inl h1)
        · rcases List.mem_cons.1 h1 with h3 | h3
          · subst h3; exact Or.inl (Or.inl h2)
          · exact Or.inr (Or.inr ⟨r, h3, h2⟩)

/-- C43: destroying a network deletes its layers and their activations, and nothing else. -/
theorem C43_destroy {w : OWorld} {c : List Nat} (h : w.Reached c) {n : Nat} {ls : List Nat} (hn : (n, ls) ∈ w.nets) :
    Ok (w.step (.netDestroy n)) (fun w' => ∃ new, w'.deleted = w.deleted ++ new ∧
      ∀ q, q ∈ new ↔ q ∈ ls ∨ ∃ p ∈ ls, (p, OObj.layer (some q)) ∈ w.objs) := by
  have I := h.inv
  unfold OWorld.step; dsimp only
  rw [OWorld.Inv.net I hn, bind_ok]; dsimp only
  have I1 := (I.permNets (List.perm_cons_erase hn).symm).dropNet
  exact (OWorld.Inv.delAllExact (w := { w with nets := w.nets.erase (n, ls) }) ls I1).mono (fun w' q => q.2)

/-- C43: `connect` deletes the activation it replaces, and nothing else. -/
theorem C43_connect {w : OWorld} {c : List Nat} (h : w.Reached c) {l a b : Nat} (hl : (l, OObj.layer (some a)) ∈ w.objs)
    (hb : b ∈ c) (hb' : (b, OObj.act) ∈ w.objs) :
    Ok (w.step (.connect l (some b))) (fun w' => w'.deleted = w.deleted ++ [a] ∧ (l, OObj.layer (some b)) ∈ w'.objs) := by
  have I := h.inv
  have ha : (a, OObj.act) ∈ w.objs := I.actT _ hl a rfl
  unfold OWorld.step OWorld.connect; dsimp only
  rw [OWorld.Inv.deref I hl, bind_ok]; dsimp only
  unfold OWorld.delOpt OWorld.delLeaf; dsimp only
  rw [find_mem I.keys ha]
  exact Ok_ok.2 ⟨rfl, List.mem_cons_self ..⟩

/-- C43: `loss(…)` of a training deletes the loss it replaces, and nothing else. -/
theorem C43_setLoss {w : OWorld} {c : List Nat} (h : w.Reached c) {t n a b : Nat} (hl : (t, n, some a) ∈ w.trains) :
    Ok (w.step (.setLoss t (some b))) (fun w' => w'.deleted = w.deleted ++ [a] ∧ (t, n, some b) ∈ w'.trains) := by
  have I := h.inv
  have ha : (a, OObj.loss) ∈ w.objs := I.lossT _ hl a rfl
  unfold OWorld.step; dsimp only
  rw [OWorld.Inv.train I hl, bind_ok]; dsimp only
  unfold OWorld.delOpt OWorld.delLeaf; dsimp only
  rw [find_mem I.keys ha]
  exact Ok_ok.2 ⟨rfl, List.mem_cons_self ..⟩

/-! What breaks the discipline. -/

/-- Deleting an object that is not alive. -/
theorem OWorld.del_dead {w : OWorld} {p : Nat} (h : ¬ w.Alive p) : w.del p = .error .badFree := by
  unfold OWorld.del
  have : w.objs.find? (fun e => e.1 = p) = none := by
    refine List.find?_eq_none.2 (fun e he => ?_)
    simp only [decide_eq_true_eq]
    exact fun hp => h ⟨e.2, by rw [← hp]; exact he⟩
  rw [this]

theorem OWorld.delLeaf_dead {w : OWorld} {p : Nat} (h : ¬ w.Alive p) : w.delLeaf p = .error .badFree := by
  unfold OWorld.delLeaf
  have : w.objs.find? (fun e => e.1 = p) = none := by
    refine List.find?_eq_none.2 (fun e he => ?_)
    simp only [decide_eq_true_eq]
    exact fun hp => h ⟨e.2, by rw [← hp]; exact he⟩
  rw [this]

theorem OWorld.Inv.dead {w : OWorld} {c : List Nat} (I : w.Inv c) {p : Nat} (h : p ∈ w.deleted) : ¬ w.Alive p := by
  rintro ⟨o, ho⟩
  have nd : (w.deleted ++ w.objs.map Prod.fst).Nodup := I.hist.nodup_iff.2 List.nodup_range
  rw [List.nodup_append] at nd
  exact nd.2.2 p h p (List.mem_map.2 ⟨_, ho, rfl⟩) rfl

/-- C43: a layer added a second time (to any network that still exists) makes a later destruction a double delete: here the network
that already owns the layer as its first and gets it once more. -/
theorem C43_double_add_violated {w : OWorld} {c : List Nat} (h : w.Reached c) {n p : Nat} {ls : List Nat} (hn : (n, ls) ∈ w.nets) (hp : p ∈ ls) :
    w.run [.add n p, .netDestroy n] = .error .badFree := by
  have I := h.inv
  unfold OWorld.run OWorld.step; dsimp only
  rw [OWorld.Inv.net I hn, bind_ok]
  dsimp only
  rw [pure_eq_ok, bind_ok]
  unfold OWorld.run OWorld.step; dsimp only
  have hnet : OWorld.net { w with nets := (n, ls ++ [p]) :: w.nets.erase (n, ls) } n = .ok (n, ls ++ [p]) := by
    unfold OWorld.net
    dsimp only
    rw [List.find?_cons_of_pos (by simp)]
  rw [hnet, bind_ok]
  dsimp only
  rw [List.erase_cons_head]
  have I1 := (I.permNets (List.perm_cons_erase hn).symm).dropNet
  have app : ∀ (as bs : List Nat) (v : OWorld), v.delAll (as ++ bs) = v.delAll as >>= fun v' => v'.delAll bs := by
    intro as bs
    induction as with
    | nil => intro v; rfl
    | cons a as ih =>
      intro v
      show (v.del a >>= fun v' => v'.delAll (as ++ bs)) = (v.del a >>= fun v' => v'.delAll as) >>= fun v' => v'.delAll bs
      cases v.del a with
      | error e => rfl
      | ok v' => exact ih v'
  rw [app]
  obtain ⟨w', e, I', new, hd, hnew⟩ := OWorld.Inv.delAllExact (w := { w with nets := w.nets.erase (n, ls) }) ls I1
  rw [e, bind_ok]
  have hdead : ¬ w'.Alive p := OWorld.Inv.dead I' (by rw [hd]; exact List.mem_append_right _ ((hnew p).2 (Or.inl hp)))
  show ((w'.del p >>= fun v => v.delAll []) >>= fun v => v.run []) = _
  rw [OWorld.del_dead hdead]; rfl

/-- C43: the implicitly declared copy constructor of a network copies the pointers: destroying both is a double delete. -/
theorem C43_copy_violated {w : OWorld} {c : List Nat} (h : w.Reached c) {n m : Nat} {ls : List Nat} (hn : (n, ls) ∈ w.nets) (hne : ls ≠ [])
    (hm : ∀ e ∈ w.nets, e.1 ≠ m) :
    w.run [.netCopy m n, .netDestroy m, .netDestroy n] = .error .badFree := by
  have I := h.inv
  unfold OWorld.run OWorld.step; dsimp only
  rw [OWorld.Inv.net I hn, bind_ok]
  dsimp only
  rw [pure_eq_ok, bind_ok]
  unfold OWorld.run OWorld.step; dsimp only
  have hnet : OWorld.net { w with nets := (m, ls) :: w.nets } m = .ok (m, ls) := by
    unfold OWorld.net
    dsimp only
    rw [List.find?_cons_of_pos (by simp)]
  rw [hnet, bind_ok]
  dsimp only
  rw [List.erase_cons_head]
  -- deleting does not look at the table of names
  have swap : ∀ (ps : List Nat) (v : OWorld) (N : List (Nat × List Nat)),
      OWorld.delAll { v with nets := N } ps = v.delAll ps >>= fun v' => .ok { v' with nets := N } := by
    intro ps
    have leaf : ∀ (q : Nat) (v : OWorld) (N : List (Nat × List Nat)),
        OWorld.delLeaf { v with nets := N } q = v.delLeaf q >>= fun v' => .ok { v' with nets := N } := by
      intro q v N
      unfold OWorld.delLeaf
      dsimp only
      cases v.objs.find? (fun e => e.1 = q) with
      | none => rfl
      | some e => rfl
    have one : ∀ (q : Nat) (v : OWorld) (N : List (Nat × List Nat)),
        OWorld.del { v with nets := N } q = v.del q >>= fun v' => .ok { v' with nets := N } := by
      intro q v N
      unfold OWorld.del
      dsimp only
      cases v.objs.find? (fun e => e.1 = q) with
      | none => rfl
      | some e =>
        obtain ⟨q', o⟩ := e
        cases o with
        | act => exact leaf q v N
        | loss => exact leaf q v N
        | conv => exact leaf q v N
        | layer a =>
          cases a with
          | none => exact leaf q v N
          | some a =>
            show (OWorld.delLeaf { v with nets := N } a >>= fun v' => v'.delLeaf q)
              = (v.delLeaf a >>= fun v' => v'.delLeaf q) >>= fun v' => .ok { v' with nets := N }
            rw [leaf a v N]
            cases v.delLeaf a with
            | error e => rfl
            | ok v' => exact leaf q v' N
    induction ps with
    | nil => intro v N; rfl
    | cons q qs ih =>
      intro v N
      show (OWorld.del { v with nets := N } q >>= fun v' => v'.delAll qs)
        = (v.del q >>= fun v' => v'.delAll qs) >>= fun v' => .ok { v' with nets := N }
      rw [one q v N]
      cases v.del q with
      | error e => rfl
      | ok v' => exact ih v' N
  have I1 := (I.permNets (List.perm_cons_erase hn).symm).dropNet
  obtain ⟨w', e, I', new, hd, hnew⟩ := OWorld.Inv.delAllExact (w := { w with nets := w.nets.erase (n, ls) }) ls I1
  have e2 : w.delAll ls = .ok { w' with nets := w.nets } := by
    have := swap ls { w with nets := w.nets.erase (n, ls) } w.nets
    rw [e] at this
    exact this
  rw [e2, bind_ok]
  unfold OWorld.run OWorld.step; dsimp only
  have hnet2 : OWorld.net { w' with nets := w.nets } n = .ok (n, ls) := by
    unfold OWorld.net
    dsimp only
    rw [find_mem I.netN hn]
  rw [hnet2, bind_ok]
  dsimp only
  cases ls with
  | nil => exact absurd rfl hne
  | cons p ps =>
    have hdead : ¬ w'.Alive p := OWorld.Inv.dead I' (by rw [hd]; exact List.mem_append_right _ ((hnew p).2 (Or.inl (List.mem_cons_self ..))))
    unfold OWorld.delAll
    have := OWorld.del_dead (w := { w' with nets := w.nets.erase (n, p :: ps) }) hdead
    rw [this]; rfl

/-- C43: copying a training copies the pointer to its loss: destroying both is a double delete. -/
theorem C43_train_copy_violated {w : OWorld} {c : List Nat} (h : w.Reached c) {t u n a : Nat} (ht : (t, n, some a) ∈ w.trains) (hu : u ≠ t) :
    w.run [.trainCopy u t, .trainDestroy u, .trainDestroy t] = .error .badFree := by
  have I := h.inv
  have ha : (a, OObj.loss) ∈ w.objs := I.lossT _ ht a rfl
  unfold OWorld.run OWorld.step; dsimp only
  rw [OWorld.Inv.train I ht, bind_ok]
  dsimp only
  rw [pure_eq_ok, bind_ok]
  unfold OWorld.run OWorld.step; dsimp only
  have h1 : OWorld.train { w with trains := (u, n, some a) :: w.trains } u = .ok (u, n, some a) := by
    unfold OWorld.train
    dsimp only
    rw [List.find?_cons_of_pos (by simp)]
  rw [h1, bind_ok]
  dsimp only
  rw [List.erase_cons_head]
  unfold OWorld.delOpt OWorld.delLeaf; dsimp only
  rw [find_mem I.keys ha, bind_ok]
  unfold OWorld.run OWorld.step; dsimp only
  have h2 : ∀ o d, OWorld.train ⟨o, w.next, d, w.nets, w.trains⟩ t = .ok (t, n, some a) := by
    intro o d
    unfold OWorld.train
    dsimp only
    rw [find_mem I.trainN ht]
  rw [h2, bind_ok]
  dsimp only
  unfold OWorld.delOpt; dsimp only
  rw [OWorld.delLeaf_dead]
  · rfl
  · rintro ⟨o, ho⟩
    dsimp only at ho
    have := I.unique (List.mem_of_mem_erase ho) ha
    rw [this] at ho
    have hnd : w.objs.Nodup := I.keys.of_map
    exact absurd ho (List.Nodup.not_mem_erase hnd)

/-- C43: connecting a layer to the activation it already has deletes it and keeps the pointer: destroying the layer is a double delete. -/
theorem C43_reconnect_violated {w : OWorld} {c : List Nat} (h : w.Reached c) {l a : Nat} (hl : (l, OObj.layer (some a)) ∈ w.objs) :
    w.run [.connect l (some a), .delete l] = .error .badFree := by
  have I := h.inv
  have ha : (a, OObj.act) ∈ w.objs := I.actT _ hl a rfl
  unfold OWorld.run OWorld.step OWorld.connect; dsimp only
  rw [OWorld.Inv.deref I hl, bind_ok]; dsimp only
  unfold OWorld.delOpt OWorld.delLeaf; dsimp only
  rw [find_mem I.keys ha, bind_ok]
  dsimp only
  rw [pure_eq_ok, bind_ok]
  unfold OWorld.run OWorld.step OWorld.del; dsimp only
  rw [List.find?_cons_of_pos (by simp)]
  dsimp only
  unfold OWorld.delOpt; dsimp only
  rw [OWorld.delLeaf_dead]
  · rfl
  · rintro ⟨o, ho⟩
    dsimp only at ho
    have hnd : w.objs.Nodup := I.keys.of_map
    rcases List.mem_cons.1 ho with h1 | h1
    · have e1 : a = l := congrArg Prod.fst h1
      rw [e1] at ha
      cases I.unique ha hl
    · have h2 := List.mem_of_mem_erase h1
      have := I.unique (List.mem_of_mem_erase h2) ha
      rw [this] at h2
      exact absurd h2 (List.Nodup.not_mem_erase hnd)

/-- C43: `connect` of a convolutional layer does not take the activation: nobody deletes what was handed over, unless the client does. -/
theorem C43_conv_connect_violated {w : OWorld} {c : List Nat} (h : w.Reached c) {l a : Nat} (hl : (l, OObj.conv) ∈ w.objs) :
    w.step (.connect l (some a)) = .ok w := by
  have I := h.inv
  unfold OWorld.step OWorld.connect; dsimp only
  rw [OWorld.Inv.deref I hl, bind_ok]

theorem OWorld.Inv.touch_none {w : OWorld} {c : List Nat} (I : w.Inv c) (ls : List Nat) (hl : ∀ p ∈ ls, w.IsLayer p) {p : Nat} (hp : p ∈ ls)
    (hn : (p, OObj.layer none) ∈ w.objs) : w.touch ls = .error .nullDeref := by
  induction ls with
  | nil => exact absurd hp (by simp)
  | cons q qs ih =>
    unfold OWorld.touch
    by_cases e : p = q
    · subst e
      rw [OWorld.Inv.deref I hn, bind_ok]
    · have ih := ih (fun r hr => hl r (List.mem_cons_of_mem _ hr)) ((List.mem_cons.1 hp).resolve_left e)
      rcases hl q (List.mem_cons_self ..) with h | ⟨a, h⟩
      · rw [OWorld.Inv.deref I h, bind_ok]; exact ih
      · rw [OWorld.Inv.deref I h, bind_ok]
        cases a with
        | none => rfl
        | some a =>
          dsimp only
          rw [OWorld.Inv.deref I (I.actT _ h a rfl), bind_ok]; exact ih

/-- C43: a layer whose activation was never connected (or was taken away by `connect(nullptr)`) cannot be used: `feedforward` of any network that contains
it dereferences the null pointer. -/
theorem C43_no_activation_violated {w : OWorld} {c : List Nat} (h : w.Reached c) {n p : Nat} {ls : List Nat} (hn : (n, ls) ∈ w.nets) (hp : p ∈ ls)
    (hl : (p, OObj.layer none) ∈ w.objs) : w.step (.feedforward n) = .error .nullDeref := by
  have I := h.inv
  unfold OWorld.step; dsimp only
  rw [OWorld.Inv.net I hn, bind_ok]; dsimp only
  unfold OWorld.ff
  rw [if_neg (fun e => by rw [e] at hp; cases hp), OWorld.Inv.touch_none I ls (fun q hq => I.netT _ hn q hq) hp hl]
  rfl

/-- C43: a training refers to its network: evaluating the loss after the network is destroyed is a use after free. -/
theorem C43_training_outlives_network_violated {w : OWorld} {c : List Nat} (h : w.Reached c) {t n a : Nat} {ls : List Nat}
    (ht : (t, n, some a) ∈ w.trains) (hn : (n, ls) ∈ w.nets) :
    w.run [.netDestroy n, .evalLoss t] = .error .useAfterFree := by
  have I := h.inv
  unfold OWorld.run OWorld.step; dsimp only
  rw [OWorld.Inv.net I hn, bind_ok]; dsimp only
  have I1 := (I.permNets (List.perm_cons_erase hn).symm).dropNet
  obtain ⟨w', e, I', hsame⟩ := OWorld.Inv.delAll (w := { w with nets := w.nets.erase (n, ls) }) ls I1
  rw [e, bind_ok]
  unfold OWorld.run OWorld.step; dsimp only
  have ht' : (t, n, some a) ∈ w'.trains := by rw [hsame.2.1]; exact ht
  rw [OWorld.Inv.train I' ht', bind_ok]
  dsimp only
  have : w'.net n = .error .useAfterFree := by
    unfold OWorld.net
    rw [hsame.1]
    dsimp only
    have : (w.nets.erase (n, ls)).find? (fun e => e.1 = n) = none := by
      refine List.find?_eq_none.2 (fun e he => ?_)
      simp only [decide_eq_true_eq]
      intro he1
      have hx := List.inj_on_of_nodup_map I.netN (List.mem_of_mem_erase he) hn he1
      rw [hx] at he
      exact absurd he (List.Nodup.not_mem_erase I.netN.of_map)
    rw [this]
  rw [this]; rfl

/-! Non-vacuity: a program that uses every kind of step, and is allowed. -/

theorem OValidHist.next {w w' : OWorld} {c c' : List Nat} {op : OOp} {ops : List OOp} (hv : OValid w c op) (hs : w.step op = .ok w')
    (hc : ownNext w c op = c') (h : OValidHist w' c' ops) : OValidHist w c (op :: ops) :=
  ⟨hv, fun w'' e => by rw [hs] at e; cases e; rw [hc]; exact h⟩

/-- Two activations, a dense and a convolutional layer, a network of both, an exchanged activation, a training with an exchanged loss; all
destroyed in the end. -/
def ownProgram : List OOp :=
  [.newAct, .newLayer (some 0), .newConv, .netNew 7, .add 7 1, .add 7 2, .feedforward 7, .newAct, .connect 1 (some 3), .newLoss,
   .trainNew 9 7, .setLoss 9 (some 4), .evalLoss 9, .newLoss, .setLoss 9 (some 5), .trainDestroy 9, .netDestroy 7]

theorem ownProgram_valid : OValidHist OWorld.init [] ownProgram := by
  unfold ownProgram
  refine .next trivial rfl rfl ?_
  refine .next ⟨by decide, by decide⟩ rfl rfl ?_
  refine .next trivial rfl rfl ?_
  refine .next (by unfold OValid; decide) rfl rfl ?_
  refine .next ⟨⟨[], by decide⟩, by decide, Or.inr ⟨some 0, by decide⟩⟩ rfl rfl ?_
  refine .next ⟨⟨[1], by decide⟩, by decide, Or.inl (by decide)⟩ rfl rfl ?_
  refine .next ⟨[1, 2], by decide, by decide, by decide⟩ rfl rfl ?_
  refine .next trivial rfl rfl ?_
  refine .next ⟨Or.inr ⟨some 0, by decide⟩, by decide, by decide⟩ rfl rfl ?_
  refine .next trivial rfl rfl ?_
  refine .next ⟨by decide, [1, 2], by decide, by decide⟩ rfl rfl ?_
  refine .next ⟨⟨(9, 7, none), by decide, rfl⟩, by decide, by decide⟩ rfl rfl ?_
  refine .next ⟨7, 4, [1, 2], by decide, by decide, by decide, by decide⟩ rfl rfl ?_
  refine .next trivial rfl rfl ?_
  refine .next ⟨⟨(9, 7, some 4), by decide, rfl⟩, by decide, by decide⟩ rfl rfl ?_
  refine .next ⟨(9, 7, some 5), by decide, rfl⟩ rfl rfl ?_
  refine .next ⟨[1, 2], by decide⟩ rfl rfl ?_
  trivial

example : ∃ w : OWorld, w.Reached [] ∧ w.nets = [] ∧ w.trains = [] ∧ w.next = 6 ∧ w.deleted = [0, 4, 5, 3, 1, 2] :=
  ⟨_, ⟨ownProgram, ownProgram_valid, rfl, rfl⟩, rfl, rfl, rfl, rfl⟩

/-- A reached state with a network, a training and a loss, to which the theorems above apply. -/
example : ∃ w c, OWorld.Reached w c ∧ (7, [1, 2]) ∈ w.nets ∧ (9, 7, some 4) ∈ w.trains ∧ (1, OObj.layer (some 3)) ∈ w.objs ∧
    (2, OObj.conv) ∈ w.objs := by
  refine ⟨_, _, ⟨ownProgram.take 12, ?_, rfl, rfl⟩, by decide, by decide, by decide, by decide⟩
  unfold ownProgram
  refine .next trivial rfl rfl ?_
  refine .next ⟨by decide, by decide⟩ rfl rfl ?_
  refine .next trivial rfl rfl ?_
  refine .next (by unfold OValid; decide) rfl rfl ?_
  refine .next ⟨⟨[], by decide⟩, by decide, Or.inr ⟨some 0, by decide⟩⟩ rfl rfl ?_
  refine .next ⟨⟨[1], by decide⟩, by decide, Or.inl (by decide)⟩ rfl rfl ?_
  refine .next ⟨[1, 2], by decide, by decide, by decide⟩ rfl rfl ?_
  refine .next trivial rfl rfl ?_
  refine .next ⟨Or.inr ⟨some 0, by decide⟩, by decide, by decide⟩ rfl rfl ?_
  refine .next trivial rfl rfl ?_
  refine .next ⟨by decide, [1, 2], by decide, by decide⟩ rfl rfl ?_
  refine .next ⟨⟨(9, 7, none), by decide, rfl⟩, by decide, by decide⟩ rfl rfl ?_
  trivial

/-- A network whose only layer has no activation. -/
example : ∃ w c, OWorld.Reached w c ∧ (7, [0]) ∈ w.nets ∧ (0, OObj.layer none) ∈ w.objs := by
  refine ⟨_, _, ⟨[.newLayer none, .netNew 7, .add 7 0], ?_, rfl, rfl⟩, by decide, by decide⟩
  refine .next trivial rfl rfl ?_
  refine .next (by unfold OValid; decide) rfl rfl ?_
  refine .next ⟨⟨[], by decide⟩, by decide, Or.inr ⟨none, by decide⟩⟩ rfl rfl ?_
  trivial

end Trixy
