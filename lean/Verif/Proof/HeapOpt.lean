import Verif.Spec.HeapOpt
import Verif.Proof.HeapProg
/- Updates with state tables in memory follow the updates with tables of values. -/
namespace Trixy
set_option linter.unusedSectionVars false

variable {α γ ρ σ τ : Type}

/-! ### Changes below a number -/

theorem Heap.OnlyBelow.refl (N : Nat) (H : Heap α) (ws : List Obj) : H.OnlyBelow N H ws := ⟨Nat.le_refl _, fun _ _ => Iff.rfl, fun _ _ _ _ => rfl⟩

theorem Heap.OnlyBelow.trans {N : Nat} {H0 H1 H2 : Heap α} {ws : List Obj} (h1 : H0.OnlyBelow N H1 ws) (h2 : H1.OnlyBelow N H2 ws) :
    H0.OnlyBelow N H2 ws :=
  ⟨h1.1.trans h2.1, fun b hb => (h2.2.1 b hb).trans (h1.2.1 b hb), fun b o hb h => (h2.2.2 b o hb h).trans (h1.2.2 b o hb h)⟩

theorem Heap.OnlyBelow.mono {N : Nat} {H H' : Heap α} {ws ws' : List Obj} (h : H.OnlyBelow N H' ws) (hs : ∀ w ∈ ws, w ∈ ws') :
    H.OnlyBelow N H' ws' := ⟨h.1, h.2.1, fun b o hb hn => h.2.2 b o hb (fun w hw => hn w (hs w hw))⟩

theorem Heap.Only.below {H H' : Heap α} {ws : List Obj} (h : H.Only H' ws) (N : Nat) : H.OnlyBelow N H' ws :=
  ⟨Nat.le_of_eq h.1.symm, fun b _ => h.2.1 b, fun b o _ hn => h.2.2 b o hn⟩

/-- Writing to an object that is not below does not count. -/
theorem Heap.Sets.above {N : Nat} {H H' : Heap α} {r : Obj} {b : Buf α} (h : H.Sets H' r b) {c : Nat} (hr : r.data = .at c 0) (hc : N ≤ c) (ws : List Obj) :
    H.OnlyBelow N H' ws := by
  refine ⟨Nat.le_of_eq h.2.1.symm, fun b _ => h.2.2.1 b, fun b o hb _ => h.2.2.2 b o (fun w hw pb po e => ?_)⟩
  rw [List.mem_singleton.1 hw, hr] at e
  cases e
  omega

theorem Heap.Keeps.below {N : Nat} {H H' : Heap α} {q : Obj} {b : Buf α} {ws : List Obj} (h : H.Keeps q b) (hq : q.Below N) (ho : H.OnlyBelow N H' ws)
    (ha : ∀ w ∈ ws, Obj.Apart w q) : H'.Keeps q b := by
  obtain ⟨hl, hs⟩ := h
  refine ⟨hl, ?_⟩
  rcases hs with h0 | ⟨qb, qo, hqd, hc⟩
  · exact Or.inl h0
  · refine Or.inr ⟨qb, qo, hqd, fun i hi => ?_⟩
    obtain ⟨c, j, e, hcN⟩ := hq
    rw [hqd] at e
    cases e
    rw [ho.2.2 qb (qo + i) hcN, hc i hi]
    rintro w hw pb po hp ⟨e1, e2, e3⟩
    exact ha w hw pb po qb qo (qo + i - po) i hp hqd (by omega) (by omega) ⟨e1.symm, by omega⟩

/-! ### Elementary operations with two sources -/

section Elem
variable {H : Heap α}

theorem join2_sim [Mul α] {r x : Obj} {br bx b : Buf α} {v : α} (hr : H.Keeps r br) (hx : H.Keeps x bx) (ha : Obj.Apart r x)
    (e : scaleTo br v bx = .ok b) : Ok (r.join2 H v x) (fun H' => H.Sets H' r b) := by
  unfold Obj.join2 assignValPtr
  unfold scaleTo at e
  rw [hr.1]
  refine Ok.mono (P := fun H' => One r.data br.length H H' b) ?_ (fun H' h => One.sets hr.1 h)
  refine forN_sim (One r.data br.length H) (One.start hr.2 rfl) (fun i _ s t t' hR he => ?_) e
  obtain ⟨y, ey, he⟩ := res_inv he
  have ha' : Trixy.Apart r.data br.length x.data bx.length := by rw [← hr.1, ← hx.1]; exact ha
  rw [hR.other hx.2 ha' ey, bind_ok]
  exact hR.store he

theorem mul2_sim [Mul α] {r x y : Obj} {br bx bY b : Buf α} (hr : H.Keeps r br) (hx : H.Keeps x bx) (hy : H.Keeps y bY) (ha : Obj.Apart r x)
    (hay : Obj.Apart r y) (e : zip2Into (· * ·) br bx bY = .ok b) : Ok (r.mul2 H x y) (fun H' => H.Sets H' r b) := by
  unfold Obj.mul2 assignPtrPtr
  unfold zip2Into at e
  rw [hr.1]
  refine Ok.mono (P := fun H' => One r.data br.length H H' b) ?_ (fun H' h => One.sets hr.1 h)
  refine forN_sim (One r.data br.length H) (One.start hr.2 rfl) (fun i _ s t t' hR he => ?_) e
  obtain ⟨u, eu, he⟩ := res_inv he
  obtain ⟨w, ew, he⟩ := res_inv he
  have ha' : Trixy.Apart r.data br.length x.data bx.length := by rw [← hr.1, ← hx.1]; exact ha
  have hb' : Trixy.Apart r.data br.length y.data bY.length := by rw [← hr.1, ← hy.1]; exact hay
  rw [hR.other hx.2 ha' eu, bind_ok, hR.other hy.2 hb' ew, bind_ok]
  exact hR.store he

theorem apply_sim {g : α → α} {r : Obj} {br b : Buf α} (hr : H.Keeps r br) (e : mapSelf g br = .ok b) :
    Ok (r.apply H g) (fun H' => H.Sets H' r b) := applySelf_sim hr e

end Elem

/-! ### Tables -/

/-- The table `k` has the entry `b` at `key`. -/
def setTab (T : Nat → Table α) (k key : Nat) (b : Buf α) : Nat → Table α := fun k' => if k' = k then (T k').put key b else T k'

theorem setTab_same (T : Nat → Table α) (k key : Nat) (b : Buf α) : setTab T k key b k key = some b := by
  unfold setTab Table.put; rw [if_pos rfl, if_pos rfl]

theorem setTab_other (T : Nat → Table α) {k key k' key' : Nat} (b : Buf α) (h : (k', key') ≠ (k, key)) : setTab T k key b k' key' = T k' key' := by
  unfold setTab
  by_cases hk : k' = k
  · subst hk
    rw [if_pos rfl]
    unfold Table.put
    rw [if_neg (fun e => h (by rw [e]))]
  · rw [if_neg hk]

section Tables
variable {N : Nat} {H H' : Heap α} {tabs : OptMem.Tables} {T : Nat → Table α}

theorem OptMem.Tables.Is.seps (h : tabs.Is N H T) {e f : (Nat × Nat) × OptMem.Rng} (he : e ∈ tabs) (hf : f ∈ tabs) (hne : e ≠ f) :
    e.1 ≠ f.1 ∧ e.2.first ≠ f.2.first := by
  have : Std.Symm (fun e f : (Nat × Nat) × OptMem.Rng => e.1 ≠ f.1 ∧ e.2.first ≠ f.2.first) := ⟨fun _ _ q => ⟨Ne.symm q.1, Ne.symm q.2⟩⟩
  exact h.sep.forall he hf hne

theorem OptMem.Tables.Is.unique (h : tabs.Is N H T) {e f : (Nat × Nat) × OptMem.Rng} (he : e ∈ tabs) (hf : f ∈ tabs) (hk : e.1 = f.1) : e = f := by
  by_contra hne
  have := h.seps he hf hne
  exact this.1 hk

theorem OptMem.Tables.Is.entry (h : tabs.Is N H T) {k key : Nat} {r : OptMem.Rng} {b : Buf α} (hr : ((k, key), r) ∈ tabs) (e : T k key = some b) :
    H.Keeps r.view b := by
  obtain ⟨r', h1, h2⟩ := h.present k key b e
  have := h.unique hr h1 rfl
  injection this with _ h3
  rw [h3]; exact h2

theorem OptMem.Tables.Is.blk (h : tabs.Is N H T) {k : Nat × Nat} {r : OptMem.Rng} (hr : (k, r) ∈ tabs) : ∃ b, r.view.data = .at b 0 ∧ N ≤ b := by
  obtain ⟨b, e, h1, _⟩ := h.place _ hr
  exact ⟨b, e, h1⟩

/-- Different entries do not overlap. -/
theorem OptMem.Tables.Is.apart (h : tabs.Is N H T) {k k' : Nat × Nat} {r r' : OptMem.Rng} (hr : (k, r) ∈ tabs) (hr' : (k', r') ∈ tabs) (hk : k ≠ k') :
    Obj.Apart r.view r'.view := by
  have hne : (k, r) ≠ (k', r') := fun e => hk (by injection e)
  have := h.seps hr hr' hne
  obtain ⟨b, e, _⟩ := h.blk hr
  obtain ⟨c, e', _⟩ := h.blk hr'
  refine apart_blk e e' (fun hbc => this.2 ?_)
  show r.view.data = r'.view.data
  rw [e, e', hbc]

/-- Entries do not overlap with what is below. -/
theorem OptMem.Tables.Is.apartBelow (h : tabs.Is N H T) {k : Nat × Nat} {r : OptMem.Rng} (hr : (k, r) ∈ tabs) {o : Obj} (ho : o.Below N) :
    Obj.Apart r.view o := by
  obtain ⟨b, e, hb⟩ := h.blk hr
  obtain ⟨c, j, e', hc⟩ := ho
  exact apart_blk e e' (by omega)

theorem OptMem.Tables.Is.frame (h : tabs.Is N H T) {ws : List Obj} (ho : H.Only H' ws) (hw : ∀ w ∈ ws, w.Below N) : tabs.Is N H' T := by
  refine ⟨fun e he => ?_, h.sep, fun b hb => (ho.2.1 b).trans (h.live b hb), h.absent, fun k key b e => ?_⟩
  · rw [ho.1]; exact h.place e he
  · obtain ⟨r, h1, h2⟩ := h.present k key b e
    exact ⟨r, h1, h2.frame ho (fun w hw' => (h.apartBelow h1 (hw w hw')).symm)⟩

theorem OptMem.Tables.Is.set (h : tabs.Is N H T) {k key : Nat} {r : OptMem.Rng} {b' : Buf α} (hr : ((k, key), r) ∈ tabs) (hs : H.Sets H' r.view b') :
    tabs.Is N H' (setTab T k key b') := by
  refine ⟨fun e he => ?_, h.sep, fun b hb => (hs.2.2.1 b).trans (h.live b hb), fun k' key' e => ?_, fun k' key' b e => ?_⟩
  · rw [hs.2.1]; exact h.place e he
  · by_cases hk : (k', key') = (k, key)
    · injection hk with e1 e2
      subst e1 e2
      rw [setTab_same] at e; cases e
    · rw [setTab_other _ _ hk] at e
      exact h.absent k' key' e
  · by_cases hk : (k', key') = (k, key)
    · injection hk with e1 e2
      subst e1 e2
      rw [setTab_same] at e
      cases e
      exact ⟨r, hr, hs.1⟩
    · rw [setTab_other _ _ hk] at e
      obtain ⟨r', h1, h2⟩ := h.present k' key' b e
      exact ⟨r', h1, h2.frame1 hs (h.apart hr h1 (Ne.symm hk))⟩

theorem fillNew_spec (H : Heap α) (n : Nat) (v : α) :
    Ok (fillLoop (H.new n).1 (H.new n).2 n v) (fun H' => H'.next = H.next + 1 ∧ (∀ b, H'.live b ↔ b = H.next ∨ H.live b) ∧
      (∀ b o, b ≠ H.next → H'.cellAt b o = H.cellAt b o) ∧ H'.Stores (.at H.next 0) (filled n v)) := by
  rw [fillLoop_eq]
  refine (new_loop (H := H) (n := n) (m := n) (Nat.le_refl _) (new := fun _ => some v) (fun _ _ _ _ => rfl)).mono (fun H' q => ?_)
  refine ⟨q.1, q.2.1, fun b o hb => by rw [q.2.2, if_neg hb], Or.inr ⟨H.next, 0, rfl, fun i hi => ?_⟩⟩
  have hi' : i < n := by simpa [filled] using hi
  rw [q.2.2, if_pos rfl, Nat.zero_add, if_pos hi']
  simp [filled, hi']

/-- Access to an entry. -/
theorem OptMem.get_sim [Zero α] (h : tabs.Is N H T) (hN : N ≤ H.next) (k key n : Nat) :
    Ok (OptMem.get H 0 tabs (k, key) n) (fun r => r.2.1.Is N r.1 (setTab T k key ((T k).get key n)) ∧ ((k, key), r.2.2) ∈ r.2.1 ∧
      (∀ e ∈ tabs, e ∈ r.2.1) ∧ N ≤ r.1.next ∧ H.OnlyBelow N r.1 []) := by
  unfold OptMem.get
  cases hf : tabs.find? (fun e => e.1 == (k, key)) with
  | some e =>
    have hm := List.mem_of_find?_eq_some hf
    have hk : e.1 = (k, key) := by simpa using List.find?_some hf
    have he : ((k, key), e.2) ∈ tabs := by rw [← hk]; exact hm
    refine Ok_ok.2 ⟨?_, he, fun _ h => h, hN, Heap.OnlyBelow.refl _ _ _⟩
    cases hT : T k key with
    | none => exact absurd hk (h.absent k key hT e hm)
    | some b =>
      have hg : (T k).get key n = b := by unfold Table.get; rw [hT]
      have : setTab T k key b = T := by
        funext k' key'
        by_cases hkk : (k', key') = (k, key)
        · injection hkk with e1 e2
          subst e1 e2
          rw [setTab_same, hT]
        · rw [setTab_other _ _ hkk]
      rw [hg, this]; exact h
  | none =>
    have hno : ∀ e ∈ tabs, e.1 ≠ (k, key) := fun e he hk => by
      have := List.find?_eq_none.1 hf e he
      simp [hk] at this
    have hT : T k key = none := by
      cases hT : T k key with
      | none => rfl
      | some b => obtain ⟨r, h1, _⟩ := h.present k key b hT; exact absurd rfl (hno _ h1)
    have hg : (T k).get key n = filled n 0 := by unfold Table.get; rw [hT]
    rw [hg]
    dsimp only
    unfold OptMem.Rng.resize OptMem.Rng.default
    show Ok ((fillLoop (H.new n).1 (H.new n).2 n 0 >>= fun H1 => Except.ok (H1, (⟨(H.new n).2, n⟩ : OptMem.Rng))) >>= _) _
    refine ((fillNew_spec H n 0).bind (Q := fun q : Heap α × OptMem.Rng => q.2 = ⟨.at H.next 0, n⟩ ∧ q.1.next = H.next + 1 ∧
      (∀ b, q.1.live b ↔ b = H.next ∨ H.live b) ∧ (∀ b o, b ≠ H.next → q.1.cellAt b o = H.cellAt b o) ∧ q.1.Stores (.at H.next 0) (filled n 0)) (fun H1 h1 => Ok_ok.2 ⟨rfl, h1⟩)).bind
      (fun ⟨H1, r⟩ ⟨er, q1, q2, q3, q4⟩ => ?_)
    dsimp only at er q1 q2 q3 q4 ⊢
    subst er
    refine Ok_ok.2 ⟨⟨fun e he => ?_, ?_, fun b hb => ?_, fun k' key' e f hf => ?_, fun k' key' b e => ?_⟩, ?_, fun e he => ?_, ?_, ?_⟩
    · dsimp only at he ⊢
      rw [q1]
      rcases List.mem_append.1 he with he | he
      · obtain ⟨b, e1, e2, e3⟩ := h.place e he
        exact ⟨b, e1, e2, by omega⟩
      · rw [List.mem_singleton.1 he]
        exact ⟨H.next, rfl, hN, by omega⟩
    · refine List.pairwise_append.2 ⟨h.sep, List.pairwise_singleton _ _, fun e he f hf => ?_⟩
      rw [List.mem_singleton.1 hf]
      refine ⟨hno e he, fun e1 => ?_⟩
      obtain ⟨b, e2, _, e3⟩ := h.place e he
      rw [e2] at e1
      dsimp only at e1
      cases e1
      omega
    · dsimp only
      rw [q2 b, h.live b hb]
      constructor
      · rintro (rfl | ⟨e, he, e1⟩)
        · exact ⟨_, List.mem_append_right _ (List.mem_singleton.2 rfl), rfl⟩
        · exact ⟨e, List.mem_append_left _ he, e1⟩
      · rintro ⟨e, he, e1⟩
        rcases List.mem_append.1 he with he | he
        · exact Or.inr ⟨e, he, e1⟩
        · rw [List.mem_singleton.1 he] at e1
          dsimp only at e1
          cases e1
          exact Or.inl rfl
    · dsimp only at hf
      by_cases hkk : (k', key') = (k, key)
      · injection hkk with e1 e2
        subst e1 e2
        rw [setTab_same] at e; cases e
      · rw [setTab_other _ _ hkk] at e
        rcases List.mem_append.1 hf with hf | hf
        · exact h.absent k' key' e f hf
        · rw [List.mem_singleton.1 hf]; exact Ne.symm hkk
    · dsimp only
      by_cases hkk : (k', key') = (k, key)
      · injection hkk with e1 e2
        subst e1 e2
        rw [setTab_same] at e
        cases e
        exact ⟨_, List.mem_append_right _ (List.mem_singleton.2 rfl), by simp [OptMem.Rng.view, filled], q4⟩
      · rw [setTab_other _ _ hkk] at e
        obtain ⟨r, h1, h2⟩ := h.present k' key' b e
        refine ⟨r, List.mem_append_left _ h1, h2.1, ?_⟩
        rcases h2.2 with h0 | ⟨pb, po, hp, hc⟩
        · exact Or.inl h0
        · refine Or.inr ⟨pb, po, hp, fun i hi => ?_⟩
          obtain ⟨c, e1, _, e3⟩ := h.place _ h1
          rw [q3 pb, hc i hi]
          have : r.view.data = .at c 0 := e1
          rw [this] at hp
          cases hp
          omega
    · exact List.mem_append_right _ (List.mem_singleton.2 rfl)
    · exact List.mem_append_left _ he
    · dsimp only; omega
    · exact ⟨by dsimp only; omega, fun b hb => (q2 b).trans ⟨fun q => q.elim (fun e => by omega) id, Or.inr⟩, fun b o hb _ => q3 b o (by omega)⟩

end Tables

/-! ### In the middle of an update -/

/-- The parameter and the gradient have these contents, the tables are `T`, and since `H0` only these have changed below `N`. -/
structure Upds (N : Nat) (H0 : Heap α) (p g : Obj) (H : Heap α) (tabs : OptMem.Tables) (T : Nat → Table α) (bp bg : Buf α) : Prop where
  is : tabs.Is N H T
  kp : H.Keeps p bp
  kg : H.Keeps g bg
  only : H0.OnlyBelow N H [p, g]
  le : N ≤ H.next

section Upds
variable {N : Nat} {H0 H H' : Heap α} {p g : Obj} {tabs : OptMem.Tables} {T : Nat → Table α} {bp bg : Buf α}

theorem Upds.get [Zero α] (h : Upds N H0 p g H tabs T bp bg) (hp : p.Below N) (hg : g.Below N) (k key n : Nat) :
    Ok (OptMem.get H 0 tabs (k, key) n) (fun r => Upds N H0 p g r.1 r.2.1 (setTab T k key ((T k).get key n)) bp bg ∧
      ((k, key), r.2.2) ∈ r.2.1 ∧ ∀ e ∈ tabs, e ∈ r.2.1) :=
  (OptMem.get_sim h.is h.le k key n).mono (fun _ q =>
    ⟨⟨q.1, h.kp.below hp q.2.2.2.2 (fun _ h => absurd h (List.not_mem_nil)), h.kg.below hg q.2.2.2.2 (fun _ h => absurd h (List.not_mem_nil)),
      h.only.trans (q.2.2.2.2.mono (fun _ h => absurd h (List.not_mem_nil))), q.2.2.2.1⟩, q.2.1, q.2.2.1⟩)

theorem Upds.setT (h : Upds N H0 p g H tabs T bp bg) (hp : p.Below N) (hg : g.Below N) {k key : Nat} {r : OptMem.Rng} {b' : Buf α} (hr : ((k, key), r) ∈ tabs)
    (hs : H.Sets H' r.view b') : Upds N H0 p g H' tabs (setTab T k key b') bp bg := by
  obtain ⟨c, e, hc⟩ := h.is.blk hr
  exact ⟨h.is.set hr hs, h.kp.frame1 hs (h.is.apartBelow hr hp), h.kg.frame1 hs (h.is.apartBelow hr hg), h.only.trans (hs.above e hc _),
    by rw [hs.2.1]; exact h.le⟩

theorem Upds.setP (h : Upds N H0 p g H tabs T bp bg) (hp : p.Below N) (ha : Obj.Apart p g) {b' : Buf α} (hs : H.Sets H' p b') :
    Upds N H0 p g H' tabs T b' bg :=
  ⟨h.is.frame hs.2 (fun w hw => by rw [List.mem_singleton.1 hw]; exact hp), hs.1, h.kg.frame1 hs ha,
    h.only.trans ((hs.only (os := [p, g]) (k := 0) rfl).below N), by rw [hs.2.1]; exact h.le⟩

end Upds

/-! ### With the entries of the parameter at hand -/

/-- The tables `T`, where the entries for `key` of the first `m` tables are `b0`, `b1`, `b2`. -/
def ovr (T : Nat → Table α) (key m : Nat) (b0 b1 b2 : Buf α) : Nat → Table α := fun k =>
  if k < m then (T k).put key (if k = 0 then b0 else if k = 1 then b1 else b2) else T k

theorem ovr_at (T : Nat → Table α) (key m k : Nat) (b0 b1 b2 : Buf α) (h : k < m) :
    ovr T key m b0 b1 b2 k key = some (if k = 0 then b0 else if k = 1 then b1 else b2) := by
  unfold ovr Table.put; rw [if_pos h, if_pos rfl]

theorem ovr_set {T : Nat → Table α} {key m k : Nat} {b0 b1 b2 c0 c1 c2 : Buf α} (h : k < m)
    (hc : ∀ j, j < m → (if j = 0 then c0 else if j = 1 then c1 else c2) =
      if j = k then (if k = 0 then c0 else if k = 1 then c1 else c2) else if j = 0 then b0 else if j = 1 then b1 else b2) :
    setTab (ovr T key m b0 b1 b2) k key (if k = 0 then c0 else if k = 1 then c1 else c2) = ovr T key m c0 c1 c2 := by
  funext j key'
  unfold setTab ovr Table.put
  by_cases hj : j < m
  · have := hc j hj
    by_cases hk : j = k
    · subst hk
      rw [if_pos rfl, if_pos hj, if_pos hj]
      by_cases e : key' = key
      · rw [if_pos e, if_pos e]
      · rw [if_neg e, if_neg e, if_neg e]
    · rw [if_neg hk, if_pos hj, if_pos hj, this, if_neg hk]
  · rw [if_neg (by omega), if_neg hj, if_neg hj]

/-- As `Upds`; `r0`, `r1` and (for `m = 3`) `r2` are the entries for the parameter. -/
structure Ups (N : Nat) (H0 : Heap α) (p g : Obj) (T : Nat → Table α) (key m : Nat) (r0 r1 r2 : OptMem.Rng) (tabs : OptMem.Tables)
    (H : Heap α) (b0 b1 b2 bp bg : Buf α) : Prop where
  base : Upds N H0 p g H tabs (ovr T key m b0 b1 b2) bp bg
  m0 : ((0, key), r0) ∈ tabs
  m1 : ((1, key), r1) ∈ tabs
  m2 : 2 < m → ((2, key), r2) ∈ tabs
  lt : 1 < m
  hp : p.Below N
  hg : g.Below N
  pg : Obj.Apart p g

section Ups
variable {N : Nat} {H0 H H' : Heap α} {p g : Obj} {T : Nat → Table α} {key m : Nat} {r0 r1 r2 : OptMem.Rng} {tabs : OptMem.Tables}
  {b0 b1 b2 bp bg b : Buf α}

theorem Ups.k0 (h : Ups N H0 p g T key m r0 r1 r2 tabs H b0 b1 b2 bp bg) : H.Keeps r0.view b0 :=
  h.base.is.entry h.m0 (ovr_at T key m 0 b0 b1 b2 (by have := h.lt; omega))
theorem Ups.k1 (h : Ups N H0 p g T key m r0 r1 r2 tabs H b0 b1 b2 bp bg) : H.Keeps r1.view b1 :=
  h.base.is.entry h.m1 (ovr_at T key m 1 b0 b1 b2 h.lt)
theorem Ups.k2 (h : Ups N H0 p g T key m r0 r1 r2 tabs H b0 b1 b2 bp bg) (hm : 2 < m) : H.Keeps r2.view b2 :=
  h.base.is.entry (h.m2 hm) (ovr_at T key m 2 b0 b1 b2 hm)
theorem Ups.a01 (h : Ups N H0 p g T key m r0 r1 r2 tabs H b0 b1 b2 bp bg) : Obj.Apart r0.view r1.view := h.base.is.apart h.m0 h.m1 (by simp)
theorem Ups.a02 (h : Ups N H0 p g T key m r0 r1 r2 tabs H b0 b1 b2 bp bg) (hm : 2 < m) : Obj.Apart r0.view r2.view :=
  h.base.is.apart h.m0 (h.m2 hm) (by simp)
theorem Ups.a0g (h : Ups N H0 p g T key m r0 r1 r2 tabs H b0 b1 b2 bp bg) : Obj.Apart r0.view g := h.base.is.apartBelow h.m0 h.hg
theorem Ups.a0p (h : Ups N H0 p g T key m r0 r1 r2 tabs H b0 b1 b2 bp bg) : Obj.Apart r0.view p := h.base.is.apartBelow h.m0 h.hp
theorem Ups.a1p (h : Ups N H0 p g T key m r0 r1 r2 tabs H b0 b1 b2 bp bg) : Obj.Apart r1.view p := h.base.is.apartBelow h.m1 h.hp

theorem Ups.s0 (h : Ups N H0 p g T key m r0 r1 r2 tabs H b0 b1 b2 bp bg) (hs : H.Sets H' r0.view b) :
    Ups N H0 p g T key m r0 r1 r2 tabs H' b b1 b2 bp bg := by
  have := h.base.setT h.hp h.hg h.m0 hs
  have e := ovr_set (T := T) (key := key) (m := m) (k := 0) (b0 := b0) (b1 := b1) (b2 := b2) (c0 := b) (c1 := b1) (c2 := b2) (by have := h.lt; omega)
    (fun j _ => by by_cases hj : j = 0 <;> simp [hj])
  rw [if_pos rfl] at e
  rw [e] at this
  exact ⟨this, h.m0, h.m1, h.m2, h.lt, h.hp, h.hg, h.pg⟩
theorem Ups.s1 (h : Ups N H0 p g T key m r0 r1 r2 tabs H b0 b1 b2 bp bg) (hs : H.Sets H' r1.view b) :
    Ups N H0 p g T key m r0 r1 r2 tabs H' b0 b b2 bp bg := by
  have := h.base.setT h.hp h.hg h.m1 hs
  have e := ovr_set (T := T) (key := key) (m := m) (k := 1) (b0 := b0) (b1 := b1) (b2 := b2) (c0 := b0) (c1 := b) (c2 := b2) h.lt
    (fun j _ => by
      by_cases hj : j = 0
      · simp [hj]
      · by_cases hj1 : j = 1 <;> simp [hj, hj1])
  rw [if_neg (by decide), if_pos rfl] at e
  rw [e] at this
  exact ⟨this, h.m0, h.m1, h.m2, h.lt, h.hp, h.hg, h.pg⟩
theorem Ups.s2 (h : Ups N H0 p g T key m r0 r1 r2 tabs H b0 b1 b2 bp bg) (hm : m = 3) (hs : H.Sets H' r2.view b) :
    Ups N H0 p g T key m r0 r1 r2 tabs H' b0 b1 b bp bg := by
  have := h.base.setT h.hp h.hg (h.m2 (by omega)) hs
  have e := ovr_set (T := T) (key := key) (m := m) (k := 2) (b0 := b0) (b1 := b1) (b2 := b2) (c0 := b0) (c1 := b1) (c2 := b) (by omega)
    (fun j hj' => by
      by_cases hj : j = 0
      · simp [hj]
      · by_cases hj1 : j = 1
        · simp [hj1]
        · have : j = 2 := by omega
          simp [this])
  rw [if_neg (by decide), if_neg (by decide)] at e
  rw [e] at this
  exact ⟨this, h.m0, h.m1, h.m2, h.lt, h.hp, h.hg, h.pg⟩
theorem Ups.sp (h : Ups N H0 p g T key m r0 r1 r2 tabs H b0 b1 b2 bp bg) (hs : H.Sets H' p b) :
    Ups N H0 p g T key m r0 r1 r2 tabs H' b0 b1 b2 b bg :=
  ⟨h.base.setP h.hp h.pg hs, h.m0, h.m1, h.m2, h.lt, h.hp, h.hg, h.pg⟩

end Ups

/-- The two entries are found. -/
theorem Upds.two [Zero α] {N : Nat} {H H2 : Heap α} {p g : Obj} {T : Nat → Table α} {tabs1 tabs2 : OptMem.Tables} {bp bg B0 : Buf α}
    {r0 r1 : OptMem.Rng} {key n : Nat} (hp : p.Below N) (hg : g.Below N) (hpg : Obj.Apart p g) (eB : (T 0).get key n = B0)
    (ha : ((0, key), r0) ∈ tabs1)
    (hb : Upds N H p g H2 tabs2 (setTab (setTab T 0 key B0) 1 key ((setTab T 0 key B0 1).get key n)) bp bg ∧ ((1, key), r1) ∈ tabs2 ∧
      ∀ e ∈ tabs1, e ∈ tabs2) :
    Ups N H p g T key 2 r0 r1 r1 tabs2 H2 ((T 0).get key n) ((T 1).get key n) [] bp bg := by
  subst eB
  have e1 : setTab T 0 key ((T 0).get key n) 1 = T 1 := by unfold setTab; rw [if_neg (by decide)]
  have e2 : setTab (setTab T 0 key ((T 0).get key n)) 1 key ((T 1).get key n) = ovr T key 2 ((T 0).get key n) ((T 1).get key n) [] := by
    funext j key'
    unfold setTab ovr
    rcases j with _ | _ | j <;> simp
  have := hb.1
  rw [e1, e2] at this
  exact ⟨this, hb.2.2 _ ha, hb.2.1, fun h => absurd h (by decide), by decide, hp, hg, hpg⟩

/-- The three entries are found. -/
theorem Upds.three [Zero α] {N : Nat} {H H3 : Heap α} {p g : Obj} {T : Nat → Table α} {tabs1 tabs2 tabs3 : OptMem.Tables} {bp bg B0 B1 : Buf α}
    {r0 r1 r2 : OptMem.Rng} {key n : Nat} (hp : p.Below N) (hg : g.Below N) (hpg : Obj.Apart p g) (eB : (T 0).get key n = B0)
    (eB1 : (setTab T 0 key B0 1).get key n = B1)
    (ha : ((0, key), r0) ∈ tabs1) (hb : ((1, key), r1) ∈ tabs2 ∧ ∀ e ∈ tabs1, e ∈ tabs2)
    (hc : Upds N H p g H3 tabs3 (setTab (setTab (setTab T 0 key B0) 1 key B1) 2 key ((setTab (setTab T 0 key B0) 1 key B1 2).get key n)) bp bg ∧
      ((2, key), r2) ∈ tabs3 ∧ ∀ e ∈ tabs2, e ∈ tabs3) :
    Ups N H p g T key 3 r0 r1 r2 tabs3 H3 ((T 0).get key n) ((T 1).get key n) ((T 2).get key n) bp bg := by
  subst eB
  have e1 : setTab T 0 key ((T 0).get key n) 1 = T 1 := by unfold setTab; rw [if_neg (by decide)]
  rw [e1] at eB1
  subst eB1
  have e1' : setTab (setTab T 0 key ((T 0).get key n)) 1 key ((T 1).get key n) 2 = T 2 := by
    unfold setTab; rw [if_neg (by decide), if_neg (by decide)]
  have e2 : setTab (setTab (setTab T 0 key ((T 0).get key n)) 1 key ((T 1).get key n)) 2 key ((T 2).get key n) =
      ovr T key 3 ((T 0).get key n) ((T 1).get key n) ((T 2).get key n) := by
    funext j key'
    unfold setTab ovr
    rcases j with _ | _ | _ | j
    · simp
    · simp
    · simp
    · simp [show ¬ (j + 1 + 1 + 1 < 3) from by omega]
  have := hc.1
  rw [e1', e2] at this
  exact ⟨this, hc.2.2 _ (hb.2 _ ha), hc.2.2 _ hb.1, fun _ => hc.2.1, by decide, hp, hg, hpg⟩

/-! ### The updates -/

theorem ovr_mom (v : Mom α) (key : Nat) (b0 b1 b2 : Buf α) : ovr v.tables key 2 b0 b1 b2 = ({ v with buff := v.buff.put key b0, opt := v.opt.put key b1 } : Mom α).tables := by
  funext j
  unfold ovr
  rcases j with _ | _ | j
  · rfl
  · rfl
  · rw [if_neg (by omega)]; rfl

theorem ovr_ada (v : Ada α) (key : Nat) (b0 b1 b2 : Buf α) : ovr v.tables key 2 b0 b1 b2 = ({ v with buff := v.buff.put key b0, opt := v.opt.put key b1 } : Ada α).tables := by
  funext j
  unfold ovr
  rcases j with _ | _ | j
  · rfl
  · rfl
  · rw [if_neg (by omega)]; rfl

theorem ovr_adam (v : AdamS α) (key : Nat) (b0 b1 b2 : Buf α) :
    ovr v.tables key 3 b0 b1 b2 = ({ v with buff := v.buff.put key b0, m := v.m.put key b1, s := v.s.put key b2 } : AdamS α).tables := by
  funext j
  unfold ovr
  rcases j with _ | _ | _ | j
  · rfl
  · rfl
  · rfl
  · rw [if_neg (by omega)]; rfl

theorem hmom_followsIn [Zero α] [Add α] [Mul α] [Sub α] (addr : Ptr → Nat) (N : Nat) :
    HUpd.FollowsIn addr N (HMom.Is N) (hmomUpdate (α := α) addr) momUpdate := by
  intro H s v v' p g bp bg bp' bg' hR hN hp hg kp kg hpg e
  unfold momUpdate at e
  dsimp only at e
  obtain ⟨o1, e1, e⟩ := res_inv e
  obtain ⟨c1, e2, e⟩ := res_inv e
  obtain ⟨o2, e3, e⟩ := res_inv e
  obtain ⟨p1, e4, e⟩ := res_inv e
  cases e
  unfold hmomUpdate
  rw [kp.1]
  have h0 : Upds N H p g H s.tabs v.tables bp bg := ⟨hR.tabs, kp, kg, Heap.OnlyBelow.refl _ _ _, hN⟩
  refine (h0.get hp hg 0 (addr p.data) bp.length).bind (fun ⟨Ha, ta, r0⟩ ha => ?_)
  dsimp only at ha ⊢
  refine (ha.1.get hp hg 1 (addr p.data) bp.length).bind (fun ⟨H1, tabs1, r1⟩ hb => ?_)
  dsimp only at hb ⊢
  have h := Upds.two hp hg hpg rfl ha.2.1 hb
  rw [hR.mu, hR.lr]
  refine (join_sim h.k1 e1).bind (fun H2 q => ?_)
  replace h := h.s1 q
  refine (join2_sim h.k0 h.base.kg h.a0g e2).bind (fun H3 q => ?_)
  replace h := h.s0 q
  refine (assignPtr_sim h.k1 h.k0 h.a01.symm e3).bind (fun H4 q => ?_)
  replace h := h.s1 q
  refine (assignPtr_sim h.base.kp h.k1 h.a1p.symm e4).bind (fun H5 q => ?_)
  replace h := h.sp q
  refine Ok_ok.2 ⟨⟨?_, rfl, rfl⟩, h.base.kp, h.base.kg, h.base.only⟩
  rw [← ovr_mom v _ _ _ []]
  exact h.base.is

theorem hnes_followsIn [Zero α] [Add α] [Mul α] [Sub α] (addr : Ptr → Nat) (N : Nat) :
    HUpd.FollowsIn addr N (HMom.Is N) (hnesUpdate (α := α) addr) nesUpdate := by
  intro H s v v' p g bp bg bp' bg' hR hN hp hg kp kg hpg e
  unfold nesUpdate at e
  dsimp only at e
  obtain ⟨o1, e1, e⟩ := res_inv e
  obtain ⟨c1, e2, e⟩ := res_inv e
  obtain ⟨o2, e3, e⟩ := res_inv e
  obtain ⟨p1, e4, e⟩ := res_inv e
  obtain ⟨c2, e5, e⟩ := res_inv e
  obtain ⟨p2, e6, e⟩ := res_inv e
  cases e
  unfold hnesUpdate
  rw [kp.1]
  have h0 : Upds N H p g H s.tabs v.tables bp bg := ⟨hR.tabs, kp, kg, Heap.OnlyBelow.refl _ _ _, hN⟩
  refine (h0.get hp hg 0 (addr p.data) bp.length).bind (fun ⟨Ha, ta, r0⟩ ha => ?_)
  dsimp only at ha ⊢
  refine (ha.1.get hp hg 1 (addr p.data) bp.length).bind (fun ⟨H1, tabs1, r1⟩ hb => ?_)
  dsimp only at hb ⊢
  have h := Upds.two hp hg hpg rfl ha.2.1 hb
  rw [hR.mu, hR.lr]
  refine (join_sim h.k1 e1).bind (fun H2 q => ?_)
  replace h := h.s1 q
  refine (join2_sim h.k0 h.base.kg h.a0g e2).bind (fun H3 q => ?_)
  replace h := h.s0 q
  refine (assignPtr_sim h.k1 h.k0 h.a01.symm e3).bind (fun H4 q => ?_)
  replace h := h.s1 q
  refine (assignPtr_sim h.base.kp h.k0 h.a0p.symm e4).bind (fun H5 q => ?_)
  replace h := h.sp q
  refine (join2_sim h.k0 h.k1 h.a01 e5).bind (fun H6 q => ?_)
  replace h := h.s0 q
  refine (assignPtr_sim h.base.kp h.k0 h.a0p.symm e6).bind (fun H7 q => ?_)
  replace h := h.sp q
  refine Ok_ok.2 ⟨⟨?_, rfl, rfl⟩, h.base.kp, h.base.kg, h.base.only⟩
  rw [← ovr_mom v _ _ _ []]
  exact h.base.is

theorem hadagrad_followsIn [Zero α] [Add α] [Mul α] [Sub α] (isq : α → α) (addr : Ptr → Nat) (N : Nat) :
    HUpd.FollowsIn addr N (HAda.Is N) (hadagradUpdate isq addr) (adagradUpdate isq) := by
  intro H s v v' p g bp bg bp' bg' hR hN hp hg kp kg hpg e
  unfold adagradUpdate at e
  dsimp only at e
  obtain ⟨c1, e1, e⟩ := res_inv e
  obtain ⟨o1, e2, e⟩ := res_inv e
  obtain ⟨c2, e3, e⟩ := res_inv e
  obtain ⟨c3, e4, e⟩ := res_inv e
  obtain ⟨c4, e5, e⟩ := res_inv e
  obtain ⟨p2, e6, e⟩ := res_inv e
  cases e
  unfold hadagradUpdate
  rw [kp.1]
  have h0 : Upds N H p g H s.tabs v.tables bp bg := ⟨hR.tabs, kp, kg, Heap.OnlyBelow.refl _ _ _, hN⟩
  refine (h0.get hp hg 0 (addr p.data) bp.length).bind (fun ⟨Ha, ta, r0⟩ ha => ?_)
  dsimp only at ha ⊢
  refine (ha.1.get hp hg 1 (addr p.data) bp.length).bind (fun ⟨H1, tabs1, r1⟩ hb => ?_)
  dsimp only at hb ⊢
  have h := Upds.two hp hg hpg rfl ha.2.1 hb
  rw [hR.lr]
  refine (mul2_sim h.k0 h.base.kg h.base.kg h.a0g h.a0g e1).bind (fun H2 q => ?_)
  replace h := h.s0 q
  refine (assignPtr_sim h.k1 h.k0 h.a01.symm e2).bind (fun H4 q => ?_)
  replace h := h.s1 q
  refine (applyPtr_sim h.k0 h.k1 h.a01 e3).bind (fun H4 q => ?_)
  replace h := h.s0 q
  refine (assignPtr_sim h.k0 h.base.kg h.a0g e4).bind (fun H5 q => ?_)
  replace h := h.s0 q
  refine (join_sim h.k0 e5).bind (fun H6 q => ?_)
  replace h := h.s0 q
  refine (assignPtr_sim h.base.kp h.k0 h.a0p.symm e6).bind (fun H7 q => ?_)
  replace h := h.sp q
  refine Ok_ok.2 ⟨⟨?_, rfl, hR.beta, hR.rbeta⟩, h.base.kp, h.base.kg, h.base.only⟩
  rw [← ovr_ada v _ _ _ []]
  exact h.base.is

theorem hrmsprop_followsIn [Zero α] [Add α] [Mul α] [Sub α] (isq : α → α) (addr : Ptr → Nat) (N : Nat) :
    HUpd.FollowsIn addr N (HAda.Is N) (hrmspropUpdate isq addr) (rmspropUpdate isq) := by
  intro H s v v' p g bp bg bp' bg' hR hN hp hg kp kg hpg e
  unfold rmspropUpdate at e
  dsimp only at e
  obtain ⟨o1, e1, e⟩ := res_inv e
  obtain ⟨c1, e2, e⟩ := res_inv e
  obtain ⟨c2, e3, e⟩ := res_inv e
  obtain ⟨o2, e4, e⟩ := res_inv e
  obtain ⟨c3, e5, e⟩ := res_inv e
  obtain ⟨c4, e6, e⟩ := res_inv e
  obtain ⟨c5, e7, e⟩ := res_inv e
  obtain ⟨p2, e8, e⟩ := res_inv e
  cases e
  unfold hrmspropUpdate
  rw [kp.1]
  have h0 : Upds N H p g H s.tabs v.tables bp bg := ⟨hR.tabs, kp, kg, Heap.OnlyBelow.refl _ _ _, hN⟩
  refine (h0.get hp hg 0 (addr p.data) bp.length).bind (fun ⟨Ha, ta, r0⟩ ha => ?_)
  dsimp only at ha ⊢
  refine (ha.1.get hp hg 1 (addr p.data) bp.length).bind (fun ⟨H1, tabs1, r1⟩ hb => ?_)
  dsimp only at hb ⊢
  have h := Upds.two hp hg hpg rfl ha.2.1 hb
  rw [hR.lr, hR.beta, hR.rbeta]
  refine (join_sim h.k1 e1).bind (fun H6 q => ?_)
  replace h := h.s1 q
  refine (mul2_sim h.k0 h.base.kg h.base.kg h.a0g h.a0g e2).bind (fun H2 q => ?_)
  replace h := h.s0 q
  refine (join_sim h.k0 e3).bind (fun H6 q => ?_)
  replace h := h.s0 q
  refine (assignPtr_sim h.k1 h.k0 h.a01.symm e4).bind (fun H4 q => ?_)
  replace h := h.s1 q
  refine (applyPtr_sim h.k0 h.k1 h.a01 e5).bind (fun H4 q => ?_)
  replace h := h.s0 q
  refine (assignPtr_sim h.k0 h.base.kg h.a0g e6).bind (fun H5 q => ?_)
  replace h := h.s0 q
  refine (join_sim h.k0 e7).bind (fun H6 q => ?_)
  replace h := h.s0 q
  refine (assignPtr_sim h.base.kp h.k0 h.a0p.symm e8).bind (fun H7 q => ?_)
  replace h := h.sp q
  refine Ok_ok.2 ⟨⟨?_, rfl, rfl, rfl⟩, h.base.kp, h.base.kg, h.base.only⟩
  rw [← ovr_ada v _ _ _ []]
  exact h.base.is

theorem hadam_followsIn [Field α] [DecidableEq α] (isq : α → α) (addr : Ptr → Nat) (N : Nat) :
    HUpd.FollowsIn addr N (HAdam.Is N) (hadamUpdate isq addr) (adamUpdate isq) := by
  intro H s v v' p g bp bg bp' bg' hR hN hp hg kp kg hpg e
  unfold adamUpdate at e
  dsimp only at e
  obtain ⟨m1, e1, e⟩ := res_inv e
  obtain ⟨c1, e2, e⟩ := res_inv e
  obtain ⟨m2, e3, e⟩ := res_inv e
  obtain ⟨s1, e4, e⟩ := res_inv e
  obtain ⟨c2, e5, e⟩ := res_inv e
  obtain ⟨c3, e6, e⟩ := res_inv e
  obtain ⟨s2, e7, e⟩ := res_inv e
  obtain ⟨k2, f2, e⟩ := res_inv e
  obtain ⟨c4, e8, e⟩ := res_inv e
  obtain ⟨c5, e9, e⟩ := res_inv e
  obtain ⟨c6, e10, e⟩ := res_inv e
  obtain ⟨k1, f1, e⟩ := res_inv e
  obtain ⟨c7, e11, e⟩ := res_inv e
  obtain ⟨p2, e12, e⟩ := res_inv e
  cases e
  obtain ⟨htab, g1, g2, g3, g4, g5, g6, g7⟩ := hR
  unfold hadamUpdate
  rw [kp.1]
  have h0 : Upds N H p g H s.tabs v.tables bp bg := ⟨htab, kp, kg, Heap.OnlyBelow.refl _ _ _, hN⟩
  refine (h0.get hp hg 0 (addr p.data) bp.length).bind (fun ⟨Ha, ta, r0⟩ ha => ?_)
  dsimp only at ha ⊢
  refine (ha.1.get hp hg 1 (addr p.data) bp.length).bind (fun ⟨Hb, tb, r1⟩ hb => ?_)
  dsimp only at hb ⊢
  refine (hb.1.get hp hg 2 (addr p.data) bp.length).bind (fun ⟨H1, tabs1, r2⟩ hc => ?_)
  dsimp only at hc ⊢
  have h := Upds.three hp hg hpg rfl rfl ha.2.1 hb.2 hc
  rw [g1, g2, g3, g4, g5, g6, g7]
  refine (join_sim h.k1 e1).bind (fun H6 q => ?_)
  replace h := h.s1 q
  refine (join2_sim h.k0 h.base.kg h.a0g e2).bind (fun H3 q => ?_)
  replace h := h.s0 q
  refine (assignPtr_sim h.k1 h.k0 h.a01.symm e3).bind (fun H4 q => ?_)
  replace h := h.s1 q
  refine (join_sim (h.k2 (by decide)) e4).bind (fun H6 q => ?_)
  replace h := h.s2 rfl q
  refine (mul2_sim h.k0 h.base.kg h.base.kg h.a0g h.a0g e5).bind (fun H2 q => ?_)
  replace h := h.s0 q
  refine (join_sim h.k0 e6).bind (fun H6 q => ?_)
  replace h := h.s0 q
  refine (assignPtr_sim (h.k2 (by decide)) h.k0 (h.a02 (by decide)).symm e7).bind (fun H4 q => ?_)
  replace h := h.s2 rfl q
  rw [f2, bind_ok]
  refine (join2_sim h.k0 (h.k2 (by decide)) (h.a02 (by decide)) e8).bind (fun H3 q => ?_)
  replace h := h.s0 q
  refine (apply_sim h.k0 e9).bind (fun H4 q => ?_)
  replace h := h.s0 q
  refine (assignPtr_sim h.k0 h.k1 h.a01 e10).bind (fun H5 q => ?_)
  replace h := h.s0 q
  rw [f1, bind_ok]
  refine (join_sim h.k0 e11).bind (fun H6 q => ?_)
  replace h := h.s0 q
  refine (assignPtr_sim h.base.kp h.k0 h.a0p.symm e12).bind (fun H7 q => ?_)
  replace h := h.sp q
  refine Ok_ok.2 ⟨⟨?_, rfl, rfl, rfl, rfl, rfl, rfl, rfl⟩, h.base.kp, h.base.kg, h.base.only⟩
  have hb' := h.base.is
  rw [ovr_adam] at hb'
  exact hb'

end Trixy
