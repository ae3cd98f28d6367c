import Verif.Spec.TensorVal
import Verif.Proof.TensorMem
import Mathlib.Algebra.BigOperators.Group.List.Basic
/- Simulation of the abstract tensor programs by the storage-level ones (C92). -/
namespace Trixy

variable {α : Type _}

theorem Ok.and {β : Type _} {r : Res β} {P Q : β → Prop} (h : Ok r P) (g : Ok r Q) : Ok r (fun a => P a ∧ Q a) := by
  obtain ⟨a, ha, hp⟩ := h
  obtain ⟨b, hb, hq⟩ := g
  rw [ha] at hb; cases hb
  exact ⟨a, ha, hp, hq⟩

/-- The object has the value. -/
def ObjVal (H : Heap α) (o : Obj) : Option (TVal α) → Prop
  | none => o.data = .null ∧ 0 < o.shape.size
  | some v => o.dims = v.dims ∧ o.shape.size = v.cells.length ∧ v.dims.prod = v.cells.length ∧
      (v.cells.length = 0 ∨ ∃ b, o.data = .at b 0 ∧ ∀ i, i < v.cells.length → H.cellAt b i = v.cells[i]?)

def ObjRel (H : Heap α) : Option Obj → Option (TObj α) → Prop
  | none, none => True
  | some o, some t => o.kind = t.kind ∧ ObjVal H o t.val
  | _, _ => False

def ViewRel (own : Nat → Option Obj) (next : Nat) : Option Obj → Option TView → Prop
  | none, none => True
  | some o, some t => o.kind = t.kind ∧ o.dims = t.dims ∧ o.shape.size = t.dims.prod ∧
      (∀ x, t.target = some x → ∃ a, own x = some a ∧ a.data = o.data) ∧
      (∀ x a b, own x = some a → a.data = .at b 0 → o.data = .at b 0 → t.target = some x) ∧
      (∀ b i, o.data = .at b i → b < next)
  | _, _ => False

theorem ObjVal.frame {H H' : Heap α} {o : Obj} {v : Option (TVal α)} (h : ObjVal H o v)
    (hf : ∀ b i, o.data = .at b 0 → (H.cellAt b i).isSome = true → H'.cellAt b i = H.cellAt b i) : ObjVal H' o v := by
  cases v with
  | none => exact h
  | some v =>
    refine ⟨h.1, h.2.1, h.2.2.1, ?_⟩
    rcases h.2.2.2 with h0 | ⟨b, hb, hc⟩
    · exact Or.inl h0
    · refine Or.inr ⟨b, hb, fun i hi => ?_⟩
      rw [hf b i hb (by rw [hc i hi]; simp [hi]), hc i hi]

/-- Views follow the elements. -/
theorem ViewRel.follow {own own' : Nat → Option Obj} {next next' : Nat} {f : Nat → Option Nat} {o : Option Obj} {t : Option TView}
    (h : ViewRel own next o t) (hn : next ≤ next')
    (h1 : ∀ z a z', own z = some a → f z = some z' → ∃ a', own' z' = some a' ∧ a'.data = a.data)
    (h2 : ∀ z' a' b, own' z' = some a' → a'.data = .at b 0 → b < next → ∃ z a, own z = some a ∧ a.data = .at b 0 ∧ f z = some z') :
    ViewRel own' next' o (t.map (fun a => { a with target := a.target.bind f })) := by
  cases o with
  | none => cases t with
    | none => trivial
    | some t => exact h
  | some o => cases t with
    | none => exact h
    | some t =>
      obtain ⟨e1, e2, e3, e4, e5, e6⟩ := h
      refine ⟨e1, e2, e3, fun x hx => ?_, fun x a b hx ha ho => ?_, fun b i hb => Nat.lt_of_lt_of_le (e6 b i hb) hn⟩
      · obtain ⟨z, hz, hfz⟩ := Option.bind_eq_some_iff.1 hx
        obtain ⟨a, ha, had⟩ := e4 z hz
        obtain ⟨a', ha', hd⟩ := h1 z a x ha hfz
        exact ⟨a', ha', hd.trans had⟩
      · obtain ⟨z, a0, hz, had, hfz⟩ := h2 x a b hx ha (e6 b 0 ho)
        exact Option.bind_eq_some_iff.2 ⟨z, e5 z a0 b hz had ho, hfz⟩

/-- Views when the storage of the owners stays where it is. -/
theorem ViewRel.same {own own' : Nat → Option Obj} {next next' : Nat} {o : Option Obj} {t : Option TView}
    (h : ViewRel own next o t) (hn : next ≤ next')
    (h1 : ∀ z a, own z = some a → ∃ a', own' z = some a' ∧ a'.data = a.data)
    (h2 : ∀ z a' b, own' z = some a' → a'.data = .at b 0 → b < next → ∃ a, own z = some a ∧ a.data = .at b 0) :
    ViewRel own' next' o t := by
  have := h.follow (f := some) (own' := own') hn (fun z a z' ha hz => by cases hz; exact h1 z a ha)
    (fun z' a' b hz' ha hb => by obtain ⟨a, h3, h4⟩ := h2 z' a' b hz' ha hb; exact ⟨z', a, h3, h4, rfl⟩)
  cases t with
  | none => exact this
  | some t => simpa using this

/-- The relation between the two worlds. -/
structure TRel (w : World α) (s : TState α) : Prop where
  own : ∀ x, ObjRel w.heap (w.own x) (s.own x)
  view : ∀ v, ViewRel w.own w.heap.next (w.view v) (s.view v)

theorem ObjRel.some_inv {H : Heap α} {o : Obj} {t : Option (TObj α)} (h : ObjRel H (some o) t) :
    ∃ t', t = some t' ∧ o.kind = t'.kind ∧ ObjVal H o t'.val := by
  cases t with
  | none => exact h.elim
  | some t' => exact ⟨t', rfl, h.1, h.2⟩

theorem ViewRel.some_inv {own : Nat → Option Obj} {n : Nat} {o : Obj} {t : Option TView} (h : ViewRel own n (some o) t) :
    ∃ t', t = some t' ∧ ViewRel own n (some o) (some t') := by
  cases t with
  | none => exact h.elim
  | some t' => exact ⟨t', rfl, h⟩

/-- A usable object has a value. -/
theorem ObjVal.usable {H : Heap α} {o : Obj} {v : Option (TVal α)} (h : ObjVal H o v) (hu : o.Usable) : ∃ v', v = some v' := by
  cases v with
  | none =>
    rcases hu with h' | h'
    · exact absurd h.1 h'
    · have h2 := h.2; rw [h'] at h2; exact absurd h2 (Nat.lt_irrefl 0)
  | some v' => exact ⟨v', rfl⟩

/-- Objects that are not touched keep their values. -/
theorem ObjRel.frame {H H' : Heap α} {o : Option Obj} {t : Option (TObj α)} (h : ObjRel H o t)
    (hf : ∀ a b i, o = some a → a.data = .at b 0 → (H.cellAt b i).isSome = true → H'.cellAt b i = H.cellAt b i) : ObjRel H' o t := by
  cases o with
  | none => cases t with
    | none => trivial
    | some t => exact h
  | some o =>
    obtain ⟨t', rfl, hk, hv⟩ := h.some_inv
    exact ⟨hk, hv.frame (fun b i => hf o b i rfl)⟩

/-- Update of one object. -/
theorem ownRel_upd {H H' : Heap α} {own : Nat → Option Obj} {sown : Nat → Option (TObj α)} (R : ∀ x, ObjRel H (own x) (sown x))
    (x : Nat) {o : Option Obj} {t : Option (TObj α)} (hx : ObjRel H' o t)
    (hf : ∀ z a b i, z ≠ x → own z = some a → a.data = .at b 0 → (H.cellAt b i).isSome = true → H'.cellAt b i = H.cellAt b i) :
    ∀ z, ObjRel H' (upd own x o z) (upd sown x t z) := by
  intro z
  by_cases e : z = x
  · subst e; rw [upd_self, upd_self]; exact hx
  · rw [upd_ne _ _ e, upd_ne _ _ e]
    exact (R z).frame (fun a b i ha => hf z a b i e ha)

/-- Contents of a block that is as old as an existing object are not those of a new block. -/
theorem WInv.old {H : Heap α} {own} (I : WInv H own) {x : Nat} {a : Obj} {b : Nat} (hx : own x = some a) (ha : a.data = .at b 0) :
    b ≠ H.next := by
  rcases I.owned x a hx with h | ⟨b', h1, h2, _⟩
  · rw [h] at ha; cases ha
  · rw [h1] at ha; cases ha
    have := I.fresh b h2; omega

theorem WInv.older {H : Heap α} {own} (I : WInv H own) {x : Nat} {a : Obj} {b : Nat} (hx : own x = some a) (ha : a.data = .at b 0) :
    b < H.next := by
  rcases I.owned x a hx with h | ⟨b', h1, h2, _⟩
  · rw [h] at ha; cases ha
  · rw [h1] at ha; cases ha
    exact I.fresh b h2

theorem prod_dims_ctor (k : Kind) (d h w : Nat) (hp : (k.dims d h w).prod < W64) (ht : k = .ten → d * h < W64) :
    (ctorShape k d h w).size = (k.dims d h w).prod := by
  cases k
  · simp [ctorShape, Kind.dims, Shape.mk1]
  · simp only [ctorShape, Kind.dims, Shape.mk2, List.prod_cons, List.prod_nil, Nat.mul_one] at *
    exact Nat.mod_eq_of_lt hp
  · simp only [ctorShape, Kind.dims, Shape.mk3, List.prod_cons, List.prod_nil, Nat.mul_one] at *
    have h1 : wmul d h = d * h := Nat.mod_eq_of_lt (ht trivial)
    rw [h1]
    unfold wmul
    rw [Nat.mul_assoc]; exact Nat.mod_eq_of_lt hp

theorem dims_ctor (k : Kind) (p : Ptr) (d h w : Nat) : (⟨k, p, ctorShape k d h w⟩ : Obj).dims = k.dims d h w := by
  cases k <;> rfl

/-- A new object on a fresh block whose first `m` cells are `new`. -/
theorem ObjVal.fresh {H' : Heap α} {b m : Nat} {k : Kind} {s : Shape} {v : TVal α} (hd : (⟨k, .at b 0, s⟩ : Obj).dims = v.dims)
    (hs : s.size = v.cells.length) (hp : v.dims.prod = v.cells.length)
    (hc : ∀ i, i < v.cells.length → H'.cellAt b i = v.cells[i]?) : ObjVal H' ⟨k, .at b 0, s⟩ (some v) :=
  ⟨hd, hs, hp, Or.inr ⟨b, rfl, hc⟩⟩

/-- A new object on a fresh block. -/
theorem TRel.addNew {w : World α} {s : TState α} (I : WInv w.heap w.own) (R : TRel w s) {x : Nat} (hx : w.own x = none) {H' : Heap α} {o : Obj}
    {t : TObj α} (hn : H'.next = w.heap.next + 1) (hc : ∀ b i, b ≠ w.heap.next → H'.cellAt b i = w.heap.cellAt b i)
    (hd : o.data = .at w.heap.next 0) (ho : ObjRel H' (some o) (some t)) :
    TRel ⟨H', upd w.own x (some o), w.view⟩ ⟨upd s.own x (some t), s.view⟩ := by
  refine ⟨ownRel_upd R.own x ho (fun z a b i _ ha hb _ => hc b i (I.old ha hb)), fun v => ?_⟩
  refine (R.view v).same (by show _ ≤ H'.next; omega) (fun z a ha => ⟨a, ?_, rfl⟩) (fun z a' b ha' hb hlt => ?_)
  · have : z ≠ x := by rintro rfl; rw [hx] at ha; cases ha
    show upd _ _ _ _ = _
    rw [upd_ne _ _ this]; exact ha
  · by_cases e : z = x
    · subst e
      have ha' : upd w.own z (some o) z = some a' := ha'
      rw [upd_self] at ha'; cases ha'
      rw [hd] at hb; cases hb
      exact absurd hlt (Nat.lt_irrefl _)
    · have ha' : upd w.own x (some o) z = some a' := ha'
      rw [upd_ne _ _ e] at ha'
      exact ⟨a', ha', hb⟩

/-- An object given a fresh block after its old one has been freed. -/
theorem TRel.renew {w : World α} {s : TState α} (I : WInv w.heap w.own) (R : TRel w s) {x : Nat} {a : Obj} (hx : w.own x = some a)
    {H' : Heap α} {o : Obj} {t : TObj α} (hn : H'.next = w.heap.next + 1)
    (hc : ∀ b i, b ≠ w.heap.next → a.data ≠ .at b 0 → H'.cellAt b i = w.heap.cellAt b i)
    (hd : o.data = .at w.heap.next 0) (ho : ObjRel H' (some o) (some t)) :
    TRel ⟨H', upd w.own x (some o), w.view⟩ ⟨upd s.own x (some t), s.follow (gone x)⟩ := by
  refine ⟨ownRel_upd R.own x ho (fun z a' b i hz ha hb _ => hc b i (I.old ha hb) (fun h => ?_)), fun v => ?_⟩
  · exact hz (I.inj z x a' a b ha hx hb h)
  refine (R.view v).follow (by show _ ≤ H'.next; omega) (fun z a z' ha hz => ?_) (fun z a' b ha' hb hlt => ?_)
  · unfold gone at hz
    by_cases e : z = x
    · rw [if_pos e] at hz; cases hz
    · rw [if_neg e] at hz; cases hz
      exact ⟨a, by show upd _ _ _ _ = _; rw [upd_ne _ _ e]; exact ha, rfl⟩
  · by_cases e : z = x
    · subst e
      have ha' : upd w.own z (some o) z = some a' := ha'
      rw [upd_self] at ha'; cases ha'
      rw [hd] at hb; cases hb
      exact absurd hlt (Nat.lt_irrefl _)
    · have ha' : upd w.own x (some o) z = some a' := ha'
      rw [upd_ne _ _ e] at ha'
      exact ⟨z, a', ha', hb, by unfold gone; rw [if_neg e]⟩

/-- The value of a moved-from object. -/
theorem ObjVal.moved {H H' : Heap α} {o : Obj} {t : TObj α} (h : ObjVal H o t.val) : ObjVal H' { o with data := .null } t.moved.val := by
  unfold TObj.moved
  cases ht : t.val with
  | none =>
    rw [ht] at h
    exact ⟨rfl, h.2⟩
  | some v =>
    rw [ht] at h
    dsimp only [Option.bind_some]
    obtain ⟨h1, h2, h3, h4⟩ := h
    by_cases e : v.cells.length = 0
    · rw [if_pos e]; exact ⟨h1, h2, h3, Or.inl e⟩
    · rw [if_neg e]
      refine ⟨rfl, ?_⟩
      show 0 < o.shape.size
      omega

/-- Storage handed from `y` to `x`, whose own storage (if it had any) has been freed. -/
theorem TRel.hand {w : World α} {s : TState α} (I : WInv w.heap w.own) (R : TRel w s) {x y : Nat} (hne : x ≠ y) {ax : Option Obj} {t : Obj}
    (hx : w.own x = ax) (hy : w.own y = some t) {H' : Heap α} (hn : H'.next = w.heap.next)
    (hc : ∀ b i, (∀ a, ax = some a → a.data ≠ .at b 0) → H'.cellAt b i = w.heap.cellAt b i) {o : Obj}
    (hok : o.kind = t.kind) (hod : o.data = t.data) (hos : o.shape.size = t.shape.size) (hdim : o.dims = t.dims) :
    TRel ⟨H', upd (upd w.own y (some { t with data := .null })) x (some o), w.view⟩
      ⟨upd (upd s.own y ((s.own y).map TObj.moved)) x (s.own y), s.follow (handed x y)⟩ := by
  obtain ⟨t', ht', hk, hv⟩ := (hy ▸ R.own y).some_inv
  have hfr : ∀ z a b i, z ≠ x → w.own z = some a → a.data = .at b 0 → H'.cellAt b i = w.heap.cellAt b i := by
    intro z a b i hz ha hb
    refine hc b i (fun a' ha' h => ?_)
    rw [← hx] at ha'
    exact hz (I.inj z x a a' b ha ha' hb h)
  refine ⟨fun z => ?_, fun v => ?_⟩
  · show ObjRel H' (upd _ _ _ _) (upd _ _ _ _)
    by_cases e1 : z = x
    · subst e1
      rw [upd_self, upd_self, ht']
      refine ⟨hok.trans hk, ?_⟩
      have hv' : ObjVal w.heap o t'.val := by
        cases htv : t'.val with
        | none => rw [htv] at hv; exact ⟨hod.trans hv.1, by rw [hos]; exact hv.2⟩
        | some v =>
          rw [htv] at hv
          refine ⟨hdim.trans hv.1, hos.trans hv.2.1, hv.2.2.1, ?_⟩
          rw [hod]; exact hv.2.2.2
      exact hv'.frame (fun b i hb _ => hfr y t b i (Ne.symm hne) hy (hod ▸ hb))
    · rw [upd_ne _ _ e1, upd_ne _ _ e1]
      by_cases e2 : z = y
      · subst e2
        rw [upd_self, upd_self, ht']
        exact ⟨hk, hv.moved⟩
      · rw [upd_ne _ _ e2, upd_ne _ _ e2]
        exact (R.own z).frame (fun a b i ha hb _ => hfr z a b i e1 ha hb)
  · refine (R.view v).follow (by show _ ≤ H'.next; omega) (fun z a z' ha hz => ?_) (fun z a' b ha' hb hlt => ?_)
    · unfold handed at hz
      by_cases e1 : z = x
      · rw [if_pos e1] at hz; cases hz
      · rw [if_neg e1] at hz
        by_cases e2 : z = y
        · subst e2
          rw [if_pos rfl] at hz; cases hz
          rw [hy] at ha; cases ha
          exact ⟨o, upd_self _ _ _, hod⟩
        · rw [if_neg e2] at hz; cases hz
          exact ⟨a, by show upd _ _ _ _ = _; rw [upd_ne _ _ e1, upd_ne _ _ e2]; exact ha, rfl⟩
    · have ha' : upd (upd w.own y (some { t with data := .null })) x (some o) z = some a' := ha'
      by_cases e1 : z = x
      · subst e1
        rw [upd_self] at ha'; cases ha'
        exact ⟨y, t, hy, hod ▸ hb, by unfold handed; rw [if_neg (Ne.symm hne), if_pos rfl]⟩
      · rw [upd_ne _ _ e1] at ha'
        by_cases e2 : z = y
        · subst e2
          rw [upd_self] at ha'; cases ha'
          cases hb
        · rw [upd_ne _ _ e2] at ha'
          exact ⟨z, a', ha', hb, by unfold handed; rw [if_neg e1, if_neg e2]⟩

/-- The contents of `x` change, its storage does not move. -/
theorem TRel.content {w : World α} {s : TState α} (I : WInv w.heap w.own) (R : TRel w s) {x : Nat} {a : Obj} (hx : w.own x = some a)
    {H' : Heap α} (hn : H'.next = w.heap.next) (hc : ∀ b i, a.data ≠ .at b 0 → H'.cellAt b i = w.heap.cellAt b i)
    {t : TObj α} (ho : ObjRel H' (some a) (some t)) :
    TRel ⟨H', w.own, w.view⟩ ⟨upd s.own x (some t), s.view⟩ := by
  refine ⟨fun z => ?_, fun v => ?_⟩
  · show ObjRel H' (w.own z) (upd _ _ _ _)
    by_cases e : z = x
    · subst e; rw [upd_self, hx]; exact ho
    · rw [upd_ne _ _ e]
      exact (R.own z).frame (fun a' b i ha hb _ => hc b i (fun h => e (I.inj z x a' a b ha hx hb h)))
  · exact (R.view v).same (by show _ ≤ H'.next; omega) (fun z a ha => ⟨a, ha, rfl⟩) (fun z a' b ha' hb _ => ⟨a', ha', hb⟩)

theorem replicate_get {β : Type _} (n i : Nat) (a : β) (h : i < n) : (List.replicate n a)[i]? = some a := by
  rw [List.getElem?_replicate, if_pos h]

/-- Writing one element. -/
theorem ObjVal.write {H H' : Heap α} {o : Obj} {t : TObj α} {b i : Nat} {c : α} (h : ObjVal H o t.val) (hb : o.data = .at b 0)
    (hi : i < o.shape.size) (hc : ∀ j, H'.cellAt b j = if j = i then some (some c) else H.cellAt b j) :
    ObjVal H' o (t.write i c).val := by
  unfold TObj.write
  cases ht : t.val with
  | none => rw [ht] at h; exact h
  | some v =>
    rw [ht] at h
    obtain ⟨h1, h2, h3, h4⟩ := h
    refine ⟨h1, ?_, ?_, ?_⟩
    · simpa using h2
    · simpa using h3
    · rcases h4 with h0 | ⟨b', hb', hcs⟩
      · omega
      · rw [hb] at hb'; cases hb'
        refine Or.inr ⟨b, hb, fun j hj => ?_⟩
        have hj' : j < v.cells.length := by simpa using hj
        show H'.cellAt b j = (v.cells.set i (some c))[j]?
        rw [hc j, List.getElem?_set]
        by_cases e : j = i
        · subst e; simp [hj']
        · rw [if_neg e, if_neg (fun h => e h.symm)]; exact hcs j hj'

theorem step_sim {w : World α} {s : TState α} (I : WInv w.heap w.own) (R : TRel w s) (op : Op α) (hv : Valid w op) (hs : Sane w op) :
    Ok (w.step op) (fun w' => TRel w' (s.step op)) := by
  cases op with
  | defaultCtor x k =>
    have hx : w.own x = none := hv
    refine Ok_ok.2 ⟨ownRel_upd R.own x ⟨rfl, ?_, rfl, ?_, Or.inl rfl⟩ (fun _ _ _ _ _ _ _ _ => rfl), fun v => ?_⟩
    · cases k <;> rfl
    · cases k <;> rfl
    · refine (R.view v).same (Nat.le_refl _) (fun z a ha => ⟨a, ?_, rfl⟩) (fun z a' b ha' hb _ => ?_)
      · have : z ≠ x := by rintro rfl; rw [hx] at ha; cases ha
        show upd _ _ _ _ = _
        rw [upd_ne _ _ this]; exact ha
      · have ha' : upd w.own x _ z = some a' := ha'
        by_cases e : z = x
        · subst e; rw [upd_self] at ha'; cases ha'; cases hb
        · rw [upd_ne _ _ e] at ha'; exact ⟨a', ha', hb⟩
  | sizedCtor x k d h wd =>
    refine Ok_ok.2 (R.addNew I hv rfl (fun b i hb => ?_) rfl ⟨rfl, ?_⟩)
    · show (w.heap.new _).1.cellAt b i = _
      rw [Heap.new_cellAt, if_neg hb]
    · have e := prod_dims_ctor k d h wd hs.1 hs.2
      refine ObjVal.fresh (m := 0) (dims_ctor k _ d h wd) (by simpa using e) (by simp) (fun i hi => ?_)
      have hi : i < (k.dims d h wd).prod := by simpa using hi
      show (w.heap.new _).1.cellAt _ i = _
      rw [Heap.new_cellAt, if_pos rfl, replicate_get _ _ _ hi, if_pos (by rw [e]; exact hi)]
  | valueCtor x k d h wd v =>
    show Ok (Obj.valued w.heap k d h wd v >>= _) _
    unfold Obj.valued
    simp only [Obj.sized, bind_assoc_res, fillLoop_eq, pure_eq_ok, bind_ok]
    refine (new_loop (H := w.heap) (n := (ctorShape k d h wd).size) (Nat.le_refl _)
      (new := fun _ => some v) (fun _ _ _ _ => rfl)).bind (fun H' ⟨h1, h2, h3⟩ => Ok_ok.2 ?_)
    refine R.addNew I hv h1 (fun b i hb => by rw [h3, if_neg hb]) rfl ⟨rfl, ?_⟩
    have e := prod_dims_ctor k d h wd hs.1 hs.2
    refine ObjVal.fresh (m := 0) (dims_ctor k _ d h wd) (by simpa using e) (by simp) (fun i hi => ?_)
    have hi : i < (k.dims d h wd).prod := by simpa using hi
    rw [h3, if_pos rfl, replicate_get _ _ _ hi, if_pos (by rw [e]; exact hi)]
  | listCtor x k l =>
    show Ok (Obj.fromList w.heap k l >>= _) _
    unfold Obj.fromList
    simp only [bind_assoc_res, copyList_eq, pure_eq_ok, bind_ok]
    have hl : l.length < W64 := hs
    have hp : (k.dims 1 1 l.length).prod = l.length := by cases k <;> simp [Kind.dims]
    have e := prod_dims_ctor k 1 1 l.length (by rw [hp]; exact hl) (fun _ => by decide)
    rw [hp] at e
    refine (new_loop (H := w.heap) (n := (ctorShape k 1 1 l.length).size) (Nat.le_refl _)
      (new := fun i => l[i]?) (fun i hi _ _ => ?_)).bind (fun H' ⟨h1, h2, h3⟩ => Ok_ok.2 ?_)
    · have : i < l.length := by omega
      simp [this]
    · refine R.addNew I hv h1 (fun b i hb => by rw [h3, if_neg hb]) rfl ⟨rfl, ?_⟩
      refine ObjVal.fresh (m := 0) (dims_ctor k _ 1 1 l.length) (by simpa using e) (by simpa using hp) (fun i hi => ?_)
      have hi : i < l.length := by simpa using hi
      rw [h3, if_pos rfl, if_pos (by rw [e]; exact hi)]
      simp [hi]
  | copyCtor x y =>
    obtain ⟨hx, t, hy, hu⟩ := hv
    obtain ⟨t', ht', hk, hval⟩ := (hy ▸ R.own y).some_inv
    obtain ⟨v, hv'⟩ := hval.usable hu
    rw [hv'] at hval
    obtain ⟨v1, v2, v3, v4⟩ := hval
    show Ok (look w.own y >>= _) _
    simp only [look, hy, bind_ok]
    unfold Obj.copyCtor
    simp only [bind_assoc_res, copyLoop_eq, pure_eq_ok, bind_ok]
    have hs : (match t.kind with
      | .vec => t.shape.size = 0
      | .mat => t.shape.d = 1 ∧ t.shape.h < W64
      | .ten => True) := hs t hy
    have hsz : (copyCtorShape t).size = t.shape.size ∧ ∀ p, (⟨t.kind, p, copyCtorShape t⟩ : Obj).dims = t.dims := by
      unfold copyCtorShape Obj.dims
      cases hk : t.kind <;> simp only [hk] at hs <;> dsimp only
      · refine ⟨hs.symm ▸ rfl, fun _ => ?_⟩
        rw [hs]; rfl
      · obtain ⟨_, m2⟩ := I.mat y t hy hk
        have e : wmul t.shape.d t.shape.h = t.shape.h := by
          rw [hs.1]; unfold wmul; rw [Nat.one_mul]; exact Nat.mod_eq_of_lt hs.2
        rw [e]
        exact ⟨m2.symm, fun _ => rfl⟩
      · exact ⟨rfl, fun _ => rfl⟩
    obtain ⟨hsz, hdim⟩ := hsz
    have hrd : ∀ i, i < (copyCtorShape t).size → ∀ h' : Heap α, (∀ b o, b ≠ w.heap.next → h'.cellAt b o = w.heap.cellAt b o) →
        h'.cell t.data i = .ok ((v.cells[i]?).getD none) := by
      intro i hi h' hh
      rcases v4 with h0 | ⟨b, hb, hc⟩
      · omega
      · rw [hb]
        apply Heap.cell_of
        rw [Nat.zero_add, hh _ _ (I.old hy hb), hc i (by omega)]
        have : i < v.cells.length := by omega
        simp [this]
    refine (new_loop (H := w.heap) (n := t.shape.size) (m := (copyCtorShape t).size) (by omega)
      (new := fun i => (v.cells[i]?).getD none) hrd).bind (fun H' ⟨h1, h2, h3⟩ => Ok_ok.2 ?_)
    show TRel _ ⟨upd s.own x (s.own y), s.view⟩
    rw [ht']
    refine R.addNew I hx h1 (fun b i hb => by rw [h3, if_neg hb]) rfl ⟨hk, ?_⟩
    rw [hv']
    refine ObjVal.fresh (m := 0) ((hdim _).trans v1) (by omega) v3 (fun i hi => ?_)
    rw [h3, if_pos rfl, if_pos (by omega)]
    simp [hi]
  | moveCtor x y =>
    obtain ⟨hx, t, hy⟩ := hv
    show Ok (look w.own y >>= _) _
    simp only [look, hy, bind_ok]
    refine Ok_ok.2 ?_
    exact R.hand I (by rintro rfl; rw [hx] at hy; cases hy) hx hy rfl (fun _ _ _ => rfl) rfl rfl rfl rfl
  | copyAssign x y =>
    obtain ⟨a, t, hx, hy, hk, hc⟩ := hv
    show Ok (look w.own x >>= _) _
    simp only [look, hx, hy, bind_ok]
    by_cases e : x = y
    · rw [if_pos e]
      refine Ok_ok.2 ?_
      show TRel w (if x = y then s else _)
      rw [if_pos e]; exact R
    rw [if_neg e]
    obtain ⟨hu, hsz⟩ := hc e
    have hs : ∀ a t, w.own x = some a → w.own y = some t → a.kind ≠ .vec → a.shape.size = t.shape.size := hs
    have hs := hs a t hx hy
    obtain ⟨t', ht', hk', hval⟩ := (hy ▸ R.own y).some_inv
    obtain ⟨v, hv'⟩ := hval.usable hu
    rw [hv'] at hval
    obtain ⟨v1, v2, v3, v4⟩ := hval
    unfold Obj.copyAssign
    simp only [bind_assoc_res]
    refine (I.drop hx).bind (fun H1 ⟨I1, n1, c1, _⟩ => ?_)
    have main : ∀ (m : Nat) (sh : Shape), m = t.shape.size → sh.size = t.shape.size →
        (∀ p, (⟨a.kind, p, sh⟩ : Obj).dims = t.dims) →
        Ok (ewLoop (fun h i => h.cell t.data i) (H1.new t.shape.size).1 (.at H1.next 0) m >>=
          fun H' => (.ok { w with heap := H', own := upd w.own x (some ⟨a.kind, .at H1.next 0, sh⟩) } : Res (World α)))
          (fun w' => TRel w' (s.step (.copyAssign x y))) := by
      intro m sh hm hsh hdim
      have hrd : ∀ i, i < m → ∀ h' : Heap α, (∀ b o, b ≠ H1.next → h'.cellAt b o = H1.cellAt b o) →
          h'.cell t.data i = .ok ((v.cells[i]?).getD none) := by
        intro i hi h' hh
        rcases v4 with h0 | ⟨b, hb, hc⟩
        · omega
        · rw [hb]
          apply Heap.cell_of
          have hne : a.data ≠ .at b 0 := fun h => e (I.inj x y a t b hx hy h hb)
          have hnx : b ≠ H1.next := by rw [n1]; exact I.old hy hb
          rw [Nat.zero_add, hh _ _ hnx, c1 _ _ hne, hc i (by omega)]
          have : i < v.cells.length := by omega
          simp [this]
      refine (new_loop (H := H1) (n := t.shape.size) (m := m) (by omega) (new := fun i => (v.cells[i]?).getD none) hrd).bind
        (fun H' ⟨h1, h2, h3⟩ => Ok_ok.2 ?_)
      show TRel _ (if x = y then s else _)
      rw [if_neg e, ht']
      refine R.renew I hx (by rw [h1, n1]) (fun b i hb hne => ?_) (by show Ptr.at H1.next 0 = _; rw [n1]) ⟨hk.trans hk', ?_⟩
      · rw [h3, if_neg (by rw [n1]; exact hb), c1 _ _ hne]
      · rw [hv']
        refine ObjVal.fresh (m := 0) ((hdim _).trans v1) (by omega) v3 (fun i hi => ?_)
        rw [h3, if_pos rfl, if_pos (by omega)]
        simp [hi]
    have hdims : t.dims = (match a.kind with
      | .vec => [t.shape.size]
      | .mat => [t.shape.h, t.shape.w]
      | .ten => [t.shape.d, t.shape.h, t.shape.w]) := by unfold Obj.dims; rw [hk]; cases t.kind <;> rfl
    cases hak : a.kind <;> simp only [hak, bind_assoc_res, pure_eq_ok, bind_ok, copyLoop_eq] at main hdims ⊢
    · exact main _ { a.shape with w := t.shape.w, size := t.shape.size } rfl rfl (fun p => hdims.symm)
    · exact main _ { a.shape with h := t.shape.h, w := t.shape.w, size := t.shape.size }
        (hs (by rw [hak]; intro h; cases h)) rfl (fun p => hdims.symm)
    · exact main _ t.shape (hs (by rw [hak]; intro h; cases h)) rfl (fun p => hdims.symm)
  | moveAssign x y =>
    obtain ⟨a, t, hx, hy, hk⟩ := hv
    show Ok (look w.own x >>= _) _
    simp only [look, hx, hy, bind_ok]
    by_cases e : x = y
    · rw [if_pos e]
      refine Ok_ok.2 ?_
      show TRel w (if x = y then s else _)
      rw [if_pos e]; exact R
    rw [if_neg e]
    unfold Obj.moveAssign
    simp only [bind_assoc_res]
    refine (I.drop hx).bind (fun H1 ⟨I1, n1, c1, _⟩ => ?_)
    simp only [pure_eq_ok, bind_ok]
    refine Ok_ok.2 ?_
    show TRel _ (if x = y then s else _)
    rw [if_neg e]
    refine R.hand I e (ax := some a) hx hy n1 (fun b i h => c1 b i (h a rfl)) hk rfl ?_ ?_
    · cases a.kind <;> rfl
    · unfold Obj.dims
      rw [← hk]
      cases a.kind <;> rfl
  | resize x d h wd =>
    obtain ⟨a, hx⟩ := hv
    have hs : ∀ a, w.own x = some a → (a.kind.dims d h wd).prod < W64 ∧ (a.kind = .ten → d * h < W64) := hs
    obtain ⟨hs1, hs2⟩ := hs a hx
    obtain ⟨t', ht', hk', hval⟩ := (hx ▸ R.own x).some_inv
    show Ok (look w.own x >>= _) _
    simp only [look, hx, bind_ok]
    unfold Obj.resize
    simp only [bind_assoc_res]
    refine (I.drop hx).bind (fun H1 ⟨I1, n1, c1, _⟩ => ?_)
    have main : ∀ (n : Nat) (sh : Shape), sh.size = n → (a.kind.dims d h wd).prod = n → (∀ p, (⟨a.kind, p, sh⟩ : Obj).dims = a.kind.dims d h wd) →
        TRel (⟨(H1.new n).1, upd w.own x (some ⟨a.kind, .at H1.next 0, sh⟩), w.view⟩ : World α) (s.step (.resize x d h wd)) := by
      intro n sh hsh hp hd
      show TRel _ ⟨upd s.own x ((s.own x).map _), s.follow (gone x)⟩
      rw [ht']
      refine R.renew I hx (by show H1.next + 1 = _; rw [n1]) (fun b i hb hne => ?_) (by show Ptr.at H1.next 0 = _; rw [n1]) ⟨hk', ?_⟩
      · show (H1.new n).1.cellAt b i = _
        rw [Heap.new_cellAt, if_neg (by rw [n1]; exact hb), c1 _ _ hne]
      · refine ObjVal.fresh (m := 0) ?_ ?_ ?_ (fun i hi => ?_)
        · rw [hd, hk']
        · rw [hsh, ← hk', hp]; simp
        · simp
        · have hi : i < (t'.kind.dims d h wd).prod := by simpa using hi
          rw [Heap.new_cellAt, if_pos rfl, replicate_get _ _ _ hi, if_pos (by rw [← hp, hk']; exact hi)]
    cases hak : a.kind <;> simp only [hak, pure_eq_ok, bind_ok] at main hs1 hs2 ⊢ <;> refine Ok_ok.2 ?_
    · have hw : wmul (wmul 1 wd) 1 = wd := by
        have : wd < W64 := by simpa [Kind.dims] using hs1
        rw [wmul_one_left]; unfold wmul; rw [Nat.mul_one]; exact Nat.mod_eq_of_lt this
      refine main wd (Shape.mk3 1 wd 1) hw (by simp [Kind.dims]) (fun p => ?_)
      show [wmul (wmul 1 wd) 1] = [wd]
      rw [hw]
    · refine main _ { a.shape with h := h, w := wd, size := wmul h wd } rfl ?_ (fun p => rfl)
      exact (prod_dims_ctor .mat d h wd hs1 hs2).symm
    · refine main _ (Shape.mk3 d h wd) rfl ?_ (fun p => rfl)
      exact (prod_dims_ctor .ten d h wd hs1 (fun _ => hs2 trivial)).symm
  | reshape x d h wd =>
    obtain ⟨a, hx, hr⟩ := hv
    have hs : ∀ a, w.own x = some a → (a.kind.dims d h wd).prod = a.shape.size := hs
    have hs := hs a hx
    obtain ⟨t', ht', hk', hval⟩ := (hx ▸ R.own x).some_inv
    show Ok (look w.own x >>= _) _
    simp only [look, hx, bind_ok]
    have hd : (a.reshape d h wd).data = a.data := by unfold Obj.reshape; cases a.kind <;> rfl
    have hkd : (a.reshape d h wd).kind = a.kind := by unfold Obj.reshape; cases a.kind <;> rfl
    have hsz : (a.reshape d h wd).shape.size = a.shape.size := by unfold Obj.reshape; cases a.kind <;> rfl
    have hdim : (a.reshape d h wd).dims = a.kind.dims d h wd := by
      unfold Obj.dims
      rw [hkd]
      cases hk : a.kind
      · show [(a.reshape d h wd).shape.size] = [wd]
        rw [hsz, ← hs, hk]; simp [Kind.dims]
      · unfold Obj.reshape; rw [hk]; rfl
      · unfold Obj.reshape; rw [hk]; rfl
    refine Ok_ok.2 ?_
    show TRel _ ⟨upd s.own x ((s.own x).map _), s.view⟩
    refine ⟨ownRel_upd R.own x ?_ (fun _ _ _ _ _ _ _ _ => rfl), fun v => ?_⟩
    · rw [ht']
      refine ⟨hkd.trans hk', ?_⟩
      show ObjVal w.heap _ (t'.val.map _)
      cases hv : t'.val with
      | none => rw [hv] at hval; exact ⟨hd.trans hval.1, by rw [hsz]; exact hval.2⟩
      | some v =>
        rw [hv] at hval
        obtain ⟨v1, v2, v3, v4⟩ := hval
        refine ⟨by rw [hdim, hk'], hsz.trans v2, ?_, by rw [hd]; exact v4⟩
        show (t'.kind.dims d h wd).prod = v.cells.length
        rw [← hk', hs, v2]
    · refine (R.view v).same (Nat.le_refl _) (fun z b hb => ?_) (fun z a' b ha' hb _ => ?_)
      · show ∃ a', upd _ _ _ _ = _ ∧ _
        by_cases e : z = x
        · subst e; rw [hx] at hb; cases hb
          exact ⟨_, upd_self _ _ _, hd⟩
        · exact ⟨b, by rw [upd_ne _ _ e]; exact hb, rfl⟩
      · have ha' : upd w.own x _ z = some a' := ha'
        by_cases e : z = x
        · subst e; rw [upd_self] at ha'; cases ha'
          exact ⟨a, hx, hd ▸ hb⟩
        · rw [upd_ne _ _ e] at ha'; exact ⟨a', ha', hb⟩
  | fill x c =>
    obtain ⟨a, hx, hu⟩ := hv
    obtain ⟨t', ht', hk', hval⟩ := (hx ▸ R.own x).some_inv
    obtain ⟨v, hv'⟩ := hval.usable hu
    rw [hv'] at hval
    obtain ⟨v1, v2, v3, v4⟩ := hval
    show Ok (look w.own x >>= _) _
    simp only [look, hx, bind_ok]
    unfold Obj.fill
    rw [fillLoop_eq]
    have hst : ∀ H' : Heap α, H'.next = w.heap.next → (∀ b i, a.data ≠ .at b 0 → H'.cellAt b i = w.heap.cellAt b i) →
        (a.shape.size = 0 ∨ ∃ b, a.data = .at b 0 ∧ ∀ i, i < a.shape.size → H'.cellAt b i = some (some c)) →
        TRel ⟨H', w.own, w.view⟩ (s.step (.fill x c)) := by
      intro H' hn hc hcell
      show TRel _ ⟨upd s.own x ((s.own x).map _), s.view⟩
      rw [ht']
      refine R.content I hx hn hc ⟨hk', ?_⟩
      show ObjVal H' a (t'.val.map _)
      rw [hv']
      refine ⟨v1, by simpa using v2, by simpa using v3, ?_⟩
      rcases hcell with h0 | ⟨b, hb, hcb⟩
      · exact Or.inl (by simpa using (by omega : v.cells.length = 0))
      · refine Or.inr ⟨b, hb, fun i hi => ?_⟩
        have hi : i < v.cells.length := by simpa using hi
        show H'.cellAt b i = (List.replicate v.cells.length (some c))[i]?
        rw [hcb i (by omega), replicate_get _ _ _ hi]
    rcases hu.storage I hx with h0 | ⟨b, h1, h2, h3⟩
    · rw [h0, ewLoop_zero]
      exact Ok_ok.2 (hst w.heap rfl (fun _ _ _ => rfl) (Or.inl h0))
    · rw [h1]
      refine (ewLoop_spec (new := fun _ => some c) (by simpa using h3) (fun _ _ _ _ => rfl)).bind
        (fun H' hh => Ok_ok.2 ?_)
      refine hst H' hh.1 (fun b' i hne => ?_) (Or.inr ⟨b, h1, fun i hi => ?_⟩)
      · have : b' ≠ b := fun h => hne (h ▸ h1)
        rw [hh.2.2, overlay, if_neg (fun h => this h.1)]
      · rw [hh.2.2, overlay, if_pos ⟨rfl, Nat.zero_le _, by omega⟩]
  | write x i c =>
    obtain ⟨a, hx, hu, hi⟩ := hv
    obtain ⟨t', ht', hk', hval⟩ := (hx ▸ R.own x).some_inv
    show Ok (look w.own x >>= _) _
    simp only [look, hx, bind_ok]
    unfold Obj.set1 Heap.store
    rcases hu.storage I hx with h0 | ⟨b, h1, h2, h3⟩
    · omega
    · rw [h1]
      obtain ⟨c', hc⟩ := Option.isSome_iff_exists.1 (h3 i hi)
      refine (Heap.put_spec (some c) (c₀ := c') (by rw [Nat.zero_add]; exact hc)).bind (fun H' hh => Ok_ok.2 ?_)
      show TRel _ ⟨upd s.own x ((s.own x).map _), s.view⟩
      rw [ht']
      refine R.content I hx hh.1 (fun b' j hne => ?_) ⟨hk', hval.write h1 hi (fun j => ?_)⟩
      · have : b' ≠ b := fun h => hne (h ▸ h1)
        rw [hh.2.2]; dsimp only; rw [if_neg (fun h => this h.1)]
      · rw [hh.2.2]; dsimp only; rw [Nat.zero_add]; simp
  | destroy x =>
    obtain ⟨a, hx⟩ := hv
    show Ok (look w.own x >>= _) _
    simp only [look, hx, bind_ok]
    refine (I.drop hx).bind (fun H1 ⟨I1, n1, c1, _⟩ => Ok_ok.2 ?_)
    refine ⟨ownRel_upd R.own x trivial (fun z a' b i hz ha hb _ => c1 b i (fun h => hz (I.inj z x a' a b ha hx hb h))), fun v => ?_⟩
    refine (R.view v).follow (by show _ ≤ H1.next; omega) (fun z b z' hb hz => ?_) (fun z a' b ha' hb _ => ?_)
    · unfold gone at hz
      by_cases e : z = x
      · rw [if_pos e] at hz; cases hz
      · rw [if_neg e] at hz; cases hz
        exact ⟨b, by show upd _ _ _ _ = _; rw [upd_ne _ _ e]; exact hb, rfl⟩
    · have ha' : upd w.own x none z = some a' := ha'
      by_cases e : z = x
      · subst e; rw [upd_self] at ha'; cases ha'
      · rw [upd_ne _ _ e] at ha'
        exact ⟨z, a', ha', hb, by unfold gone; rw [if_neg e]⟩
  | viewMake v x =>
    obtain ⟨a, hx⟩ := hv
    have hs : ∀ a, w.own x = some a → a.Usable ∧ a.Plain := hs
    obtain ⟨hu, hpl⟩ := hs a hx
    obtain ⟨t', ht', hk', hval⟩ := (hx ▸ R.own x).some_inv
    obtain ⟨tv, hv'⟩ := hval.usable hu
    rw [hv'] at hval
    obtain ⟨v1, v2, v3, v4⟩ := hval
    show Ok (look w.own x >>= _) _
    simp only [look, hx, bind_ok]
    refine Ok_ok.2 ⟨R.own, fun u => ?_⟩
    show ViewRel w.own w.heap.next (upd _ _ _ u) (upd _ _ _ u)
    by_cases e : u = v
    · subst e
      rw [upd_self, upd_self, ht']
      dsimp only [Option.bind_some]
      rw [hv']
      have hvd : (Obj.viewOf a.kind a.shape a.data).data = a.data := by cases a.kind <;> rfl
      have hvk : (Obj.viewOf a.kind a.shape a.data).kind = a.kind := by cases a.kind <;> rfl
      have hvs : (Obj.viewOf a.kind a.shape a.data).shape.size = a.shape.size ∧ (Obj.viewOf a.kind a.shape a.data).dims = a.dims := by
        unfold Obj.dims
        rw [hvk]
        unfold Obj.Plain at hpl
        cases hk : a.kind <;> simp only [hk] at hpl <;> dsimp only [Obj.viewOf]
        · exact ⟨hpl, by rw [show (Shape.mk1 a.shape.w).size = a.shape.w from rfl, hpl]⟩
        · obtain ⟨_, m2⟩ := I.mat x a hx hk
          rw [hpl.1]
          have hle : wmul 1 a.shape.h = a.shape.h := by
            unfold wmul; rw [Nat.one_mul]
            exact Nat.mod_eq_of_lt hpl.2
          refine ⟨?_, ?_⟩
          · show wmul (wmul 1 a.shape.h) a.shape.w = _
            rw [wmul_one_left, m2]
          · show [wmul 1 a.shape.h, a.shape.w] = _
            rw [hle]
        · exact ⟨rfl, rfl⟩
      refine ⟨hvk.trans hk', hvs.2.trans v1, ?_, fun z hz => ?_, fun z b bb hz hb ho => ?_, fun b i hb => ?_⟩
      · show _ = tv.dims.prod
        rw [hvs.1, v2, v3]
      · cases hz; exact ⟨a, hx, hvd.symm⟩
      · rw [hvd] at ho
        rw [I.inj z x b a bb hz hx hb ho]
      · rw [hvd] at hb
        rcases I.owned x a hx with h | ⟨b', h1, h2, _⟩
        · rw [h] at hb; cases hb
        · rw [h1] at hb; cases hb; exact I.fresh _ h2
    · rw [upd_ne _ _ e, upd_ne _ _ e]; exact R.view u
  | viewCopy v u =>
    obtain ⟨a, hx⟩ := hv
    show Ok (look w.view u >>= _) _
    simp only [look, hx, bind_ok]
    refine Ok_ok.2 ⟨R.own, fun z => ?_⟩
    show ViewRel w.own w.heap.next (upd _ _ _ z) (upd _ _ _ z)
    by_cases e : z = v
    · subst e; rw [upd_self, upd_self, ← hx]; exact R.view u
    · rw [upd_ne _ _ e, upd_ne _ _ e]; exact R.view z
  | viewAssign v u =>
    obtain ⟨a, t, hx, hy⟩ := hv
    have hs : ∀ a t, w.view v = some a → w.view u = some t → a.kind = t.kind := hs
    have hk := hs a t hx hy
    show Ok (look w.view v >>= _) _
    simp only [look, hx, hy, bind_ok]
    by_cases e : v = u
    · rw [if_pos e]
      refine Ok_ok.2 ⟨R.own, fun z => ?_⟩
      show ViewRel w.own w.heap.next (w.view z) (upd _ _ _ z)
      subst e
      by_cases e : z = v
      · subst e; rw [upd_self]; exact R.view z
      · rw [upd_ne _ _ e]; exact R.view z
    · rw [if_neg e]
      refine Ok_ok.2 ⟨R.own, fun z => ?_⟩
      show ViewRel w.own w.heap.next (upd _ _ _ z) (upd _ _ _ z)
      by_cases e : z = v
      · subst e; rw [upd_self, upd_self]
        obtain ⟨t', ht', r1, r2, r3, r4, r5, r6⟩ := (hy ▸ R.view u).some_inv
        rw [ht']
        have hd : (a.viewAssign t).data = t.data := by unfold Obj.viewAssign; cases a.kind <;> rfl
        have hkk : (a.viewAssign t).kind = a.kind := by unfold Obj.viewAssign; cases a.kind <;> rfl
        have hsz : (a.viewAssign t).shape.size = t.shape.size := by unfold Obj.viewAssign; cases a.kind <;> rfl
        have hdm : (a.viewAssign t).dims = t.dims := by
          unfold Obj.dims
          rw [hkk, ← hk]
          unfold Obj.viewAssign
          cases a.kind <;> rfl
        refine ⟨(hkk.trans hk).trans r1, hdm.trans r2, hsz.trans r3, ?_, ?_, ?_⟩
        · rw [hd]; exact r4
        · rw [hd]; exact r5
        · rw [hd]; exact r6
      · rw [upd_ne _ _ e, upd_ne _ _ e]; exact R.view z
  | viewWrite v i c =>
    obtain ⟨a, x, o, hv', hx, hd, hu, hi⟩ := hv
    obtain ⟨t', ht', hk', hval⟩ := (hx ▸ R.own x).some_inv
    obtain ⟨tv, htv, r1, r2, r3, r4, r5, r6⟩ := (hv' ▸ R.view v).some_inv
    show Ok (look w.view v >>= _) _
    simp only [look, hv', bind_ok]
    unfold Obj.set1 Heap.store
    rcases hu.storage I hx with h0 | ⟨b, h1, h2, h3⟩
    · omega
    · rw [← hd, h1]
      obtain ⟨c', hc⟩ := Option.isSome_iff_exists.1 (h3 i hi)
      refine (Heap.put_spec (some c) (c₀ := c') (by rw [Nat.zero_add]; exact hc)).bind (fun H' hh => Ok_ok.2 ?_)
      have htg : tv.target = some x := r5 x o b hx h1 (hd ▸ h1)
      have hst : s.step (.viewWrite v i c) = ⟨upd s.own x ((s.own x).map (TObj.write · i c)), s.view⟩ := by
        show (match (s.view v).bind (·.target) with
          | some x => ({ s with own := upd s.own x ((s.own x).map (TObj.write · i c)) } : TState α)
          | none => s) = _
        rw [htv]; dsimp only [Option.bind_some]; rw [htg]
      rw [hst, ht']
      refine R.content I hx hh.1 (fun b' j hne => ?_) ⟨hk', hval.write h1 hi (fun j => ?_)⟩
      · have : b' ≠ b := fun h => hne (h ▸ h1)
        rw [hh.2.2]; dsimp only; rw [if_neg (fun h => this h.1)]
      · rw [hh.2.2]; dsimp only; rw [Nat.zero_add]; simp
  | viewDestroy v =>
    obtain ⟨a, hx⟩ := hv
    show Ok (look w.view v >>= _) _
    simp only [look, hx, bind_ok]
    refine Ok_ok.2 ⟨R.own, fun z => ?_⟩
    show ViewRel w.own w.heap.next (upd _ _ _ z) (upd _ _ _ z)
    by_cases e : z = v
    · subst e; rw [upd_self, upd_self]; trivial
    · rw [upd_ne _ _ e, upd_ne _ _ e]; exact R.view z
  | swap x y =>
    obtain ⟨a, t, hx, hy, hk⟩ := hv
    have ea : (a.swap t).1 = t := by cases a; cases t; cases hk; rfl
    have et : (a.swap t).2 = a := by cases a; cases t; cases hk; rfl
    show Ok (look w.own x >>= _) _
    simp only [look, hx, hy, bind_ok]
    rw [ea, et]
    refine Ok_ok.2 ⟨fun z => ?_, fun v => ?_⟩
    · show ObjRel w.heap (upd _ _ _ z) (upd _ _ _ z)
      by_cases e1 : z = x
      · subst e1; rw [upd_self, upd_self, ← hy]; exact R.own y
      · rw [upd_ne _ _ e1, upd_ne _ _ e1]
        by_cases e2 : z = y
        · subst e2; rw [upd_self, upd_self, ← hx]; exact R.own x
        · rw [upd_ne _ _ e2, upd_ne _ _ e2]; exact R.own z
    · refine (R.view v).follow (Nat.le_refl _) (fun z b z' hb hz => ?_) (fun z a' b ha' hb _ => ?_)
      · unfold exchanged at hz
        show ∃ a', upd _ _ _ _ = _ ∧ _
        by_cases e1 : z = x
        · subst e1
          rw [if_pos rfl] at hz; cases hz
          rw [hx] at hb; cases hb
          by_cases e2 : y = z
          · subst e2
            rw [hx] at hy; cases hy
            exact ⟨_, upd_self _ _ _, rfl⟩
          · exact ⟨a, by rw [upd_ne _ _ e2, upd_self], rfl⟩
        · rw [if_neg e1] at hz
          by_cases e2 : z = y
          · subst e2
            rw [if_pos rfl] at hz; cases hz
            rw [hy] at hb; cases hb
            exact ⟨_, upd_self _ _ _, rfl⟩
          · rw [if_neg e2] at hz; cases hz
            exact ⟨b, by rw [upd_ne _ _ e1, upd_ne _ _ e2]; exact hb, rfl⟩
      · have ha' : upd (upd w.own y (some a)) x (some t) z = some a' := ha'
        unfold exchanged
        by_cases e1 : z = x
        · subst e1
          rw [upd_self] at ha'; cases ha'
          refine ⟨y, _, hy, hb, ?_⟩
          by_cases e2 : y = z
          · rw [if_pos e2, e2]
          · rw [if_neg e2, if_pos rfl]
        · rw [upd_ne _ _ e1] at ha'
          by_cases e2 : z = y
          · subst e2
            rw [upd_self] at ha'; cases ha'
            exact ⟨x, _, hx, hb, by rw [if_pos rfl]⟩
          · rw [upd_ne _ _ e2] at ha'
            exact ⟨z, a', ha', hb, by rw [if_neg e1, if_neg e2]⟩
  | viewSwap v u =>
    obtain ⟨a, t, hx, hy⟩ := hv
    have hs : ∀ a t, w.view v = some a → w.view u = some t → a.kind = t.kind := hs
    have hk := hs a t hx hy
    have ea : (a.swap t).1 = t := by cases a; cases t; cases hk; rfl
    have et : (a.swap t).2 = a := by cases a; cases t; cases hk; rfl
    show Ok (look w.view v >>= _) _
    simp only [look, hx, hy, bind_ok]
    rw [ea, et]
    refine Ok_ok.2 ⟨R.own, fun z => ?_⟩
    show ViewRel w.own w.heap.next (upd _ _ _ z) (upd _ _ _ z)
    by_cases e1 : z = v
    · subst e1; rw [upd_self, upd_self, ← hy]; exact R.view u
    · rw [upd_ne _ _ e1, upd_ne _ _ e1]
      by_cases e2 : z = u
      · subst e2; rw [upd_self, upd_self, ← hx]; exact R.view v
      · rw [upd_ne _ _ e2, upd_ne _ _ e2]; exact R.view z

end Trixy
