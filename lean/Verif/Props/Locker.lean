import Verif.Spec.Locker
import Verif.Props.Memory
/- C75: lockers. -/
namespace Trixy

variable {α : Type _}

theorem look_of {m : Nat → Option Obj} {x : Nat} {a : Obj} (h : m x = some a) : look m x = .ok a := by simp [look, h]

/-- Owned ranges never clobber each other. -/
theorem WInv.noClobber {H : Heap α} {own} (I : WInv H own) {x y : Nat} {a t : Obj} (hx : own x = some a) (hy : own y = some t)
    (n : Nat) : NoClobber a.data t.data n := by
  intro pb po qb qo h1 h2 _
  rcases I.owned x a hx with h | ⟨b, h, _⟩
  · rw [h] at h1; cases h1
  · rw [h] at h1; cases h1
    exact Or.inl (Nat.zero_le _)

theorem WInv.room {H : Heap α} {own} (I : WInv H own) {x : Nat} {a : Obj} (hx : own x = some a) (hu : a.Usable) :
    H.Room a.data a.shape.size := by
  rcases hu.storage I hx with h0 | ⟨b, h1, _, h3⟩
  · exact Or.inl h0
  · exact Or.inr ⟨b, 0, h1, by simpa using h3⟩

theorem WInv.write {H H' : Heap α} {own} (I : WInv H own) {p : Ptr} {n : Nat} {f : Nat → α} (h1 : H'.Holds p n f)
    (h2 : H.SameExcept H' p n) : WInv H' own := by
  refine I.content h2.1 h2.2.1 (fun b o hc => ?_)
  by_cases hin : ∃ pb po, p = .at pb po ∧ b = pb ∧ po ≤ o ∧ o < po + n
  · obtain ⟨pb, po, rfl, rfl, h3, h4⟩ := hin
    rcases h1 with h | ⟨b', o', e, h5⟩
    · omega
    · cases e
      have := h5 (o - po) (by omega)
      rw [show po + (o - po) = o by omega] at this
      rw [this]; rfl
  · rw [h2.2.2 b o (fun pb po e hb => hin ⟨pb, po, e, hb⟩)]
    exact hc

theorem copyList_spec (H : Heap α) (p : Ptr) (n : Nat) (l : List α) (d : α) (hl : n ≤ l.length) (hp : H.Room p n) :
    Ok (copyList H p n l) (fun H' => H'.Holds p n (fun i => l.getD i d) ∧ H.SameExcept H' p n) := by
  rw [copyList_eq]
  refine ewLoop_total hp (fun _ _ _ i hi _ _ => ?_)
  have : l[i]? = some (l.getD i d) := by
    rw [List.getD_eq_getElem?_getD, List.getElem?_eq_getElem (by omega)]; rfl
  rw [this]

/-- Same named objects, and the storage changed only inside the target. -/
theorem estep_inv [Add α] [Sub α] [Mul α] {w : World α} (I : WInv w.heap w.own) (e : EOp α) (hv : EValid w e) :
    Ok (w.estep e) (fun w' => WInv w'.heap w'.own ∧ w'.own = w.own ∧ w'.view = w.view) := by
  have fin : ∀ {r : Res (Heap α)} {p : Ptr} {n : Nat} {f : Nat → α},
      Ok r (fun H' => H'.Holds p n f ∧ w.heap.SameExcept H' p n) →
      Ok (r >>= fun H => pure { w with heap := H }) (fun w' => WInv w'.heap w'.own ∧ w'.own = w.own ∧ w'.view = w.view) := by
    intro r p n f h
    exact h.bind (fun H' ⟨h1, h2⟩ => Ok_ok.2 ⟨I.write h1 h2, rfl, rfl⟩)
  cases e with
  | copyList x l =>
    obtain ⟨n, ⟨a, hx, hu, rfl⟩, hl⟩ := hv
    show Ok (look w.own x >>= _) _
    rw [look_of hx, bind_ok]
    have hr := I.room hx hu
    cases l with
    | nil =>
      have : a.shape.size = 0 := by simpa using hl
      rw [this]
      exact Ok_ok.2 ⟨I, rfl, rfl⟩
    | cons d l => exact fin (copyList_spec w.heap a.data a.shape.size (d :: l) d hl hr)
  | copy x y =>
    obtain ⟨n, ⟨a, hx, hu, rfl⟩, t, f, hy, hf⟩ := hv
    show Ok (look w.own x >>= _) _
    rw [look_of hx, bind_ok, look_of hy, bind_ok]
    refine fin (C08_copy w.heap a t (x == y) f (I.room hx hu) hf (fun h => ?_) (I.noClobber hx hy _))
    have : x = y := by simpa using h
    subst this; rw [hx] at hy; cases hy; rfl
  | fillGen x gen g =>
    obtain ⟨n, a, hx, hu, rfl⟩ := hv
    show Ok (look w.own x >>= _) _
    rw [look_of hx, bind_ok]
    exact (C08_fill_generator w.heap a gen g (I.room hx hu)).bind (fun ⟨H', _⟩ ⟨h1, h2, _⟩ => Ok_ok.2 ⟨I.write h1 h2, rfl, rfl⟩)
  | apply x φ =>
    obtain ⟨n, ⟨a, hx, hu, rfl⟩, t, f, hy, hf⟩ := hv
    rw [hx] at hy; cases hy
    show Ok (look w.own x >>= _) _
    rw [look_of hx, bind_ok]
    exact fin (C08_apply w.heap a φ f hf)
  | apply2 x φ y =>
    obtain ⟨n, ⟨a, hx, hu, rfl⟩, t, f, hy, hf⟩ := hv
    show Ok (look w.own x >>= _) _
    rw [look_of hx, bind_ok, look_of hy, bind_ok]
    exact fin (C08_apply2 w.heap a t φ f (I.room hx hu) hf (I.noClobber hx hy _))
  | add x y =>
    obtain ⟨n, ⟨a, hx, hu, rfl⟩, ⟨a', g, hx', hg⟩, t, f, hy, hf⟩ := hv
    rw [hx] at hx'; cases hx'
    show Ok (look w.own x >>= _) _
    rw [look_of hx, bind_ok, look_of hy, bind_ok]
    exact fin (C08_add w.heap a t g f hg hf (I.noClobber hx hy _))
  | sub x y =>
    obtain ⟨n, ⟨a, hx, hu, rfl⟩, ⟨a', g, hx', hg⟩, t, f, hy, hf⟩ := hv
    rw [hx] at hx'; cases hx'
    show Ok (look w.own x >>= _) _
    rw [look_of hx, bind_ok, look_of hy, bind_ok]
    exact fin (C08_sub w.heap a t g f hg hf (I.noClobber hx hy _))
  | mul x y =>
    obtain ⟨n, ⟨a, hx, hu, rfl⟩, ⟨a', g, hx', hg⟩, t, f, hy, hf⟩ := hv
    rw [hx] at hx'; cases hx'
    show Ok (look w.own x >>= _) _
    rw [look_of hx, bind_ok, look_of hy, bind_ok]
    exact fin (C08_mul w.heap a t g f hg hf (I.noClobber hx hy _))
  | add2 x y z =>
    obtain ⟨n, ⟨a, hx, hu, rfl⟩, ⟨t, f, hy, hf⟩, u, g, hz, hg⟩ := hv
    show Ok (look w.own x >>= _) _
    rw [look_of hx, bind_ok, look_of hy, bind_ok, look_of hz, bind_ok]
    exact fin (C08_add2 w.heap a t u f g (I.room hx hu) hf hg (I.noClobber hx hy _) (I.noClobber hx hz _))
  | sub2 x y z =>
    obtain ⟨n, ⟨a, hx, hu, rfl⟩, ⟨t, f, hy, hf⟩, u, g, hz, hg⟩ := hv
    show Ok (look w.own x >>= _) _
    rw [look_of hx, bind_ok, look_of hy, bind_ok, look_of hz, bind_ok]
    exact fin (C08_sub2 w.heap a t u f g (I.room hx hu) hf hg (I.noClobber hx hy _) (I.noClobber hx hz _))
  | mul2 x y z =>
    obtain ⟨n, ⟨a, hx, hu, rfl⟩, ⟨t, f, hy, hf⟩, u, g, hz, hg⟩ := hv
    show Ok (look w.own x >>= _) _
    rw [look_of hx, bind_ok, look_of hy, bind_ok, look_of hz, bind_ok]
    exact fin (C08_mul2 w.heap a t u f g (I.room hx hu) hf hg (I.noClobber hx hy _) (I.noClobber hx hz _))
  | join x v =>
    obtain ⟨n, ⟨a, hx, hu, rfl⟩, t, f, hy, hf⟩ := hv
    rw [hx] at hy; cases hy
    show Ok (look w.own x >>= _) _
    rw [look_of hx, bind_ok]
    exact fin (C08_join w.heap a v f hf)
  | join2 x v y =>
    obtain ⟨n, ⟨a, hx, hu, rfl⟩, t, f, hy, hf⟩ := hv
    show Ok (look w.own x >>= _) _
    rw [look_of hx, bind_ok, look_of hy, bind_ok]
    exact fin (C08_join2 w.heap a t v f (I.room hx hu) hf (I.noClobber hx hy _))

theorem lrun_inv [Add α] [Sub α] [Mul α] (es : List (LEv α)) : ∀ {w : World α}, WInv w.heap w.own → LValidHist w es →
    Ok (w.lrun es) (fun w' => WInv w'.heap w'.own) := by
  induction es with
  | nil => exact fun I _ => Ok_ok.2 I
  | cons e es ih =>
    intro w I hv
    obtain ⟨hv1, hv2⟩ := hv
    have : Ok (w.lstep e) (fun w' => WInv w'.heap w'.own) := by
      cases e with
      | op o => exact step_inv I o hv1
      | elem e => exact (estep_inv I e hv1).mono (fun _ h => h.1)
      | refAssign x y => exact hv1.elim
      | refMove x y => exact hv1.elim
      | refSwap x y => exact hv1.elim
    obtain ⟨w', h1, h2⟩ := this
    show Ok (w.lstep e >>= _) _
    rw [h1]
    exact ih h2 (hv2 w' h1)

/-- Operations that do not change a locked object keep its entry. -/
theorem step_keeps {w w' : World α} {x : Nat} {a : Obj} (hx : w.own x = some a) (o : Op α) (hv : Valid w o)
    (hk : KeepsLocked x (.op o)) (h : w.step o = .ok w') : w'.own x = some a := by
  have fresh : ∀ z, w.own z = none → x ≠ z := by rintro z hz rfl; rw [hx] at hz; cases hz
  have put : ∀ z (o' : Option Obj), x ≠ z → upd w.own z o' x = some a := fun z o' hz => by rw [upd_ne _ _ hz]; exact hx
  have lk : ∀ {m : Nat → Option Obj} {z : Nat} {k : Obj → Res (World α)},
      (look m z >>= k) = .ok w' → ∃ t, m z = some t ∧ k t = .ok w' := by
    intro m z k h
    cases hm : m z with
    | none => simp [look, hm] at h
    | some t => rw [look_of hm, bind_ok] at h; exact ⟨t, rfl, h⟩
  cases o with
  | defaultCtor z k => cases h; exact put z _ (fresh z hv)
  | sizedCtor z k d ht wd => cases h; exact put z _ (fresh z hv)
  | valueCtor z k d ht wd v =>
    have h : (Obj.valued w.heap k d ht wd v >>= _) = .ok w' := h
    cases e : Obj.valued w.heap k d ht wd v with
    | error e' => rw [e] at h; cases h
    | ok r => rw [e] at h; cases h; exact put z _ (fresh z hv)
  | listCtor z k l =>
    have h : (Obj.fromList w.heap k l >>= _) = .ok w' := h
    cases e : Obj.fromList w.heap k l with
    | error e' => rw [e] at h; cases h
    | ok r => rw [e] at h; cases h; exact put z _ (fresh z hv)
  | copyCtor z y =>
    obtain ⟨t, ht, h⟩ := lk h
    cases e : Obj.copyCtor w.heap t with
    | error e' => rw [e] at h; cases h
    | ok r => rw [e] at h; cases h; exact put z _ (fresh z hv.1)
  | moveCtor z y =>
    obtain ⟨t, ht, h⟩ := lk h
    cases h
    show upd _ _ _ _ = _
    rw [upd_ne _ _ (fresh z hv.1), upd_ne _ _ (Ne.symm hk)]; exact hx
  | copyAssign z y =>
    obtain ⟨b, hb, h⟩ := lk h
    obtain ⟨t, ht, h⟩ := lk h
    by_cases e : z = y
    · rw [if_pos e] at h; cases h; exact hx
    · rw [if_neg e] at h
      cases e : Obj.copyAssign w.heap b t with
      | error e' => rw [e] at h; cases h
      | ok r => rw [e] at h; cases h; exact put z _ (Ne.symm hk)
  | moveAssign z y =>
    obtain ⟨b, hb, h⟩ := lk h
    obtain ⟨t, ht, h⟩ := lk h
    by_cases e : z = y
    · rw [if_pos e] at h; cases h; exact hx
    · rw [if_neg e] at h
      cases e : Obj.moveAssign w.heap b t with
      | error e' => rw [e] at h; cases h
      | ok r =>
        rw [e] at h; cases h
        show upd _ _ _ _ = _
        rw [upd_ne _ _ (Ne.symm hk.1), upd_ne _ _ (Ne.symm hk.2)]; exact hx
  | resize z d ht wd =>
    obtain ⟨b, hb, h⟩ := lk h
    cases e : Obj.resize w.heap b d ht wd with
    | error e' => rw [e] at h; cases h
    | ok r => rw [e] at h; cases h; exact put z _ (Ne.symm hk)
  | reshape z d ht wd =>
    obtain ⟨b, hb, h⟩ := lk h
    cases h; exact put z _ (Ne.symm hk)
  | fill z v =>
    obtain ⟨b, hb, h⟩ := lk h
    cases e : b.fill w.heap v with
    | error e' => rw [e] at h; cases h
    | ok r => rw [e] at h; cases h; exact hx
  | write z i v =>
    obtain ⟨b, hb, h⟩ := lk h
    cases e : b.set1 w.heap i v with
    | error e' => rw [e] at h; cases h
    | ok r => rw [e] at h; cases h; exact hx
  | destroy z =>
    obtain ⟨b, hb, h⟩ := lk h
    cases e : b.destroy w.heap with
    | error e' => rw [e] at h; cases h
    | ok r => rw [e] at h; cases h; exact put z _ (Ne.symm hk)
  | viewMake v z => obtain ⟨b, hb, h⟩ := lk h; cases h; exact hx
  | viewCopy v u => obtain ⟨b, hb, h⟩ := lk h; cases h; exact hx
  | viewAssign v u =>
    obtain ⟨b, hb, h⟩ := lk h
    obtain ⟨t, ht, h⟩ := lk h
    by_cases e : v = u
    · rw [if_pos e] at h; cases h; exact hx
    · rw [if_neg e] at h; cases h; exact hx
  | viewWrite v i a' =>
    obtain ⟨b, hb, h⟩ := lk h
    cases e : b.set1 w.heap i a' with
    | error e' => rw [e] at h; cases h
    | ok r => rw [e] at h; cases h; exact hx
  | viewDestroy v => obtain ⟨b, hb, h⟩ := lk h; cases h; exact hx
  | swap z y =>
    obtain ⟨b, hb, h⟩ := lk h
    obtain ⟨t, ht, h⟩ := lk h
    cases h
    show upd _ _ _ _ = _
    rw [upd_ne _ _ (Ne.symm hk.1), upd_ne _ _ (Ne.symm hk.2)]; exact hx
  | viewSwap v u =>
    obtain ⟨b, hb, h⟩ := lk h
    obtain ⟨t, ht, h⟩ := lk h
    cases h; exact hx

theorem lrun_keeps [Add α] [Sub α] [Mul α] {x : Nat} {a : Obj} (es : List (LEv α)) : ∀ {w : World α},
    WInv w.heap w.own → LValidHist w es → (∀ e ∈ es, KeepsLocked x e) → w.own x = some a →
    Ok (w.lrun es) (fun w' => WInv w'.heap w'.own ∧ w'.own x = some a) := by
  induction es with
  | nil => exact fun I _ _ hx => Ok_ok.2 ⟨I, hx⟩
  | cons e es ih =>
    intro w I hv hk hx
    obtain ⟨hv1, hv2⟩ := hv
    have : Ok (w.lstep e) (fun w' => WInv w'.heap w'.own ∧ w'.own x = some a) := by
      cases e with
      | op o =>
        obtain ⟨w', h1, h2⟩ := step_inv I o hv1
        exact ⟨w', h1, h2, step_keeps hx o hv1 (hk _ (List.mem_cons_self ..)) h1⟩
      | elem e => exact (estep_inv I e hv1).mono (fun _ h => ⟨h.1, by rw [h.2.1]; exact hx⟩)
      | refAssign x y => exact hv1.elim
      | refMove x y => exact hv1.elim
      | refSwap x y => exact hv1.elim
    obtain ⟨w', h1, h2, h3⟩ := this
    show Ok (w.lstep e >>= _) _
    rw [h1]
    exact ih h2 (hv2 w' h1) (fun e' he' => hk e' (List.mem_cons_of_mem _ he')) h3

/-! ## C75 -/

/-- Between any two moments of a program that does not assign through the references returned by in-place members, a locked
tensor that is neither moved from nor destroyed has the same class, size, shape and storage, and its storage stays valid. -/
theorem C75_locked_partial [Add α] [Sub α] [Mul α] (es es' : List (LEv α)) (w : World α)
    (hv : LValidHist (World.init : World α) es) (hw : (World.init : World α).lrun es = .ok w) (hv' : LValidHist w es')
    (x : Nat) (a : Obj) (hx : w.own x = some a) (hk : ∀ e ∈ es', KeepsLocked x e) :
    ∃ w', w.lrun es' = .ok w' ∧ w'.own x = some a ∧ (a.Usable → w'.heap.Room a.data a.shape.size) := by
  obtain ⟨w1, h1, I⟩ := lrun_inv es (w := (World.init : World α)) WInv.init hv
  rw [hw] at h1; cases h1
  obtain ⟨w', h2, I', hx'⟩ := lrun_keeps es' I hv' hk hx
  exact ⟨w', h2, hx', I'.room hx'⟩

/-- Memory safety of the element-wise members in histories: histories of constructions, copies, moves, assignments, resizes,
views and all element-wise members run without error, every array has exactly one owner, none is leaked. -/
theorem C75_memory_safe_partial [Add α] [Sub α] [Mul α] (es : List (LEv α)) (hv : LValidHist (World.init : World α) es) :
    ∃ w', (World.init : World α).lrun es = .ok w' ∧ ((∀ x, w'.own x = none) → ∀ b, ¬ w'.heap.live b) ∧
      (∀ b, w'.heap.live b → ∃ x o, w'.own x = some o ∧ o.data = .at b 0 ∧
        ∀ y o', w'.own y = some o' → o'.data = .at b 0 → y = x) := by
  obtain ⟨w', h1, I⟩ := lrun_inv es (w := (World.init : World α)) WInv.init hv
  refine ⟨w', h1, fun hn b hb => ?_, fun b hb => ?_⟩
  · obtain ⟨x, o, h2, _⟩ := I.noleak b hb
    rw [hn x] at h2; cases h2
  · obtain ⟨x, o, h2, h3⟩ := I.noleak b hb
    exact ⟨x, o, h2, h3, fun y o' hy ho => I.inj y x o' o b hy h2 ho h3⟩

/-- Violated: in every reached state, assigning through the reference returned by an in-place member gives the locked tensor `x`
the shape and the array of `y`; nobody owns the old array of `x` any more, and destroying both objects, in either order, is an
invalid `delete`. -/
theorem C75_assign_violated [Add α] [Sub α] [Mul α] (es : List (LEv α)) (w : World α)
    (hv : LValidHist (World.init : World α) es) (hw : (World.init : World α).lrun es = .ok w)
    (x y : Nat) (a t : Obj) (hne : x ≠ y) (hx : w.own x = some a) (hy : w.own y = some t) (ht : t.data ≠ .null) :
    ∃ w1, w.lstep (.refAssign x y) = .ok w1 ∧ (∃ a1, w1.own x = some a1 ∧ a1.shape = t.shape ∧ a1.data = t.data) ∧
      (∀ b, a.data = .at b 0 → w1.heap.live b ∧ ∀ z o, w1.own z = some o → o.data ≠ .at b 0) ∧
      w1.lrun [.op (.destroy x), .op (.destroy y)] = .error .badFree ∧
      w1.lrun [.op (.destroy y), .op (.destroy x)] = .error .badFree := by
  obtain ⟨w', h1, I⟩ := lrun_inv es (w := (World.init : World α)) WInv.init hv
  rw [hw] at h1; cases h1
  obtain ⟨b, hb, hl, _⟩ := (I.owned y t hy).resolve_left ht
  have e1 : w.lstep (.refAssign x y) = .ok { w with own := upd w.own x (some (a.refAssign t)) } := by
    show (look w.own x >>= _) = _
    rw [look_of hx, bind_ok, look_of hy, bind_ok, if_neg hne]; rfl
  obtain ⟨H1, d1, _, _, _, dead⟩ := I.drop hy
  have hdel : w.heap.delete t.data = .ok H1 := d1
  have hdead : H1.delete t.data = .error .badFree := by
    rw [hb]; unfold Heap.delete; dsimp only
    rw [if_neg]
    rintro ⟨_, h⟩
    exact ((dead b).1 h).2 hb
  refine ⟨_, e1, ⟨a.refAssign t, upd_self _ _ _, rfl, rfl⟩, fun b' hb' => ?_, ?_, ?_⟩
  · have hlive : w.heap.live b' := by
      rcases I.owned x a hx with h | ⟨b'', h, h2, _⟩
      · rw [h] at hb'; cases hb'
      · rw [h] at hb'; cases hb'; exact h2
    refine ⟨hlive, fun z o hz ho => ?_⟩
    have hz : upd w.own x (some (a.refAssign t)) z = some o := hz
    by_cases e : z = x
    · subst e
      rw [upd_self] at hz; cases hz
      have : t.data = .at b' 0 := ho
      exact hne (I.inj z y a t b' hx hy hb' this)
    · rw [upd_ne _ _ e] at hz
      exact e (I.inj z x o a b' hz hx ho hb')
  · unfold World.lrun
    have s1 : World.lstep { w with own := upd w.own x (some (a.refAssign t)) } (.op (.destroy x)) =
        .ok { w with heap := H1, own := upd (upd w.own x (some (a.refAssign t))) x none } := by
      show (look _ x >>= _) = _
      rw [look_of (a := a.refAssign t) (upd_self _ _ _), bind_ok]
      show (w.heap.delete t.data >>= _) = _
      rw [hdel]; rfl
    rw [s1, bind_ok]
    unfold World.lrun
    have s2 : World.lstep { w with heap := H1, own := upd (upd w.own x (some (a.refAssign t))) x none } (.op (.destroy y)) =
        .error .badFree := by
      show (look _ y >>= _) = _
      rw [look_of (a := t) (by show upd _ _ _ _ = _; rw [upd_ne _ _ hne.symm, upd_ne _ _ hne.symm]; exact hy), bind_ok]
      show (H1.delete t.data >>= _) = _
      rw [hdead]; rfl
    rw [s2]; rfl
  · unfold World.lrun
    have s1 : World.lstep { w with own := upd w.own x (some (a.refAssign t)) } (.op (.destroy y)) =
        .ok { w with heap := H1, own := upd (upd w.own x (some (a.refAssign t))) y none } := by
      show (look _ y >>= _) = _
      rw [look_of (a := t) (by show upd _ _ _ _ = _; rw [upd_ne _ _ hne.symm]; exact hy), bind_ok]
      show (w.heap.delete t.data >>= _) = _
      rw [hdel]; rfl
    rw [s1, bind_ok]
    unfold World.lrun
    have s2 : World.lstep { w with heap := H1, own := upd (upd w.own x (some (a.refAssign t))) y none } (.op (.destroy x)) =
        .error .badFree := by
      show (look _ x >>= _) = _
      rw [look_of (a := a.refAssign t) (by show upd _ _ _ _ = _; rw [upd_ne _ _ hne, upd_self]), bind_ok]
      show (H1.delete t.data >>= _) = _
      rw [hdead]; rfl
    rw [s2]; rfl

/-- Violated without any memory error: swapping through the returned references exchanges size, shape and storage of two locked
tensors, in every state; moving gives `x` the shape and storage of `y` and takes the storage from `y`. -/
theorem C75_swap_violated [Add α] [Sub α] [Mul α] (w : World α) (x y : Nat) (a t : Obj) (hne : x ≠ y) (hx : w.own x = some a)
    (hy : w.own y = some t) :
    (∃ w1 a1 t1, w.lstep (.refSwap x y) = .ok w1 ∧ w1.own x = some a1 ∧ w1.own y = some t1 ∧ a1.shape = t.shape ∧
      a1.data = t.data ∧ t1.shape = a.shape ∧ t1.data = a.data) ∧
    (∃ w1 a1 t1, w.lstep (.refMove x y) = .ok w1 ∧ w1.own x = some a1 ∧ w1.own y = some t1 ∧ a1.shape = t.shape ∧
      a1.data = t.data ∧ t1.data = .null) := by
  constructor
  · refine ⟨{ w with own := upd (upd w.own y (some (t.refAssign a))) x (some (a.refAssign t)) }, a.refAssign t, t.refAssign a, ?_,
      upd_self _ _ _, ?_, rfl, rfl, rfl, rfl⟩
    · show (look w.own x >>= _) = _
      rw [look_of hx, bind_ok, look_of hy, bind_ok]; rfl
    · show upd _ _ _ _ = _
      rw [upd_ne _ _ hne.symm, upd_self]
  · refine ⟨{ w with own := upd (upd w.own y (some { t with data := .null })) x (some (a.refAssign t)) }, a.refAssign t,
      { t with data := .null }, ?_, upd_self _ _ _, ?_, rfl, rfl, rfl⟩
    · show (look w.own x >>= _) = _
      rw [look_of hx, bind_ok, look_of hy, bind_ok, if_neg hne]; rfl
    · show upd _ _ _ _ = _
      rw [upd_ne _ _ hne.symm, upd_self]

/-- A locked container offers element access only (Locker/Container.hpp:65-80): whatever is written through it, and whatever is
done to other containers, its size, capacity and storage stay, over all histories. -/
theorem C75_container (dflt : α) (moved : α → α) (ops : List (COp α)) : ∀ (w w' : CWorld α) (x : Nat) (c : Cont),
    w.conts x = some c → (∀ o ∈ ops, KeepsCont x o) → w.run dflt moved ops = .ok w' → w'.conts x = some c := by
  induction ops with
  | nil => intro w w' x c hx _ h; cases h; exact hx
  | cons o ops ih =>
    intro w w' x c hx hk h
    have h : (w.step dflt moved o >>= _) = .ok w' := h
    cases e : w.step dflt moved o with
    | error e' => rw [e] at h; cases h
    | ok w1 =>
      rw [e, bind_ok] at h
      refine ih w1 w' x c ?_ (fun o' ho => hk o' (List.mem_cons_of_mem _ ho)) h
      have hk := hk o (List.mem_cons_self ..)
      clear h ih
      have set : ∀ (m : Nat → Option Cont) (z : Nat) (v : Option Cont), z ≠ x → m x = some c → cset m z v x = some c :=
        fun m z v hz hm => by unfold cset; rw [if_neg (Ne.symm hz)]; exact hm
      have gt : ∀ {z : Nat} {k : Cont → Res (CWorld α)}, (w.get z >>= k) = .ok w1 → ∃ t, w.conts z = some t ∧ k t = .ok w1 := by
        intro z k h
        cases hm : w.conts z with
        | none => simp [CWorld.get, hm] at h
        | some t => rw [show w.get z = .ok t by simp [CWorld.get, hm], bind_ok] at h; exact ⟨t, rfl, h⟩
      cases o with
      | default z => cases e; exact set _ _ _ hk hx
      | sized z n =>
        have e : (Cont.sized dflt w.store n >>= _) = .ok w1 := e
        cases e2 : Cont.sized dflt w.store n with
        | error e' => rw [e2] at e; cases e
        | ok r => rw [e2] at e; cases e; exact set _ _ _ hk hx
      | ofList z l =>
        have e : (Cont.ofList w.store l >>= _) = .ok w1 := e
        cases e2 : Cont.ofList w.store l with
        | error e' => rw [e2] at e; cases e
        | ok r => rw [e2] at e; cases e; exact set _ _ _ hk hx
      | copyCtor z y =>
        obtain ⟨t, ht, e⟩ := gt e
        cases e2 : Cont.copyCtor w.store t with
        | error e' => rw [e2] at e; cases e
        | ok r => rw [e2] at e; cases e; exact set _ _ _ hk hx
      | moveCtor z y =>
        obtain ⟨t, ht, e⟩ := gt e
        cases e; exact set _ _ _ hk.1 (set _ _ _ hk.2 hx)
      | copyAssign z y =>
        obtain ⟨b, hb, e⟩ := gt e
        obtain ⟨t, ht, e⟩ := gt e
        by_cases hz : z = y
        · rw [if_pos hz] at e; cases e; exact hx
        · rw [if_neg hz] at e
          cases e2 : Cont.copyAssign w.store b t with
          | error e' => rw [e2] at e; cases e
          | ok r => rw [e2] at e; cases e; exact set _ _ _ hk hx
      | moveAssign z y =>
        obtain ⟨b, hb, e⟩ := gt e
        obtain ⟨t, ht, e⟩ := gt e
        by_cases hz : z = y
        · rw [if_pos hz] at e; cases e; exact hx
        · rw [if_neg hz] at e
          cases e2 : Cont.moveAssign w.store b t with
          | error e' => rw [e2] at e; cases e
          | ok r => rw [e2] at e; cases e; exact set _ _ _ hk.1 (set _ _ _ hk.2 hx)
      | resize z n arg =>
        obtain ⟨b, hb, e⟩ := gt e
        cases e2 : b.resize moved w.store n arg with
        | error e' => rw [e2] at e; cases e
        | ok r => rw [e2] at e; cases e; exact set _ _ _ hk hx
      | reserve z n =>
        obtain ⟨b, hb, e⟩ := gt e
        cases e2 : b.reserve moved w.store n with
        | error e' => rw [e2] at e; cases e
        | ok r => rw [e2] at e; cases e; exact set _ _ _ hk hx
      | emplaceBack z v =>
        obtain ⟨b, hb, e⟩ := gt e
        cases e2 : b.emplaceBack moved w.store v with
        | error e' => rw [e2] at e; cases e
        | ok r => rw [e2] at e; cases e; exact set _ _ _ hk hx
      | popBack z =>
        obtain ⟨b, hb, e⟩ := gt e
        cases e2 : b.popBack w.store with
        | error e' => rw [e2] at e; cases e
        | ok r => rw [e2] at e; cases e; exact set _ _ _ hk hx
      | write z i v =>
        obtain ⟨b, hb, e⟩ := gt e
        cases e2 : b.write w.store i v with
        | error e' => rw [e2] at e; cases e
        | ok r => rw [e2] at e; cases e; exact hx
      | save z =>
        obtain ⟨b, hb, e⟩ := gt e
        cases e2 : b.save w.store with
        | error e' => rw [e2] at e; cases e
        | ok r => rw [e2] at e; cases e; exact set _ _ _ hk hx
      | destroy z =>
        obtain ⟨b, hb, e⟩ := gt e
        cases e2 : b.destruct w.store with
        | error e' => rw [e2] at e; cases e
        | ok r => rw [e2] at e; cases e; exact set _ _ _ hk hx

example : ∃ w' : CWorld Nat, CWorld.run 0 id CWorld.init [.ofList 0 [3, 4], .ofList 1 [5], .write 0 1 9, .emplaceBack 1 6, .destroy 1] = .ok w' ∧
    w'.conts 0 = some ⟨.at 0 0, 2, 2⟩ := ⟨_, rfl, rfl⟩

/-- Non-vacuity: two locked vectors of different size with element-wise operations; then the assignment. -/
example : ∃ w1, (((World.init : World Int).lrun [.op (.valueCtor 0 .vec 1 1 3 2), .op (.valueCtor 1 .vec 1 1 5 7), .elem (.add 0 1)]) >>=
      fun w => w.lstep (.refAssign 0 1)) = .ok w1 ∧
    w1.lrun [.op (.destroy 0), .op (.destroy 1)] = .error .badFree := by
  have hv : LValidHist (World.init : World Int) [.op (.valueCtor 0 .vec 1 1 3 2), .op (.valueCtor 1 .vec 1 1 5 7), .elem (.add 0 1)] := by
    refine ⟨rfl, fun w h => ?_⟩; cases h
    refine ⟨rfl, fun w h => ?_⟩; cases h
    refine ⟨⟨3, ⟨_, rfl, Or.inl (by decide), rfl⟩, ⟨_, fun _ => 2, rfl, Or.inr ⟨0, 0, rfl, ?_⟩⟩,
      ⟨_, fun _ => 7, rfl, Or.inr ⟨1, 0, rfl, ?_⟩⟩⟩, fun w h => trivial⟩
    · intro i hi; rcases i with _ | _ | _ | i <;> first | rfl | omega
    · intro i hi; rcases i with _ | _ | _ | i <;> first | rfl | omega
  obtain ⟨w1, h1, _, _, h2, _⟩ := C75_assign_violated (α := Int) _ _ hv rfl 0 1 _ _ (by decide) rfl rfl (by decide)
  exact ⟨w1, h1, h2⟩

end Trixy
