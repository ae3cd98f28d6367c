import Verif.Spec.ContThrow
import Verif.Props.Container
/- C73: exceptions in containers. -/
namespace Trixy

variable {α : Type _}

theorem cset_same {m : Nat → Option Cont} {x : Nat} {c : Cont} (h : m x = some c) : cset m x (some c) = m := by
  funext y
  by_cases e : y = x
  · subst e; rw [cset_self, h]
  · rw [cset_ne _ _ e]

theorem aset_same {A : AState α} {x : Nat} {a} (h : A x = a) : aset A x a = A := by
  funext y
  by_cases e : y = x
  · subst e; rw [aset_self, h]
  · rw [aset_ne _ _ e]

theorem grow_spec {moved : α → α} {s : Store α} (hf : Fresh s.heap) {c : Cont} {l : List α}
    (hr : Rep s.heap c (some l)) : Ok (c.grow moved s) (fun r => OpSpec s.heap c.data (some l) r.1.heap r.2) := by
  unfold Cont.grow
  by_cases e : c.size = c.cap
  · rw [if_pos e]
    exact (reserve_spec hf hr _).mono (fun r hr' => hr'.1)
  · rw [if_neg e]
    exact Ok_ok.2 ⟨Delta.refl _ hr.zero, hr⟩

/-- Constructing the first `k` of the new elements. -/
theorem fillFirst_spec {s : Store α} {c : Cont} {l : List α} (hr : Rep s.heap c (some l)) (k : Nat) (arg : Nat → α)
    (hroom : l.length + k ≤ c.cap) :
    Ok (fillElems s c.data c.size (c.size + k) arg) (fun s' =>
      OpSpec s.heap c.data (some (l ++ (List.range k).map arg)) s'.heap { c with size := c.size + k }) := by
  have hs := hr.size
  have hx : ((List.range k).map arg).length = k := by simp
  have := fill_spec (xs := (List.range k).map arg) hr (by rw [hx]; exact hroom)
    (fun i s' => s'.construct c.data (l.length + i) (arg (l.length + i - l.length))) (fun i s' hi => by simp)
  rw [hx] at this
  unfold fillElems forLoop
  rw [hs.1, Nat.add_sub_cancel_left]
  exact this.mono (fun s' h => h.1)

theorem throw_cinv {dflt : α} {moved : α → α} {w : CWorld α} {A A' : AState α} (I : CInv w A) (pt : Crash) (op : COp α)
    (hv : CValid w A op) (hre : Reached w pt op) (ha : absThrow A pt op = some A') :
    Ok (w.stepThrow dflt moved pt op) (fun w' => CInv w' A') := by
  have hsame : ∀ x c, w.conts x = some c → CInv ⟨w.store, cset w.conts x (some c)⟩ A := by
    intro x c hc; rw [cset_same hc]; exact I
  cases op with
  | sized x n =>
    cases pt with
    | alloc => cases ha; exact Ok_ok.2 I
    | move k => cases ha
    | elem k => cases k <;> cases ha
  | ofList x l =>
    cases pt with
    | alloc => cases ha; exact Ok_ok.2 I
    | move k => cases ha
    | elem k => cases k <;> cases ha
  | copyCtor x y =>
    obtain ⟨_, ⟨l, hy⟩, _⟩ := hv
    obtain ⟨a, c, h1, h2, h3, h4, h5⟩ := I.get (x := y) (by rw [hy]; exact fun h => by cases h)
    unfold CWorld.stepThrow
    dsimp only
    rw [h3, bind_ok]
    cases pt with
    | alloc => cases ha; exact Ok_ok.2 I
    | move k => cases ha
    | elem k => cases k <;> cases ha
  | reserve x n =>
    obtain ⟨l, hl⟩ := hv
    obtain ⟨a, c, h1, h2, h3, h4, h5⟩ := I.get (x := x) (by rw [hl]; exact fun h => by cases h)
    unfold CWorld.stepThrow
    dsimp only
    rw [h3, bind_ok]
    cases pt with
    | alloc =>
      cases ha
      by_cases hn : n > c.cap
      · rw [if_pos hn]; exact Ok_ok.2 (hsame x c h2)
      · rw [if_neg hn]; exact Ok_ok.2 I
    | move k => cases ha
    | elem k => cases k <;> cases ha
  | emplaceBack x v =>
    obtain ⟨l, hl⟩ := hv
    obtain ⟨a, c, h1, h2, h3, h4, h5⟩ := I.get (x := x) (by rw [hl]; exact fun h => by cases h)
    rw [hl] at h1; cases h1
    unfold CWorld.stepThrow Cont.emplaceBackThrow
    dsimp only
    rw [h3, bind_ok]
    cases pt with
    | alloc =>
      cases ha
      have hc : c.size = c.cap := hre c h2
      dsimp only
      rw [if_pos hc]
      exact Ok_ok.2 (hsame x c h2)
    | move k => cases ha
    | elem k =>
      cases k with
      | zero =>
        cases ha
        refine (grow_spec I.fresh h4).bind (fun r hr => Ok_ok.2 ?_)
        have := I.update (x := x) (s' := r.1) (c' := r.2) (a' := some l) (by rw [h5]; exact hr)
        rw [aset_same hl] at this; exact this
      | succ k => cases ha
  | resize x n arg =>
    obtain ⟨l, hl⟩ := hv
    obtain ⟨a, c, h1, h2, h3, h4, h5⟩ := I.get (x := x) (by rw [hl]; exact fun h => by cases h)
    rw [hl] at h1; cases h1
    have hs := h4.size
    unfold CWorld.stepThrow Cont.resizeThrow
    dsimp only
    rw [h3, bind_ok]
    cases pt with
    | alloc =>
      cases ha
      have hc : c.cap < n := hre c h2
      rw [if_pos hc]
      exact Ok_ok.2 (hsame x c h2)
    | move k => cases ha
    | elem k =>
      have hA : A' = aset A x (some (some (l ++ (List.range k).map arg))) := by
        have e : absThrow A (.elem k) (.resize x n arg) =
            some (aset A x ((A x).map (·.map (· ++ (List.range k).map arg)))) := by cases k <;> rfl
        rw [e, hl] at ha; exact (Option.some.inj ha).symm
      subst hA
      have hk : c.size + k < n := hre c h2
      by_cases hn : n > c.cap
      · rw [if_pos hn]
        dsimp only
        refine Ok.bind (P := fun r => OpSpec w.store.heap c.data (some (l ++ (List.range k).map arg)) r.1.heap r.2) ?_ (fun r hr => Ok_ok.2 (I.update (by rw [h5]; exact hr)))
        refine (reserve_spec I.fresh h4 n).bind (fun r ⟨sp, hcap, _⟩ => ?_)
        obtain ⟨s1, c1⟩ := r
        dsimp only at sp hcap ⊢
        have hs1 := sp.rep.size
        refine (fillFirst_spec sp.rep k arg (by rw [hcap]; omega)).bind (fun s2 h2' => Ok_ok.2 ?_)
        exact sp.trans I.fresh (fun b hb => h4.lt I.fresh hb) h2'
      · rw [if_neg hn, if_neg (by omega)]
        dsimp only
        refine Ok.bind (P := fun r => OpSpec w.store.heap c.data (some (l ++ (List.range k).map arg)) r.1.heap r.2) ?_ (fun r hr => Ok_ok.2 (I.update (by rw [h5]; exact hr)))
        exact (fillFirst_spec h4 k arg (by omega)).bind (fun s2 h2' => Ok_ok.2 h2')
  | default x => cases pt <;> (try cases ha); rename_i k; cases k <;> cases ha
  | moveCtor x y => cases pt <;> (try cases ha); rename_i k; cases k <;> cases ha
  | copyAssign x y => cases pt <;> (try cases ha); rename_i k; cases k <;> cases ha
  | moveAssign x y => cases pt <;> (try cases ha); rename_i k; cases k <;> cases ha
  | popBack x => cases pt <;> (try cases ha); rename_i k; cases k <;> cases ha
  | write x i v => cases pt <;> (try cases ha); rename_i k; cases k <;> cases ha
  | save x => cases pt <;> (try cases ha); rename_i k; cases k <;> cases ha
  | destroy x => cases pt <;> (try cases ha); rename_i k; cases k <;> cases ha

theorem runEv_cinv {dflt : α} {moved : α → α} (es : List (CEv α)) (B : AState α) : ∀ {w : CWorld α} {A : AState α}, CInv w A →
    CValidEvs dflt moved w A es B → Ok (w.runEv dflt moved es) (fun w' => CInv w' B) := by
  induction es with
  | nil => intro w A I h; cases h; exact Ok_ok.2 I
  | cons e es ih =>
    intro w A I h
    unfold CWorld.runEv
    cases e with
    | done op =>
      obtain ⟨h1, h2⟩ := h
      obtain ⟨w', e, I'⟩ := step_cinv (dflt := dflt) (moved := moved) I op h1
      show Ok (w.step dflt moved op >>= _) _
      rw [e, bind_ok]
      exact ih I' (h2 w' e)
    | threw pt op =>
      obtain ⟨h1, h2, A', h3, h4⟩ := h
      obtain ⟨w', e, I'⟩ := throw_cinv (dflt := dflt) (moved := moved) I pt op h1 h2 h3
      show Ok (w.stepThrow dflt moved pt op >>= _) _
      rw [e, bind_ok]
      exact ih I' (h4 w' e)

/-! ## C73 -/

/-- After every history in which allocations fail in constructors, `reserve`, `resize`, `emplace_back` and element
constructors throw in `emplace_back` and `resize` (and the exceptions are caught): no undefined behaviour, every
container shows exactly the list `B` says (unchanged, or with the elements constructed before the exception), and when
every container is destroyed, no storage is left. -/
theorem C73_exceptions_partial (dflt : α) (moved : α → α) (es : List (CEv α)) (B : AState α)
    (hv : CValidEvs dflt moved CWorld.init (fun _ => none) es B) :
    Ok (CWorld.init.runEv dflt moved es) (fun w =>
      (∀ x l, B x = some (some l) → ∃ c, w.conts x = some c ∧ c.size = l.length ∧ c.iterate w.store = .ok l) ∧
      ((∀ x, B x = none) → ∀ b, w.store.heap.blocks b = none)) := by
  refine (runEv_cinv es B CInv.init hv).mono (fun w I => ⟨fun x l hx => ?_, fun hn b => ?_⟩)
  · obtain ⟨c, hc, hr⟩ := I.rep x _ hx
    exact ⟨c, hc, hr.size.1, hr.iterate⟩
  · cases hb : w.store.heap.blocks b with
    | none => rfl
    | some buf =>
      obtain ⟨x, hx⟩ := I.noleak b (by rw [hb]; rfl)
      rw [ownPtr, I.absent x (hn x)] at hx; cases hx

/-- Non-vacuity: a failing constructor, growth that fails, an element constructor that throws in `resize`, normal use. -/
example : CValidEvs 0 (fun _ => 0) (CWorld.init : CWorld Nat) (fun _ => none)
    [.threw .alloc (.ofList 0 [1, 2]), .done (.ofList 0 [1, 2]), .threw .alloc (.emplaceBack 0 3), .threw (.elem 0) (.emplaceBack 0 3),
     .threw (.elem 2) (.resize 0 6 (lvalueArg 7))]
    (fun x => if x = 0 then some (some [1, 2, 7, 7]) else none) := by
  refine ⟨rfl, trivial, _, rfl, fun w h => ?_⟩; cases h
  refine ⟨rfl, fun w h => ?_⟩; cases h
  refine ⟨⟨_, rfl⟩, fun c h => by cases h; rfl, _, rfl, fun w h => ?_⟩; cases h
  refine ⟨⟨_, rfl⟩, trivial, _, rfl, fun w h => ?_⟩; cases h
  refine ⟨⟨_, rfl⟩, fun c h => by cases h; decide, _, rfl, fun w h => ?_⟩; cases h
  funext x
  by_cases hx : x = 0 <;> simp [absStep, aset, hx, lvalueArg, List.range_succ]

/-- Violated: if the allocation in a copy assignment fails, the destination keeps a pointer to its freed storage: its
destructor (which will run) is undefined behaviour. Any history, any destination with storage. -/
theorem C73_assign_alloc_violated (dflt : α) (moved : α → α) (ops : List (COp α))
    (hv : CValidHist dflt moved CWorld.init (fun _ => none) ops) (w : CWorld α) (hw : CWorld.init.run dflt moved ops = .ok w)
    (x y : Nat) (hne : x ≠ y) (c src : Cont) (hx : w.conts x = some c) (hy : w.conts y = some src) (hd : c.data ≠ .null) :
    ∃ w1 e, w.stepThrow dflt moved .alloc (.copyAssign x y) = .ok w1 ∧ w1.step dflt moved (.destroy x) = .error e := by
  obtain ⟨w', e', I⟩ := run_cinv (dflt := dflt) (moved := moved) ops CInv.init hv
  rw [hw] at e'; cases e'
  cases ha : absRun dflt (fun _ => none) ops x with
  | none => rw [I.absent x ha] at hx; cases hx
  | some a =>
    obtain ⟨c', hc', hr⟩ := I.rep x a ha
    rw [hx] at hc'; cases hc'
    obtain ⟨s1, e1, d1, _⟩ := drop_spec hr
    unfold Cont.destruct at e1
    have gx : w.get x = .ok c := by simp [CWorld.get, hx]
    have gy : w.get y = .ok src := by simp [CWorld.get, hy]
    have es : w.stepThrow dflt moved .alloc (.copyAssign x y) = .ok ⟨s1, cset w.conts x (some ⟨c.data, src.size, src.cap⟩)⟩ := by
      unfold CWorld.stepThrow Cont.copyAssignThrow
      dsimp only
      rw [gx, bind_ok, gy, bind_ok, if_neg hne, ← bind_assoc_res' (w.store.destroyRange c.data 0 c.size), e1, bind_ok]
      rfl
    cases hp : c.data with
    | null => exact absurd hp hd
    | «at» b o =>
      have ho : o = 0 := hr.zero b o hp
      subst ho
      have hfreed : s1.heap.blocks b = none := d1.freed b hp (by simp)
      have hde : ∃ e, Cont.destruct s1 ⟨.at b 0, src.size, src.cap⟩ = .error e := by
        unfold Cont.destruct Store.destroyRange
        dsimp only
        cases hz : src.size with
        | zero =>
          refine ⟨.badFree, ?_⟩
          simp [forLoop, Store.deallocate, hfreed]
        | succ n =>
          refine ⟨.useAfterFree, ?_⟩
          have : forLoop 0 (n + 1) s1 (fun i s => s.destroyAt (.at b 0) i) = .error .useAfterFree := by
            unfold forLoop
            refine forN_err (k := 0) (fun i s => s = s1) (by omega) rfl (fun i hi => absurd hi (Nat.not_lt_zero _)) ?_
            rintro s rfl
            unfold Store.destroyAt
            simp [Heap.cell, hfreed]
          rw [this]; rfl
      obtain ⟨e, he⟩ := hde
      refine ⟨_, e, es, ?_⟩
      show ((CWorld.get _ x) >>= _) = _
      simp only [CWorld.get, cset_self, bind_ok]
      rw [hp, he]; rfl

/-- Copying the first `k` elements into a fresh allocation. -/
theorem copy_alloc_first {s : Store α} (hf : Fresh s.heap) {src : Cont} {l : List α} (hr : Rep s.heap src (some l)) {n k : Nat}
    (hk : k ≤ l.length) (hn : k ≤ n) : copyElems (s.allocate n).1 (.at s.heap.next 0) src.data k =
      .ok ⟨(s.heap.new n).1.setB s.heap.next (some (Blk (l.take k) (n - k))), s.moves⟩ := by
  unfold copyElems
  have hlen : (l.take k).length = k := by simp; omega
  have := alloc_loop (s := s) (n := n) (xs := l.take k) (by rw [hlen]; exact hn)
    (body := fun i s' => do let v ← s'.heap.load src.data i; s'.construct (.at s.heap.next 0) i v) (fun i s' hi hfr => ?_)
  · rw [hlen] at this; exact this
  · have hi' : i < l.length := by omega
    rcases hr with ⟨_, _, _, h'⟩ | ⟨b, m, hd, hb, _, _⟩
    · rw [h'] at hi'; exact absurd hi' (Nat.not_lt_zero _)
    · have hne : b ≠ s.heap.next := Nat.ne_of_lt (hf b (by rw [hb]; rfl))
      rw [hd, load_blk (buf := Blk l m) (by rw [hfr b hne, hb]) (Blk_get l m i hi'), bind_ok, List.getElem_take]

/-- Violated: if an element copy throws in a copy assignment (before the last element is constructed), the destination
claims elements that were never constructed, and its destructor destroys them. -/
theorem C73_assign_elem_violated (dflt : α) (moved : α → α) (ops : List (COp α))
    (hv : CValidHist dflt moved CWorld.init (fun _ => none) ops) (w : CWorld α) (hw : CWorld.init.run dflt moved ops = .ok w)
    (x y : Nat) (hne : x ≠ y) (l : List α) (hx : absRun dflt (fun _ => none) ops x ≠ none)
    (hy : absRun dflt (fun _ => none) ops y = some (some l)) (k : Nat) (hk : k < l.length) :
    ∃ w1, w.stepThrow dflt moved (.elem k) (.copyAssign x y) = .ok w1 ∧ w1.step dflt moved (.destroy x) = .error .lifetime := by
  obtain ⟨w', e', I⟩ := run_cinv (dflt := dflt) (moved := moved) ops CInv.init hv
  rw [hw] at e'; cases e'
  obtain ⟨a, c, h1, h2, h3, h4, h5⟩ := I.get hx
  obtain ⟨a', src, h1', h2', h3', h4', h5'⟩ := I.get (x := y) (by rw [hy]; exact fun h => by cases h)
  rw [hy] at h1'; cases h1'
  obtain ⟨s1, e1, d1, _⟩ := drop_spec h4
  unfold Cont.destruct at e1
  have hs := h4'.size
  have hf1 := I.fresh.delta (fun b hb => h4.lt I.fresh hb) d1
  have hr1 := h4'.frame I.fresh d1 (fun b hb hb' => hne (I.inj x y b (by rw [h5, hb']) (by rw [h5', hb])))
  have es : w.stepThrow dflt moved (.elem k) (.copyAssign x y) = .ok ⟨⟨(s1.heap.new src.cap).1.setB s1.heap.next
      (some (Blk (l.take k) (src.cap - k))), s1.moves⟩, cset w.conts x (some ⟨.at s1.heap.next 0, src.size, src.cap⟩)⟩ := by
    unfold CWorld.stepThrow Cont.copyAssignThrow
    dsimp only
    rw [h3, bind_ok, h3', bind_ok, if_neg hne, ← bind_assoc_res' (w.store.destroyRange c.data 0 c.size), e1, bind_ok]
    have hp : (s1.allocate src.cap).2 = .at s1.heap.next 0 := rfl
    simp only [hp]
    rw [copy_alloc_first hf1 hr1 (by omega) (by omega)]
    rfl
  refine ⟨_, es, ?_⟩
  show ((CWorld.get _ x) >>= _) = _
  simp only [CWorld.get, cset_self, bind_ok]
  have : Cont.destruct (⟨(s1.heap.new src.cap).1.setB s1.heap.next (some (Blk (l.take k) (src.cap - k))), s1.moves⟩ : Store α)
      ⟨.at s1.heap.next 0, src.size, src.cap⟩ = .error .lifetime := by
    unfold Cont.destruct Store.destroyRange
    dsimp only
    have hlen : (l.take k).length = k := by simp; omega
    have hl : forLoop 0 src.size (⟨(s1.heap.new src.cap).1.setB s1.heap.next (some (Blk (l.take k) (src.cap - k))), s1.moves⟩ : Store α)
        (fun i s => s.destroyAt (.at s1.heap.next 0) i) = .error .lifetime := by
      unfold forLoop
      refine forN_err (k := k) (fun i s => ∃ buf, s.heap.blocks s1.heap.next = some buf ∧ ∀ j, i ≤ j → buf[j]? = (Blk (l.take k) (src.cap - k))[j]?)
        (by omega) ⟨_, setB_self _ _ _, fun j _ => rfl⟩ ?_ ?_
      · rintro i hi s ⟨buf, hb, hj⟩
        have hg : buf[i]? = some (some (l.take k)[i]) := by rw [hj i (Nat.le_refl _)]; exact Blk_get _ _ _ (by omega)
        dsimp only
        rw [Nat.zero_add, destroyAt_blk hb hg]
        refine Ok_ok.2 ⟨_, setB_self _ _ _, fun j hij => ?_⟩
        rw [List.getElem?_set_ne (by omega)]
        exact hj j (by omega)
      · rintro s ⟨buf, hb, hj⟩
        have hg : buf[k]? = some none := by
          rw [hj k (Nat.le_refl _)]
          have := Blk_raw (l.take k) (src.cap - k) (by omega)
          rw [hlen] at this; exact this
        unfold Store.destroyAt
        dsimp only
        rw [Nat.zero_add, cell_blk hb hg]; rfl
    rw [hl]; rfl
  rw [this]; rfl

/-- Violated: an element constructor that throws inside a constructor of the container leaks the storage and the elements
already constructed: after the exception there is a live allocation, holding them, that belongs to no container. Sized
construction, construction from a list, copy construction; any history before. -/
theorem C73_constructor_leak_violated (dflt : α) (moved : α → α) (ops : List (COp α))
    (hv : CValidHist dflt moved CWorld.init (fun _ => none) ops) (w : CWorld α) (hw : CWorld.init.run dflt moved ops = .ok w)
    (x y n k : Nat) (l l' : List α) (hn : k < n) (hl : k < l.length) (hl' : k < l'.length)
    (hy : absRun dflt (fun _ => none) ops y = some (some l')) :
    (∀ op, (op = .sized x n ∨ op = .ofList x l ∨ op = .copyCtor x y) →
      ∃ w1 b buf, w.stepThrow dflt moved (.elem k) op = .ok w1 ∧ w1.conts = w.conts ∧ w1.store.heap.blocks b = some buf ∧
        (buf.filterMap id).length = k ∧ ∀ z c, w1.conts z = some c → c.data ≠ .at b 0) := by
  obtain ⟨w', e', I⟩ := run_cinv (dflt := dflt) (moved := moved) ops CInv.init hv
  rw [hw] at e'; cases e'
  have hno : ∀ z c, w.conts z = some c → c.data ≠ .at w.store.heap.next 0 := by
    intro z c hz hd
    have := I.lt (x := z) (b := w.store.heap.next) (by simp [ownPtr, hz, hd])
    omega
  have hcount : ∀ (xs : List α) m, ((Blk xs m).filterMap id).length = xs.length := by
    intro xs m; simp [Blk, List.filterMap_append]
  rintro op (rfl | rfl | rfl)
  · refine ⟨⟨⟨(w.store.heap.new n).1.setB w.store.heap.next (some (Blk (List.replicate k dflt) (n - k))), w.store.moves⟩, w.conts⟩,
      w.store.heap.next, _, ?_, rfl, setB_self _ _ _, by rw [hcount]; simp, hno⟩
    have := alloc_loop (s := w.store) (n := n) (xs := List.replicate k dflt) (by simp; omega)
      (body := fun i s' => s'.construct (.at w.store.heap.next 0) i dflt) (fun i s' hi _ => by simp)
    rw [List.length_replicate] at this
    exact (congrArg (· >>= fun s => (.ok ⟨s, w.conts⟩ : Res (CWorld α))) this).trans rfl
  · have hlen : (l.take k).length = k := by simp; omega
    refine ⟨⟨⟨(w.store.heap.new l.length).1.setB w.store.heap.next (some (Blk (l.take k) (l.length - k))), w.store.moves⟩, w.conts⟩,
      w.store.heap.next, _, ?_, rfl, setB_self _ _ _, by rw [hcount]; exact hlen, hno⟩
    have := alloc_loop (s := w.store) (n := l.length) (xs := l.take k) (by omega)
      (body := fun i s' => match l[i]? with
        | none => .error .oob
        | some v => s'.construct (.at w.store.heap.next 0) i v)
      (fun i s' hi _ => by
        have hi' : i < l.length := by omega
        simp [hi'])
    rw [hlen] at this
    refine (congrArg (· >>= fun s => (.ok ⟨s, w.conts⟩ : Res (CWorld α))) this).trans rfl
  · obtain ⟨a', src, h1', h2', h3', h4', h5'⟩ := I.get (x := y) (by rw [hy]; exact fun h => by cases h)
    rw [hy] at h1'; cases h1'
    have hs := h4'.size
    have hlen : (l'.take k).length = k := by simp; omega
    refine ⟨⟨⟨(w.store.heap.new src.size).1.setB w.store.heap.next (some (Blk (l'.take k) (src.size - k))), w.store.moves⟩, w.conts⟩,
      w.store.heap.next, _, ?_, rfl, setB_self _ _ _, by rw [hcount]; exact hlen, hno⟩
    unfold CWorld.stepThrow Cont.copyCtorThrow
    dsimp only
    rw [h3', bind_ok]
    have hp : (w.store.allocate src.size).2 = .at w.store.heap.next 0 := rfl
    rw [hp, copy_alloc_first I.fresh h4' (by omega) (by omega)]
    rfl

theorem Blk_values (xs : List α) (m : Nat) : (Blk xs m).filterMap id = xs := by simp [Blk, List.filterMap_append]

/-- The first `k` moves of a reallocation. -/
theorem move_loop {moved : α → α} {s : Store α} (hf : Fresh s.heap) {l : List α} {b m : Nat}
    (hb : s.heap.blocks b = some (Blk l m)) {n k : Nat} (hk : k ≤ l.length) (hkn : k ≤ n) :
    forN k (s.allocate n).1 (fun i s' => do
      let (v, s') ← s'.moveOut moved (.at b 0) i
      s'.construct (.at s.heap.next 0) i v) =
      .ok ⟨((s.heap.new n).1.setB s.heap.next (some (Blk (l.take k) (n - k)))).setB b
        (some (Blk ((l.take k).map moved ++ l.drop k) m)), s.moves + k⟩ := by
  have hne : b ≠ s.heap.next := Nat.ne_of_lt (hf b (by rw [hb]; rfl))
  apply Ok.eq
  refine forN_spec (fun i s' => s' = (⟨((s.heap.new n).1.setB s.heap.next (some (Blk (l.take i) (n - i)))).setB b
    (some (Blk ((l.take i).map moved ++ l.drop i) m)), s.moves + i⟩ : Store α)) ?_ ?_
  · rw [alloc_eq]
    congr 1
    rw [List.take_zero, List.map_nil, List.nil_append, List.drop_zero, Nat.sub_zero, Nat.add_zero]
    rw [setB_get ((s.heap.new n).1.setB s.heap.next (some (Blk [] n))) (b := b) (x := some (Blk l m))
      (by rw [setB_ne _ _ hne, new_blocks_ne _ _ hne, hb])]
  · rintro i hik s' rfl
    have hi : i < l.length := by omega
    have hget : (Blk ((l.take i).map moved ++ l.drop i) m)[i]? = some (some l[i]) := by
      rw [Blk_get _ _ _ (by simp; omega)]
      congr 2
      rw [List.getElem_append_right (by simp; omega)]
      simp only [List.length_map, List.length_take, List.getElem_drop]
      congr 1; omega
    rw [moveOut_blk (setB_self _ _ _) hget, bind_ok]
    dsimp only
    rw [setB_setB, Blk_moved moved l m i hi]
    have e : i = (l.take i).length := by simp; omega
    rw [construct_blk (b := s.heap.next) (buf := Blk (l.take i) (n - i))
      (by rw [setB_ne _ _ hne.symm, setB_self]) (by conv => lhs; arg 2; rw [e]
                                                    exact Blk_raw _ _ (by omega))]
    refine Ok_ok.2 ?_
    dsimp only
    have e2 : n - i = (n - (i + 1)) + 1 := by omega
    have e3 : List.set (Blk (List.take i l) (n - i)) i (some l[i]) = Blk (l.take (i + 1)) (n - (i + 1)) := by
      have := Blk_push (l.take i) (n - (i + 1)) l[i]
      rw [← e] at this
      rw [e2, this, List.take_succ_eq_append_getElem hi]
    rw [e3, setB_comm _ _ _ hne.symm, setB_comm _ _ _ hne.symm, setB_setB]
    congr 1

/-- Violated: a move constructor that throws during a reallocation (`reserve` beyond the capacity) loses data and leaks: the
container then shows its first `k` elements in their moved-from state, and the new buffer with the `k` elements moved into
it belongs to nobody. -/
theorem C73_move_violated (dflt : α) (moved : α → α) (ops : List (COp α))
    (hv : CValidHist dflt moved CWorld.init (fun _ => none) ops) (w : CWorld α) (hw : CWorld.init.run dflt moved ops = .ok w)
    (x n k : Nat) (l : List α) (c : Cont) (hx : absRun dflt (fun _ => none) ops x = some (some l)) (hc : w.conts x = some c)
    (hn : n > c.cap) (hk : k < l.length) :
    ∃ w1 b buf, w.stepThrow dflt moved (.move k) (.reserve x n) = .ok w1 ∧ w1.conts = w.conts ∧
      c.iterate w1.store = .ok ((l.take k).map moved ++ l.drop k) ∧ w1.store.heap.blocks b = some buf ∧
      (buf.filterMap id) = l.take k ∧ ∀ z c, w1.conts z = some c → c.data ≠ .at b 0 := by
  obtain ⟨w', e', I⟩ := run_cinv (dflt := dflt) (moved := moved) ops CInv.init hv
  rw [hw] at e'; cases e'
  obtain ⟨a, c', h1, h2, h3, h4, h5⟩ := I.get (x := x) (by rw [hx]; exact fun h => by cases h)
  rw [hx] at h1; cases h1
  rw [hc] at h2; cases h2
  have hs := h4.size
  have hno : ∀ z c, w.conts z = some c → c.data ≠ .at w.store.heap.next 0 := by
    intro z c hz hd
    have := I.lt (x := z) (b := w.store.heap.next) (by simp [ownPtr, hz, hd])
    omega
  rcases h4 with ⟨_, _, _, h⟩ | ⟨b, m, hd, hb, hsz, hle, hcap⟩
  · rw [h] at hk; exact absurd hk (Nat.not_lt_zero _)
  · have hne : b ≠ w.store.heap.next := Nat.ne_of_lt (I.fresh b (by rw [hb]; rfl))
    have es : w.stepThrow dflt moved (.move k) (.reserve x n) =
        .ok ⟨⟨((w.store.heap.new n).1.setB w.store.heap.next (some (Blk (l.take k) (n - k)))).setB b
        (some (Blk ((l.take k).map moved ++ l.drop k) m)), w.store.moves + k⟩, w.conts⟩ := by
      unfold CWorld.stepThrow Cont.reserveThrow
      dsimp only
      rw [h3, bind_ok, if_pos hn]
      have hp : (w.store.allocate n).2 = .at w.store.heap.next 0 := rfl
      rw [hp, hd]
      have := move_loop (moved := moved) I.fresh hb (n := n) (k := k) (by omega) (by omega)
      rw [this]
      show Except.ok _ = _
      rw [cset_same hc]
    refine ⟨_, w.store.heap.next, Blk (l.take k) (n - k), es, rfl, ?_, ?_, ?_, hno⟩
    · have hlen : ((l.take k).map moved ++ l.drop k).length = l.length := by simp; omega
      refine Rep.iterate (l := (l.take k).map moved ++ l.drop k) (Or.inr ⟨b, m, hd, setB_self _ _ _, ?_, hle, ?_⟩)
      · rw [hlen]; exact hsz
      · rw [hlen]; exact hcap
    · show (Heap.setB _ _ _).blocks _ = _
      rw [setB_ne _ _ hne.symm, setB_self]
    · exact Blk_values _ _

/-- The hypotheses of the negative results are met by a container holding three elements and an empty one. -/
example : ∃ w1, (do let w ← (CWorld.init : CWorld Nat).run 0 (fun _ => 0) [.ofList 0 [1, 2, 3], .ofList 1 [4]]
                    w.stepThrow 0 (fun _ => 0) (.elem 1) (.copyAssign 1 0)) = .ok w1 ∧
    w1.step 0 (fun _ => 0) (.destroy 1) = .error .lifetime := by
  have hv : CValidHist 0 (fun _ => 0) (CWorld.init : CWorld Nat) (fun _ => none) [.ofList 0 [1, 2, 3], .ofList 1 [4]] := by
    refine ⟨rfl, fun w h => ?_⟩; cases h
    refine ⟨rfl, fun w h => ?_⟩; cases h
    trivial
  exact C73_assign_elem_violated 0 (fun _ => 0) [.ofList 0 [1, 2, 3], .ofList 1 [4]] hv _ rfl 1 0 (by decide) [1, 2, 3]
    (by simp [absRun, absStep, aset]) rfl 1 (by decide)

end Trixy
