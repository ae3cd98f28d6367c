import Verif.Proof.TensorVal
/-
Property C92: programs on tensors mean what they mean on plain values.
-/
namespace Trixy

variable {α : Type}

theorem run_sim (ops : List (Op α)) : ∀ {w : World α} {s : TState α}, WInv w.heap w.own → TRel w s → SaneHist w ops →
    Ok (w.run ops) (fun w' => WInv w'.heap w'.own ∧ TRel w' (s.run ops)) := by
  induction ops with
  | nil => exact fun I R _ => Ok_ok.2 ⟨I, R⟩
  | cons op ops ih =>
    intro w s I R hv
    obtain ⟨w', h1, I', R'⟩ := (step_inv I op hv.1).and (step_sim I R op hv.1 hv.2.1)
    show Ok (w.step op >>= _) _
    rw [h1]
    exact ih I' R' (hv.2.2 w' h1)

/-- Every history of constructions, copies, moves, assignments, swaps, resizes, reshapes, element writes, destructions and operations on views that respects the contract runs without
undefined behaviour, and afterwards every object and every view shows exactly what it shows when the objects are plain values and the
views are names: the same objects and views exist, they have the same class, dimensions and size, and reading any element — by one index, or by two
or three — gives the value written last, through the object or through any view on it. -/
theorem C92_values_partial (ops : List (Op α)) (h : SaneHist (World.init : World α) ops) :
    ∃ w', (World.init : World α).run ops = .ok w' ∧
      (∀ x, (w'.own x = none ↔ ((TState.init : TState α).run ops).own x = none) ∧
        ∀ o t, w'.own x = some o → ((TState.init : TState α).run ops).own x = some t → o.kind = t.kind ∧
          ∀ v, t.val = some v → o.dims = v.dims ∧ o.shape.size = v.cells.length ∧ v.dims.prod = v.cells.length ∧
            (∀ i a, v.cells[i]? = some (some a) → o.get1 w'.heap i = .ok a) ∧
            (∀ i j a, o.kind = .mat → v.cells[i * o.shape.w + j]? = some (some a) → o.get2 w'.heap i j = .ok a) ∧
            (∀ i j k a, o.kind = .ten → v.cells[(i * o.shape.h + j) * o.shape.w + k]? = some (some a) → o.get3 w'.heap i j k = .ok a)) ∧
      (∀ n, (w'.view n = none ↔ ((TState.init : TState α).run ops).view n = none) ∧
        ∀ o t, w'.view n = some o → ((TState.init : TState α).run ops).view n = some t →
          o.kind = t.kind ∧ o.dims = t.dims ∧ o.shape.size = t.dims.prod ∧
          ∀ x ob v, t.target = some x → ((TState.init : TState α).run ops).own x = some ob → ob.val = some v →
            ∀ i a, v.cells[i]? = some (some a) → o.get1 w'.heap i = .ok a) := by
  have R0 : TRel (World.init : World α) (TState.init : TState α) := ⟨fun _ => trivial, fun _ => trivial⟩
  obtain ⟨w', h1, I, R⟩ := run_sim ops WInv.init R0 h
  generalize (TState.init : TState α).run ops = s at R
  have rd : ∀ (o : Obj) (v : TVal α), ObjVal w'.heap o (some v) → ∀ i a, v.cells[i]? = some (some a) → w'.heap.load o.data i = .ok a := by
    intro o v hv i a hi
    obtain ⟨_, _, _, h4⟩ := hv
    have hlt : i < v.cells.length := by
      refine Nat.lt_of_not_le (fun hn => ?_)
      rw [List.getElem?_eq_none hn] at hi; cases hi
    rcases h4 with h0 | ⟨b, hb, hc⟩
    · omega
    · rw [hb]
      apply Heap.load_of
      rw [Nat.zero_add, hc i hlt, hi]
  refine ⟨w', h1, fun x => ⟨?_, fun o t ho ht => ?_⟩, fun n => ⟨?_, fun o t ho ht => ?_⟩⟩
  · have := R.own x
    cases e1 : w'.own x <;> cases e2 : s.own x <;> rw [e1, e2] at this <;> simp_all [ObjRel]
  · have hr := R.own x
    rw [ho, ht] at hr
    refine ⟨hr.1, fun v hv => ?_⟩
    have hr2 := hr.2
    rw [hv] at hr2
    have h3 := rd o v hr2
    exact ⟨hr2.1, hr2.2.1, hr2.2.2.1, h3, fun i j a _ => h3 _ a, fun i j k a _ => h3 _ a⟩
  · have := R.view n
    cases e1 : w'.view n <;> cases e2 : s.view n <;> rw [e1, e2] at this <;> simp_all [ViewRel]
  · have hr := R.view n
    rw [ho, ht] at hr
    obtain ⟨r1, r2, r3, r4, r5, r6⟩ := hr
    refine ⟨r1, r2, r3, fun x ob v htg hob hv i a hi => ?_⟩
    obtain ⟨ox, hox, hd⟩ := r4 x htg
    have hr := R.own x
    rw [hox, hob] at hr
    have hr2 := hr.2
    rw [hv] at hr2
    show w'.heap.load o.data i = _
    rw [← hd]
    exact rd ox v hr2 i a hi

theorem SaneHist.cons {w w' : World α} {op : Op α} {ops : List (Op α)} (h : Valid w op) (h' : Sane w op)
    (e : w.step op = .ok w') (t : SaneHist w' ops) : SaneHist w (op :: ops) :=
  ⟨h, h', fun w'' e' => by rw [e] at e'; cases e'; exact t⟩

/-- Non-vacuity: two matrices are filled, exchanged while a view looks at the first; the view then shows the second name's contents, and a write through it is seen there. -/
example : SaneHist (World.init : World Nat)
    [.valueCtor 0 .mat 1 2 3 7, .listCtor 1 .mat [4, 5], .viewMake 9 0, .swap 0 1, .viewWrite 9 5 8, .copyCtor 2 1, .resize 1 1 4 4, .destroy 0] := by
  refine .cons (Eq.refl none) ⟨by decide, by intro h; cases h⟩ rfl ?_
  refine .cons (Eq.refl none) (by show 2 < W64; decide) rfl ?_
  refine .cons ⟨_, rfl⟩ (fun a h => by cases h; exact ⟨Or.inl (by decide), rfl, by decide⟩) rfl ?_
  refine .cons ⟨_, _, rfl, rfl, rfl⟩ trivial rfl ?_
  refine .cons ⟨_, 1, _, rfl, rfl, rfl, Or.inl (by decide), by decide⟩ trivial rfl ?_
  refine .cons ⟨Eq.refl none, _, rfl, Or.inl (by decide)⟩ (fun t h => by cases h; exact ⟨rfl, by decide⟩) rfl ?_
  refine .cons ⟨_, rfl⟩ (fun a h => by cases h; exact ⟨by decide, by intro h; cases h⟩) rfl ?_
  refine .cons ⟨_, rfl⟩ trivial rfl ?_
  trivial

example : (((TState.init : TState Nat).run [.valueCtor 0 .mat 1 2 3 7, .listCtor 1 .mat [4, 5], .viewMake 9 0, .swap 0 1,
    .viewWrite 9 5 8]).own 1).bind (fun o => o.val.map (fun v => (v.dims, v.cells))) =
      some ([2, 3], [some 7, some 7, some 7, some 7, some 7, some 8]) := rfl

/-- `swap` takes any tensor by its base class, so an owning object may be exchanged with a view. Whatever the state of the store: after `a.swap(v)`, where `v`
is a view on the storage of another live object `t`, the destructor of `a` frees the storage of `t`, and the destructor of `t` is undefined
behaviour. -/
theorem C92_swap_view_violated (H : Heap α) (a t : Obj) (b : Nat) (ht : t.data = .at b 0) (hl : H.live b) :
    let v := Obj.viewOf t.kind t.shape t.data
    ∃ H1, (a.swap v).1.destroy H = .ok H1 ∧ ¬ H1.live b ∧ t.destroy H1 = .error .badFree := by
  intro v
  have hd : v.data = .at b 0 := by
    show (Obj.viewOf t.kind t.shape t.data).data = _
    rw [← ht]; cases t.kind <;> rfl
  have hsome : (H.blocks b).isSome = true := hl
  refine ⟨⟨fun b' => if b' = b then none else H.blocks b', H.next⟩, ?_, ?_, ?_⟩
  · show H.delete v.data = _
    rw [hd]
    unfold Heap.delete
    simp [hsome]
  · unfold Heap.live
    simp
  · unfold Obj.destroy
    rw [ht]
    unfold Heap.delete
    simp

/-- Non-vacuity: two vectors. -/
example : ∃ w' : World Nat, (World.init : World Nat).run [.valueCtor 0 .vec 1 1 3 7, .valueCtor 1 .vec 1 1 2 9] = .ok w' ∧
    (w'.own 1).map (·.data) = some (.at 1 0) ∧ w'.heap.live 1 := ⟨_, rfl, rfl, rfl⟩

end Trixy
