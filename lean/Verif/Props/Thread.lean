import Verif.Proof.ThreadRun
/- Property C96 (networks in different threads do not interfere). -/
namespace Trixy
set_option linter.unusedSectionVars false

variable {α β γ ρ σ : Type}

/-! ### Programs -/

/-- Threads that write only to allocations no other thread reads or writes: under every schedule there is no undefined behaviour and no data
race, what no thread writes is unchanged, every thread ends after finitely many turns of its own, and it ends with the result and with the
contents of memory it would have had alone. -/
theorem C96_independent (R W : Nat → Nat → Prop) (H : Heap α) (ps : List (Prog α β))
    (hw : ∀ (k : Nat) (p : Prog α β), ps[k]? = some p → p.Within (R k) (W k))
    (hd : ∀ (j k b : Nat), j ≠ k → j < ps.length → k < ps.length → W j b → ¬ (R k b ∨ W k b))
    (F : Nat → Heap α × β) (hr : ∀ (k : Nat) (p : Prog α β), ps[k]? = some p → p.run H = .ok (F k)) :
    ∃ N : Nat → Nat, ∀ ks : List Nat, (∀ k ∈ ks, k < ps.length) → Ok (Threads.run ks ⟨H, ps⟩) (fun s => ¬ s.Race ∧ s.progs.length = ps.length ∧
      s.heap.next = H.next ∧ (∀ b, (∀ k, k < ps.length → ¬ W k b) → s.heap.blocks b = H.blocks b) ∧
      ∀ k, k < ps.length → (N k ≤ ks.count k → s.progs[k]? = some (.ret (F k).2)) ∧
        ∀ r, s.progs[k]? = some (.ret r) → r = (F k).2 ∧ ∀ b, R k b ∨ W k b → s.heap.blocks b = (F k).1.blocks b) := by
  have hi : Threads.Inv R W F (fun k => ((ps[k]?).map (fun p => p.steps H)).getD 0) ⟨H, ps⟩ := by
    refine ⟨fun k p e => ⟨hw k p e, ?_, (F k).1, hr k p e, fun _ _ => rfl⟩⟩
    have e' : ps[k]? = some p := e
    rw [e']; rfl
  refine ⟨fun k => ((ps[k]?).map (fun p => p.steps H)).getD 0, fun ks hk => ?_⟩
  refine (Threads.run_inv hi hd hk).mono (fun s q => ?_)
  obtain ⟨q1, q2, q3⟩ := q
  have q2' : s.progs.length = ps.length := q2
  refine ⟨q1.noRace (by rw [q2']; exact hd), q2', q3.next, q3.blocks, fun k hk => ⟨fun hn => ?_, fun r hr => q1.done hr⟩⟩
  exact q1.finished (by rw [q2']; exact hk) (Nat.sub_eq_zero_of_le hn)

/-! ### Values in memory that two memories share -/

/-- The allocations of these objects. -/
def Blks (os : List Obj) (b : Nat) : Prop := ∃ o ∈ os, o.Blk b

theorem Heap.Stores.agree {H H' : Heap α} {p : Ptr} {b : Buf α} (h : H.Stores p b) (ha : ∀ c o, p = .at c o → H'.blocks c = H.blocks c) :
    H'.Stores p b := by
  rcases h with h | ⟨c, o, e, h⟩
  · exact Or.inl h
  · refine Or.inr ⟨c, o, e, fun i hi => ?_⟩
    have := h i hi
    unfold Heap.cellAt at this ⊢
    rw [ha c o e]; exact this

theorem Heap.KeepsT.agree {H H' : Heap α} {o : Obj} {t : Ten α} (h : H.KeepsT o t) (ha : ∀ b, o.Blk b → H'.blocks b = H.blocks b) : H'.KeepsT o t :=
  ⟨h.1, h.2.1, h.2.2.1, h.2.2.2.1, h.2.2.2.2.agree (fun c i e => ha c ⟨i, e⟩)⟩

theorem Heap.Held.agree {H H' : Heap α} {os : List Obj} {bs : List (Buf α)} (h : H.Held os bs) (ha : ∀ b, Blks os b → H'.blocks b = H.blocks b) :
    H'.Held os bs := by
  unfold Heap.Held at h ⊢
  induction h with
  | nil => exact .nil
  | @cons o b os bs h1 h2 ih =>
    exact .cons ⟨h1.1, h1.2.agree (fun c i e => ha c ⟨o, List.mem_cons_self .., i, e⟩)⟩
      (ih (fun c ⟨q, hq, hb⟩ => ha c ⟨q, List.mem_cons_of_mem _ hq, hb⟩))

theorem HLayer.Is.agree {addr : Ptr → Nat} {H H' : Heap α} {h : HLayer α} {L : Layer α} (hi : HLayer.Is addr H h L)
    (ha : ∀ b, Blks h.objs b → H'.blocks b = H.blocks b) : HLayer.Is addr H' h L := by
  cases hi with
  | fc hf hm => exact .fc hf (hm.agree ha)
  | conv hf hm => exact .conv hf (hm.agree ha)
  | pool hf hm => exact .pool hf (hm.agree ha)
  | rawFC hf hm => exact .rawFC hf (hm.agree ha)
  | rawConv hf hm => exact .rawConv hf (hm.agree ha)
  | rawPool hf hm => exact .rawPool hf (hm.agree ha)

theorem HNet.Is.agree {addr : Ptr → Nat} {H H' : Heap α} {net : HNet α} {v : Net α} (hi : HNet.Is addr H net v)
    (ha : ∀ b, Blks (HNet.objs net) b → H'.blocks b = H.blocks b) : HNet.Is addr H' net v := by
  induction hi with
  | nil => exact .nil
  | @cons h L net v h1 h2 ih =>
    exact .cons (h1.agree (fun b ⟨o, ho, hb⟩ => ha b ⟨o, List.mem_append_left _ ho, hb⟩)) (ih (fun b ⟨o, ho, hb⟩ => ha b ⟨o, List.mem_append_right _ ho, hb⟩))

theorem PNet.fine_of {net : PNet α} {W : Nat → Prop} (hl : ∀ l ∈ net, l.Local) (h : ∀ o ∈ HNet.objs net.obj, Prog.Out W o) : net.Fine W :=
  fun l hm => ⟨hl l hm, fun o ho => h o (List.mem_flatMap.2 ⟨l.obj, List.mem_map.2 ⟨l, hm, rfl⟩, ho⟩)⟩

theorem cell_of_blocks {H H' : Heap α} {b : Nat} (h : H'.blocks b = H.blocks b) (i : Nat) : H'.cellAt b i = H.cellAt b i := by
  unfold Heap.cellAt; rw [h]

/-! ### Evaluation -/

/-- Threads `js` whose programs stay within the allocations of their data and of the tensors they own. -/
theorem threads_of {κ ω : Type} {H : Heap α} {js : List κ} {rs : List ω} (own data : κ → List Obj) (prog : κ → Prog α β)
    (P : κ → ω → Heap α × β → Prop)
    (hw : ∀ j ∈ js, (prog j).Within (Blks (data j)) (Blks (own j)))
    (hd : ∀ (i k : Nat) (a c : κ), i ≠ k → js[i]? = some a → js[k]? = some c → ∀ o ∈ own a, ∀ q ∈ own c ++ data c, o.Elsewhere q)
    (hr : List.Forall₂ (fun j r => Ok ((prog j).run H) (P j r)) js rs)
    (hP : ∀ j r f H', P j r f → (∀ b, Blks (data j) b ∨ Blks (own j) b → H'.blocks b = f.1.blocks b) → P j r (H', f.2)) :
    ∃ N : Nat → Nat, ∀ ks : List Nat, (∀ k ∈ ks, k < js.length) →
      Ok (Threads.run ks ⟨H, js.map prog⟩) (fun s => ¬ s.Race ∧ s.heap.next = H.next ∧
        (∀ b, (∀ j ∈ js, ¬ Blks (own j) b) → s.heap.blocks b = H.blocks b) ∧
        ∀ k j r, js[k]? = some j → rs[k]? = some r → (N k ≤ ks.count k → ∃ o, s.progs[k]? = some (.ret o)) ∧
          ∀ o, s.progs[k]? = some (.ret o) → P j r (s.heap, o)) := by
  by_cases hne : js = []
  · subst hne
    refine ⟨fun _ => 0, fun ks hk => ?_⟩
    cases ks with
    | nil => exact Ok_ok.2 ⟨fun ⟨j, k, p, q, c, w, _, h, _⟩ => (by simp at h), rfl, fun _ _ => rfl, fun k j r h => (by simp at h)⟩
    | cons k ks => exact absurd (hk k (List.mem_cons_self ..)) (Nat.not_lt_zero _)
  have hpos : 0 < js.length := List.length_pos_of_ne_nil hne
  have hlen := hr.length_eq
  have hat : ∀ k (hk : k < js.length), Ok ((prog js[k]).run H) (P js[k] (rs[k]'(by omega))) := fun k hk => (List.forall₂_iff_get.1 hr).2 k hk (by omega)
  have hrun : ∀ k : Nat, ∃ f : Heap α × β, ∀ j r, js[k]? = some j → rs[k]? = some r → (prog j).run H = .ok f ∧ P j r f := by
    intro k
    by_cases hk : k < js.length
    · obtain ⟨f, e, h⟩ := hat k hk
      refine ⟨f, fun j r ej er => ?_⟩
      rw [List.getElem?_eq_getElem hk] at ej
      rw [List.getElem?_eq_getElem (show k < rs.length by omega)] at er
      cases Option.some.inj ej
      cases Option.some.inj er
      exact ⟨e, h⟩
    · obtain ⟨f, e, h⟩ := hat 0 hpos
      exact ⟨f, fun j r ej => absurd (List.getElem?_eq_some_iff.1 ej).1 hk⟩
  choose F hF using hrun
  have hmap : ∀ {k : Nat} {p : Prog α β}, (js.map prog)[k]? = some p → ∃ j r, js[k]? = some j ∧ rs[k]? = some r ∧ p = prog j := by
    intro k p e
    rw [List.getElem?_map] at e
    cases ej : js[k]? with
    | none => rw [ej] at e; cases e
    | some j =>
      rw [ej] at e
      have hk := (List.getElem?_eq_some_iff.1 ej).1
      exact ⟨j, rs[k]'(by omega), rfl, List.getElem?_eq_getElem (by omega), (Option.some.inj e).symm⟩
  have key := C96_independent (fun k b => ∃ j, js[k]? = some j ∧ Blks (data j) b) (fun k b => ∃ j, js[k]? = some j ∧ Blks (own j) b) H (js.map prog)
    (fun k p e => by
      obtain ⟨j, r, ej, -, rfl⟩ := hmap e
      exact (hw j (List.mem_of_getElem? ej)).mono (fun b hb => Or.inl ⟨j, ej, hb⟩) (fun b hb => ⟨j, ej, hb⟩))
    (fun i k b hik _ _ ⟨a, ea, o, ho, bo, eo⟩ hb => by
      rcases hb with ⟨c, ec, q, hq, bq, eq⟩ | ⟨c, ec, q, hq, bq, eq⟩
      · exact hd i k a c hik ea ec o ho q (List.mem_append_right _ hq) b bo b bq eo eq rfl
      · exact hd i k a c hik ea ec o ho q (List.mem_append_left _ hq) b bo b bq eo eq rfl)
    F (fun k p e => by
      obtain ⟨j, r, ej, er, rfl⟩ := hmap e
      exact (hF k j r ej er).1)
  obtain ⟨N, hN⟩ := key
  refine ⟨N, fun ks hk => (hN ks (by rw [List.length_map]; exact hk)).mono (fun s q => ?_)⟩
  obtain ⟨q1, q2, q3, q4, q5⟩ := q
  refine ⟨q1, q3, fun b hb => q4 b (fun k _ ⟨j, ej, hbj⟩ => hb j (List.mem_of_getElem? ej) hbj), fun k j r ej er => ?_⟩
  have hkl : k < (js.map prog).length := by rw [List.length_map]; exact (List.getElem?_eq_some_iff.1 ej).1
  obtain ⟨q6, q7⟩ := q5 k hkl
  refine ⟨fun hn => ⟨_, q6 hn⟩, fun o ho => ?_⟩
  obtain ⟨rfl, q8⟩ := q7 o ho
  exact hP j r _ _ (hF k j r ej er).2 (fun b hb => q8 b (hb.imp (fun h => ⟨j, ej, h⟩) (fun h => ⟨j, ej, h⟩)))

section
variable [Zero α] [_root_.One α] [Add α] [Mul α] [LT α] [DecidableLT α] [DecidableEq α]

/-- Threads that evaluate different networks, on inputs they may share: under every schedule there is no undefined behaviour and no data race,
nothing but the tensors of the networks changes, every thread ends, and every thread gets the value its network computes alone. -/
theorem C96_feedforward (addr : Ptr → Nat) (H : Heap α) (js : List (EvalJob α)) (rs : List (EvalValue α))
    (hj : List.Forall₂ (EvalJob.Ready addr H) js rs)
    (hd : ∀ (i k : Nat) (a c : EvalJob α), i ≠ k → js[i]? = some a → js[k]? = some c → ∀ o ∈ a.owned, ∀ q ∈ c.owned ++ [c.x], o.Elsewhere q) :
    ∃ N : Nat → Nat, ∀ ks : List Nat, (∀ k ∈ ks, k < js.length) →
      Ok (Threads.run ks ⟨H, js.map (fun j => j.net.feedforward j.x)⟩) (fun s => ¬ s.Race ∧ s.heap.next = H.next ∧
        (∀ b, (∀ j ∈ js, ∀ o ∈ j.owned, ¬ o.Blk b) → s.heap.blocks b = H.blocks b) ∧
        ∀ k j r, js[k]? = some j → rs[k]? = some r → (N k ≤ ks.count k → ∃ o, s.progs[k]? = some (.ret o)) ∧
          ∀ o, s.progs[k]? = some (.ret o) → s.heap.KeepsT o r.y ∧ HNet.Is addr s.heap j.net.obj r.v') := by
  obtain ⟨N, hN⟩ := threads_of (H := H) (js := js) (rs := rs) EvalJob.owned (fun j => [j.x]) (fun j => j.net.feedforward j.x)
    (fun j r f => (f.1.KeepsT f.2 r.y ∧ f.2 ∈ j.owned) ∧ HNet.Is addr f.1 j.net.obj r.v')
    (fun j hm => by
      obtain ⟨i, hi⟩ := List.mem_iff_getElem?.1 hm
      have hlt := (List.getElem?_eq_some_iff.1 hi).1
      have hr := (List.forall₂_iff_get.1 hj).2 i hlt (by rw [← hj.length_eq]; exact hlt)
      rw [show js.get ⟨i, hlt⟩ = j from (List.getElem?_eq_some_iff.1 hi).2] at hr
      exact PNet.feedforward_within (PNet.fine_of hr.acts (fun o ho b hb => ⟨o, ho, hb⟩)) (fun b hb => Or.inl ⟨j.x, List.mem_singleton.2 rfl, hb⟩))
    hd
    (hj.imp (fun j r hr => by
      obtain ⟨t, h1, h2⟩ := hr.input
      rw [j.net.feedforward_does j.x H]
      refine (HNet.feedforward_sim hr.net hr.apart h1 hr.free h2).mono (fun f q => ?_)
      obtain ⟨h, eh, e⟩ := q.2.2.2
      exact ⟨⟨q.2.2.1, by rw [e]; exact List.mem_flatMap.2 ⟨h, List.mem_of_getElem? eh, h.value_mem⟩⟩, q.1⟩))
    (fun j r f H' h ha => ⟨⟨h.1.1.agree (fun b hb => ha b (Or.inr ⟨_, h.1.2, hb⟩)), h.1.2⟩, h.2.agree (fun b hb => ha b (Or.inr hb))⟩)
  refine ⟨N, fun ks hk => (hN ks hk).mono (fun s q => ⟨q.1, q.2.1, fun b hb => q.2.2.1 b (fun j hm ⟨o, ho, hbo⟩ => hb j hm o ho hbo), fun k j r ej er => ?_⟩)⟩
  obtain ⟨q1, q2⟩ := q.2.2.2 k j r ej er
  exact ⟨q1, fun o ho => ⟨(q2 o ho).1.1, (q2 o ho).2⟩⟩

end

/-! ### Training -/

theorem forall₂_mem {κ ω : Type} {P Q : κ → ω → Prop} {js : List κ} {rs : List ω} (h : List.Forall₂ P js rs)
    (hq : ∀ j r, j ∈ js → P j r → Q j r) : List.Forall₂ Q js rs := by
  induction h with
  | nil => exact .nil
  | cons h1 _ ih => exact .cons (hq _ _ (List.mem_cons_self ..) h1) (ih (fun j r hm => hq j r (List.mem_cons_of_mem _ hm)))

theorem Prog.Safe.post {R W : Nat → Prop} {Q : β → Prop} {p : Prog α β} (h : p.Safe R W Q) {H : Heap α} {f : Heap α × β} (e : p.run H = .ok f) : Q f.2 := by
  induction p generalizing H with
  | ret b => cases e; exact h
  | ub u => cases e
  | load p i k ih => obtain ⟨a, -, e2⟩ := res_inv e; exact ih a (h.2 a) e2
  | store p i a k ih => obtain ⟨H', -, e2⟩ := res_inv e; exact ih h.2 e2

section
variable [Zero α] [_root_.One α] [Add α] [Mul α] [Div α] [NatCast α] [LT α] [DecidableLT α] [DecidableEq α]

/-- The data a call reads was in memory before. -/
theorem PTrainOp.data_old {H0 : Heap α} {op : PTrainOp γ} {v : TrainOp α γ} (h : HTrainOp.Same H0 op.op v) : ∀ x ∈ op.data, H0.Old x := by
  have hD : ∀ {X : List Obj} {xs : List (Ten α)}, H0.Dataset X xs → ∀ x ∈ X, H0.Old x := by
    intro X xs hX x hx
    unfold Heap.Dataset at hX
    induction hX with
    | nil => cases hx
    | cons h1 _ ih => rcases List.mem_cons.1 hx with rfl | hx
                      · exact h1.1
                      · exact ih hx
  cases op with
  | batch X Y n => cases h with | batch h1 h2 => exact fun x hx => (List.mem_append.1 hx).elim (hD h1 x) (hD h2 x)
  | mini X Y n m => cases h with | mini h1 h2 => exact fun x hx => (List.mem_append.1 hx).elim (hD h1 x) (hD h2 x)
  | sto X Y n c => cases h with | sto h1 h2 => exact fun x hx => (List.mem_append.1 hx).elim (hD h1 x) (hD h2 x)
  | eval x => cases h with | eval h1 h2 => exact fun y hy => by rw [List.mem_singleton.1 hy]; exact h1

/-- Threads that train different networks, each with an optimizer and a generator of its own, on data they may share: under every schedule there
is no undefined behaviour and no data race, everything that was in memory before the networks were built is unchanged, every thread ends, and
it leaves its network, its training object, its optimizer and its generator as if it had run alone. -/
theorem C96_training (addr : Ptr → Nat) (H0 H : Heap α) (hext : H0.Extends H) (js : List (TrainJob α γ ρ σ)) (rs : List (TrainValue α γ ρ σ))
    (hj : List.Forall₂ (TrainJob.Ready addr H0 H) js rs)
    (hd : ∀ (i k : Nat) (a c : TrainJob α γ ρ σ), i ≠ k → js[i]? = some a → js[k]? = some c → ∀ o ∈ a.owned, ∀ q ∈ c.owned, o.Elsewhere q) :
    ∃ N : Nat → Nat, ∀ ks : List Nat, (∀ k ∈ ks, k < js.length) →
      Ok (Threads.run ks ⟨H, js.map (fun j => PTrainOp.run j.upd j.gen (j.t, j.g) j.ops)⟩) (fun s => ¬ s.Race ∧ H0.Extends s.heap ∧
        ∀ k j r, js[k]? = some j → rs[k]? = some r → (N k ≤ ks.count k → ∃ o, s.progs[k]? = some (.ret o)) ∧
          ∀ o, s.progs[k]? = some (.ret o) → (o.1.at s.heap).Is addr r.st' ∧ o.2 = r.g') := by
  have hready : ∀ j ∈ js, ∃ r, TrainJob.Ready addr H0 H j r := by
    intro j hm
    obtain ⟨i, hi⟩ := List.mem_iff_getElem?.1 hm
    have hlt := (List.getElem?_eq_some_iff.1 hi).1
    have hr := (List.forall₂_iff_get.1 hj).2 i hlt (by rw [← hj.length_eq]; exact hlt)
    rw [show js.get ⟨i, hlt⟩ = j from (List.getElem?_eq_some_iff.1 hi).2] at hr
    exact ⟨_, hr⟩
  have hold : ∀ j ∈ js, ∀ x ∈ j.ops.flatMap PTrainOp.data, H0.Old x := by
    intro j hm x hx
    obtain ⟨r, hr⟩ := hready j hm
    obtain ⟨op, ho, hx⟩ := List.mem_flatMap.1 hx
    obtain ⟨i, hi⟩ := List.mem_iff_getElem?.1 ho
    have hlt := (List.getElem?_eq_some_iff.1 hi).1
    have hs := (List.forall₂_iff_get.1 hr.calls).2 i (by rw [List.length_map]; exact hlt) (by rw [← hr.calls.length_eq, List.length_map]; exact hlt)
    simp only [List.get_eq_getElem, List.getElem_map] at hs
    rw [show j.ops[i] = op from (List.getElem?_eq_some_iff.1 hi).2] at hs
    exact PTrainOp.data_old hs x hx
  have hfine : ∀ j ∈ js, j.t.Fine (Blks j.owned) := by
    intro j hm
    obtain ⟨r, hr⟩ := hready j hm
    exact ⟨PNet.fine_of hr.acts (fun o ho b hb => ⟨o, List.mem_append_left _ ho, hb⟩), fun b hb => ⟨_, List.mem_append_right _ (List.mem_singleton.2 rfl), hb⟩, hr.loss⟩
  have hsafe : ∀ j ∈ js, (PTrainOp.run j.upd j.gen (j.t, j.g) j.ops).Safe (Blks (j.ops.flatMap PTrainOp.data)) (Blks j.owned) (fun r => r.1.Fine (Blks j.owned)) := by
    intro j hm
    obtain ⟨r, hr⟩ := hready j hm
    exact PTrainOp.run_safe hr.upd j.gen (fun op ho x hx b hb => Or.inl ⟨x, List.mem_flatMap.2 ⟨op, ho, hx⟩, hb⟩) (hfine j hm)
  obtain ⟨N, hN⟩ := threads_of (H := H) (js := js) (rs := rs) TrainJob.owned (fun j => j.ops.flatMap PTrainOp.data)
    (fun j => PTrainOp.run j.upd j.gen (j.t, j.g) j.ops)
    (fun j r f => ((f.2.1.at f.1).Is addr r.st' ∧ f.2.2 = r.g') ∧ f.2.1.Fine (Blks j.owned))
    (fun j hm => (hsafe j hm).within)
    (fun i k a c hik ea ec o ho q hq => by
      rcases List.mem_append.1 hq with hq | hq
      · exact hd i k a c hik ea ec o ho q hq
      · intro pb po qb qo e1 e2
        obtain ⟨r, hr⟩ := hready a (List.mem_of_getElem? ea)
        obtain ⟨b, e3, hb⟩ := hr.fresh o ho
        obtain ⟨b', j', e4, hb'⟩ := hold c (List.mem_of_getElem? ec) q hq
        cases e1.symm.trans e3
        cases e2.symm.trans e4
        omega)
    (forall₂_mem hj (fun j r hm hr => by
      have hlive : HTrain.Live addr H0 (j.t.at H) r.st := ⟨hr.train, hr.apart, hext, hr.fresh⟩
      have h1 := HTrainOp.run_sim hr.opt hr.calls hlive hr.value
      have e1 := PTrainOp.run_makes j.upd j.gen j.ops (j.t, j.g) H
      obtain ⟨⟨t', g'⟩, e2, h2, h3⟩ := h1
      dsimp only at e1 h2 h3
      rw [e2] at e1
      obtain ⟨f, e3, e4⟩ := res_inv e1.symm
      have e5 := Except.ok.inj e4
      refine ⟨f, e3, ?_⟩
      have e6 : f.2.1.at f.1 = t' := congrArg Prod.fst e5
      have e7 : f.2.2 = g' := congrArg Prod.snd e5
      refine ⟨⟨by rw [e6]; exact h2.is, e7.trans h3⟩, ?_⟩
      exact (hsafe j hm).post e3))
    (fun j r f H' h ha => by
      have hb : ∀ b, Blks (f.2.1.at f.1).owned b → H'.blocks b = f.1.blocks b := fun b ⟨o, ho, hbo⟩ => ha b (Or.inr (by
        rcases List.mem_append.1 ho with ho | ho
        · obtain ⟨l, hl, ho⟩ := List.mem_flatMap.1 ho
          obtain ⟨l', hl', rfl⟩ := List.mem_map.1 hl
          exact (h.2.net l' hl').2 o ho b hbo
        · rw [List.mem_singleton.1 ho] at hbo
          exact h.2.delta b hbo))
      exact ⟨⟨⟨h.1.1.opt, h.1.1.net.agree (fun b ⟨o, ho, hbo⟩ => hb b ⟨o, List.mem_append_left _ ho, hbo⟩),
        h.1.1.delta.agree (fun b hbo => hb b ⟨_, List.mem_append_right _ (List.mem_singleton.2 rfl), hbo⟩), h.1.1.loss⟩, h.1.2⟩, h.2⟩)
  refine ⟨N, fun ks hk => (hN ks hk).mono (fun s q => ⟨q.1, ?_, fun k j r ej er => ?_⟩)⟩
  · refine ⟨by rw [q.2.1]; exact hext.1, fun b hb => ?_⟩
    have : s.heap.blocks b = H.blocks b := q.2.2.1 b (fun j hm ⟨o, ho, i, e⟩ => by
      obtain ⟨r, hr⟩ := hready j hm
      obtain ⟨b', e3, hb'⟩ := hr.fresh o ho
      cases e.symm.trans e3
      omega)
    refine ⟨?_, fun i => (cell_of_blocks this i).trans ((hext.2 b hb).2 i)⟩
    rw [← (hext.2 b hb).1]
    unfold Heap.live
    rw [this]
  · obtain ⟨q1, q2⟩ := q.2.2.2 k j r ej er
    exact ⟨q1, fun o ho => (q2 o ho).1⟩

end
end Trixy
