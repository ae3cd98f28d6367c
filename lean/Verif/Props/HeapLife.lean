import Verif.Spec.HeapLife
import Verif.Props.Thread
import Verif.Props.HeapNet
/- Property C97 (the memory in use is the data and the tensors of the networks that exist). -/
namespace Trixy
set_option linter.unusedSectionVars false

variable {α γ ρ σ γ' ρ' : Type}

/-! ### Allocations -/

theorem blocks_ext {H H' : Heap α} {b : Nat} (hl : H'.live b ↔ H.live b) (hc : ∀ i, H'.cellAt b i = H.cellAt b i) : H'.blocks b = H.blocks b := by
  unfold Heap.live at hl
  unfold Heap.cellAt at hc
  cases e : H'.blocks b with
  | none => cases e' : H.blocks b with
    | none => rfl
    | some v => rw [e, e'] at hl; simp at hl
  | some u => cases e' : H.blocks b with
    | none => rw [e, e'] at hl; simp at hl
    | some v =>
      rw [e, e'] at hc
      exact congrArg some (List.ext_getElem? hc)

theorem Heap.Extends.blocks {H H' : Heap α} (h : H.Extends H') {b : Nat} (hb : b < H.next) : H'.blocks b = H.blocks b :=
  blocks_ext (h.2 b hb).1 (h.2 b hb).2

theorem Heap.Only.blocks {H H' : Heap α} {ws : List Obj} (h : H.Only H' ws) {b : Nat} (hb : ¬ Blks ws b) : H'.blocks b = H.blocks b :=
  blocks_ext (h.2.1 b) (fun i => h.2.2 b i (fun w hw pb po e ⟨e1, _⟩ => hb ⟨w, hw, po, by rw [e, e1]⟩))

/-- The training object in another memory that agrees on its tensors. -/
theorem HTrain.Is.agree {addr : Ptr → Nat} {t : HTrain α σ} {st : σ × Train α} (h : t.Is addr st) {H' : Heap α}
    (ha : ∀ b, Blks t.owned b → H'.blocks b = t.heap.blocks b) : HTrain.Is addr { t with heap := H' } st :=
  ⟨h.opt, h.net.agree (fun b ⟨o, ho, hb⟩ => ha b ⟨o, List.mem_append_left _ ho, hb⟩),
    h.delta.agree (fun b hb => ha b ⟨_, List.mem_append_right _ (List.mem_singleton.2 rfl), hb⟩), h.loss⟩

/-! ### Destructors -/

/-- The allocations of these objects are gone and nothing else has changed. -/
structure Freed (H H' : Heap α) (os : List Obj) : Prop where
  next : H'.next = H.next
  gone : ∀ b, Blks os b → ¬ H'.live b
  rest : ∀ b, ¬ Blks os b → H'.blocks b = H.blocks b

theorem Freed.nil (H : Heap α) : Freed H H [] := ⟨rfl, fun _ ⟨_, h, _⟩ => absurd h (List.not_mem_nil), fun _ _ => rfl⟩

/-- The objects have live allocations of their own. -/
structure Owns (H : Heap α) (os : List Obj) : Prop where
  blk : ∀ o ∈ os, ∃ b, o.data = .at b 0 ∧ H.live b
  sep : os.Pairwise (fun a c => a.data ≠ c.data)

theorem Owns.left {H : Heap α} {os qs : List Obj} (h : Owns H (os ++ qs)) : Owns H os :=
  ⟨fun o ho => h.blk o (List.mem_append_left _ ho), (List.pairwise_append.1 h.sep).1⟩

theorem Owns.perm {H : Heap α} {os qs : List Obj} (h : Owns H os) (hp : os.Perm qs) : Owns H qs :=
  ⟨fun o ho => h.blk o (hp.mem_iff.2 ho), (hp.pairwise_iff (fun h => Ne.symm h)).1 h.sep⟩

theorem Freed.perm {H H' : Heap α} {os qs : List Obj} (h : Freed H H' os) (hp : os.Perm qs) : Freed H H' qs :=
  ⟨h.next, fun b ⟨o, ho, e⟩ => h.gone b ⟨o, hp.mem_iff.2 ho, e⟩, fun b hb => h.rest b (fun ⟨o, ho, e⟩ => hb ⟨o, hp.mem_iff.1 ho, e⟩)⟩

theorem Owns.right {H H' : Heap α} {os qs : List Obj} (h : Owns H (os ++ qs)) (hf : Freed H H' os) : Owns H' qs := by
  refine ⟨fun o ho => ?_, (List.pairwise_append.1 h.sep).2.1⟩
  obtain ⟨b, e, hb⟩ := h.blk o (List.mem_append_right _ ho)
  refine ⟨b, e, ?_⟩
  unfold Heap.live
  rw [hf.rest b (fun ⟨q, hq, i, eq⟩ => ?_)]
  · exact hb
  · obtain ⟨c, e2, -⟩ := h.blk q (List.mem_append_left _ hq)
    cases e2.symm.trans eq
    exact (List.pairwise_append.1 h.sep).2.2 q hq o ho (e2.trans e.symm)

theorem Freed.append {H H1 H2 : Heap α} {os qs : List Obj} (h1 : Freed H H1 os) (h2 : Freed H1 H2 qs) : Freed H H2 (os ++ qs) := by
  refine ⟨h2.next.trans h1.next, fun b ⟨o, ho, e⟩ => ?_, fun b hb => ?_⟩
  · by_cases hq : Blks qs b
    · exact h2.gone b hq
    · unfold Heap.live
      rw [h2.rest b hq]
      rcases List.mem_append.1 ho with ho | ho
      · exact h1.gone b ⟨o, ho, e⟩
      · exact absurd ⟨o, ho, e⟩ hq
  · rw [h2.rest b (fun ⟨o, ho, e⟩ => hb ⟨o, List.mem_append_right _ ho, e⟩), h1.rest b (fun ⟨o, ho, e⟩ => hb ⟨o, List.mem_append_left _ ho, e⟩)]

theorem destroy_freed {H : Heap α} {o : Obj} (h : Owns H [o]) : Ok (o.destroy H) (fun H' => Freed H H' [o]) := by
  obtain ⟨b, e, hb⟩ := h.blk o (List.mem_singleton.2 rfl)
  unfold Obj.destroy
  rw [e]
  show Ok (if (0 : Nat) = 0 ∧ (H.blocks b).isSome then _ else _) _
  rw [if_pos ⟨rfl, hb⟩]
  refine Ok_ok.2 ⟨rfl, fun c ⟨q, hq, i, eq⟩ => ?_, fun c hc => ?_⟩
  · rw [List.mem_singleton.1 hq] at eq
    cases eq.symm.trans e
    unfold Heap.live
    simp
  · have : c ≠ b := fun hcb => hc ⟨o, List.mem_singleton.2 rfl, 0, by rw [hcb]; exact e⟩
    show (if c = b then none else H.blocks c) = _
    rw [if_neg this]

/-- One destructor after the other. -/
theorem Freed.seq {H : Heap α} {os qs : List Obj} {x : Res (Heap α)} {f : Heap α → Res (Heap α)} (h : Owns H (os ++ qs))
    (h1 : Owns H os → Ok x (fun H' => Freed H H' os)) (h2 : ∀ H', Owns H' qs → Ok (f H') (fun H2 => Freed H' H2 qs)) :
    Ok (x >>= f) (fun H2 => Freed H H2 (os ++ qs)) :=
  (h1 h.left).bind (fun H' q => (h2 H' (h.right q)).mono (fun _ r => q.append r))

theorem destroyAll_freed {os : List Obj} : ∀ {H : Heap α}, Owns H os → Ok (Obj.destroyAll H os) (fun H' => Freed H H' os) := by
  induction os with
  | nil => intro H _; exact Ok_ok.2 (Freed.nil H)
  | cons o os ih => intro H h; exact Freed.seq (os := [o]) h destroy_freed (fun H' h' => ih h')

theorem HFC.destroy_freed {l : HFC α} {H : Heap α} (h : Owns H l.objs) : Ok (l.destroy H) (fun H' => Freed H H' l.objs) := by
  have hp : l.objs.Perm [l.delta, l.gradWs, l.gradBs, l.gradW, l.gradB, l.buff, l.value, l.W, l.B] :=
    (List.reverse_perm _).symm
  have h' := h.perm hp
  refine Ok.mono ?_ (fun H' q => Freed.perm q hp.symm)
  refine Freed.seq (os := [_]) h' Trixy.destroy_freed (fun H h => ?_)
  refine Freed.seq (os := [_]) h Trixy.destroy_freed (fun H h => ?_)
  refine Freed.seq (os := [_]) h Trixy.destroy_freed (fun H h => ?_)
  refine Freed.seq (os := [_]) h Trixy.destroy_freed (fun H h => ?_)
  refine Freed.seq (os := [_]) h Trixy.destroy_freed (fun H h => ?_)
  refine Freed.seq (os := [_]) h Trixy.destroy_freed (fun H h => ?_)
  refine Freed.seq (os := [_]) h Trixy.destroy_freed (fun H h => ?_)
  refine Freed.seq (os := [_]) h Trixy.destroy_freed (fun H h => ?_)
  exact Trixy.destroy_freed h

theorem HRawFC.destroy_freed {l : HRawFC α} {H : Heap α} (h : Owns H l.objs) : Ok (l.destroy H) (fun H' => Freed H H' l.objs) := by
  have hp : l.objs.Perm [l.value, l.W, l.B] := (List.reverse_perm _).symm
  have h' := h.perm hp
  refine Ok.mono ?_ (fun H' q => Freed.perm q hp.symm)
  refine Freed.seq (os := [_]) h' Trixy.destroy_freed (fun H h => ?_)
  refine Freed.seq (os := [_]) h Trixy.destroy_freed (fun H h => ?_)
  exact Trixy.destroy_freed h

theorem HPool.destroy_freed {l : HPool α} {H : Heap α} (h : Owns H l.objs) : Ok (l.destroy H) (fun H' => Freed H H' l.objs) := by
  have hp : l.objs.Perm [l.delta, l.mask, l.buff, l.value] := (List.reverse_perm _).symm
  have h' := h.perm hp
  refine Ok.mono ?_ (fun H' q => Freed.perm q hp.symm)
  refine Freed.seq (os := [_]) h' Trixy.destroy_freed (fun H h => ?_)
  refine Freed.seq (os := [_]) h Trixy.destroy_freed (fun H h => ?_)
  refine Freed.seq (os := [_]) h Trixy.destroy_freed (fun H h => ?_)
  exact Trixy.destroy_freed h

theorem HConv.destroy_freed {l : HConv} {H : Heap α} (h : Owns H l.objs) : Ok (l.destroy H) (fun H' => Freed H H' l.objs) := by
  have hp : l.objs.Perm ([l.buff] ++ ([l.delta] ++ ([l.gradB] ++ (l.gradWs ++ ([l.value] ++ (l.Ws ++ [l.B])))))) := by
    classical
    rw [List.perm_iff_count]
    intro a
    simp only [HConv.objs, List.count_append, List.count_cons, List.count_nil]
    omega
  have h' := h.perm hp
  refine Ok.mono ?_ (fun H' q => Freed.perm q hp.symm)
  refine Freed.seq h' Trixy.destroy_freed (fun H h => ?_)
  refine Freed.seq h Trixy.destroy_freed (fun H h => ?_)
  refine Freed.seq h Trixy.destroy_freed (fun H h => ?_)
  refine Freed.seq h destroyAll_freed (fun H h => ?_)
  refine Freed.seq h Trixy.destroy_freed (fun H h => ?_)
  refine Freed.seq h destroyAll_freed (fun H h => ?_)
  exact Trixy.destroy_freed h

theorem HConv.destroyRaw_freed {l : HConv} {H : Heap α} (h : Owns H l.rawObjs) : Ok (l.destroyRaw H) (fun H' => Freed H H' l.rawObjs) := by
  have hp : l.rawObjs.Perm ([l.value] ++ (l.Ws ++ [l.B])) := by
    classical
    rw [List.perm_iff_count]
    intro a
    simp only [HConv.rawObjs, List.count_append, List.count_cons, List.count_nil]
    omega
  have h' := h.perm hp
  refine Ok.mono ?_ (fun H' q => Freed.perm q hp.symm)
  refine Freed.seq h' Trixy.destroy_freed (fun H h => ?_)
  refine Freed.seq h destroyAll_freed (fun H h => ?_)
  exact Trixy.destroy_freed h

theorem HLayer.destroy_freed {l : HLayer α} {H : Heap α} (h : Owns H l.objs) : Ok (l.destroy H) (fun H' => Freed H H' l.objs) := by
  cases l with
  | fc l => exact HFC.destroy_freed h
  | conv l => exact HConv.destroy_freed h
  | pool l => exact HPool.destroy_freed h
  | rawFC l => exact HRawFC.destroy_freed h
  | rawConv l => exact HConv.destroyRaw_freed h
  | rawPool l => exact Trixy.destroy_freed h

theorem HNet.destroy_freed {net : HNet α} : ∀ {H : Heap α}, Owns H (HNet.objs net) → Ok (HNet.destroy H net) (fun H' => Freed H H' (HNet.objs net)) := by
  induction net with
  | nil => intro H _; exact Ok_ok.2 (Freed.nil H)
  | cons l net ih => intro H h; exact Freed.seq (os := l.objs) h HLayer.destroy_freed (fun H' h' => ih h')

/-- Destroying a training object and its network, in either order. -/
theorem destroy_both {t : HTrain α σ} {H : Heap α} (h : Owns H t.owned) (netFirst : Bool) :
    Ok (t.destroyBoth H netFirst)
      (fun H' => Freed H H' t.owned) := by
  cases netFirst with
  | true => exact Freed.seq (os := HNet.objs t.net) h HNet.destroy_freed (fun H' h' => Trixy.destroy_freed h')
  | false =>
    have hp : t.owned.Perm ([t.delta] ++ HNet.objs t.net) := List.perm_append_comm
    exact Ok.mono (Freed.seq (h.perm hp) Trixy.destroy_freed (fun H' h' => HNet.destroy_freed h')) (fun H' q => Freed.perm q hp.symm)

section
variable [Zero α] [_root_.One α] [Add α] [Mul α] [Div α] [NatCast α] [LT α] [DecidableLT α] [DecidableEq α]
variable {addr : Ptr → Nat}

/-! ### Calls -/

theorem HTrainOp.exec_only {hu : HUpd σ α} {u : Upd σ α} {H0 : Heap α} {gen : Gen γ ρ Nat} (hfo : HUpd.Follows addr hu u) {t : HTrain α σ}
    {st st' : σ × Train α} {g g' : ρ} (h : HTrain.Live addr H0 t st)
    {hop : HTrainOp α γ} {op : TrainOp α γ} (hs : hop.Same H0 op) (e : TrainOp.exec u gen (st, g) op = .ok (st', g')) :
    Ok (HTrainOp.exec hu gen (t, g) hop) (fun r => HTrain.Live addr H0 r.1 st' ∧ r.2 = g' ∧ t.heap.Only r.1.heap t.owned ∧ r.1.owned = t.owned) := by
  cases hs with
  | batch hX hY =>
    obtain ⟨r, e1, e⟩ := res_inv e
    cases e
    exact (HTrain.batch_sim hfo h.sep (h.data hX) (h.data hY) (.start h.is) e1).bind (fun t' h' => Ok_ok.2 ⟨h.after h', rfl, h'.only, h'.ownedEq⟩)
  | mini hX hY =>
    obtain ⟨r, e1, e⟩ := res_inv e
    cases e
    exact (HTrain.miniBatch_sim hfo h.sep (h.data hX) (h.data hY) (.start h.is) e1).bind (fun t' h' => Ok_ok.2 ⟨h.after h', rfl, h'.only, h'.ownedEq⟩)
  | sto hX hY =>
    exact (HTrain.stochastic_sim hfo h.sep (h.data hX) (h.data hY) (.start h.is) e).mono (fun r h' => ⟨h.after h'.1, h'.2, h'.1.only, h'.1.ownedEq⟩)
  | lossOf hX hY =>
    obtain ⟨⟨v, w⟩, e1, e⟩ := res_inv e
    cases e
    exact (HTrain.lossMean_sim h.sep (h.data hX) (h.data hY) (.start h.is) e1).bind (fun r h' => Ok_ok.2 ⟨h.after h'.2, rfl, h'.2.only, h'.2.ownedEq⟩)
  | eval ho hx =>
    obtain ⟨w, e1, e⟩ := res_inv e
    cases e
    refine (HTrain.feedforward_sim (t0 := t) h.sep (.start h.is) (hx.extends ho h.ext) (fun l hl o' ho' => ?_) e1).bind
      (fun t' h' => Ok_ok.2 ⟨h.after h'.1, rfl, h'.1.only, h'.1.ownedEq⟩)
    exact h.apart ho _ (HTrain.owned_net (HNet.mem_objs hl o' (l.scratch_mem o' ho')))
  | setLoss hl =>
    cases e
    exact Ok_ok.2 ⟨⟨⟨h.is.opt, h.is.net, h.is.delta, Or.inr ⟨_, _, rfl, rfl, hl⟩⟩, h.sep, h.ext, h.fresh⟩, rfl, ⟨rfl, fun _ => Iff.rfl, fun _ _ _ => rfl⟩, rfl⟩

theorem TrainOp.run_snoc (u : Upd σ α) (gen : Gen γ ρ Nat) (op : TrainOp α γ) : ∀ (ops : List (TrainOp α γ)) (st : (σ × Train α) × ρ),
    TrainOp.run u gen st (ops ++ [op]) = TrainOp.run u gen st ops >>= fun st => TrainOp.exec u gen st op := by
  intro ops
  induction ops with
  | nil =>
    intro st
    show (TrainOp.exec u gen st op >>= fun st => Except.ok st) = TrainOp.exec u gen st op
    cases TrainOp.exec u gen st op <;> rfl
  | cons a ops ih =>
    intro st
    show (TrainOp.exec u gen st a >>= fun st => TrainOp.run u gen st (ops ++ [op])) = (TrainOp.exec u gen st a >>= fun st => TrainOp.run u gen st ops) >>= _
    rw [bind_assoc]
    exact bind_congr (fun st => ih st)

theorem Train.program_snoc (ks : List (LayerKind α)) (gi : Gen γ' ρ' α) (ci : γ') (ri : ρ') (loss : Loss α) (opt : σ) (u : Upd σ α)
    (gen : Gen γ ρ Nat) (g : ρ) (ops : List (TrainOp α γ)) (op : TrainOp α γ) :
    Train.program ks gi ci ri loss opt u gen g (ops ++ [op]) =
      Train.program ks gi ci ri loss opt u gen g ops >>= fun st => TrainOp.exec u gen st op := by
  unfold Train.program
  simp only [bind_assoc]
  refine bind_congr (fun net => bind_congr (fun r => bind_congr (fun t => ?_)))
  exact TrainOp.run_snoc u gen op (.setLoss loss :: ops) ((opt, t), g)

/-! ### Building -/

/-- Building a network in memory, when the same program on values is defined. -/
theorem start_spec {hu : HUpd σ α} {u : Upd σ α} (hfo : HUpd.Follows addr hu u) {as : List (LayerArgs α)} {ss : List (LayerSpec α)}
    (hlay : List.Forall₂ LayerArgs.Same as ss) (hroom : ∀ s ∈ ss, s.Room) (hsens : ∀ s ∈ ss, s.Sensible) {gi : Gen γ' ρ' α} {ci : γ'} {ri : ρ'}
    {hl : HLoss α} {l : Loss α} (hll : hl.Follows l) {s0 : σ} {gen : Gen γ ρ Nat} {g : ρ} {H H1 : Heap α} {net : HNet α}
    (eb : HNet.build as H = .ok (H1, net)) {st : (σ × Train α) × ρ}
    (ep : Train.program (HNet.kinds addr net ss) gi ci ri l s0 u gen g [] = .ok st) :
    Ok (HTrain.program as gi ci ri hl s0 hu gen g [] H) (fun r => HTrain.Live addr H r.1 st.1 ∧ r.2 = st.2 ∧
        (∀ b, r.1.heap.live b ↔ H.live b ∨ ∃ o ∈ r.1.owned, o.data = .at b 0) ∧ (∀ o ∈ r.1.owned, ∃ b, o.data = .at b 0 ∧ b < r.1.heap.next) ∧
        r.1.owned.Pairwise (fun a c => a.data ≠ c.data)) := by
  obtain ⟨⟨H1', net'⟩, eb', v0, bs, hm, hi, hg, hbs⟩ := HNet.build_spec (addr := addr) hlay hroom H
  cases eb.symm.trans eb'
  dsimp only at hm hi hg hbs
  obtain ⟨-, hsep, hfr⟩ := hg.holds hbs rfl
  have hnd : (HNet.objs net).Pairwise (fun a c => a.data ≠ c.data) := by
    rw [← hbs]; exact List.pairwise_map.2 hg.sep
  have hlive : ∀ b, H1.live b ↔ H.live b ∨ ∃ o ∈ HNet.objs net, o.data = .at b 0 := by
    intro b
    rw [hg.live, ← hbs]
    refine or_congr Iff.rfl ⟨fun ⟨q, hq, e⟩ => ⟨q.1, List.mem_map.2 ⟨q, hq, rfl⟩, e⟩, fun ⟨o, ho, e⟩ => ?_⟩
    obtain ⟨q, hq, rfl⟩ := List.mem_map.1 ho
    exact ⟨q, hq, e⟩
  have h1 := HTrain.program_sim (gi := gi) (ci := ci) (ri := ri) (s0 := s0) (g := g) (gen := gen) hfo hlay hroom hsens hll (hops := []) .nil eb ep
  obtain ⟨r, er, r1, r2⟩ := h1
  refine ⟨r, er, r1, r2, ?_⟩
  unfold HTrain.program at er
  rw [eb, bind_ok] at er
  obtain ⟨v', e1, e⟩ := res_inv ep
  cases e1.symm.trans (hm.makeAll hsens)
  obtain ⟨⟨v1, g1'⟩, e2, e⟩ := res_inv e
  obtain ⟨⟨H2, g2⟩, ei, er⟩ := res_inv er
  obtain ⟨_, ei', -, q2, q3⟩ := HNet.init_sim hi hsep e2
  cases ei.symm.trans ei'
  obtain ⟨t, et, er⟩ := res_inv er
  cases er
  obtain ⟨l, -, et⟩ := res_inv et
  cases et
  dsimp only at q3
  have hnx : H2.next = H1.next := q3.1
  refine ⟨fun b => ?_, fun o ho => ?_, ?_⟩
  · show (H2.new _).1.live b ↔ H.live b ∨ ∃ o ∈ HNet.objs net ++ [_], o.data = .at b 0
    rw [Heap.new_live, q3.2.1, hlive]
    constructor
    · rintro (h | h | ⟨o, ho, e⟩)
      · exact Or.inr ⟨_, List.mem_append_right _ (List.mem_singleton.2 rfl), by rw [h]⟩
      · exact Or.inl h
      · exact Or.inr ⟨o, List.mem_append_left _ ho, e⟩
    · rintro (h | ⟨o, ho, e⟩)
      · exact Or.inr (Or.inl h)
      · rcases List.mem_append.1 ho with ho | ho
        · exact Or.inr (Or.inr ⟨o, ho, e⟩)
        · rw [List.mem_singleton.1 ho] at e
          exact Or.inl (Ptr.at.inj e).1.symm
  · rcases List.mem_append.1 ho with ho | ho
    · obtain ⟨b, b1, b2, b3⟩ := hfr o ho
      exact ⟨b, b1, show b < H2.next + 1 by omega⟩
    · rw [List.mem_singleton.1 ho]
      exact ⟨H2.next, rfl, Nat.lt_succ_self _⟩
  · refine List.pairwise_append.2 ⟨hnd, List.pairwise_singleton _ _, fun a ha c hc => ?_⟩
    rw [List.mem_singleton.1 hc]
    obtain ⟨b, b1, b2, b3⟩ := hfr a ha
    rw [b1]
    intro h
    have := (Ptr.at.inj h).1
    omega

theorem create_spec (hinj : Distinct addr) {p : NetPlan α γ ρ σ γ' ρ'} {v : NetValue α σ} (hp : p.Sensible addr v) (H : Heap α) :
    ∃ (ks : List (LayerKind α)), List.Forall₂ (fun k s => ∃ kB kW, k = LayerSpec.kind kB kW s) ks v.layers ∧
      (∀ calls, (∀ op ∈ calls, TrainOp.Good v.s v.o op) → Ok (Train.program ks p.gi p.ci p.ri v.loss p.opt v.upd p.gen p.g calls) (fun _ => True)) ∧
      ∀ st, Train.program ks p.gi p.ci p.ri v.loss p.opt v.upd p.gen p.g [] = .ok st →
      Ok (HTrain.program p.layers p.gi p.ci p.ri p.loss p.opt p.upd p.gen p.g [] H) (fun r => HTrain.Live addr H r.1 st.1 ∧ r.2 = st.2 ∧
        (∀ b, r.1.heap.live b ↔ H.live b ∨ ∃ o ∈ r.1.owned, o.data = .at b 0) ∧ (∀ o ∈ r.1.owned, ∃ b, o.data = .at b 0 ∧ b < r.1.heap.next) ∧
        r.1.owned.Pairwise (fun a c => a.data ≠ c.data)) := by
  obtain ⟨⟨H1, net⟩, eb, v0, bs, hm, hi, hg, hbs⟩ := HNet.build_spec (addr := addr) hp.layers hp.room H
  dsimp only at hm hi hg hbs
  obtain ⟨-, hsep, hfr⟩ := hg.holds hbs rfl
  have hnd : (HNet.objs net).Pairwise (fun a c => a.data ≠ c.data) := by
    rw [← hbs]; exact List.pairwise_map.2 hg.sep
  have hz := sizeAt_eq (addr := addr) (os := HNet.objs net) (fun o ho q hq e => by
    obtain ⟨b, e1, -⟩ := hfr o ho
    obtain ⟨c, e2, -⟩ := hfr q hq
    rw [e1, e2] at e
    have hbc := hinj b c e
    have : o = q := List.inj_on_of_nodup_map (List.pairwise_map.2 hnd) ho hq (by rw [e1, e2, hbc])
    rw [this])
  obtain ⟨L, dL, hlis⟩ := hp.lossIs
  obtain ⟨I, hI, hok⟩ := hp.optOk
  refine ⟨HNet.kinds addr net v.layers, ?_, fun calls hc => ?_, fun st ep => ?_⟩
  · refine List.forall₂_iff_get.2 ⟨by unfold HNet.kinds; rw [List.length_zipWith, hm.length, Nat.min_self], fun i a b => ?_⟩
    have hn : i < net.length := by rw [hm.length]; exact b
    refine ⟨(net[i]'hn).biasAddr addr, (net[i]'hn).weightAddr addr, ?_⟩
    simp only [HNet.kinds, List.get_eq_getElem, List.getElem_zipWith]
  · exact (value_program hm hi hp.sensible hp.fits hp.two hp.few hz (hok _) hI p.gi p.ci p.ri p.gen p.g hlis hc).mono (fun _ _ => trivial)
  exact start_spec hp.opt hp.layers hp.room hp.sensible hp.loss eb ep

/-! ### Histories -/

/-- One network and what has happened to it. -/
structure SlotInv (addr : Ptr → Nat) (H0 H : Heap α) (c : LifeSlot α γ ρ σ) (h : LifeHist α γ ρ σ γ' ρ') : Prop where
  upd : c.upd = h.plan.upd
  gen : c.gen = h.plan.gen
  plan : h.plan.Sensible addr h.val
  good : ∀ op ∈ h.calls, op.Good h.val.s h.val.o
  now : ∃ ks st, List.Forall₂ (fun k s => ∃ kB kW, k = LayerSpec.kind kB kW s) ks h.val.layers ∧
    (∀ calls, (∀ op ∈ calls, TrainOp.Good h.val.s h.val.o op) →
      Ok (Train.program ks h.plan.gi h.plan.ci h.plan.ri h.val.loss h.plan.opt h.val.upd h.plan.gen h.plan.g calls) (fun _ => True)) ∧
    Train.program ks h.plan.gi h.plan.ci h.plan.ri h.val.loss h.plan.opt h.val.upd h.plan.gen h.plan.g h.calls = .ok (st, c.g) ∧
    HTrain.Live addr H0 { c.t with heap := H } st
  owns : Owns H c.t.owned
  below : ∀ o ∈ c.t.owned, ∃ b, o.data = .at b 0 ∧ b < H.next

theorem SlotInv.blks {H0 H : Heap α} {c : LifeSlot α γ ρ σ} {h : LifeHist α γ ρ σ γ' ρ'} (hi : SlotInv addr H0 H c h) {b : Nat} (hb : Blks c.t.owned b) :
    H0.next ≤ b ∧ b < H.next ∧ H.live b := by
  obtain ⟨o, ho, i, e⟩ := hb
  obtain ⟨ks, st, -, -, -, hl⟩ := hi.now
  obtain ⟨b1, e1, h1⟩ := hl.fresh o ho
  obtain ⟨b2, e2, h2⟩ := hi.below o ho
  obtain ⟨b3, e3, h3⟩ := hi.owns.blk o ho
  cases e1.symm.trans e
  cases e2.symm.trans e
  cases e3.symm.trans e
  exact ⟨h1, h2, h3⟩

theorem SlotInv.frame {H0 H H' : Heap α} {c : LifeSlot α γ ρ σ} {h : LifeHist α γ ρ σ γ' ρ'} (hi : SlotInv addr H0 H c h)
    (ha : ∀ b, Blks c.t.owned b → H'.blocks b = H.blocks b) (he : H0.Extends H') (hn : H.next ≤ H'.next) : SlotInv addr H0 H' c h := by
  obtain ⟨ks, st, k1, k2, k3, k4⟩ := hi.now
  refine ⟨hi.upd, hi.gen, hi.plan, hi.good, ⟨ks, st, k1, k2, k3, ⟨k4.is.agree ha, k4.sep, he, k4.fresh⟩⟩, ⟨fun o ho => ?_, hi.owns.sep⟩, fun o ho => ?_⟩
  · obtain ⟨b, e, hb⟩ := hi.owns.blk o ho
    refine ⟨b, e, ?_⟩
    unfold Heap.live
    rw [ha b ⟨o, ho, 0, e⟩]
    exact hb
  · obtain ⟨b, e, hb⟩ := hi.below o ho
    exact ⟨b, e, Nat.lt_of_lt_of_le hb hn⟩

/-- Networks and what has happened to them. -/
structure LifeInv (addr : Ptr → Nat) (H0 : Heap α) (w : Life α γ ρ σ) (hs : List (Option (LifeHist α γ ρ σ γ' ρ'))) : Prop where
  ext : H0.Extends w.heap
  len : w.slots.length = hs.length
  alive : ∀ (k : Nat) (h : LifeHist α γ ρ σ γ' ρ'), hs[k]? = some (some h) → ∃ c, w.slots[k]? = some (some c) ∧ SlotInv addr H0 w.heap c h
  dead : ∀ k : Nat, hs[k]? = some none → w.slots[k]? = some none
  sep : ∀ (j k : Nat) (a c : LifeSlot α γ ρ σ), j ≠ k → w.slots[j]? = some (some a) → w.slots[k]? = some (some c) → ∀ b, ¬ (Blks a.t.owned b ∧ Blks c.t.owned b)
  live : ∀ b, w.heap.live b ↔ H0.live b ∨ w.Uses b

theorem LifeInv.hist {H0 : Heap α} {w : Life α γ ρ σ} {hs : List (Option (LifeHist α γ ρ σ γ' ρ'))} (hi : LifeInv addr H0 w hs) {k : Nat}
    {c : LifeSlot α γ ρ σ} (e : w.slots[k]? = some (some c)) : ∃ h, hs[k]? = some (some h) ∧ SlotInv addr H0 w.heap c h := by
  have hk : k < hs.length := by rw [← hi.len]; exact (List.getElem?_eq_some_iff.1 e).1
  cases eh : hs[k] with
  | none => have := hi.dead k (by rw [List.getElem?_eq_getElem hk, eh]); rw [this] at e; cases e
  | some h =>
    obtain ⟨c', e', hc⟩ := hi.alive k h (by rw [List.getElem?_eq_getElem hk, eh])
    rw [e'] at e
    cases e
    exact ⟨h, by rw [List.getElem?_eq_getElem hk, eh], hc⟩

theorem uses_iff {w : Life α γ ρ σ} {b : Nat} : w.Uses b ↔ ∃ (k : Nat) (c : LifeSlot α γ ρ σ), w.slots[k]? = some (some c) ∧ ∃ o ∈ c.t.owned, o.data = .at b 0 := by
  constructor
  · rintro ⟨s, hs, h⟩
    obtain ⟨k, hk⟩ := List.mem_iff_getElem?.1 hs
    exact ⟨k, s, hk, h⟩
  · rintro ⟨k, c, e, h⟩
    exact ⟨c, List.mem_of_getElem? e, h⟩

theorem LifeInv.create (hinj : Distinct addr) {H0 : Heap α} (hH : ∀ b, H0.live b → b < H0.next) {w : Life α γ ρ σ} {hs : List (Option (LifeHist α γ ρ σ γ' ρ'))} (hi : LifeInv addr H0 w hs)
    {p : NetPlan α γ ρ σ γ' ρ'} {v : NetValue α σ} (hp : p.Sensible addr v) :
    Ok (w.step (.create p)) (fun w' => LifeInv addr H0 w' (hs ++ [some ⟨p, v, []⟩])) := by
  obtain ⟨ks, k1, k2, k3⟩ := create_spec hinj hp w.heap
  obtain ⟨⟨st, g⟩, ep, -⟩ := k2 [] (fun _ h => absurd h (List.not_mem_nil))
  unfold Life.step
  refine (k3 _ ep).bind (fun ⟨t, g'⟩ q => ?_)
  dsimp only at q ⊢
  obtain ⟨q1, rfl, q3, q4, q5⟩ := q
  have hold : ∀ (k : Nat) (c : LifeSlot α γ ρ σ), w.slots[k]? = some (some c) → ∀ b, Blks c.t.owned b → b < w.heap.next := by
    intro k c e b hb
    obtain ⟨h, -, hc⟩ := hi.hist e
    exact (hc.blks hb).2.1
  have hnew : ∀ b, Blks t.owned b → w.heap.next ≤ b := by
    rintro b ⟨o, ho, i, e⟩
    obtain ⟨b1, e1, h1⟩ := q1.fresh o ho
    cases e1.symm.trans e
    exact h1
  refine Ok_ok.2 ⟨hi.ext.trans q1.ext, by simp [hi.len], fun k h eh => ?_, fun k eh => ?_, fun j k a c hjk ea ec b hb => ?_, fun b => ?_⟩
  · dsimp only
    rw [List.getElem?_append] at eh
    split at eh
    · obtain ⟨c, e, hc⟩ := hi.alive k h eh
      refine ⟨c, by rw [List.getElem?_append_left (by rw [hi.len]; assumption)]; exact e, hc.frame (fun b hb => ?_) (hi.ext.trans q1.ext) q1.ext.1⟩
      exact q1.ext.blocks (hold k c e b hb)
    · rename_i hlt
      have hk : k = hs.length := by
        by_contra hne
        rw [List.getElem?_eq_none (by simp; omega)] at eh
        cases eh
      subst hk
      rw [Nat.sub_self] at eh
      cases eh
      refine ⟨⟨t, p.upd, p.gen, g'⟩, by rw [List.getElem?_append_right (by rw [hi.len]), hi.len, Nat.sub_self]; rfl, rfl, rfl, hp,
        fun _ h => absurd h (List.not_mem_nil), ⟨ks, st, k1, k2, ep, q1.is, q1.sep, hi.ext.trans q1.ext, fun o ho => ?_⟩,
        ⟨fun o ho => ?_, q5⟩, q4⟩
      · obtain ⟨b, e, hb⟩ := q1.fresh o ho
        exact ⟨b, e, Nat.le_trans hi.ext.1 hb⟩
      · obtain ⟨b, e, hb⟩ := q1.fresh o ho
        exact ⟨b, e, (q3 b).2 (Or.inr ⟨o, ho, e⟩)⟩
  · dsimp only
    rw [List.getElem?_append] at eh
    split at eh
    · rw [List.getElem?_append_left (by rw [hi.len]; assumption)]; exact hi.dead k eh
    · rename_i hlt
      by_cases hk : k = hs.length
      · subst hk; rw [Nat.sub_self] at eh; cases eh
      · rw [List.getElem?_eq_none (by simp; omega)] at eh; cases eh
  · dsimp only at ea ec
    have at' : ∀ (k : Nat) (c : LifeSlot α γ ρ σ), (w.slots ++ [some ⟨t, p.upd, p.gen, g'⟩])[k]? = some (some c) →
        w.slots[k]? = some (some c) ∨ (k = w.slots.length ∧ c.t = t) := by
      intro k c e
      rw [List.getElem?_append] at e
      split at e
      · exact Or.inl e
      · by_cases hk : k = w.slots.length
        · subst hk; rw [Nat.sub_self] at e; cases e; exact Or.inr ⟨rfl, rfl⟩
        · rw [List.getElem?_eq_none (by simp; omega)] at e; cases e
    rcases at' j a ea with ea | ⟨ej, ea⟩ <;> rcases at' k c ec with ec | ⟨ek, ec⟩
    · exact hi.sep j k a c hjk ea ec b hb
    · have := hold j a ea b hb.1
      have := hnew b (by rw [← ec]; exact hb.2)
      omega
    · have := hold k c ec b hb.2
      have := hnew b (by rw [← ea]; exact hb.1)
      omega
    · omega
  · show t.heap.live b ↔ _
    rw [q3, hi.live, or_assoc]
    refine or_congr Iff.rfl ⟨?_, ?_⟩
    · rintro (⟨s, hs', h⟩ | h)
      · exact ⟨s, List.mem_append_left _ hs', h⟩
      · exact ⟨_, List.mem_append_right _ (List.mem_singleton.2 rfl), h⟩
    · rintro ⟨s, hs', h⟩
      rcases List.mem_append.1 hs' with hs' | hs'
      · exact Or.inl ⟨s, hs', h⟩
      · rw [Option.some.inj (List.mem_singleton.1 hs')] at h
        exact Or.inr h

theorem Life.slot_of {w : Life α γ ρ σ} {k : Nat} {c : LifeSlot α γ ρ σ} (e : w.slots[k]? = some (some c)) : w.slot k = .ok c := by
  unfold Life.slot; rw [e]

theorem LifeInv.call {H0 : Heap α} (hH : ∀ b, H0.live b → b < H0.next) {w : Life α γ ρ σ} {hs : List (Option (LifeHist α γ ρ σ γ' ρ'))} (hi : LifeInv addr H0 w hs)
    {k : Nat} {s : LifeHist α γ ρ σ γ' ρ'} {op : HTrainOp α γ} {vop : TrainOp α γ} (hk : hs[k]? = some (some s)) (ho : HTrainOp.Same H0 op vop)
    (hg : vop.Good s.val.s s.val.o) :
    Ok (w.step (.call (γ' := γ') (ρ' := ρ') k op)) (fun w' => LifeInv addr H0 w' (hs.set k (some { s with calls := s.calls ++ [vop] }))) := by
  obtain ⟨c, ec, hc⟩ := hi.alive k s hk
  have hkl : k < w.slots.length := (List.getElem?_eq_some_iff.1 ec).1
  have hkl' : k < hs.length := by rw [← hi.len]; exact hkl
  obtain ⟨ks, st, k1, k2, k3, k4⟩ := hc.now
  have hgood : ∀ op ∈ s.calls ++ [vop], TrainOp.Good s.val.s s.val.o op := fun op ho => by
    rcases List.mem_append.1 ho with ho | ho
    · exact hc.good op ho
    · rw [List.mem_singleton.1 ho]; exact hg
  obtain ⟨⟨st', g'⟩, ep, -⟩ := k2 (s.calls ++ [vop]) hgood
  have ex := ep
  rw [Train.program_snoc, k3, bind_ok] at ex
  unfold Life.step
  dsimp only
  rw [Life.slot_of ec, bind_ok, hc.upd, hc.gen]
  refine (HTrainOp.exec_only hc.plan.opt k4 ho ex).bind (fun ⟨t, g1⟩ q => ?_)
  dsimp only at q ⊢
  obtain ⟨q1, rfl, q3, q4⟩ := q
  have q4' : t.owned = c.t.owned := q4
  have q3' : w.heap.Only t.heap c.t.owned := q3
  have hother : ∀ (j : Nat) (a : LifeSlot α γ ρ σ), j ≠ k → w.slots[j]? = some (some a) → ∀ b, Blks a.t.owned b → t.heap.blocks b = w.heap.blocks b :=
    fun j a hj ea b hb => q3'.blocks (fun hb' => hi.sep j k a c hj ea ec b ⟨hb, hb'⟩)
  refine Ok_ok.2 ⟨q1.ext, by simp [hi.len], fun j h eh => ?_, fun j eh => ?_, fun i j a d hij ea ed b hb => ?_, fun b => ?_⟩
  · dsimp only
    by_cases hj : j = k
    · subst hj
      rw [List.getElem?_set_self hkl'] at eh
      cases eh
      refine ⟨_, List.getElem?_set_self hkl, rfl, rfl, hc.plan, hgood, ⟨ks, st', k1, k2, ep, q1⟩, ?_, ?_⟩
      · rw [q4']
        refine ⟨fun o ho => ?_, hc.owns.sep⟩
        obtain ⟨b, e, hb⟩ := hc.owns.blk o ho
        exact ⟨b, e, (q3'.2.1 b).2 hb⟩
      · rw [q4']
        intro o ho
        obtain ⟨b, e, hb⟩ := hc.below o ho
        exact ⟨b, e, by rw [q3'.1]; exact hb⟩
    · rw [List.getElem?_set_ne (Ne.symm hj)] at eh ⊢
      obtain ⟨a, ea, ha⟩ := hi.alive j h eh
      exact ⟨a, ea, ha.frame (hother j a hj ea) q1.ext (Nat.le_of_eq q3'.1.symm)⟩
  · dsimp only
    by_cases hj : j = k
    · subst hj
      rw [List.getElem?_set_self hkl'] at eh
      cases eh
    · rw [List.getElem?_set_ne (Ne.symm hj)] at eh ⊢
      exact hi.dead j eh
  · dsimp only at ea ed
    have at' : ∀ (j : Nat) (a : LifeSlot α γ ρ σ), (w.slots.set k (some ⟨t, s.plan.upd, s.plan.gen, g1⟩))[j]? = some (some a) →
        ∃ a', w.slots[j]? = some (some a') ∧ a'.t.owned = a.t.owned := by
      intro j a e
      by_cases hj : j = k
      · subst hj
        rw [List.getElem?_set_self hkl] at e
        cases e
        exact ⟨c, ec, q4'.symm⟩
      · rw [List.getElem?_set_ne (Ne.symm hj)] at e
        exact ⟨a, e, rfl⟩
    obtain ⟨a', ea', oa⟩ := at' i a ea
    obtain ⟨d', ed', od⟩ := at' j d ed
    exact hi.sep i j a' d' hij ea' ed' b (by rw [oa, od]; exact hb)
  · show t.heap.live b ↔ _
    rw [q3'.2.1, hi.live]
    refine or_congr Iff.rfl ?_
    rw [uses_iff, uses_iff]
    dsimp only
    constructor
    · rintro ⟨j, a, ea, h⟩
      by_cases hj : j = k
      · subst hj
        cases ec.symm.trans ea
        exact ⟨j, _, List.getElem?_set_self hkl, by dsimp only; rw [q4']; exact h⟩
      · exact ⟨j, a, by rw [List.getElem?_set_ne (Ne.symm hj)]; exact ea, h⟩
    · rintro ⟨j, a, ea, h⟩
      by_cases hj : j = k
      · subst hj
        rw [List.getElem?_set_self hkl] at ea
        cases ea
        exact ⟨j, c, ec, by rw [← q4']; exact h⟩
      · rw [List.getElem?_set_ne (Ne.symm hj)] at ea
        exact ⟨j, a, ea, h⟩

theorem LifeInv.destroy {H0 : Heap α} (hH : ∀ b, H0.live b → b < H0.next) {w : Life α γ ρ σ} {hs : List (Option (LifeHist α γ ρ σ γ' ρ'))} (hi : LifeInv addr H0 w hs)
    {k : Nat} {s : LifeHist α γ ρ σ γ' ρ'} (hk : hs[k]? = some (some s)) (netFirst : Bool) :
    Ok (w.step (.destroy (γ' := γ') (ρ' := ρ') k netFirst)) (fun w' => LifeInv addr H0 w' (hs.set k none)) := by
  obtain ⟨c, ec, hc⟩ := hi.alive k s hk
  have hkl : k < w.slots.length := (List.getElem?_eq_some_iff.1 ec).1
  have hkl' : k < hs.length := by rw [← hi.len]; exact hkl
  unfold Life.step
  dsimp only
  rw [Life.slot_of ec, bind_ok]
  refine (destroy_both hc.owns netFirst).bind (fun H q => ?_)
  have hext : H0.Extends H := by
    refine ⟨by rw [q.next]; exact hi.ext.1, fun b hb => ?_⟩
    have : H.blocks b = w.heap.blocks b := q.rest b (fun hb' => absurd (hc.blks hb').1 (by omega))
    refine ⟨?_, fun i => (cell_of_blocks this i).trans ((hi.ext.2 b hb).2 i)⟩
    rw [← (hi.ext.2 b hb).1]
    unfold Heap.live
    rw [this]
  have hother : ∀ (j : Nat) (a : LifeSlot α γ ρ σ), j ≠ k → w.slots[j]? = some (some a) → ∀ b, Blks a.t.owned b → H.blocks b = w.heap.blocks b :=
    fun j a hj ea b hb => q.rest b (fun hb' => hi.sep j k a c hj ea ec b ⟨hb, hb'⟩)
  have hset : ∀ (j : Nat) (a : LifeSlot α γ ρ σ), (w.slots.set k none)[j]? = some (some a) → j ≠ k ∧ w.slots[j]? = some (some a) := by
    intro j a e
    by_cases hj : j = k
    · subst hj; rw [List.getElem?_set_self hkl] at e; cases e
    · rw [List.getElem?_set_ne (Ne.symm hj)] at e; exact ⟨hj, e⟩
  refine Ok_ok.2 ⟨hext, by simp [hi.len], fun j h eh => ?_, fun j eh => ?_, fun i j a d hij ea ed b hb => ?_, fun b => ?_⟩
  · dsimp only
    by_cases hj : j = k
    · subst hj
      rw [List.getElem?_set_self hkl'] at eh
      cases eh
    · rw [List.getElem?_set_ne (Ne.symm hj)] at eh ⊢
      obtain ⟨a, ea, ha⟩ := hi.alive j h eh
      exact ⟨a, ea, ha.frame (hother j a hj ea) hext (Nat.le_of_eq q.next.symm)⟩
  · dsimp only
    by_cases hj : j = k
    · subst hj; exact List.getElem?_set_self hkl
    · rw [List.getElem?_set_ne (Ne.symm hj)] at eh ⊢
      exact hi.dead j eh
  · exact hi.sep i j a d hij (hset i a ea).2 (hset j d ed).2 b hb
  · show H.live b ↔ _
    rw [uses_iff]
    dsimp only
    by_cases hb : Blks c.t.owned b
    · refine ⟨fun h => absurd h (q.gone b hb), ?_⟩
      rintro (h | ⟨j, a, ea, o, ho, e⟩)
      · exact absurd (hH b h) (by have := (hc.blks hb).1; omega)
      · exact absurd ⟨⟨o, ho, 0, e⟩, hb⟩ (hi.sep j k a c (hset j a ea).1 (hset j a ea).2 ec b)
    · have hl : H.live b ↔ w.heap.live b := by unfold Heap.live; rw [q.rest b hb]
      rw [hl, hi.live, uses_iff]
      refine or_congr Iff.rfl ⟨?_, ?_⟩
      · rintro ⟨j, a, ea, o, ho, e⟩
        have hj : j ≠ k := fun hj => hb (by subst hj; cases ec.symm.trans ea; exact ⟨o, ho, 0, e⟩)
        exact ⟨j, a, by rw [List.getElem?_set_ne (Ne.symm hj)]; exact ea, o, ho, e⟩
      · rintro ⟨j, a, ea, h⟩
        exact ⟨j, a, (hset j a ea).2, h⟩

theorem Life.run_snoc {ops : List (LifeOp α γ ρ σ γ' ρ')} {op : LifeOp α γ ρ σ γ' ρ'} : ∀ {w : Life α γ ρ σ},
    w.run (ops ++ [op]) = w.run ops >>= fun w => w.step op := by
  induction ops with
  | nil =>
    intro w
    show (w.step op >>= fun w => Except.ok w) = w.step op
    cases w.step op <;> rfl
  | cons a ops ih =>
    intro w
    show (w.step a >>= fun w => Life.run w (ops ++ [op])) = (w.step a >>= fun w => Life.run w ops) >>= _
    rw [bind_assoc]
    exact bind_congr (fun w => ih)

theorem LifeInv.run (hinj : Distinct addr) {H0 : Heap α} (hH : ∀ b, H0.live b → b < H0.next) {ops : List (LifeOp α γ ρ σ γ' ρ')}
    {hs : List (Option (LifeHist α γ ρ σ γ' ρ'))} (h : Life.History addr H0 ops hs) :
    Ok (Life.run ⟨H0, []⟩ ops) (fun w => LifeInv addr H0 w hs) := by
  induction h with
  | nil =>
    refine Ok_ok.2 ⟨Heap.Extends.refl _, rfl, fun k h e => by simp at e, fun k e => by simp at e, fun j k a c _ e => by simp at e, fun b => ?_⟩
    exact ⟨Or.inl, fun h => h.elim id (fun ⟨s, hs, _⟩ => absurd hs (List.not_mem_nil))⟩
  | create _ hp ih => rw [Life.run_snoc]; exact ih.bind (fun w hi => hi.create hinj hH hp)
  | call _ hk ho hg ih => rw [Life.run_snoc]; exact ih.bind (fun w hi => hi.call hH hk ho hg)
  | destroy _ hk ih => rw [Life.run_snoc]; exact ih.bind (fun w hi => hi.destroy hH hk _)

/-- Every sensible program that builds networks, trains and evaluates them and destroys them, in any order, is free of undefined behaviour.
At every moment the allocations in use are those the program started with and the tensors of the networks that exist — nothing is leaked, nothing is
freed early — the data is unchanged, and every network that exists has the values it would have if the others had never existed. -/
theorem C97_history (hinj : Distinct addr) (H0 : Heap α) (hH : ∀ b, H0.live b → b < H0.next) (ops : List (LifeOp α γ ρ σ γ' ρ'))
    (hs : List (Option (LifeHist α γ ρ σ γ' ρ'))) (h : Life.History addr H0 ops hs) :
    Ok (Life.run ⟨H0, []⟩ ops) (fun w => H0.Extends w.heap ∧ (∀ b, w.heap.live b ↔ H0.live b ∨ w.Uses b) ∧ w.slots.length = hs.length ∧
      (∀ k : Nat, hs[k]? = some none → w.slots[k]? = some none) ∧
      ∀ (k : Nat) (h : LifeHist α γ ρ σ γ' ρ'), hs[k]? = some (some h) → ∃ c st, w.slots[k]? = some (some c) ∧
        h.plan.Alone h.val h.calls st c.g ∧ HTrain.Is addr { c.t with heap := w.heap } st) := by
  refine (LifeInv.run hinj hH h).mono (fun w hi => ⟨hi.ext, hi.live, hi.len, hi.dead, fun k h e => ?_⟩)
  obtain ⟨c, ec, hc⟩ := hi.alive k h e
  obtain ⟨ks, st, k1, -, k3, k4⟩ := hc.now
  exact ⟨c, st, ec, ⟨ks, k1, k3⟩, k4.is⟩

/-- When all networks have been destroyed, the memory is what it was: the same allocations with the same contents. -/
theorem C97_no_leak (hinj : Distinct addr) (H0 : Heap α) (hH : ∀ b, H0.live b → b < H0.next) (ops : List (LifeOp α γ ρ σ γ' ρ'))
    (hs : List (Option (LifeHist α γ ρ σ γ' ρ'))) (h : Life.History addr H0 ops hs) (hall : ∀ s ∈ hs, s = none) :
    Ok (Life.run ⟨H0, []⟩ ops) (fun w => ∀ b, w.heap.blocks b = H0.blocks b) := by
  refine (LifeInv.run hinj hH h).mono (fun w hi b => ?_)
  have hno : ¬ w.Uses b := by
    rw [uses_iff]
    rintro ⟨k, c, ec, -⟩
    obtain ⟨h, eh, -⟩ := hi.hist ec
    cases hall _ (List.mem_of_getElem? eh)
  by_cases hb : b < H0.next
  · exact hi.ext.blocks hb
  · have h1 : ¬ H0.live b := fun h => hb (hH b h)
    have h2 : ¬ w.heap.live b := fun h => ((hi.live b).1 h).elim h1 hno
    unfold Heap.live at h1 h2
    simp only [Bool.not_eq_true, Option.isSome_eq_false_iff, Option.isNone_iff_eq_none] at h1 h2
    rw [h1, h2]

/-- What was destroyed is gone: reading any element of any tensor of a destroyed network is an access to freed memory. -/
theorem C97_gone (hinj : Distinct addr) (H0 : Heap α) (hH : ∀ b, H0.live b → b < H0.next) (ops : List (LifeOp α γ ρ σ γ' ρ'))
    (hs : List (Option (LifeHist α γ ρ σ γ' ρ'))) (h : Life.History addr H0 ops hs) (k : Nat) (s : LifeHist α γ ρ σ γ' ρ')
    (hk : hs[k]? = some (some s)) (netFirst : Bool) :
    Ok (Life.run ⟨H0, []⟩ ops) (fun w => ∃ c, w.slots[k]? = some (some c) ∧ Ok (w.step (.destroy (γ' := γ') (ρ' := ρ') k netFirst)) (fun w' =>
      ∀ o ∈ c.t.owned, ∀ i, o.get1 w'.heap i = .error .useAfterFree)) := by
  refine (LifeInv.run hinj hH h).mono (fun w hi => ?_)
  obtain ⟨c, ec, hc⟩ := hi.alive k s hk
  refine ⟨c, ec, ?_⟩
  unfold Life.step
  dsimp only
  rw [Life.slot_of ec, bind_ok]
  refine (destroy_both hc.owns netFirst).bind (fun H q => Ok_ok.2 (fun o ho i => ?_))
  obtain ⟨b, e, -⟩ := hc.owns.blk o ho
  have := q.gone b ⟨o, ho, 0, e⟩
  unfold Heap.live at this
  simp only [Bool.not_eq_true, Option.isSome_eq_false_iff, Option.isNone_iff_eq_none] at this
  unfold Obj.get1 Heap.load Heap.cell
  rw [e]
  dsimp only
  rw [this]
  rfl

end

/-! ### Non-vacuity: two networks; the first is trained and destroyed before the second, which is evaluated in between -/

noncomputable def exPlan (gi : Gen Unit Nat ℝ) (gen : Gen Unit Nat Nat) (rate : ℝ) (ri g : Nat) : NetPlan ℝ Unit Nat ℝ Unit Nat where
  layers := exArgs
  gi := gi
  ci := ()
  ri := ri
  loss := HLosses.NLL
  opt := rate
  upd := hgdUpdate
  gen := gen
  g := g

noncomputable def exPlanValue : NetValue ℝ ℝ := ⟨exSpecs, Losses.NLL, gdUpdate, (1, 5, 5), (1, 1, 2)⟩

theorem exPlan_sensible (addr : Ptr → Nat) (gi : Gen Unit Nat ℝ) (gen : Gen Unit Nat Nat) (rate : ℝ) (ri g : Nat) :
    (exPlan gi gen rate ri g).Sensible addr exPlanValue := by
  obtain ⟨f1, f2, -⟩ := C86_library
  obtain ⟨l1, l2, l3⟩ := C67_library
  refine ⟨.cons .conv (.cons (.pool (f1 _)) (.cons (.fc (f1 _)) (.cons (.fc f2) .nil))), fun s hs => ?_, fun s hs => ?_, by decide, by decide,
    ⟨rfl, rfl, rfl, rfl, rfl, rfl, rfl, rfl⟩, l3 2 Losses.NLL (by simp), HLosses.NLL_follows, hgdUpdate_follows addr,
    ⟨fun _ => True, trivial, fun size => gd_UpdOk size⟩⟩
  · simp only [exPlanValue, exSpecs, List.mem_cons, List.not_mem_nil, or_false] at hs
    rcases hs with rfl | rfl | rfl | rfl
    · refine ⟨by decide, by decide, by decide, by decide, 4, 4, rfl, rfl, by decide, by decide⟩
    · exact ⟨by decide, by decide, by decide⟩
    · exact ⟨by decide, by decide, by decide⟩
    · exact ⟨by decide, by decide, by decide⟩
  · simp only [exPlanValue, exSpecs, List.mem_cons, List.not_mem_nil, or_false] at hs
    rcases hs with rfl | rfl | rfl | rfl
    · exact ⟨⟨by decide, by decide, by decide, by decide, by decide, by decide⟩, by decide⟩
    · exact ⟨by decide, by decide, by decide, by decide, l1 _ _⟩
    · exact l1 _ _
    · exact l2 2 (by decide)

noncomputable def exLife (gi : Gen Unit Nat ℝ) (gen : Gen Unit Nat Nat) : List (LifeOp ℝ Unit Nat ℝ Unit Nat) :=
  [.create (exPlan gi gen 1 0 0), .create (exPlan gi gen 2 7 9), .call 0 (.batch [exX, exX] [exY, exY] 3), .destroy 0 true, .call 1 (.eval exX), .destroy 1 false]

/-- All of the hypotheses, for every prefix of the program (the last one has destroyed everything). -/
example (addr : Ptr → Nat) (gi : Gen Unit Nat ℝ) (gen : Gen Unit Nat Nat) :
    (∃ h, Life.History addr exHeap (exLife gi gen).dropLast [none, some h]) ∧ Life.History addr exHeap (exLife gi gen) [none, none] ∧
    (∀ b, exHeap.live b → b < exHeap.next) := by
  have sx : ShapeIs exx (1, 5, 5) := ⟨rfl, rfl, rfl, _, VecIs_filled 25 1⟩
  have sy : Full exy.data (Shp.vol (1, 1, 2)) := ⟨_, VecIs_filled 2 3⟩
  have hX : exHeap.Dataset [exX] [exx] := .cons exX_keeps .nil
  have hY : exHeap.Dataset [exY] [exy] := .cons exY_keeps .nil
  have hX2 : exHeap.Dataset [exX, exX] [exx, exx] := .cons exX_keeps hX
  have hY2 : exHeap.Dataset [exY, exY] [exy, exy] := .cons exY_keeps hY
  have d2 : DataFits [exx, exx] [exy, exy] (1, 5, 5) (1, 1, 2) := ⟨by simp [sx], by simp [sy], rfl⟩
  have h2 := ((Life.History.nil (addr := addr) (H0 := exHeap)).create (exPlan_sensible addr gi gen 1 0 0)).create (exPlan_sensible addr gi gen 2 7 9)
  have h3 := h2.call (k := 0) rfl (vop := .batch [exx, exx] [exy, exy] 3) (.batch hX2 hY2) ⟨d2, by simp⟩
  have h4 := h3.destroy (k := 0) (b := true) rfl
  have h5 := h4.call (k := 1) rfl (vop := .eval exx) (.eval exX_keeps.1 exX_keeps.2) sx
  refine ⟨⟨_, h5⟩, h5.destroy (k := 1) (b := false) rfl, fun b hb => ?_⟩
  have : ¬ b < 2 → exHeap.blocks b = none := fun h => by
    show (if b = 0 then _ else if b = 1 then _ else none) = none
    rw [if_neg (by omega), if_neg (by omega)]
  by_contra hlt
  unfold Heap.live at hb
  rw [this hlt] at hb
  cases hb

end Trixy
