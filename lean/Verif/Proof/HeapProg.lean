import Verif.Spec.HeapProg
import Verif.Proof.HeapLoss
import Verif.Props.TrainSafe
/- Whole programs on the free store follow the same programs on values. -/
namespace Trixy
set_option linter.unusedSectionVars false

variable {α γ ρ σ γ' ρ' : Type}

/-! ### Calls -/

theorem Heap.KeepsT.extends {H H' : Heap α} {o : Obj} {t : Ten α} (h : H.KeepsT o t) (ho : H.Old o) (he : H.Extends H') : H'.KeepsT o t := by
  obtain ⟨b, j, e, hb⟩ := ho
  exact ⟨h.1, h.2.1, h.2.2.1, h.2.2.2.extends he e hb⟩

/-- The state of a program that started with the memory `H0`. -/
structure HTrain.Live (addr : Ptr → Nat) (H0 : Heap α) (t : HTrain α σ) (st : σ × Train α) : Prop where
  is : t.Is addr st
  sep : AllApart t.owned
  ext : H0.Extends t.heap
  fresh : ∀ o ∈ t.owned, ∃ b, o.data = .at b 0 ∧ H0.next ≤ b

theorem HTrain.Live.apart {addr : Ptr → Nat} {H0 : Heap α} {t : HTrain α σ} {st : σ × Train α} (h : HTrain.Live addr H0 t st) {o : Obj}
    (ho : H0.Old o) : ∀ q ∈ t.owned, Obj.Apart q o := by
  intro q hq
  obtain ⟨b, e, hb⟩ := h.fresh q hq
  obtain ⟨c, j, e', hc⟩ := ho
  exact apart_blk e e' (by omega)

theorem HTrain.Live.data {addr : Ptr → Nat} {H0 : Heap α} {t : HTrain α σ} {st : σ × Train α} (h : HTrain.Live addr H0 t st) {X : List Obj}
    {xs : List (Ten α)} (hX : H0.Dataset X xs) : t.Data X xs := by
  refine ⟨List.Forall₂.imp (fun o x hox => hox.2.extends hox.1 h.ext) hX, fun x hx => ?_⟩
  obtain ⟨i, hi⟩ := List.mem_iff_getElem?.1 hx
  have hlt : i < X.length := (List.getElem?_eq_some_iff.1 hi).1
  have hlt' : i < xs.length := by rw [← hX.length_eq]; exact hlt
  have := (List.forall₂_iff_get.1 hX).2 i hlt hlt'
  have e : X.get ⟨i, hlt⟩ = x := (List.getElem?_eq_some_iff.1 hi).2
  rw [e] at this
  exact h.apart this.1

theorem Heap.Only.extends {H0 H H' : Heap α} {ws : List Obj} (he : H0.Extends H) (ho : H.Only H' ws)
    (hf : ∀ o ∈ ws, ∃ b, o.data = .at b 0 ∧ H0.next ≤ b) : H0.Extends H' := by
  refine ⟨by rw [ho.1]; exact he.1, fun b hb => ⟨(ho.2.1 b).trans (he.2 b hb).1, fun i => ?_⟩⟩
  rw [ho.2.2 b i, (he.2 b hb).2 i]
  intro w hw pb po e
  obtain ⟨c, e', hc⟩ := hf w hw
  rw [e'] at e
  cases e
  omega

theorem HTrain.Live.after {addr : Ptr → Nat} {H0 : Heap α} {t t' : HTrain α σ} {st st' : σ × Train α} (h : HTrain.Live addr H0 t st)
    (hr : HTrain.Run addr t t' st') : HTrain.Live addr H0 t' st' :=
  ⟨hr.is, by rw [hr.ownedEq]; exact h.sep, hr.only.extends h.ext h.fresh, by rw [hr.ownedEq]; exact h.fresh⟩

section
variable [Zero α] [_root_.One α] [Add α] [Mul α] [Div α] [NatCast α] [LT α] [DecidableLT α] [DecidableEq α]
variable {addr : Ptr → Nat} {hu : HUpd σ α} {u : Upd σ α} {H0 : Heap α} {gen : Gen γ ρ Nat}

theorem HTrainOp.exec_sim (hfo : HUpd.Follows addr hu u) {t : HTrain α σ} {st st' : σ × Train α} {g g' : ρ} (h : HTrain.Live addr H0 t st)
    {hop : HTrainOp α γ} {op : TrainOp α γ} (hs : hop.Same H0 op) (e : TrainOp.exec u gen (st, g) op = .ok (st', g')) :
    Ok (HTrainOp.exec hu gen (t, g) hop) (fun r => HTrain.Live addr H0 r.1 st' ∧ r.2 = g') := by
  cases hs with
  | batch hX hY =>
    obtain ⟨r, e1, e⟩ := res_inv e
    cases e
    exact (HTrain.batch_sim hfo h.sep (h.data hX) (h.data hY) (.start h.is) e1).bind (fun t' h' => Ok_ok.2 ⟨h.after h', rfl⟩)
  | mini hX hY =>
    obtain ⟨r, e1, e⟩ := res_inv e
    cases e
    exact (HTrain.miniBatch_sim hfo h.sep (h.data hX) (h.data hY) (.start h.is) e1).bind (fun t' h' => Ok_ok.2 ⟨h.after h', rfl⟩)
  | sto hX hY =>
    exact (HTrain.stochastic_sim hfo h.sep (h.data hX) (h.data hY) (.start h.is) e).mono (fun r h' => ⟨h.after h'.1, h'.2⟩)
  | lossOf hX hY =>
    obtain ⟨⟨v, w⟩, e1, e⟩ := res_inv e
    cases e
    exact (HTrain.lossMean_sim h.sep (h.data hX) (h.data hY) (.start h.is) e1).bind (fun r h' => Ok_ok.2 ⟨h.after h'.2, rfl⟩)
  | eval ho hx =>
    obtain ⟨w, e1, e⟩ := res_inv e
    cases e
    refine (HTrain.feedforward_sim (t0 := t) h.sep (.start h.is) (hx.extends ho h.ext) (fun l hl o' ho' => ?_) e1).bind
      (fun t' h' => Ok_ok.2 ⟨h.after h'.1, rfl⟩)
    exact h.apart ho _ (HTrain.owned_net (HNet.mem_objs hl o' (l.scratch_mem o' ho')))
  | setLoss hl =>
    cases e
    exact Ok_ok.2 ⟨⟨⟨h.is.opt, h.is.net, h.is.delta, Or.inr ⟨_, _, rfl, rfl, hl⟩⟩, h.sep, h.ext, h.fresh⟩, rfl⟩

theorem HTrainOp.run_sim (hfo : HUpd.Follows addr hu u) {hops : List (HTrainOp α γ)} {ops : List (TrainOp α γ)}
    (hs : List.Forall₂ (HTrainOp.Same H0) hops ops) : ∀ {t : HTrain α σ} {st st' : σ × Train α} {g g' : ρ}, HTrain.Live addr H0 t st →
    TrainOp.run u gen (st, g) ops = .ok (st', g') → Ok (HTrainOp.run hu gen (t, g) hops) (fun r => HTrain.Live addr H0 r.1 st' ∧ r.2 = g') := by
  induction hs with
  | nil => intro t st st' g g' h e; cases e; exact Ok_ok.2 ⟨h, rfl⟩
  | cons h1 _ ih =>
    intro t st st' g g' h e
    obtain ⟨⟨st1, g1⟩, e1, e⟩ := res_inv e
    unfold HTrainOp.run
    refine (HTrainOp.exec_sim hfo h h1 e1).bind (fun ⟨t1, g2⟩ q => ?_)
    dsimp only at q
    obtain ⟨q1, rfl⟩ := q
    exact ih q1 e

/-! ### Programs -/

theorem HNet.Made.makeAll {net : HNet α} {ss : List (LayerSpec α)} {v : Net α} (h : HNet.Made addr net ss v) (hs : ∀ s ∈ ss, s.Sensible) :
    LayerKind.makeAll (HNet.kinds addr net ss) = .ok v := by
  induction h with
  | nil => rfl
  | @cons a net s ss L v h1 _ ih =>
    have e1 : (s.kind (a.biasAddr addr) (a.weightAddr addr)).make = .ok L := by
      rw [← h1]
      have hs1 := hs s (List.mem_cons_self ..)
      cases s with
      | fc i o g => rfl
      | conv d h w c fh fw p sv sh => rfl
      | pool d h w sv sh g =>
        obtain ⟨-, -, d1, d2, -⟩ := hs1
        show (Pool.make d (h / sv * sv) (w / sh * sh) sv sh g >>= _) = (Pool.make d h w sv sh g >>= _)
        rw [Nat.div_mul_cancel d1, Nat.div_mul_cancel d2]
    show ((s.kind (a.biasAddr addr) (a.weightAddr addr)).make >>= fun l => LayerKind.makeAll (HNet.kinds addr net ss) >>= _) = _
    rw [e1, bind_ok, ih (fun s hs' => hs s (List.mem_cons_of_mem _ hs'))]
    rfl

/-- The parameters of a layer, at the addresses the layer uses for them, have the numbers of cells the arguments say. -/
theorem HLayer.Is.valid {H : Heap α} {h : HLayer α} {s : LayerSpec α} {L : Layer α} (hi : HLayer.Is addr H h L)
    (e : s.make (h.biasAddr addr) (h.weightAddr addr) = .ok L) (hs : s.Sensible) {size : Nat → Nat}
    (hz : ∀ o ∈ h.objs, size (addr o.data) = o.shape.size) : (s.kind (h.biasAddr addr) (h.weightAddr addr)).Valid size := by
  cases s with
  | fc i o a =>
    cases e
    cases hi with
    | fc hf hm =>
      rename_i h
      cases hm with
      | cons k1 hm =>
        cases hm with
        | cons k2 hm =>
          refine ⟨hs, ?_, ?_⟩
          · exact (hz h.B (by simp [HLayer.objs, HFC.objs])).trans (k1.1.trans (by simp [FC.make, filled]))
          · exact (hz h.W (by simp [HLayer.objs, HFC.objs])).trans (k2.1.trans (by simp [FC.make, Mat.fill, filled]))
  | conv d hh w c fh fw p sv sh =>
    obtain ⟨l, e1, e⟩ := res_inv e
    cases e
    cases hi with
    | conv hf hm =>
      rename_i h
      obtain ⟨l', el, hl⟩ := Conv.make_Wf (α := α) (d := d) hs.1 hs.2 (HLayer.biasAddr addr (.conv h)) (HLayer.weightAddr addr (.conv h))
      cases e1.symm.trans el
      have hlen : h.Ws.length = l.Ws.length := hf.Ws.length_eq
      refine ⟨hs.1, hs.2, ?_, fun f hfc => ?_⟩
      · cases hm with
        | cons k1 hm => exact (hz h.B (by simp [HLayer.objs, HConv.objs])).trans (k1.1.trans hl.1.B.1)
      · obtain ⟨t, et, ht⟩ := hl.1.Ws.2 f hfc
        have e5 : l.bufs[5 + f]? = some t.data := by
          unfold Conv.bufs
          rw [List.getElem?_append_right (by simp), List.getElem?_append_left (by
            rw [List.length_map, show ([l.B, l.value.data, l.gradB, l.delta.data, l.buff.data] : List (Buf α)).length = 5 from rfl, hl.1.Ws.1]; omega),
            List.getElem?_map, show 5 + f - ([l.B, l.value.data, l.gradB, l.delta.data, l.buff.data] : List (Buf α)).length = f from by simp, et]
          rfl
        obtain ⟨o, eo, ko⟩ := forall₂_at hm e5
        have eo' : h.Ws[f]? = some o := by
          unfold HConv.objs at eo
          rw [List.getElem?_append_right (by simp), List.getElem?_append_left (by
            rw [hlen, hl.1.Ws.1]; show 5 + f - 5 < c; omega)] at eo
          simpa using eo
        have hk : HLayer.weightAddr (α := α) addr (.conv h) f = addr o.data := by
          show ((h.Ws[f]?).map (fun o => addr o.data)).getD 0 = _
          rw [eo']; rfl
        show size (HLayer.weightAddr (α := α) addr (.conv h) f) = _
        rw [hk, hz o (List.mem_of_getElem? eo), ko.1, ht.2.2.2.1]
  | pool d hh w sv sh a => exact ⟨hs.1, hs.2.1, hs.2.2.2.2⟩

theorem HNet.Made.valid {H : Heap α} {net : HNet α} {ss : List (LayerSpec α)} {v : Net α} (hm : HNet.Made addr net ss v)
    (hi : HNet.Is addr H net v) (hs : ∀ s ∈ ss, s.Sensible) {size : Nat → Nat}
    (hz : ∀ o ∈ HNet.objs net, size (addr o.data) = o.shape.size) : ∀ k ∈ HNet.kinds addr net ss, k.Valid size := by
  induction hm with
  | nil => exact fun _ h => absurd h (List.not_mem_nil)
  | @cons a net s ss L v h1 _ ih =>
    intro k hk
    cases hi with
    | cons i1 i2 =>
      rcases List.mem_cons.1 hk with rfl | hk
      · exact i1.valid h1 (hs s (List.mem_cons_self ..)) (fun o ho => hz o (List.mem_append_left _ ho))
      · exact ih i2 (fun s hs' => hs s (List.mem_cons_of_mem _ hs')) (fun o ho => hz o (List.mem_append_right _ ho)) k hk

theorem HNet.Made.length {net : HNet α} {ss : List (LayerSpec α)} {v : Net α} (hm : HNet.Made addr net ss v) : net.length = ss.length := by
  induction hm with
  | nil => rfl
  | cons _ _ ih => simp [ih]

/-- The shapes do not depend on the addresses. -/
theorem kind_out (s : LayerSpec α) (kB kB' : Nat) (kW kW' : Nat → Nat) : (s.kind kB kW).outShape = (s.kind kB' kW').outShape ∧
    (s.kind kB kW).inShape = (s.kind kB' kW').inShape ∧ (∀ q, (s.kind kB kW).Reads q ↔ (s.kind kB' kW').Reads q) ∧
    (∀ q, (s.kind kB kW).Accepts q ↔ (s.kind kB' kW').Accepts q) := by
  cases s <;> exact ⟨rfl, rfl, fun _ => Iff.rfl, fun _ => Iff.rfl⟩

theorem kinds_fit : ∀ {net : HNet α} {ss : List (LayerSpec α)} {s o : Shp}, net.length = ss.length →
    Fits s (ss.map (LayerSpec.kind 0 (fun _ => 0))) o → Fits s (HNet.kinds addr net ss) o
  | _, [], _, _, _, h => h.elim
  | [a], [s1], s, o, _, h => by
    have k := kind_out s1 0 (a.biasAddr addr) (fun _ => 0) (a.weightAddr addr)
    exact ⟨(k.2.2.1 _).1 h.1, k.1 ▸ h.2⟩
  | a :: b :: net, s1 :: s2 :: ss, s, o, hl, h => by
    have k := kind_out s1 0 (a.biasAddr addr) (fun _ => 0) (a.weightAddr addr)
    have k2 := kind_out s2 0 (b.biasAddr addr) (fun _ => 0) (b.weightAddr addr)
    obtain ⟨h1, h2, h3⟩ := h
    refine ⟨(k.2.2.1 _).1 h1, ?_, ?_⟩
    · rw [← k2.2.1]; exact (k.2.2.2 _).1 h2
    · have := kinds_fit (net := b :: net) (ss := s2 :: ss) (by simpa using hl) h3
      rw [k.1] at this
      exact this
  | [], _ :: _, _, _, hl, _ => by simp at hl
  | [_], _ :: _ :: _, _, _, hl, _ => by simp at hl
  | _ :: _ :: _, [_], _, _, hl, _ => by simp at hl

/-- Size of the first object at the address. -/
def sizeAt (addr : Ptr → Nat) (os : List Obj) (k : Nat) : Nat := ((os.find? (fun o => addr o.data = k)).map (fun o => o.shape.size)).getD 0

theorem sizeAt_eq {os : List Obj} (ho : ∀ o ∈ os, ∀ q ∈ os, addr o.data = addr q.data → o.shape.size = q.shape.size) :
    ∀ o ∈ os, sizeAt addr os (addr o.data) = o.shape.size := by
  intro o h
  unfold sizeAt
  cases e : os.find? (fun q => addr q.data = addr o.data) with
  | none => have := List.find?_eq_none.1 e o h; simp at this
  | some q =>
    have h1 := List.mem_of_find?_eq_some e
    have h2 : addr q.data = addr o.data := by simpa using List.find?_some e
    exact ho q h1 o h h2

/-- Building, initialising and making the training object. -/
theorem HTrain.program_sim (hfo : HUpd.Follows addr hu u) {as : List (LayerArgs α)} {ss : List (LayerSpec α)}
    (hsame : List.Forall₂ LayerArgs.Same as ss) (hroom : ∀ s ∈ ss, s.Room) (hsens : ∀ s ∈ ss, s.Sensible)
    {gi : Gen γ' ρ' α} {ci : γ'} {ri : ρ'} {hl : HLoss α} {l : Loss α} (hll : hl.Follows l) {s0 : σ} {g : ρ}
    {hops : List (HTrainOp α γ)} {ops : List (TrainOp α γ)} (hs : List.Forall₂ (HTrainOp.Same H0) hops ops)
    {H1 : Heap α} {net : HNet α} (eb : HNet.build as H0 = .ok (H1, net)) {st : (σ × Train α) × ρ}
    (e : Train.program (HNet.kinds addr net ss) gi ci ri l s0 u gen g ops = .ok st) :
    Ok (HTrain.program as gi ci ri hl s0 hu gen g hops H0) (fun r => HTrain.Live addr H0 r.1 st.1 ∧ r.2 = st.2) := by
  obtain ⟨r, er, v, bs, m1, i1, g1, f1⟩ := HNet.build_spec (addr := addr) hsame hroom H0
  cases er.symm.trans eb
  dsimp only at m1 i1 g1 f1
  obtain ⟨-, h2, h3⟩ := g1.holds f1 rfl
  obtain ⟨v', e1, e⟩ := res_inv e
  cases e1.symm.trans (m1.makeAll hsens)
  obtain ⟨⟨v1, g1'⟩, e2, e⟩ := res_inv e
  obtain ⟨w, e3, e⟩ := res_inv e
  unfold HTrain.program
  rw [eb, bind_ok]
  dsimp only
  refine (HNet.init_sim i1 h2 e2).bind (fun ⟨H2, g2⟩ q => ?_)
  dsimp only at q ⊢
  obtain ⟨-, q2, q3⟩ := q
  have hos : ∀ L ∈ v1, L.osize.1 * L.osize.2.1 * L.osize.2.2 < W64 := by
    intro L hL
    obtain ⟨i, hi⟩ := List.mem_iff_getElem?.1 hL
    obtain ⟨h, eh, hh⟩ := q2.at hi
    have hlt : i < v.length := by rw [← i1.len]; exact (List.getElem?_eq_some_iff.1 eh).1
    obtain ⟨h', eh', hh'⟩ := i1.at (List.getElem?_eq_getElem hlt)
    cases eh.symm.trans eh'
    rw [← hh.osize, hh'.osize]
    exact m1.osize hroom _ (List.getElem_mem hlt)
  have hf2 : H0.Fresh H2 (HNet.objs net) := fun o ho => by
    obtain ⟨b, b1, b2, b3⟩ := h3 o ho
    exact ⟨b, b1, b2, by rw [q3.1]; exact b3⟩
  refine (HTrain.make_spec (hl := none) (ls := none) (opt := s0) q2 h2 hf2 (Or.inl ⟨rfl, rfl⟩) hos e3).bind (fun t q => ?_)
  obtain ⟨t1, t2, t3, t4, b, t5, t6⟩ := q
  have hlive : HTrain.Live addr H0 t (s0, { w with loss := none }) := by
    refine ⟨t1, t2, ?_, fun o ho => ?_⟩
    · refine (Heap.Only.extends g1.ext q3 (fun o ho => ?_)).trans t3
      obtain ⟨b, b1, b2, b3⟩ := h3 o ho
      exact ⟨b, b1, b2⟩
    · rcases List.mem_append.1 ho with ho | ho
      · rw [t4] at ho
        obtain ⟨b, b1, b2, b3⟩ := h3 o ho
        exact ⟨b, b1, b2⟩
      · rw [List.mem_singleton.1 ho]
        refine ⟨b, t5, ?_⟩
        rw [t6, q3.1]; exact g1.ext.1
  refine HTrainOp.run_sim hfo (st := (s0, { w with loss := none })) (.cons (.setLoss hll) hs) hlive ?_
  have hw : ({ w with loss := none } : Train α) = w := by
    obtain ⟨L, e4, e5⟩ := res_inv e3
    cases e5
    rfl
  rw [hw]; exact e

end

end Trixy
