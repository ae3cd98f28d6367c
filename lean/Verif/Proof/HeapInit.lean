import Verif.Proof.HeapBuild
/- Initialisation in the free store; the library's activations, losses and optimizers on objects in memory. -/
namespace Trixy
set_option linter.unusedSectionVars false

variable {α γ ρ σ : Type}

/-! ### `init` -/

section Init
variable {addr : Ptr → Nat} {gen : Gen γ ρ α} {c : γ} {H : Heap α}

theorem fillBy_sim {r : Obj} {br b : Buf α} {g g' : ρ} (hr : H.Keeps r br) (e : Trixy.fillBy gen c g br = .ok (b, g')) :
    Ok (r.fillBy gen c g H) (fun q => q.2 = g' ∧ H.Sets q.1 r b) := by
  unfold Trixy.fillBy at e
  unfold Obj.fillBy
  obtain ⟨⟨b1, c1, g1⟩, e1, e⟩ := res_inv e
  cases e
  rw [hr.1]
  refine Ok.bind (P := fun q => One r.data br.length H q.1 b ∧ q.2 = (c1, g')) (forN_sim
    (fun (a : Heap α × γ × ρ) (t : Buf α × γ × ρ) => One r.data br.length H a.1 t.1 ∧ a.2 = t.2)
    ⟨One.start hr.2 rfl, rfl⟩ (fun i _ a t t' hR he => ?_) e1) (fun ⟨H1, c2, g2⟩ q => ?_)
  · obtain ⟨a1, a2, a3⟩ := a
    obtain ⟨t1, t2, t3⟩ := t
    obtain ⟨h1, h2⟩ := hR
    dsimp only at h1 h2 he ⊢
    cases h2
    obtain ⟨b2, f1, he⟩ := res_inv he
    cases he
    exact (h1.store f1).bind (fun H2 h2 => Ok_ok.2 ⟨h2, rfl⟩)
  · dsimp only at q ⊢
    obtain ⟨q1, q2⟩ := q
    injection q2 with _ q3
    exact Ok_ok.2 ⟨q3, One.sets hr.1 q1⟩

theorem HFC.init_sim {h : HFC α} {l l' : FC α} {g g' : ρ} (hf : h.Fits addr l) (hm : H.Held h.objs l.bufs) (hs : AllApart h.objs)
    (e : l.init gen c g = .ok (l', g')) :
    Ok (h.init gen c g H) (fun r => r.2 = g' ∧ h.Fits addr l' ∧ r.1.Held h.objs l'.bufs ∧ H.Only r.1 h.objs) := by
  obtain ⟨⟨b1, g1⟩, e1, e⟩ := res_inv e
  obtain ⟨⟨b2, g2⟩, e2, e⟩ := res_inv e
  cases e
  unfold HFC.init
  refine (fillBy_sim (hm.at (i := 0) rfl rfl) e1).bind (fun ⟨H1, x⟩ q1 => ?_)
  dsimp only at q1 ⊢
  obtain ⟨rfl, q1⟩ := q1
  have m1 := hm.step hs (k := 0) rfl q1
  refine (fillBy_sim (m1.at (i := 1) rfl rfl) e2).mono (fun r q2 => ?_)
  have m2 := m1.step hs (k := 1) rfl q2.2
  exact ⟨q2.1, { hf with }, m2, (q1.only (os := h.objs) (k := 0) rfl).trans (q2.2.only (k := 1) rfl)⟩

/-- `init` of a convolution: bias and filters. -/
theorem HConv.init_core {h : HConv} {l l' : Conv α} {g g' : ρ} (hf : h.FitsRaw l) (hm : H.Held (h.B :: h.Ws) (l.B :: l.Ws.map Ten.data))
    (hs : AllApart (h.B :: h.Ws)) (e : l.init gen c g = .ok (l', g')) :
    Ok (h.init gen c g H) (fun r => r.2 = g' ∧ r.1.Held (h.B :: h.Ws) (l'.B :: l'.Ws.map Ten.data) ∧ H.Only r.1 (h.B :: h.Ws) ∧
      List.Forall₂ Obj.DimsT h.Ws l'.Ws ∧ l' = { l with B := l'.B, Ws := l'.Ws }) := by
  obtain ⟨⟨Ws, g1⟩, e1, e⟩ := res_inv e
  obtain ⟨⟨b, g2⟩, e2, e⟩ := res_inv e
  cases e
  unfold HConv.init
  rw [hf.Ws.length_eq]
  refine Ok.bind (P := fun q => q.2 = g1 ∧ q.1.Held (h.B :: h.Ws) (l.B :: Ws.map Ten.data) ∧ H.Only q.1 (h.B :: h.Ws) ∧
      List.Forall₂ Obj.DimsT h.Ws Ws) (forN_sim
    (fun (a : Heap α × ρ) (t : List (Ten α) × ρ) => a.2 = t.2 ∧ a.1.Held (h.B :: h.Ws) (l.B :: t.1.map Ten.data) ∧
      H.Only a.1 (h.B :: h.Ws) ∧ List.Forall₂ Obj.DimsT h.Ws t.1) ⟨rfl, hm, Heap.Only.refl _ _, hf.Ws⟩ (fun f _ a t t' hR he => ?_) e1)
    (fun ⟨H1, x⟩ q => ?_)
  · obtain ⟨W, f1, he⟩ := res_inv he
    obtain ⟨⟨d, g3⟩, f2, he⟩ := res_inv he
    obtain ⟨Ws1, f3, he⟩ := res_inv he
    cases he
    obtain ⟨hlt, rfl⟩ := lset_ok f3
    obtain ⟨r1, r2, r3, r4⟩ := hR
    obtain ⟨o, ho, hd⟩ := forall₂_at r4 (lget_ok f1)
    have ko : (h.B :: h.Ws)[f + 1]? = some o := ho
    have kb : (l.B :: t.1.map Ten.data)[f + 1]? = some W.data := by
      rw [List.getElem?_cons_succ, List.getElem?_map, lget_ok f1]; rfl
    rw [lget_of ho, bind_ok, r1]
    refine (fillBy_sim (r2.at ko kb) f2).mono (fun r q => ⟨q.1, ?_, r3.trans (q.2.only ko), ?_⟩)
    · have := r2.step hs ko q.2
      rw [List.set_cons_succ] at this
      dsimp only
      rw [List.map_set]
      exact this
    · exact forall₂_set r4 ho (hd.of ⟨rfl, rfl, rfl⟩)
  · dsimp only at q ⊢
    obtain ⟨rfl, q2, q3, q4⟩ := q
    refine (fillBy_sim (q2.at (i := 0) rfl rfl) e2).mono (fun r q5 => ⟨q5.1, q2.step hs (k := 0) rfl q5.2, q3.trans (q5.2.only (k := 0) rfl), q4, rfl⟩)

theorem HConv.init_sim {h : HConv} {l l' : Conv α} {g g' : ρ} (hf : h.Fits addr l) (hm : H.Held h.objs l.bufs) (hs : AllApart h.objs)
    (e : l.init gen c g = .ok (l', g')) :
    Ok (h.init gen c g H) (fun r => r.2 = g' ∧ h.Fits addr l' ∧ r.1.Held h.objs l'.bufs ∧ H.Only r.1 h.objs) := by
  have hlen : h.Ws.length = l.Ws.length := hf.Ws.length_eq
  have hm' : List.Forall₂ H.Keeps (h.Ws ++ h.gradWs) (l.Ws.map Ten.data ++ l.gradWs.map Ten.data) := by
    have := hm; unfold Heap.Held HConv.objs Conv.bufs at this
    simp only [List.cons_append, List.nil_append, List.forall₂_cons] at this
    exact this.2.2.2.2.2
  have mW : List.Forall₂ H.Keeps h.Ws (l.Ws.map Ten.data) := by
    have := List.forall₂_take h.Ws.length hm'
    rwa [List.take_left, hlen, ← List.length_map (f := Ten.data) (as := l.Ws), List.take_left] at this
  have mG : List.Forall₂ H.Keeps h.gradWs (l.gradWs.map Ten.data) := by
    have := List.forall₂_drop h.Ws.length hm'
    rwa [List.drop_left, hlen, ← List.length_map (f := Ten.data) (as := l.Ws), List.drop_left] at this
  have sW : ∀ o ∈ h.Ws, ∃ i, 5 ≤ i ∧ i < 5 + h.Ws.length ∧ h.objs[i]? = some o := fun o ho => by
    obtain ⟨i, hi, rfl⟩ := List.mem_iff_getElem.1 ho
    exact ⟨5 + i, by omega, by omega, HConv.at_W (List.getElem?_eq_getElem hi)⟩
  have sub : (h.B :: h.Ws).Sublist h.objs := by
    unfold HConv.objs
    refine .cons_cons _ (.cons _ (.cons _ (.cons _ (.cons _ (List.sublist_append_left _ _)))))
  have m0 : H.Held (h.B :: h.Ws) (l.B :: l.Ws.map Ten.data) := .cons (hm.at (i := 0) rfl rfl) mW
  refine (HConv.init_core hf.toFitsRaw m0 (List.Pairwise.sublist sub hs) e).mono (fun r q => ?_)
  obtain ⟨q1, q2, q3, q4, q5⟩ := q
  -- an object at another index is apart from bias and filters
  have ap : ∀ (i : Nat) (o : Obj), h.objs[i]? = some o → i ≠ 0 → (i < 5 ∨ 5 + h.Ws.length ≤ i) → ∀ w ∈ h.B :: h.Ws, Obj.Apart w o := by
    intro i o ho h0 hi w hw
    rcases List.mem_cons.1 hw with rfl | hw
    · exact hs.at (i := 0) rfl ho (by omega)
    · obtain ⟨j, j1, j2, j3⟩ := sW w hw
      exact hs.at j3 ho (by omega)
  have eW : l'.Ws.length = l.Ws.length := q4.length_eq.symm.trans hlen
  rw [q5]
  refine ⟨q1, { hf with Ws := q4 }, ?_, q3.mono (fun w hw => sub.mem hw)⟩
  have k : ∀ (i : Nat) (o : Obj) (b : Buf α), h.objs[i]? = some o → l.bufs[i]? = some b → i ≠ 0 → i < 5 → r.1.Keeps o b :=
    fun i o b ho hb h0 hi => (hm.at ho hb).frame q3 (ap i o ho h0 (Or.inl hi))
  unfold Heap.Held HConv.objs Conv.bufs
  refine .cons (q2.at (i := 0) rfl rfl) (.cons (k 1 _ _ rfl rfl (by decide) (by decide)) (.cons (k 2 _ _ rfl rfl (by decide) (by decide))
    (.cons (k 3 _ _ rfl rfl (by decide) (by decide)) (.cons (k 4 _ _ rfl rfl (by decide) (by decide)) ?_))))
  show List.Forall₂ r.1.Keeps (h.Ws ++ h.gradWs) (l'.Ws.map Ten.data ++ l.gradWs.map Ten.data)
  refine List.rel_append ?_ ?_
  · exact (List.forall₂_cons.1 q2).2
  · refine List.forall₂_iff_get.2 ⟨mG.length_eq, fun i hi hi' => ?_⟩
    have := (List.forall₂_iff_get.1 mG).2 i hi hi'
    refine Heap.Keeps.frame this q3 (ap (5 + (h.Ws.length + i)) _ (HConv.at_G (List.getElem?_eq_getElem hi)) (by omega) (Or.inr (by omega)))

theorem HConv.initRaw_sim {h : HConv} {l l' : Conv α} {g g' : ρ} (hf : h.FitsRaw l) (hm : H.Held h.rawObjs l.rawBufs) (hs : AllApart h.rawObjs)
    (e : l.init gen c g = .ok (l', g')) :
    Ok (h.init gen c g H) (fun r => r.2 = g' ∧ h.FitsRaw l' ∧ r.1.Held h.rawObjs l'.rawBufs ∧ H.Only r.1 h.rawObjs) := by
  have sub : (h.B :: h.Ws).Sublist h.rawObjs := .cons_cons _ (.cons _ (List.Sublist.refl _))
  have hm2 := hm
  unfold Heap.Held HConv.rawObjs Conv.rawBufs at hm2
  simp only [List.cons_append, List.nil_append, List.forall₂_cons] at hm2
  refine (HConv.init_core hf (.cons hm2.1 hm2.2.2) (List.Pairwise.sublist sub hs) e).mono (fun r q => ?_)
  obtain ⟨q1, q2, q3, q4, q5⟩ := q
  rw [q5]
  refine ⟨q1, { hf with Ws := q4 }, ?_, q3.mono (fun w hw => sub.mem hw)⟩
  have hs2 : AllApart (h.B :: h.value :: h.Ws) := hs
  have k : r.1.Keeps h.value l.value.data := Heap.Keeps.frame hm2.2.1 q3 (fun w hw => by
    rcases List.mem_cons.1 hw with rfl | hw
    · exact hs2.at (i := 0) (j := 1) rfl rfl (by decide)
    · exact (List.rel_of_pairwise_cons (List.Pairwise.of_cons hs2) hw).symm)
  exact .cons (q2.at (i := 0) rfl rfl) (.cons k (List.forall₂_cons.1 q2).2)

theorem HLayer.init_sim {h : HLayer α} {L L' : Layer α} {g g' : ρ} (hi : HLayer.Is addr H h L) (hs : AllApart h.objs)
    (e : L.init gen c g = .ok (L', g')) :
    Ok (h.init gen c g H) (fun r => r.2 = g' ∧ HLayer.Is addr r.1 h L' ∧ H.Only r.1 h.objs) := by
  cases hi with
  | fc hf hm =>
    obtain ⟨⟨l', g1⟩, e1, e⟩ := res_inv e
    cases e
    exact (HFC.init_sim hf hm hs e1).mono (fun r q => ⟨q.1, .fc q.2.1 q.2.2.1, q.2.2.2⟩)
  | conv hf hm =>
    obtain ⟨⟨l', g1⟩, e1, e⟩ := res_inv e
    cases e
    exact (HConv.init_sim hf hm hs e1).mono (fun r q => ⟨q.1, .conv q.2.1 q.2.2.1, q.2.2.2⟩)
  | pool hf hm => cases e; exact Ok_ok.2 ⟨rfl, .pool hf hm, Heap.Only.refl _ _⟩
  | rawFC hf hm => cases e; exact Ok_ok.2 ⟨rfl, .rawFC hf hm, Heap.Only.refl _ _⟩
  | rawConv hf hm =>
    obtain ⟨⟨l', g1⟩, e1, e⟩ := res_inv e
    cases e
    exact (HConv.initRaw_sim hf hm hs e1).mono (fun r q => ⟨q.1, .rawConv q.2.1 q.2.2.1, q.2.2.2⟩)
  | rawPool hf hm => cases e; exact Ok_ok.2 ⟨rfl, .rawPool hf hm, Heap.Only.refl _ _⟩

theorem HNet.init_sim {net : HNet α} {v v' : Net α} {g g' : ρ} (hn : HNet.Is addr H net v) (hs : AllApart (HNet.objs net))
    (e : Net.init gen c g v = .ok (v', g')) :
    Ok (HNet.init gen c g H net) (fun r => r.2 = g' ∧ HNet.Is addr r.1 net v' ∧ H.Only r.1 (HNet.objs net)) := by
  unfold Net.init at e
  unfold HNet.init
  rw [hn.len]
  refine forN_sim (fun (a : Heap α × ρ) (b : Net α × ρ) => a.2 = b.2 ∧ HNet.Is addr a.1 net b.1 ∧ H.Only a.1 (HNet.objs net))
    ⟨rfl, hn, Heap.Only.refl _ _⟩ (fun i _ a b b' hR he => ?_) e
  obtain ⟨L, f1, he⟩ := res_inv he
  obtain ⟨⟨L1, g1⟩, f2, he⟩ := res_inv he
  obtain ⟨w, f3, he⟩ := res_inv he
  cases he
  obtain ⟨-, rfl⟩ := lset_ok f3
  obtain ⟨r1, r2, r3⟩ := hR
  obtain ⟨h, eh, hi⟩ := r2.at (lget_ok f1)
  rw [lget_of eh, bind_ok, r1]
  exact (HLayer.init_sim hi (hs.layer eh) f2).mono
    (fun r q => ⟨q.1, r2.step' hs eh q.2.1 q.2.2, r3.trans (Heap.Only.layer eh q.2.2)⟩)

end Init

/-! ### Training objects -/

theorem HLayer.Is.osize {addr : Ptr → Nat} {H : Heap α} {h : HLayer α} {L : Layer α} (hi : HLayer.Is addr H h L) : h.osize = L.osize := by
  cases hi with
  | fc hf hm => show (_, _, _) = (_, _, _); rw [hf.osize]
  | conv hf hm => show (_, _, _) = (_, _, _); rw [hf.ext.2.2.2.1, hf.ext.2.2.2.2.1, hf.ext.2.2.2.2.2.1]
  | pool hf hm => show (_, _, _) = (_, _, _); rw [hf.ext.2.2.2.1, hf.ext.2.2.2.2.1, hf.ext.2.2.2.2.2.1]
  | rawFC hf hm => show (_, _, _) = (_, _, _); rw [hf.osize]
  | rawConv hf hm => show (_, _, _) = (_, _, _); rw [hf.ext.2.2.2.1, hf.ext.2.2.2.2.1, hf.ext.2.2.2.2.2.1]
  | rawPool hf hm => show (_, _, _) = (_, _, _); rw [hf.ext.2.2.2.1, hf.ext.2.2.2.2.1, hf.ext.2.2.2.2.2.1]

theorem LayerSpec.make_osize [Zero α] {s : LayerSpec α} {kB : Nat} {kW : Nat → Nat} {L : Layer α} (e : s.make kB kW = .ok L) (hr : s.Room) :
    L.osize.1 * L.osize.2.1 * L.osize.2.2 < W64 := by
  cases s with
  | fc i o a => cases e; show 1 * 1 * o < W64; rw [Nat.mul_one, Nat.one_mul]; exact hr.2.1
  | conv d h w c fh fw p sv sh =>
    obtain ⟨r1, r2, r3, r4, oh, ow, r5, r6, r7, r8⟩ := hr
    obtain ⟨l, e1, e⟩ := res_inv e
    cases e
    unfold Conv.make at e1
    rw [r5, bind_ok, r6, bind_ok] at e1
    dsimp only at e1
    rw [if_neg (by omega)] at e1
    cases e1
    exact r7
  | pool d h w sv sh a =>
    obtain ⟨r1, r2, r3⟩ := hr
    obtain ⟨l, e1, e⟩ := res_inv e
    cases e
    unfold Pool.make at e1
    have x1 : poolExtent h sv = .ok (h / sv) := by unfold poolExtent; rw [if_neg (by omega)]
    have x2 : poolExtent w sh = .ok (w / sh) := by unfold poolExtent; rw [if_neg (by omega)]
    rw [x1, bind_ok, x2, bind_ok] at e1
    cases e1
    exact Nat.lt_of_le_of_lt (Nat.mul_le_mul (Nat.mul_le_mul (Nat.le_refl d) (Nat.div_le_self h sv)) (Nat.div_le_self w sh)) r3

theorem HNet.Made.osize [Zero α] {addr : Ptr → Nat} {net : HNet α} {ss : List (LayerSpec α)} {v : Net α} (h : HNet.Made addr net ss v)
    (hr : ∀ s ∈ ss, s.Room) : ∀ L ∈ v, L.osize.1 * L.osize.2.1 * L.osize.2.2 < W64 := by
  induction h with
  | nil => exact fun _ h => absurd h (List.not_mem_nil)
  | cons h1 _ ih =>
    intro L hL
    rcases List.mem_cons.1 hL with rfl | hL
    · exact LayerSpec.make_osize h1 (hr _ (List.mem_cons_self ..))
    · exact ih (fun s hs => hr s (List.mem_cons_of_mem _ hs)) L hL

theorem HNet.Is.extends [Zero α] {addr : Ptr → Nat} {H H' H'' : Heap α} {net : HNet α} {v : Net α} (hn : HNet.Is addr H net v) (he : H.Extends H')
    (hf : H''.Fresh H (HNet.objs net)) : HNet.Is addr H' net v := by
  refine List.forall₂_iff_get.2 ⟨hn.len, fun i hi hi' => ?_⟩
  exact ((List.forall₂_iff_get.1 hn).2 i hi hi').extends he (fun o ho => hf o (HNet.mem_objs (List.getElem?_eq_getElem hi) o ho))

/-- A Training object on a network in memory. -/
theorem HTrain.make_spec [Zero α] {addr : Ptr → Nat} {H0 H : Heap α} {net : HNet α} {v : Net α} (hn : HNet.Is addr H net v)
    (hs : AllApart (HNet.objs net)) (hf : H0.Fresh H (HNet.objs net)) {hl : Option (HLoss α)} {ls : Option (Loss α)} {opt : σ}
    (hloss : (hl = none ∧ ls = none) ∨ ∃ h l, hl = some h ∧ ls = some l ∧ HLoss.Follows h l)
    (ho : ∀ L ∈ v, L.osize.1 * L.osize.2.1 * L.osize.2.2 < W64) {w : Train α} (e : Train.make v = .ok w) :
    Ok (HTrain.make H net hl opt) (fun t => t.Is addr (opt, { w with loss := ls }) ∧ AllApart t.owned ∧ H.Extends t.heap ∧ t.net = net ∧
      ∃ b, t.delta.data = .at b 0 ∧ b = H.next) := by
  obtain ⟨L, e1, e⟩ := res_inv e
  cases e
  unfold HTrain.make
  rw [hn.len]
  obtain ⟨h, eh, hi⟩ := hn.at (lget_ok e1)
  rw [lget_of eh, bind_ok]
  have hsz := ho L (List.mem_of_getElem? (lget_ok e1))
  have es := size_mk3 hsz
  have hex : H.Extends (H.new (Shape.mk3 L.osize.1 L.osize.2.1 L.osize.2.2).size).1 := by
    refine ⟨Nat.le_succ _, fun b hb => ⟨?_, fun o => ?_⟩⟩
    · rw [Heap.new_live]; exact ⟨fun h => h.resolve_left (by omega), Or.inr⟩
    · rw [Heap.new_cellAt, if_neg (by omega)]
  have hos := hi.osize
  refine Ok_ok.2 ?_
  rw [hos]
  show HTrain.Is addr ⟨(H.new (Shape.mk3 L.osize.1 L.osize.2.1 L.osize.2.2).size).1, net,
      ⟨.ten, .at H.next 0, Shape.mk3 L.osize.1 L.osize.2.1 L.osize.2.2⟩, hl, opt⟩ _ ∧ _
  have n1 : HNet.Is addr (H.new (Shape.mk3 L.osize.1 L.osize.2.1 L.osize.2.2).size).1 net v := hn.extends hex hf
  refine ⟨⟨rfl, n1, ⟨rfl, rfl, rfl, ?_, ?_⟩, hloss⟩, ?_, hex, rfl, H.next, rfl, rfl⟩
  · dsimp only
    rw [es]; unfold Ten.alloc Buf.alloc; rw [List.length_replicate]
  · refine Or.inr ⟨H.next, 0, rfl, fun i hi' => ?_⟩
    have hi2 : i < L.osize.1 * L.osize.2.1 * L.osize.2.2 := by simpa [Ten.alloc, Buf.alloc] using hi'
    dsimp only
    rw [Heap.new_cellAt, if_pos rfl, Nat.zero_add, es, if_pos hi2]
    simp [Ten.alloc, Buf.alloc, hi2]
  · unfold HTrain.owned
    refine List.pairwise_append.2 ⟨hs, List.pairwise_singleton _ _, fun a ha b hb => ?_⟩
    rw [List.mem_singleton.1 hb]
    obtain ⟨k, k1, k2, k3⟩ := hf a ha
    exact apart_blk k1 rfl (by omega)

/-! ### The library's function and optimizer objects -/

theorem hgdUpdate_follows [Mul α] [Sub α] (addr : Ptr → Nat) : HUpd.Follows addr (hgdUpdate (α := α)) gdUpdate := by
  intro H s s' p g bp bg bp' bg' hp hg ha e
  obtain ⟨b1, e1, e⟩ := res_inv e
  obtain ⟨b2, e2, e⟩ := res_inv e
  cases e
  unfold hgdUpdate
  refine (join_sim hg e1).bind (fun H1 h1 => ?_)
  refine (assignPtr_sim (hp.frame1 h1 ha.symm) h1.1 ha e2).bind (fun H2 h2 => Ok_ok.2 ⟨rfl, h2.1, h1.1.frame1 h2 ha, ?_⟩)
  exact (h1.only (os := [p, g]) (k := 1) rfl).trans (h2.only (k := 0) rfl)

theorem hsgdUpdate_follows [Mul α] [Sub α] (addr : Ptr → Nat) : HUpd.Follows addr (hsgdUpdate (α := α)) sgdUpdate := by
  intro H s s' p g bp bg bp' bg' hp hg ha e
  obtain ⟨b1, e1, e⟩ := res_inv e
  obtain ⟨b2, e2, e⟩ := res_inv e
  obtain ⟨b3, e3, e⟩ := res_inv e
  cases e
  unfold hsgdUpdate
  refine (join_sim hg e1).bind (fun H1 h1 => ?_)
  refine (join_sim (hp.frame1 h1 ha.symm) e2).bind (fun H2 h2 => ?_)
  have g2 := h1.1.frame1 h2 ha
  refine (assignPtr_sim h2.1 g2 ha e3).bind (fun H3 h3 => Ok_ok.2 ⟨rfl, h3.1, g2.frame1 h3 ha, ?_⟩)
  exact ((h1.only (os := [p, g]) (k := 1) rfl).trans (h2.only (k := 0) rfl)).trans (h3.only (k := 0) rfl)

section Softmax
variable [Zero α] [_root_.One α] [Add α] [Sub α] [Mul α] [LT α] [DecidableLT α]

omit [Zero α] [_root_.One α] [Add α] [Sub α] [Mul α] in
theorem rangeMax_read {H : Heap α} {x : Obj} {b : Buf α} {m : α} (hx : H.Keeps x b) (e : rangeMax b = .ok m) : x.rangeMax H = .ok m := by
  unfold Trixy.rangeMax at e
  unfold Obj.rangeMax
  obtain ⟨a, e1, e⟩ := res_inv e
  rw [hx.get e1, bind_ok, hx.1]
  refine forN_read (fun i _ m m' he => ?_) e
  obtain ⟨a', e2, he⟩ := res_inv he
  cases he
  dsimp only
  rw [hx.get e2, bind_ok]; rfl

omit [_root_.One α] [Sub α] [LT α] [DecidableLT α] in
theorem normalise_sim {recip : α → Res α} {H : Heap α} {r : Obj} {br b : Buf α} (hr : H.Keeps r br) (e : normalise recip br = .ok b) :
    Ok (r.normalise recip H) (fun H' => H.Sets H' r b) := by
  unfold Trixy.normalise at e
  unfold Obj.normalise
  obtain ⟨s, e1, e⟩ := res_inv e
  obtain ⟨q, e2, e⟩ := res_inv e
  have : forN r.shape.size (0 : α) (fun i s => do let a ← r.get1 H i; return s + a) = .ok s := by
    rw [hr.1]
    refine forN_read (fun i _ m m' he => ?_) e1
    obtain ⟨a', e2, he⟩ := res_inv he
    cases he
    rw [hr.get e2, bind_ok]; rfl
  rw [this, bind_ok, e2, bind_ok]
  exact join_sim hr e

theorem HAct.softmax_follows (exp recip : α → Res α) :
    (HAct.softmax exp recip).Follows ⟨Trixy.softmax exp recip, softmaxSelf exp recip, fun r _ => softmaxDerived r, softmaxDerived⟩ where
  f H r x br bx b hr hx ha e := by
    obtain ⟨m, e1, e⟩ := res_inv e
    obtain ⟨b1, e2, e⟩ := res_inv e
    show Ok (x.rangeMax H >>= _) _
    rw [rangeMax_read hx e1, bind_ok]
    have ha' : Trixy.Apart r.data br.length x.data bx.length := by rw [← hr.1, ← hx.1]; exact ha
    refine Ok.bind (P := fun H1 => H.Sets H1 r b1) ?_ (fun H1 h1 => (normalise_sim h1.1 e).mono (fun H2 h2 => h1.trans h2))
    unfold Obj.expInto
    unfold Trixy.expInto at e2
    rw [hr.1]
    refine Ok.mono (P := fun H' => One r.data br.length H H' b1) ?_ (fun H' h => One.sets hr.1 h)
    refine forN_sim (One r.data br.length H) (One.start hr.2 rfl) (fun i _ s t t' hR he => ?_) e2
    obtain ⟨u, eu, he⟩ := res_inv he
    obtain ⟨y, ey, he⟩ := res_inv he
    unfold Obj.get1
    rw [hR.other hx.2 ha' eu, bind_ok, ey, bind_ok]
    exact hR.store he
  fSelf H r br b hr e := by
    obtain ⟨m, e1, e⟩ := res_inv e
    obtain ⟨b1, e2, e⟩ := res_inv e
    show Ok (r.rangeMax H >>= _) _
    rw [rangeMax_read hr e1, bind_ok]
    refine Ok.bind (P := fun H1 => H.Sets H1 r b1) ?_ (fun H1 h1 => (normalise_sim h1.1 e).mono (fun H2 h2 => h1.trans h2))
    unfold Obj.expInto
    unfold Trixy.expSelf at e2
    rw [hr.1]
    refine Ok.mono (P := fun H' => One r.data br.length H H' b1) ?_ (fun H' h => One.sets hr.1 h)
    refine forN_sim (One r.data br.length H) (One.start hr.2 rfl) (fun i _ s t t' hR he => ?_) e2
    obtain ⟨u, eu, he⟩ := res_inv he
    obtain ⟨y, ey, he⟩ := res_inv he
    unfold Obj.get1
    rw [hR.self eu, bind_ok, ey, bind_ok]
    exact hR.store he
  df H r x br bx b hr hx ha e := fillObj_sim hr e
  dfSelf H r br b hr e := fillObj_sim hr e

end Softmax

/-- Losses made of element-wise loops. -/
theorem HLoss.elementwise_follows [Zero α] {acc : α → α → α → Res α} {post : α → α} {d : α → α → Res α} {l : Loss α}
    (hf : ∀ bt bp v, l.f bt bp = .ok v → ∃ s, forN bt.length (0 : α) (fun i s => do
      let a ← Buf.get bt i
      let b ← Buf.get bp i
      acc s a b) = .ok s ∧ v = post s)
    (hd : ∀ br bt bp b, l.df br bt bp = .ok b → forN br.length br (fun i r => do
      let a ← Buf.get bt i
      let b ← Buf.get bp i
      let q ← d a b
      Buf.set r i q) = .ok b) : (HLoss.elementwise acc post d).Follows l where
  f H t p bt bp v ht hp e := by
    obtain ⟨s, e1, rfl⟩ := hf bt bp v e
    have : forN t.shape.size (0 : α) (fun i s => do
        let a ← t.get1 H i
        let b ← p.get1 H i
        acc s a b) = .ok s := by
      rw [ht.1]
      refine forN_read (fun i _ m m' he => ?_) e1
      obtain ⟨a, f1, he⟩ := res_inv he
      obtain ⟨b, f2, he⟩ := res_inv he
      rw [ht.get f1, bind_ok, hp.get f2, bind_ok]
      exact he
    show (forN t.shape.size (0 : α) _ >>= _) = _
    rw [this]; rfl
  df H r t p br bt bp b hr ht hp at' ap e := by
    have e1 := hd br bt bp b e
    show Ok (forN r.shape.size H _) _
    rw [hr.1]
    have at1 : Trixy.Apart r.data br.length t.data bt.length := by rw [← hr.1, ← ht.1]; exact at'
    have ap1 : Trixy.Apart r.data br.length p.data bp.length := by rw [← hr.1, ← hp.1]; exact ap
    refine Ok.mono (P := fun H' => One r.data br.length H H' b) ?_ (fun H' h => One.sets hr.1 h)
    refine forN_sim (One r.data br.length H) (One.start hr.2 rfl) (fun i _ s t t' hR he => ?_) e1
    obtain ⟨u, f1, he⟩ := res_inv he
    obtain ⟨y, f2, he⟩ := res_inv he
    obtain ⟨q, f3, he⟩ := res_inv he
    unfold Obj.get1
    rw [hR.other ht.2 at1 f1, bind_ok, hR.other hp.2 ap1 f2, bind_ok, f3, bind_ok]
    exact hR.store he

end Trixy
