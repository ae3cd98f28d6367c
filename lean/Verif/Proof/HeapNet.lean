import Verif.Spec.HeapNet
import Verif.Proof.HeapSim
import Verif.Proof.Net
/- Operations on objects in the free store follow the operations on values: elementary steps and dense layers. -/
namespace Trixy
set_option linter.unusedSectionVars false

variable {α σ : Type}

theorem Obj.Apart.symm {a b : Obj} (h : Obj.Apart a b) : Obj.Apart b a := Trixy.Apart.symm h

theorem Heap.Only.refl (H : Heap α) (ws : List Obj) : H.Only H ws := ⟨rfl, fun _ => Iff.rfl, fun _ _ _ => rfl⟩

theorem Heap.Only.trans {H0 H1 H2 : Heap α} {ws : List Obj} (h1 : H0.Only H1 ws) (h2 : H1.Only H2 ws) : H0.Only H2 ws :=
  ⟨h2.1.trans h1.1, fun b => (h2.2.1 b).trans (h1.2.1 b), fun b o h => (h2.2.2 b o h).trans (h1.2.2 b o h)⟩

theorem Heap.Only.mono {H H' : Heap α} {ws ws' : List Obj} (h : H.Only H' ws) (hs : ∀ w ∈ ws, w ∈ ws') : H.Only H' ws' :=
  ⟨h.1, h.2.1, fun b o hb => h.2.2 b o (fun w hw => hb w (hs w hw))⟩

theorem One.sets {r : Obj} {n : Nat} {H H' : Heap α} {b : Buf α} (hn : r.shape.size = n) (h : One r.data n H H' b) : H.Sets H' r b := by
  refine ⟨⟨hn.trans h.1.symm, h.2.1⟩, h.2.2.1, h.2.2.2.1, fun bb o hb => h.2.2.2.2 bb o (fun pb po hp => ?_)⟩
  rw [← hn]
  exact hb r (List.mem_singleton.2 rfl) pb po hp

theorem Heap.Keeps.frame {H H' : Heap α} {q : Obj} {b : Buf α} {ws : List Obj} (h : H.Keeps q b) (ho : H.Only H' ws)
    (ha : ∀ w ∈ ws, Obj.Apart w q) : H'.Keeps q b := by
  obtain ⟨hl, hs⟩ := h
  refine ⟨hl, ?_⟩
  rcases hs with h0 | ⟨qb, qo, hq, hc⟩
  · exact Or.inl h0
  · refine Or.inr ⟨qb, qo, hq, fun i hi => ?_⟩
    rw [ho.2.2 qb (qo + i), hc i hi]
    rintro w hw pb po hp ⟨e1, e2, e3⟩
    exact ha w hw pb po qb qo (qo + i - po) i hp hq (by omega) (by omega) ⟨e1.symm, by omega⟩

theorem Heap.Keeps.frame1 {H H' : Heap α} {r q : Obj} {b c : Buf α} (h : H.Keeps q b) (ho : H.Sets H' r c)
    (ha : Obj.Apart r q) : H'.Keeps q b := h.frame ho.2 (fun w hw => by rw [List.mem_singleton.1 hw]; exact ha)

theorem Heap.Sets.trans {H0 H1 H2 : Heap α} {r : Obj} {b c : Buf α} (h1 : H0.Sets H1 r b) (h2 : H1.Sets H2 r c) : H0.Sets H2 r c :=
  ⟨h2.1, h1.2.trans h2.2⟩

theorem Heap.KeepsT.frame {H H' : Heap α} {q : Obj} {t : Ten α} {ws : List Obj} (h : H.KeepsT q t) (ho : H.Only H' ws)
    (ha : ∀ w ∈ ws, Obj.Apart w q) : H'.KeepsT q t := ⟨h.1, h.2.1, h.2.2.1, h.2.2.2.frame ho ha⟩

theorem AllApart.at {os : List Obj} (h : AllApart os) {i j : Nat} {a b : Obj} (ha : os[i]? = some a) (hb : os[j]? = some b)
    (hij : i ≠ j) : Obj.Apart a b := by
  rw [List.getElem?_eq_some_iff] at ha hb
  obtain ⟨hi, rfl⟩ := ha
  obtain ⟨hj, rfl⟩ := hb
  have := List.pairwise_iff_getElem.1 h
  rcases Nat.lt_or_gt_of_ne hij with hlt | hlt
  · exact this i j hi hj hlt
  · exact (this j i hj hi hlt).symm

theorem Heap.Held.at {H : Heap α} {os : List Obj} {bs : List (Buf α)} (h : H.Held os bs) {i : Nat} {o : Obj} {b : Buf α}
    (ho : os[i]? = some o) (hb : bs[i]? = some b) : H.Keeps o b := by
  rw [List.getElem?_eq_some_iff] at ho hb
  obtain ⟨hi, rfl⟩ := ho
  obtain ⟨hj, rfl⟩ := hb
  exact (List.forall₂_iff_get.1 h).2 i hi hj

theorem Heap.Held.len {H : Heap α} {os : List Obj} {bs : List (Buf α)} (h : H.Held os bs) : os.length = bs.length :=
  List.Forall₂.length_eq h

theorem Heap.Held.step {H H' : Heap α} {os : List Obj} {bs : List (Buf α)} (h : H.Held os bs) (hs : AllApart os) {k : Nat} {o : Obj}
    {b : Buf α} (ho : os[k]? = some o) (hb : H.Sets H' o b) : H'.Held os (bs.set k b) := by
  refine List.forall₂_iff_get.2 ⟨by rw [List.length_set]; exact h.len, fun i hi hj => ?_⟩
  simp only [List.get_eq_getElem] at *
  rw [List.getElem_set]
  by_cases hik : k = i
  · subst hik
    rw [if_pos rfl]
    rw [List.getElem?_eq_getElem hi] at ho
    rw [Option.some.inj ho]
    exact hb.1
  · rw [if_neg hik]
    have := (List.forall₂_iff_get.1 h).2 i hi (by rw [List.length_set] at hj; exact hj)
    exact Heap.Keeps.frame1 this hb (hs.at ho (List.getElem?_eq_getElem hi) hik)

theorem Heap.Held.frame {H H' : Heap α} {os : List Obj} {bs : List (Buf α)} {ws : List Obj} (h : H.Held os bs) (ho : H.Only H' ws)
    (ha : ∀ w ∈ ws, ∀ o ∈ os, Obj.Apart w o) : H'.Held os bs := by
  unfold Heap.Held at *
  induction h with
  | nil => exact .nil
  | cons h1 _ ih =>
    exact .cons (h1.frame ho (fun w hw => ha w hw _ (List.mem_cons_self ..)))
      (ih (fun w hw o hq => ha w hw o (List.mem_cons_of_mem _ hq)))

theorem Heap.Sets.only {H H' : Heap α} {r : Obj} {b : Buf α} (h : H.Sets H' r b) {os : List Obj} {k : Nat} (hk : os[k]? = some r) :
    H.Only H' os := h.2.mono (fun w hw => by rw [List.mem_singleton.1 hw]; exact List.mem_of_getElem? hk)

/-! ### Elementary operations -/

section Elem
variable {H : Heap α}

theorem assignPtr_sim {op : α → α → α} {r x : Obj} {br bx b : Buf α} (hr : H.Keeps r br) (hx : H.Keeps x bx) (ha : Obj.Apart r x)
    (e : zipInto op br bx = .ok b) : Ok (assignPtr op H r.data r.shape.size x.data) (fun H' => H.Sets H' r b) := by
  unfold assignPtr
  unfold zipInto at e
  rw [hr.1]
  refine Ok.mono (P := fun H' => One r.data br.length H H' b) ?_ (fun H' h => One.sets hr.1 h)
  refine forN_sim (One r.data br.length H) (One.start hr.2 rfl) (fun i _ s t t' hR he => ?_) e
  obtain ⟨u, eu, he⟩ := res_inv he
  obtain ⟨y, ey, he⟩ := res_inv he
  have ha' : Trixy.Apart r.data br.length x.data bx.length := by rw [← hr.1, ← hx.1]; exact ha
  rw [hR.self eu, bind_ok, hR.other hx.2 ha' ey, bind_ok]
  exact hR.store he

theorem join_sim [Mul α] {r : Obj} {br b : Buf α} {v : α} (hr : H.Keeps r br) (e : scaleInto br v = .ok b) :
    Ok (r.join H v) (fun H' => H.Sets H' r b) := by
  unfold Obj.join assignConst
  unfold scaleInto at e
  rw [hr.1]
  refine Ok.mono (P := fun H' => One r.data br.length H H' b) ?_ (fun H' h => One.sets hr.1 h)
  refine forN_sim (One r.data br.length H) (One.start hr.2 rfl) (fun i _ s t t' hR he => ?_) e
  obtain ⟨u, eu, he⟩ := res_inv he
  rw [hR.self eu, bind_ok]
  exact hR.store he

theorem applyPtr_sim {g : α → α} {r x : Obj} {br bx b : Buf α} (hr : H.Keeps r br) (hx : H.Keeps x bx) (ha : Obj.Apart r x)
    (e : mapInto g br bx = .ok b) : Ok (applyPtr g H r.data r.shape.size x.data) (fun H' => H.Sets H' r b) := by
  unfold applyPtr
  unfold mapInto at e
  rw [hr.1]
  refine Ok.mono (P := fun H' => One r.data br.length H H' b) ?_ (fun H' h => One.sets hr.1 h)
  refine forN_sim (One r.data br.length H) (One.start hr.2 rfl) (fun i _ s t t' hR he => ?_) e
  obtain ⟨y, ey, he⟩ := res_inv he
  have ha' : Trixy.Apart r.data br.length x.data bx.length := by rw [← hr.1, ← hx.1]; exact ha
  rw [hR.other hx.2 ha' ey, bind_ok]
  exact hR.store he

theorem applySelf_sim {g : α → α} {r : Obj} {br b : Buf α} (hr : H.Keeps r br)
    (e : mapSelf g br = .ok b) : Ok (applyPtr g H r.data r.shape.size r.data) (fun H' => H.Sets H' r b) := by
  unfold applyPtr
  unfold mapSelf at e
  rw [hr.1]
  refine Ok.mono (P := fun H' => One r.data br.length H H' b) ?_ (fun H' h => One.sets hr.1 h)
  refine forN_sim (One r.data br.length H) (One.start hr.2 rfl) (fun i _ s t t' hR he => ?_) e
  obtain ⟨y, ey, he⟩ := res_inv he
  rw [hR.self ey, bind_ok]
  exact hR.store he

theorem fillObj_sim {r : Obj} {br b : Buf α} {v : α} (hr : H.Keeps r br) (e : fillInto br v = .ok b) :
    Ok (r.fill H v) (fun H' => H.Sets H' r b) := by
  unfold Obj.fill
  rw [hr.1]
  exact (fill_sim hr.2 v e).mono (fun H' h => One.sets hr.1 h)

theorem HAct.elementwise_follows (g g' : α → α) : (HAct.elementwise g g').Follows (Act.elementwise g g') where
  f _ _ _ _ _ _ hr hx ha e := applyPtr_sim hr hx ha e
  fSelf _ _ _ _ hr e := applySelf_sim hr e
  df _ _ _ _ _ _ hr hx ha e := applyPtr_sim hr hx ha e
  dfSelf _ _ _ _ hr e := applySelf_sim hr e

theorem Heap.Keeps.get {o : Obj} {b : Buf α} (h : H.Keeps o b) {i : Nat} {a : α} (e : b.get i = .ok a) : o.get1 H i = .ok a := h.2.load e

theorem Heap.KeepsT.get {o : Obj} {t : Ten α} (h : H.KeepsT o t) {i j k : Nat} {a : α} (e : t.get i j k = .ok a) :
    o.get3 H i j k = .ok a := by
  unfold Obj.get3 Shape.at3
  rw [h.2.1, h.2.2.1]
  exact h.2.2.2.2.load e

end Elem

/-! ### Dense layers -/

section Dense
variable {H : Heap α} {addr : Ptr → Nat} [Zero α] [Add α] [Mul α]

theorem dotRowK_sim {r x m : Obj} {br bx b' : Buf α} {M : Mat α} (hr : H.Keeps r br) (hx : H.Keeps x bx) (hm : H.Keeps m M.data)
    (wm : m.shape.w = M.w) (ax : Obj.Apart r x) (am : Obj.Apart r m) (e : Trixy.dotRow br bx M = .ok b') :
    Ok (Obj.dotRow H r x m) (fun H' => H.Sets H' r b') := by
  refine (dotRow_sim hr.2 hr.1 hx.2 hx.1 hm.2 wm ?_ ?_ e).mono (fun H' h => One.sets hr.1 h)
  · rw [← hr.1, ← hx.1]; exact ax
  · rw [← hr.1, ← hm.1]; exact am

theorem dotColK_sim {r x m : Obj} {br bx b' : Buf α} {M : Mat α} (hr : H.Keeps r br) (hx : H.Keeps x bx) (hm : H.Keeps m M.data)
    (wm : m.shape.w = M.w) (ax : Obj.Apart r x) (am : Obj.Apart r m) (e : Trixy.dotCol br M bx = .ok b') :
    Ok (Obj.dotCol H r m x) (fun H' => H.Sets H' r b') := by
  refine (dotCol_sim hr.2 hr.1 hx.2 hx.1 hm.2 wm ?_ ?_ e).mono (fun H' h => One.sets hr.1 h)
  · rw [← hr.1, ← hx.1]; exact ax
  · rw [← hr.1, ← hm.1]; exact am

theorem tensordotK_sim {r c x : Obj} {R R' : Mat α} {bc bx : Buf α} (hr : H.Keeps r R.data) (hc : H.Keeps c bc) (hx : H.Keeps x bx)
    (ac : Obj.Apart r c) (ax : Obj.Apart r x) (e : Trixy.tensordot R bc bx = .ok R') :
    Ok (Obj.tensordot H r c x) (fun H' => H.Sets H' r R'.data) := by
  refine (tensordot_sim hr.2 hc.2 hc.1 hx.2 hx.1 ?_ ?_ e).mono (fun H' h => One.sets hr.1 h.2)
  · rw [← hr.1, ← hc.1]; exact ac
  · rw [← hr.1, ← hx.1]; exact ax

theorem HFC.forward_sim {h : HFC α} {l l' : FC α} {x : Obj} {t : Ten α} (hf : h.Fits addr l) (hm : H.Held h.objs l.bufs)
    (hs : AllApart h.objs) (hx : H.Keeps x t.data) (ha : Obj.Apart h.buff x) (e : FC.forward t l = .ok l') :
    Ok (h.forward H x) (fun H' => h.Fits addr l' ∧ H'.Held h.objs l'.bufs ∧ H.Only H' h.objs) := by
  unfold FC.forward at e
  obtain ⟨b1, e1, e⟩ := res_inv e
  obtain ⟨b2, e2, e⟩ := res_inv e
  obtain ⟨v, e3, e⟩ := res_inv e
  cases e
  unfold HFC.forward
  refine (dotRowK_sim (hm.at (i := 3) rfl rfl) hx (hm.at (i := 1) rfl rfl) hf.wW ha (hs.at (i := 3) (j := 1) rfl rfl (by decide)) e1).bind
    (fun H1 h1 => ?_)
  have m1 := hm.step hs (k := 3) rfl h1
  refine (assignPtr_sim (m1.at (i := 3) rfl rfl) (m1.at (i := 0) rfl rfl) (hs.at (i := 3) (j := 0) rfl rfl (by decide)) e2).bind
    (fun H2 h2 => ?_)
  have m2 := m1.step hs (k := 3) rfl h2
  refine (hf.act.f _ _ _ _ _ _ (m2.at (i := 2) rfl rfl) (m2.at (i := 3) rfl rfl) (hs.at (i := 2) (j := 3) rfl rfl (by decide)) e3).mono
    (fun H3 h3 => ⟨?_, m2.step hs (k := 2) rfl h3, ?_⟩)
  · exact { hf with }
  · exact ((h1.only (os := h.objs) (k := 3) rfl).trans (h2.only (k := 3) rfl)).trans (h3.only (k := 2) rfl)

theorem HFC.backward_sim {h : HFC α} {l l' : FC α} {x d : Obj} {t td : Ten α} {full : Bool} (hf : h.Fits addr l) (hm : H.Held h.objs l.bufs)
    (hs : AllApart h.objs) (hx : H.Keeps x t.data) (hd : H.Keeps d td.data) (ha : ∀ o ∈ h.objs, Obj.Apart o x)
    (hb : ∀ o ∈ h.objs, Obj.Apart o d) (e : FC.backward t td full l = .ok l') :
    Ok (h.backward H x d full) (fun H' => h.Fits addr l' ∧ H'.Held h.objs l'.bufs ∧ H.Only H' h.objs) := by
  unfold FC.backward at e
  obtain ⟨g1, e1, e⟩ := res_inv e
  obtain ⟨g2, e2, e⟩ := res_inv e
  obtain ⟨gw, e3, e⟩ := res_inv e
  obtain ⟨D, e4, e⟩ := res_inv e
  cases e
  unfold HFC.backward
  have hin : ∀ {k : Nat} {o : Obj}, h.objs[k]? = some o → o ∈ h.objs := fun hk => List.mem_of_getElem? hk
  refine (hf.act.df _ _ _ _ _ _ (hm.at (i := 4) rfl rfl) (hm.at (i := 3) rfl rfl) (hs.at (i := 4) (j := 3) rfl rfl (by decide)) e1).bind
    (fun H1 h1 => ?_)
  have m1 := hm.step hs (k := 4) rfl h1
  refine (assignPtr_sim (m1.at (i := 4) rfl rfl) (hd.frame1 h1 (hb _ (hin (k := 4) rfl))) (hb _ (hin (k := 4) rfl)) e2).bind
    (fun H2 h2 => ?_)
  have m2 := m1.step hs (k := 4) rfl h2
  have hx2 := (hx.frame1 h1 (ha _ (hin (k := 4) rfl))).frame1 h2 (ha _ (hin (k := 4) rfl))
  refine (tensordotK_sim (m2.at (i := 5) rfl rfl) hx2 (m2.at (i := 4) rfl rfl) (ha _ (hin (k := 5) rfl))
    (hs.at (i := 5) (j := 4) rfl rfl (by decide)) e3).bind (fun H3 h3 => ?_)
  have m3 := m2.step hs (k := 5) rfl h3
  have o3 := ((h1.only (os := h.objs) (k := 4) rfl).trans (h2.only (k := 4) rfl)).trans (h3.only (k := 5) rfl)
  unfold HFC.backDelta
  unfold FC.backDelta at e4
  cases full with
  | false =>
    rw [if_neg (by decide)] at e4 ⊢
    cases e4
    exact Ok_ok.2 ⟨{ hf with }, m3, o3⟩
  | true =>
    rw [if_pos rfl] at e4 ⊢
    unfold Ten.onData at e4
    obtain ⟨d', e5, e4⟩ := res_inv e4
    cases e4
    refine (dotColK_sim (m3.at (i := 8) rfl rfl) (m3.at (i := 4) rfl rfl) (m3.at (i := 1) rfl rfl) hf.wW
      (hs.at (i := 8) (j := 4) rfl rfl (by decide)) (hs.at (i := 8) (j := 1) rfl rfl (by decide)) e5).mono
      (fun H4 h4 => ⟨{ hf with }, m3.step hs (k := 8) rfl h4, o3.trans (h4.only (k := 8) rfl)⟩)

theorem HFC.reset_sim {h : HFC α} {l l' : FC α} (hf : h.Fits addr l) (hm : H.Held h.objs l.bufs) (hs : AllApart h.objs)
    (e : FC.reset l = .ok l') :
    Ok (h.reset H) (fun r => r.2.Fits addr l' ∧ r.1.Held r.2.objs l'.bufs ∧ H.Only r.1 h.objs ∧ r.2.objs = h.objs ∧
      r.2.value = h.value ∧ r.2.delta = h.delta) := by
  unfold FC.reset at e
  obtain ⟨b1, e1, e⟩ := res_inv e
  obtain ⟨gw, e2, e⟩ := res_inv e
  unfold Mat.onData at e2
  obtain ⟨b2, e3, e2⟩ := res_inv e2
  cases e2
  cases e
  unfold HFC.reset
  refine (fillObj_sim (hm.at (i := 6) rfl rfl) e1).bind (fun H1 h1 => ?_)
  have m1 := hm.step hs (k := 6) rfl h1
  refine (fillObj_sim (m1.at (i := 7) rfl rfl) e3).bind (fun H2 h2 => ?_)
  have m2 := m1.step hs (k := 7) rfl h2
  exact Ok_ok.2 ⟨{ hf with acc := rfl }, m2, (h1.only (os := h.objs) (k := 6) rfl).trans (h2.only (k := 7) rfl), rfl, rfl, rfl⟩

theorem HFC.accumulate_sim {h : HFC α} {l l' : FC α} (hf : h.Fits addr l) (hm : H.Held h.objs l.bufs) (hs : AllApart h.objs)
    (e : FC.accumulate l = .ok l') :
    Ok (h.accumulate H) (fun r => r.2.Fits addr l' ∧ r.1.Held r.2.objs l'.bufs ∧ H.Only r.1 h.objs ∧ r.2.objs = h.objs ∧
      r.2.value = h.value ∧ r.2.delta = h.delta) := by
  unfold FC.accumulate at e
  obtain ⟨b1, e1, e⟩ := res_inv e
  obtain ⟨gw, e2, e⟩ := res_inv e
  unfold Mat.onData at e2
  obtain ⟨b2, e3, e2⟩ := res_inv e2
  cases e2
  cases e
  unfold HFC.accumulate
  refine (assignPtr_sim (hm.at (i := 6) rfl rfl) (hm.at (i := 4) rfl rfl) (hs.at (i := 6) (j := 4) rfl rfl (by decide)) e1).bind
    (fun H1 h1 => ?_)
  have m1 := hm.step hs (k := 6) rfl h1
  refine (assignPtr_sim (m1.at (i := 7) rfl rfl) (m1.at (i := 5) rfl rfl) (hs.at (i := 7) (j := 5) rfl rfl (by decide)) e3).bind
    (fun H2 h2 => ?_)
  have m2 := m1.step hs (k := 7) rfl h2
  exact Ok_ok.2 ⟨{ hf with acc := rfl }, m2, (h1.only (os := h.objs) (k := 6) rfl).trans (h2.only (k := 7) rfl), rfl, rfl, rfl⟩

theorem scaleUnlessOne_sim [_root_.One α] [DecidableEq α] {alpha : α} {r : Obj} {br b : Buf α} (hr : H.Keeps r br)
    (e : Trixy.scaleUnlessOne alpha br = .ok b) : Ok (Obj.scaleUnlessOne alpha H r) (fun H' => H.Sets H' r b) := by
  unfold Trixy.scaleUnlessOne at e
  unfold Obj.scaleUnlessOne
  by_cases ha : alpha ≠ 1
  · rw [if_pos ha] at e ⊢
    exact join_sim hr e
  · rw [if_neg ha] at e ⊢
    cases e
    exact Ok_ok.2 ⟨hr, Heap.Only.refl _ _⟩

omit [Zero α] [Add α] [Mul α] in
theorem Heap.Only.of2 {H' : Heap α} {p g : Obj} (h : H.Only H' [p, g]) {os : List Obj} {i j : Nat} (hi : os[i]? = some p)
    (hj : os[j]? = some g) : H.Only H' os := by
  refine h.mono (fun w hw => ?_)
  rcases List.mem_cons.1 hw with rfl | hw
  · exact List.mem_of_getElem? hi
  · rw [List.mem_singleton.1 hw]; exact List.mem_of_getElem? hj

omit [Zero α] [Add α] [Mul α] in
theorem Heap.Held.step2 {H' : Heap α} {os : List Obj} {bs : List (Buf α)} (h : H.Held os bs) (hs : AllApart os) {i j : Nat}
    {p g : Obj} {b c : Buf α} (hi : os[i]? = some p) (hj : os[j]? = some g) (_hij : i ≠ j) (hp : H'.Keeps p b) (hg : H'.Keeps g c)
    (ho : H.Only H' [p, g]) : H'.Held os ((bs.set i b).set j c) := by
  refine List.forall₂_iff_get.2 ⟨by rw [List.length_set, List.length_set]; exact h.len, fun k hk hk' => ?_⟩
  simp only [List.get_eq_getElem] at *
  rw [List.getElem_set, List.getElem_set]
  by_cases hjk : j = k
  · subst hjk
    rw [if_pos rfl]
    rw [List.getElem?_eq_getElem hk] at hj
    rw [Option.some.inj hj]
    exact hg
  · rw [if_neg hjk]
    by_cases hik : i = k
    · subst hik
      rw [if_pos rfl]
      rw [List.getElem?_eq_getElem hk] at hi
      rw [Option.some.inj hi]
      exact hp
    · rw [if_neg hik]
      have hl := h.len
      have := (List.forall₂_iff_get.1 h).2 k hk (by omega)
      refine Heap.Keeps.frame this ho (fun w hw => ?_)
      rcases List.mem_cons.1 hw with rfl | hw
      · exact hs.at hi (List.getElem?_eq_getElem hk) hik
      · rw [List.mem_singleton.1 hw]; exact hs.at hj (List.getElem?_eq_getElem hk) hjk

theorem HFC.update_sim [_root_.One α] [DecidableEq α] {hu : HUpd σ α} {u : Upd σ α} (hfo : HUpd.Follows addr hu u) {h : HFC α} {l l' : FC α}
    {s s' : σ} {alpha : α} (hf : h.Fits addr l) (hm : H.Held h.objs l.bufs) (hs : AllApart h.objs)
    (e : FC.update u s alpha l = .ok (s', l')) :
    Ok (h.update hu H s alpha) (fun r => r.2 = s' ∧ h.Fits addr l' ∧ r.1.Held h.objs l'.bufs ∧ H.Only r.1 h.objs) := by
  unfold FC.update at e
  unfold HFC.update
  rw [hf.acc]
  cases hacc : l.accumulated with
  | true =>
    rw [hacc, if_pos rfl] at e
    rw [if_pos rfl]
    obtain ⟨⟨s1, B1, g1, W1, g2⟩, e0, e⟩ := res_inv e
    cases e
    unfold FC.updateWith at e0
    obtain ⟨gb, e1, e0⟩ := res_inv e0
    obtain ⟨gw, e2, e0⟩ := res_inv e0
    obtain ⟨⟨sa, Ba, ga⟩, e3, e0⟩ := res_inv e0
    dsimp only at e0
    obtain ⟨⟨sb, Wb, gb'⟩, e4, e0⟩ := res_inv e0
    cases e0
    unfold HFC.updateWith
    refine (scaleUnlessOne_sim (hm.at (i := 6) rfl rfl) e1).bind (fun H1 h1 => ?_)
    have m1 := hm.step hs (k := 6) rfl h1
    refine (scaleUnlessOne_sim (m1.at (i := 7) rfl rfl) e2).bind (fun H2 h2 => ?_)
    have m2 := m1.step hs (k := 7) rfl h2
    rw [hf.keyB] at e3
    refine (hfo _ _ _ _ _ _ _ _ _ (m2.at (i := 0) rfl rfl) (m2.at (i := 6) rfl rfl) (hs.at (i := 0) (j := 6) rfl rfl (by decide)) e3).bind
      (fun ⟨H3, t3⟩ h3 => ?_)
    dsimp only at h3 ⊢
    obtain ⟨rfl, h3a, h3b, h3o⟩ := h3
    have m3 := m2.step2 hs (i := 0) (j := 6) rfl rfl (by decide) h3a h3b h3o
    rw [hf.keyW] at e4
    refine (hfo _ _ _ _ _ _ _ _ _ (m3.at (i := 1) rfl rfl) (m3.at (i := 7) rfl rfl) (hs.at (i := 1) (j := 7) rfl rfl (by decide)) e4).mono
      (fun r h4 => ?_)
    obtain ⟨h4e, h4a, h4b, h4o⟩ := h4
    refine ⟨h4e, { hf with acc := hf.acc.trans hacc }, m3.step2 hs (i := 1) (j := 7) rfl rfl (by decide) h4a h4b h4o, ?_⟩
    exact (((h1.only (os := h.objs) (k := 6) rfl).trans (h2.only (k := 7) rfl)).trans (h3o.of2 (i := 0) (j := 6) rfl rfl)).trans
      (h4o.of2 (i := 1) (j := 7) rfl rfl)
  | false =>
    rw [hacc, if_neg (by decide)] at e
    rw [if_neg (by decide)]
    obtain ⟨⟨s1, B1, g1, W1, g2⟩, e0, e⟩ := res_inv e
    cases e
    unfold FC.updateWith at e0
    obtain ⟨gb, e1, e0⟩ := res_inv e0
    obtain ⟨gw, e2, e0⟩ := res_inv e0
    obtain ⟨⟨sa, Ba, ga⟩, e3, e0⟩ := res_inv e0
    dsimp only at e0
    obtain ⟨⟨sb, Wb, gb'⟩, e4, e0⟩ := res_inv e0
    cases e0
    unfold HFC.updateWith
    refine (scaleUnlessOne_sim (hm.at (i := 4) rfl rfl) e1).bind (fun H1 h1 => ?_)
    have m1 := hm.step hs (k := 4) rfl h1
    refine (scaleUnlessOne_sim (m1.at (i := 5) rfl rfl) e2).bind (fun H2 h2 => ?_)
    have m2 := m1.step hs (k := 5) rfl h2
    rw [hf.keyB] at e3
    refine (hfo _ _ _ _ _ _ _ _ _ (m2.at (i := 0) rfl rfl) (m2.at (i := 4) rfl rfl) (hs.at (i := 0) (j := 4) rfl rfl (by decide)) e3).bind
      (fun ⟨H3, t3⟩ h3 => ?_)
    dsimp only at h3 ⊢
    obtain ⟨rfl, h3a, h3b, h3o⟩ := h3
    have m3 := m2.step2 hs (i := 0) (j := 4) rfl rfl (by decide) h3a h3b h3o
    rw [hf.keyW] at e4
    refine (hfo _ _ _ _ _ _ _ _ _ (m3.at (i := 1) rfl rfl) (m3.at (i := 5) rfl rfl) (hs.at (i := 1) (j := 5) rfl rfl (by decide)) e4).mono
      (fun r h4 => ?_)
    obtain ⟨h4e, h4a, h4b, h4o⟩ := h4
    refine ⟨h4e, { hf with acc := hf.acc.trans hacc }, m3.step2 hs (i := 1) (j := 5) rfl rfl (by decide) h4a h4b h4o, ?_⟩
    exact (((h1.only (os := h.objs) (k := 4) rfl).trans (h2.only (k := 5) rfl)).trans (h3o.of2 (i := 0) (j := 4) rfl rfl)).trans
      (h4o.of2 (i := 1) (j := 5) rfl rfl)

theorem HRawFC.forward_sim {h : HRawFC α} {l l' : RawFC α} {x : Obj} {t : Ten α} (hf : h.Fits l) (hm : H.Held h.objs l.bufs)
    (hs : AllApart h.objs) (hx : H.Keeps x t.data) (ha : Obj.Apart h.value x) (e : RawFC.forward t l = .ok l') :
    Ok (h.forward H x) (fun H' => h.Fits l' ∧ H'.Held h.objs l'.bufs ∧ H.Only H' h.objs) := by
  unfold RawFC.forward at e
  obtain ⟨b1, e1, e⟩ := res_inv e
  obtain ⟨b2, e2, e⟩ := res_inv e
  obtain ⟨v, e3, e⟩ := res_inv e
  cases e
  unfold HRawFC.forward
  refine (dotRowK_sim (hm.at (i := 2) rfl rfl) hx (hm.at (i := 1) rfl rfl) hf.wW ha (hs.at (i := 2) (j := 1) rfl rfl (by decide)) e1).bind
    (fun H1 h1 => ?_)
  have m1 := hm.step hs (k := 2) rfl h1
  refine (assignPtr_sim (m1.at (i := 2) rfl rfl) (m1.at (i := 0) rfl rfl) (hs.at (i := 2) (j := 0) rfl rfl (by decide)) e2).bind
    (fun H2 h2 => ?_)
  have m2 := m1.step hs (k := 2) rfl h2
  refine (hf.act.fSelf _ _ _ _ (m2.at (i := 2) rfl rfl) e3).mono (fun H3 h3 => ⟨{ hf with }, m2.step hs (k := 2) rfl h3, ?_⟩)
  exact ((h1.only (os := h.objs) (k := 2) rfl).trans (h2.only (k := 2) rfl)).trans (h3.only (k := 2) rfl)

end Dense

end Trixy
