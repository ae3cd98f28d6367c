import Verif.Proof.HeapNet
/- Convolution and pooling layers in the free store follow the value-level layers. -/
namespace Trixy
set_option linter.unusedSectionVars false

variable {α σ : Type}

/-! ### Element steps -/

section Steps
variable {H : Heap α}

theorem Heap.Keeps.set {r : Obj} {b b' : Buf α} {i : Nat} {a : α} (h : H.Keeps r b) (e : b.set i a = .ok b') :
    Ok (r.set1 H i a) (fun H' => H.Sets H' r b') :=
  ((One.start h.2 rfl).store e).mono (fun H' h' => One.sets h.1 h')

theorem Ten.set_ok {t t' : Ten α} {i j k : Nat} {a : α} (e : t.set i j k a = .ok t') :
    t.data.set ((i * t.h + j) * t.w + k) a = .ok t'.data ∧ t' = { t with data := t'.data } := by
  unfold Ten.set at e
  obtain ⟨d, ed, e⟩ := res_inv e
  cases e
  exact ⟨ed, rfl⟩

theorem Ten.set_dims {t t' : Ten α} {i j k : Nat} {a : α} (e : t.set i j k a = .ok t') : t'.d = t.d ∧ t'.h = t.h ∧ t'.w = t.w := by
  rw [(Ten.set_ok e).2]; exact ⟨rfl, rfl, rfl⟩

theorem Obj.DimsT.of {o : Obj} {t t' : Ten α} (h : o.DimsT t) (e : t'.d = t.d ∧ t'.h = t.h ∧ t'.w = t.w) : o.DimsT t' :=
  ⟨h.1.trans e.1.symm, h.2.1.trans e.2.1.symm, h.2.2.trans e.2.2.symm⟩

theorem Obj.DimsT.keeps {o : Obj} {t : Ten α} (h : o.DimsT t) (hk : H.Keeps o t.data) : H.KeepsT o t := ⟨h.1, h.2.1, h.2.2, hk⟩

theorem Heap.KeepsT.set {r : Obj} {t t' : Ten α} {i j k : Nat} {a : α} (h : H.KeepsT r t) (e : t.set i j k a = .ok t') :
    Ok (r.set3 H i j k a) (fun H' => H.Sets H' r t'.data) := by
  unfold Obj.set3 Shape.at3
  rw [h.2.1, h.2.2.1]
  exact h.2.2.2.set (Ten.set_ok e).1

theorem lget_ok {β : Type} {l : List β} {i : Nat} {b : β} (h : lget l i = .ok b) : l[i]? = some b := by
  unfold lget at h
  split at h
  · cases h
  · next x hx => cases h; exact hx

theorem lget_of {β : Type} {l : List β} {i : Nat} {b : β} (h : l[i]? = some b) : lget l i = .ok b := by
  unfold lget; rw [h]

theorem lset_ok {β : Type} {l l' : List β} {i : Nat} {b : β} (h : lset l i b = .ok l') : i < l.length ∧ l' = l.set i b := by
  unfold lset at h
  split at h
  · next hi => cases h; exact ⟨hi, rfl⟩
  · cases h

theorem forall₂_at {A B : Type} {R : A → B → Prop} {l : List A} {m : List B} (h : List.Forall₂ R l m) {i : Nat} {b : B}
    (hb : m[i]? = some b) : ∃ a, l[i]? = some a ∧ R a b := by
  rw [List.getElem?_eq_some_iff] at hb
  obtain ⟨hi, rfl⟩ := hb
  have hl := h.length_eq
  exact ⟨l[i]'(by omega), List.getElem?_eq_getElem _, (List.forall₂_iff_get.1 h).2 i (by omega) hi⟩

theorem forall₂_set {A B : Type} {R : A → B → Prop} {l : List A} {m : List B} (h : List.Forall₂ R l m) {i : Nat} {a : A} {b : B}
    (ha : l[i]? = some a) (hR : R a b) : List.Forall₂ R l (m.set i b) := by
  refine List.forall₂_iff_get.2 ⟨by rw [List.length_set]; exact h.length_eq, fun k hk hk' => ?_⟩
  simp only [List.get_eq_getElem]
  rw [List.getElem_set]
  by_cases hik : i = k
  · subst hik
    rw [if_pos rfl]
    rw [List.getElem?_eq_getElem hk] at ha
    rw [Option.some.inj ha]; exact hR
  · rw [if_neg hik]
    exact (List.forall₂_iff_get.1 h).2 k hk (by rw [List.length_set] at hk'; exact hk')

/-- A loop that only reads. -/
theorem forN_read {τ : Type} {n : Nat} {t t' : τ} {bs bt : Nat → τ → Res τ}
    (hb : ∀ i, i < n → ∀ t t', bt i t = .ok t' → bs i t = .ok t') (h : forN n t bt = .ok t') : forN n t bs = .ok t' :=
  Ok.eq (forN_sim (fun a b => a = b) rfl (fun i hi s t t' hR he => by subst hR; exact ⟨_, hb i hi s t' he, rfl⟩) h)

end Steps

/-! ### Convolution -/

section Conv
variable {addr : Ptr → Nat}

/-- The convolution object has the value `l`; since `H0` only its members changed. -/
structure HConv.At (addr : Ptr → Nat) (H0 : Heap α) (h : HConv) (H : Heap α) (l : Conv α) : Prop where
  fits : h.Fits addr l
  held : H.Held h.objs l.bufs
  only : H0.Only H h.objs

variable {H0 H H' : Heap α} {h : HConv} {l : Conv α}

theorem HConv.at_W {i : Nat} {o : Obj} (e : h.Ws[i]? = some o) : h.objs[5 + i]? = some o := by
  unfold HConv.objs
  rw [List.getElem?_append_right (by simp)]
  have hi := (List.getElem?_eq_some_iff.1 e).1
  rw [List.getElem?_append_left (by simpa using hi)]
  simpa using e

theorem HConv.at_G {i : Nat} {o : Obj} (e : h.gradWs[i]? = some o) : h.objs[5 + (h.Ws.length + i)]? = some o := by
  unfold HConv.objs
  rw [List.getElem?_append_right (by simp), List.getElem?_append_right (by simp)]
  simpa using e

theorem Conv.at_W {i : Nat} {W : Ten α} (e : l.Ws[i]? = some W) : l.bufs[5 + i]? = some W.data := by
  unfold Conv.bufs
  rw [List.getElem?_append_right (by simp)]
  have hi := (List.getElem?_eq_some_iff.1 e).1
  rw [List.getElem?_append_left (by simpa using hi)]
  simp [e]

theorem Conv.at_G {i : Nat} {G : Ten α} (e : l.gradWs[i]? = some G) : l.bufs[5 + (l.Ws.length + i)]? = some G.data := by
  unfold Conv.bufs
  rw [List.getElem?_append_right (by simp), List.getElem?_append_right (by simp)]
  simp [e]

theorem Conv.set_W {i : Nat} {W : Ten α} (hi : i < l.Ws.length) :
    l.bufs.set (5 + i) W.data = ({ l with Ws := l.Ws.set i W } : Conv α).bufs := by
  unfold Conv.bufs
  rw [List.set_append, if_neg (by simp), List.set_append, if_pos (by simpa using hi)]
  simp [List.map_set]

theorem Conv.set_G {i : Nat} {G : Ten α} :
    l.bufs.set (5 + (l.Ws.length + i)) G.data = ({ l with gradWs := l.gradWs.set i G } : Conv α).bufs := by
  unfold Conv.bufs
  rw [List.set_append, if_neg (by simp), List.set_append, if_neg (by simp)]
  simp [List.map_set]

theorem HConv.At.lenW (h1 : HConv.At addr H0 h H l) : h.Ws.length = l.Ws.length := h1.fits.Ws.length_eq

theorem HConv.At.W (h1 : HConv.At addr H0 h H l) {i : Nat} {W : Ten α} (e : l.Ws[i]? = some W) :
    ∃ o, h.Ws[i]? = some o ∧ H.KeepsT o W := by
  obtain ⟨o, ho, hd⟩ := forall₂_at h1.fits.Ws e
  exact ⟨o, ho, hd.keeps (h1.held.at (HConv.at_W ho) (Conv.at_W e))⟩

theorem HConv.At.G (h1 : HConv.At addr H0 h H l) {i : Nat} {G : Ten α} (e : l.gradWs[i]? = some G) :
    ∃ o, h.gradWs[i]? = some o ∧ H.KeepsT o G := by
  obtain ⟨o, ho, hd⟩ := forall₂_at h1.fits.gradWs e
  exact ⟨o, ho, hd.keeps (h1.held.at (HConv.at_G ho) (by rw [h1.lenW]; exact Conv.at_G e))⟩

theorem HConv.At.buff (h1 : HConv.At addr H0 h H l) : H.KeepsT h.buff l.buff := h1.fits.buff.keeps (h1.held.at (i := 4) rfl rfl)
theorem HConv.At.delta (h1 : HConv.At addr H0 h H l) : H.KeepsT h.delta l.delta := h1.fits.delta.keeps (h1.held.at (i := 3) rfl rfl)
theorem HConv.At.value (h1 : HConv.At addr H0 h H l) : H.KeepsT h.value l.value := h1.fits.value.keeps (h1.held.at (i := 1) rfl rfl)
theorem HConv.At.B (h1 : HConv.At addr H0 h H l) : H.Keeps h.B l.B := h1.held.at (i := 0) rfl rfl
theorem HConv.At.gradB (h1 : HConv.At addr H0 h H l) : H.Keeps h.gradB l.gradB := h1.held.at (i := 2) rfl rfl

theorem HConv.At.setBuff (hs : AllApart h.objs) (h1 : HConv.At addr H0 h H l) {t : Ten α} (hd : t.d = l.buff.d ∧ t.h = l.buff.h ∧ t.w = l.buff.w)
    (h2 : H.Sets H' h.buff t.data) : HConv.At addr H0 h H' { l with buff := t } where
  fits := { h1.fits with buff := h1.fits.buff.of hd }
  held := h1.held.step hs (k := 4) rfl h2
  only := h1.only.trans (h2.only (k := 4) rfl)

theorem HConv.At.setDelta (hs : AllApart h.objs) (h1 : HConv.At addr H0 h H l) {t : Ten α}
    (hd : t.d = l.delta.d ∧ t.h = l.delta.h ∧ t.w = l.delta.w)
    (h2 : H.Sets H' h.delta t.data) : HConv.At addr H0 h H' { l with delta := t } where
  fits := { h1.fits with delta := h1.fits.delta.of hd }
  held := h1.held.step hs (k := 3) rfl h2
  only := h1.only.trans (h2.only (k := 3) rfl)

theorem HConv.At.setGradB (hs : AllApart h.objs) (h1 : HConv.At addr H0 h H l) {b : Buf α} (h2 : H.Sets H' h.gradB b) :
    HConv.At addr H0 h H' { l with gradB := b } where
  fits := { h1.fits with }
  held := h1.held.step hs (k := 2) rfl h2
  only := h1.only.trans (h2.only (k := 2) rfl)

theorem HConv.At.setG (hs : AllApart h.objs) (h1 : HConv.At addr H0 h H l) {f : Nat} {o : Obj} {G G' : Ten α} (ho : h.gradWs[f]? = some o)
    (eG : l.gradWs[f]? = some G) (hd : G'.d = G.d ∧ G'.h = G.h ∧ G'.w = G.w)
    (h2 : H.Sets H' o G'.data) : HConv.At addr H0 h H' { l with gradWs := l.gradWs.set f G' } where
  fits := by
    obtain ⟨o', ho', hd'⟩ := forall₂_at h1.fits.gradWs eG
    rw [ho] at ho'; cases ho'
    exact { h1.fits with gradWs := forall₂_set h1.fits.gradWs ho (hd'.of hd) }
  held := by
    have := h1.held.step hs (HConv.at_G ho) h2
    rw [h1.lenW, Conv.set_G] at this
    exact this
  only := h1.only.trans (h2.only (HConv.at_G ho))

/-! #### forward -/

theorem hconvAccum_read [Add α] [Mul α] {input W : Obj} {ti tW : Ten α} (hi : H.KeepsT input ti) (hW : H.KeepsT W tW) {fd i0 j0 i j : Nat}
    {s s' : α} (e : convAccum fd ti tW i0 j0 i j s = .ok s') : hconvAccum fd H input W i0 j0 i j s = .ok s' := by
  unfold convAccum at e
  unfold hconvAccum
  refine forN_read (fun c _ t t' he => ?_) e
  obtain ⟨a, ea, he⟩ := res_inv he
  obtain ⟨b, eb, he⟩ := res_inv he
  rw [hi.get ea, bind_ok, hW.get eb, bind_ok]
  exact he

theorem HConv.cell_read [Add α] [Mul α] (hf : h.FitsRaw l) {input W : Obj} {ti tW : Ten α} (hi : H.KeepsT input ti) (hW : H.KeepsT W tW)
    {b s : α} {y x : Nat} (e : l.cell ti tW b y x = .ok s) : h.cell H input W b y x = .ok s := by
  unfold Conv.cell at e
  unfold HConv.cell
  obtain ⟨-, e2, e3, -, -, -, e7, e8, e9⟩ := hf.ext
  obtain ⟨-, f2, f3, f4⟩ := hf.filt
  rw [e2, e3, e7, e8, e9, f2, f3, f4]
  refine forN_read (fun i _ t t' he => ?_) e
  refine forN_read (fun j _ t t' he => ?_) he
  dsimp only at he ⊢
  split
  · next hc => rw [if_pos hc] at he; exact he
  · next hc => rw [if_neg hc] at he; exact hconvAccum_read hi hW he

/-- The forward pass needs only the bias, the filters and the values. -/
theorem HConv.forward_core [Add α] [Mul α] {l' : Conv α} {x : Obj} {t : Ten α} (hf : h.FitsRaw l) (hB : H.Keeps h.B l.B)
    (hv : H.KeepsT h.value l.value) (hW : ∀ (i : Nat) (W : Ten α), l.Ws[i]? = some W → ∃ o, h.Ws[i]? = some o ∧ H.KeepsT o W ∧ Obj.Apart h.value o)
    (aB : Obj.Apart h.value h.B) (hx : H.KeepsT x t) (ha : Obj.Apart h.value x) (e : l.forward t = .ok l') :
    Ok (h.forward H x) (fun H' => l' = { l with value := l'.value } ∧ h.value.DimsT l'.value ∧ H.Sets H' h.value l'.value.data) := by
  unfold Conv.forward at e
  obtain ⟨v, e1, e⟩ := res_inv e
  cases e
  unfold HConv.forward
  obtain ⟨-, e2, e3, -, e5, e6, e7, e8, e9⟩ := hf.ext
  obtain ⟨f1, f2, f3, f4⟩ := hf.filt
  rw [f1, e5, e6]
  have hR := forN_sim (s := H) (bs := fun f H => forN l.oh H (fun y H => forN l.ow H (fun x' H => do
      let b ← h.B.get1 H f
      let W ← lget h.Ws f
      let sum ← h.cell H x W b y x'
      h.value.set3 H f y x' sum))) (fun (H1 : Heap α) (v : Ten α) => h.value.DimsT v ∧ H.Sets H1 h.value v.data)
    ⟨hf.value, hv.2.2.2, Heap.Only.refl _ _⟩ (fun f _ s t1 t1' hR he => ?_) e1
  · exact hR.mono (fun H' q => ⟨rfl, q.1, q.2⟩)
  refine forN_sim (fun (H1 : Heap α) (v : Ten α) => h.value.DimsT v ∧ H.Sets H1 h.value v.data) hR (fun y _ s t1 t1' hR he => ?_) he
  refine forN_sim (fun (H1 : Heap α) (v : Ten α) => h.value.DimsT v ∧ H.Sets H1 h.value v.data) hR (fun x' _ s t1 t1' hR he => ?_) he
  obtain ⟨b, eb, he⟩ := res_inv he
  obtain ⟨W, eW, he⟩ := res_inv he
  obtain ⟨sm, es, he⟩ := res_inv he
  obtain ⟨o, ho, hk, hap⟩ := hW f W (lget_ok eW)
  have hx1 : s.KeepsT x t := hx.frame hR.2.2 (fun w hw => by rw [List.mem_singleton.1 hw]; exact ha)
  have hW1 : s.KeepsT o W := hk.frame hR.2.2 (fun w hw => by rw [List.mem_singleton.1 hw]; exact hap)
  rw [(hB.frame1 hR.2 aB).get eb, bind_ok, lget_of ho, bind_ok, HConv.cell_read hf hx1 hW1 es, bind_ok]
  exact ((hR.1.keeps hR.2.1).set he).mono (fun H' q => ⟨hR.1.of (Ten.set_dims he), hR.2.trans q⟩)

theorem HConv.forward_sim [Add α] [Mul α] {l' : Conv α} {x : Obj} {t : Ten α} (hf : h.Fits addr l) (hm : H.Held h.objs l.bufs)
    (hs : AllApart h.objs) (hx : H.KeepsT x t) (ha : Obj.Apart h.value x) (e : l.forward t = .ok l') :
    Ok (h.forward H x) (fun H' => h.Fits addr l' ∧ H'.Held h.objs l'.bufs ∧ H.Only H' h.objs) := by
  have h1 : HConv.At addr H h H l := ⟨hf, hm, Heap.Only.refl _ _⟩
  refine (HConv.forward_core hf.toFitsRaw h1.B h1.value (fun i W eW => ?_) (hs.at (i := 1) (j := 0) rfl rfl (by decide)) hx ha e).mono
    (fun H' q => ?_)
  · obtain ⟨o, ho, hk⟩ := h1.W eW
    exact ⟨o, ho, hk, hs.at (i := 1) rfl (HConv.at_W ho) (by omega)⟩
  · obtain ⟨q1, q2, q3⟩ := q
    rw [q1]
    refine ⟨{ hf with value := q2 }, hm.step hs (k := 1) rfl q3, q3.only (k := 1) rfl⟩

theorem HConv.forwardRaw_sim [Add α] [Mul α] {l' : Conv α} {x : Obj} {t : Ten α} (hf : h.FitsRaw l) (hm : H.Held h.rawObjs l.rawBufs)
    (hs : AllApart h.rawObjs) (hx : H.KeepsT x t) (ha : Obj.Apart h.value x) (e : l.forward t = .ok l') :
    Ok (h.forward H x) (fun H' => h.FitsRaw l' ∧ H'.Held h.rawObjs l'.rawBufs ∧ H.Only H' h.rawObjs) := by
  refine (HConv.forward_core hf (hm.at (i := 0) rfl rfl) (hf.value.keeps (hm.at (i := 1) rfl rfl)) (fun i W eW => ?_)
    (hs.at (i := 1) (j := 0) rfl rfl (by decide)) hx ha e).mono (fun H' q => ?_)
  · obtain ⟨o, ho, hd⟩ := forall₂_at hf.Ws eW
    have e1 : h.rawObjs[2 + i]? = some o := by
      unfold HConv.rawObjs
      rw [List.getElem?_append_right (by simp)]; simpa using ho
    have e2 : l.rawBufs[2 + i]? = some W.data := by
      unfold Conv.rawBufs
      rw [List.getElem?_append_right (by simp)]; simp [eW]
    exact ⟨o, ho, hd.keeps (hm.at e1 e2), hs.at (i := 1) rfl e1 (by omega)⟩
  · obtain ⟨q1, q2, q3⟩ := q
    rw [q1]
    exact ⟨{ hf with value := q2 }, hm.step hs (k := 1) rfl q3, q3.only (k := 1) rfl⟩

/-! #### backward -/

theorem HConv.spread_sim (hs : AllApart h.objs) (h1 : HConv.At addr H0 h H l) {d : Obj} {td b : Ten α} (hd : H.KeepsT d td)
    (ad : Obj.Apart h.buff d) (e : l.spread td = .ok b) :
    Ok (h.spread H d) (fun H' => HConv.At addr H0 h H' { l with buff := b } ∧ H.Only H' [h.buff] ∧ b.d = l.buff.d ∧ b.h = l.buff.h ∧ b.w = l.buff.w) := by
  unfold Conv.spread at e
  unfold HConv.spread
  obtain ⟨-, -, -, -, e5, e6, -, e8, e9⟩ := h1.fits.ext
  rw [e5, e6, e8, e9, h1.buff.1]
  let R := fun (H1 : Heap α) (b : Ten α) => HConv.At addr H0 h H1 { l with buff := b } ∧ H.Only H1 [h.buff] ∧ b.d = l.buff.d ∧ b.h = l.buff.h ∧ b.w = l.buff.w
  refine forN_sim R ⟨h1, Heap.Only.refl _ _, rfl, rfl, rfl⟩ (fun c _ s t t' hR he => ?_) e
  refine forN_sim R hR (fun i _ s t t' hR he => ?_) he
  refine forN_sim R hR (fun j _ s t t' hR he => ?_) he
  obtain ⟨a, ea, he⟩ := res_inv he
  have hd1 : s.KeepsT d td := hd.frame hR.2.1 (fun w hw => by rw [List.mem_singleton.1 hw]; exact ad)
  rw [hd1.get ea, bind_ok]
  have hdim := Ten.set_dims he
  exact (hR.1.buff.set he).mono (fun H' q => ⟨hR.1.setBuff hs hdim q, hR.2.1.trans q.2, hdim.1.trans hR.2.2.1, hdim.2.1.trans hR.2.2.2.1,
    hdim.2.2.trans hR.2.2.2.2⟩)

theorem List.set_self' {β : Type} {l : List β} {i : Nat} {b : β} (e : l[i]? = some b) : l.set i b = l := by
  obtain ⟨hi, rfl⟩ := List.getElem?_eq_some_iff.1 e
  exact List.set_getElem_self hi

theorem hconvGradChan_sim [Add α] [Mul α] (hs : AllApart h.objs) {x : Obj} {tx : Ten α} (hx : H0.KeepsT x tx) (ax : ∀ o ∈ h.objs, Obj.Apart o x)
    {f : Nat} {o : Obj} (ho : h.gradWs[f]? = some o) {G G' : Ten α} (hf : f < l.gradWs.length)
    (h1 : HConv.At addr H0 h H { l with gradWs := l.gradWs.set f G }) {dv : α} {fd i0 j0 i j : Nat}
    (e : convGradChan fd tx dv i0 j0 i j G = .ok G') :
    Ok (hconvGradChan fd x dv i0 j0 i j o H) (fun H' => HConv.At addr H0 h H' { l with gradWs := l.gradWs.set f G' }) := by
  unfold convGradChan at e
  unfold hconvGradChan
  refine forN_sim (fun (H1 : Heap α) (G : Ten α) => HConv.At addr H0 h H1 { l with gradWs := l.gradWs.set f G }) h1
    (fun c _ s t t' hR he => ?_) e
  obtain ⟨g, eg, he⟩ := res_inv he
  obtain ⟨a, ea, he⟩ := res_inv he
  have eG : (l.gradWs.set f t)[f]? = some t := by rw [List.getElem?_set_self hf]
  obtain ⟨o', ho', hk⟩ := hR.G eG
  rw [ho] at ho'; cases ho'
  rw [hk.get eg, bind_ok, (hx.frame hR.only ax).get ea, bind_ok]
  refine (hk.set he).mono (fun H' q => ?_)
  have := hR.setG hs ho eG (Ten.set_dims he) q
  simpa only [List.set_set] using this

theorem HConv.gradCell_sim [Add α] [Mul α] (hs : AllApart h.objs) {x : Obj} {tx : Ten α} (hx : H0.KeepsT x tx) (ax : ∀ o ∈ h.objs, Obj.Apart o x)
    {f : Nat} {o : Obj} (ho : h.gradWs[f]? = some o) {G G' : Ten α} (hf : f < l.gradWs.length) {l1 : Conv α} (hl1 : h.FitsRaw l1)
    (h1 : HConv.At addr H0 h H { l with gradWs := l.gradWs.set f G }) {dv : α} {y x' : Nat}
    (e : l1.gradCell tx dv y x' G = .ok G') :
    Ok (h.gradCell x dv y x' o H) (fun H' => HConv.At addr H0 h H' { l with gradWs := l.gradWs.set f G' }) := by
  unfold Conv.gradCell at e
  unfold HConv.gradCell
  obtain ⟨-, e2, e3, -, -, -, e7, -, -⟩ := hl1.ext
  obtain ⟨-, f2, f3, f4⟩ := hl1.filt
  rw [e2, e3, e7, f2, f3, f4]
  refine forN_sim (fun (H1 : Heap α) (G : Ten α) => HConv.At addr H0 h H1 { l with gradWs := l.gradWs.set f G }) h1
    (fun i _ s t t' hR he => ?_) e
  refine forN_sim (fun (H1 : Heap α) (G : Ten α) => HConv.At addr H0 h H1 { l with gradWs := l.gradWs.set f G }) hR
    (fun j _ s t t' hR he => ?_) he
  dsimp only at he ⊢
  split
  · next hc => rw [if_pos hc] at he; cases he; exact Ok_ok.2 hR
  · next hc => rw [if_neg hc] at he; exact hconvGradChan_sim hs hx ax ho hf hR he

theorem HConv.grads_sim [Add α] [Mul α] (hs : AllApart h.objs) {x : Obj} {tx : Ten α} (hx : H0.KeepsT x tx) (ax : ∀ o ∈ h.objs, Obj.Apart o x)
    (h1 : HConv.At addr H0 h H l) {l1 : Conv α} (hl1 : h.FitsRaw l1) (eg : l1.gradWs = l.gradWs) (eb : l1.gradB = l.gradB)
    {r : List (Ten α) × Buf α} (e : l1.grads tx l.buff = .ok r) :
    Ok (h.grads H x) (fun H' => HConv.At addr H0 h H' { l with gradWs := r.1, gradB := r.2 }) := by
  unfold Conv.grads at e
  unfold HConv.grads
  rw [h1.buff.2.1, h1.buff.2.2.1, hl1.filt.1]
  rw [eg, eb] at e
  refine forN_sim (fun (H1 : Heap α) (s : List (Ten α) × Buf α) => HConv.At addr H0 h H1 { l with gradWs := s.1, gradB := s.2 }) h1
    (fun f _ s t t' hR he => ?_) e
  obtain ⟨G, eG, he⟩ := res_inv he
  obtain ⟨⟨G1, gB1⟩, e1, he⟩ := res_inv he
  dsimp only at he
  obtain ⟨Gs, e2, he⟩ := res_inv he
  cases he
  obtain ⟨hfl, rfl⟩ := lset_ok e2
  have eG' := lget_ok eG
  obtain ⟨o, ho, -⟩ := hR.G eG'
  rw [lget_of ho, bind_ok]
  let R := fun (H1 : Heap α) (s : Ten α × Buf α) => HConv.At addr H0 h H1 { l with gradWs := t.1.set f s.1, gradB := s.2 }
  have h0 : R s (G, t.2) := by
    show HConv.At addr H0 h s { l with gradWs := t.1.set f G, gradB := t.2 }
    rw [List.set_self' eG']; exact hR
  refine forN_sim (s := s) R h0 (fun y _ s u u' hR he => ?_) e1
  refine forN_sim R hR (fun x' _ s u u' hR he => ?_) he
  obtain ⟨dv, edv, he⟩ := res_inv he
  obtain ⟨G2, eG2, he⟩ := res_inv he
  obtain ⟨gb, egb, he⟩ := res_inv he
  obtain ⟨gB2, egB2, he⟩ := res_inv he
  cases he
  have hb : s.KeepsT h.buff l.buff := hR.buff
  rw [hb.get edv, bind_ok]
  refine (HConv.gradCell_sim (l := { l with gradWs := t.1, gradB := u.2 }) hs hx ax ho hfl hl1 hR eG2).bind (fun H2 h2 => ?_)
  have hk : H2.Keeps h.gradB u.2 := h2.gradB
  rw [hk.get egb, bind_ok]
  refine (hk.set egB2).mono (fun H3 h3 => ?_)
  exact h2.setGradB hs h3

theorem HConv.deltaCell_read [Zero α] [Add α] [Mul α] (h1 : HConv.At addr H0 h H l) {l1 : Conv α} (hl1 : h.FitsRaw l1) (eW : l1.Ws = l.Ws)
    {c y x : Nat} {s : α} (e : l1.deltaCell l.buff c y x = .ok s) : h.deltaCell H c y x = .ok s := by
  unfold Conv.deltaCell at e
  unfold HConv.deltaCell
  obtain ⟨-, -, -, -, -, -, e7, -, -⟩ := hl1.ext
  obtain ⟨f1, f2, f3, f4⟩ := hl1.filt
  rw [e7, f3, f4, h1.buff.2.1, h1.buff.2.2.1]
  refine forN_read (fun i _ t t' he => ?_) e
  refine forN_read (fun j _ t t' he => ?_) he
  dsimp only at he ⊢
  split
  · next hc => rw [if_pos hc] at he; exact he
  · next hc =>
    rw [if_neg hc] at he
    unfold Conv.deltaFilters at he
    unfold HConv.deltaFilters
    rw [f1, f3, f4]
    refine forN_read (fun f _ t t' he => ?_) he
    obtain ⟨W, eW', he⟩ := res_inv he
    obtain ⟨w, ew, he⟩ := res_inv he
    obtain ⟨b, eb, he⟩ := res_inv he
    rw [eW] at eW'
    obtain ⟨o, ho, hk⟩ := h1.W (lget_ok eW')
    rw [lget_of ho, bind_ok, hk.get ew, bind_ok, h1.buff.get eb, bind_ok]
    exact he

theorem HConv.deltas_sim [Zero α] [Add α] [Mul α] (hs : AllApart h.objs) (h1 : HConv.At addr H0 h H l) {l1 : Conv α} (hl1 : h.FitsRaw l1)
    (eW : l1.Ws = l.Ws) (ed : l1.delta = l.delta) {D : Ten α} (e : l1.deltas l.buff = .ok D) :
    Ok (h.deltas H) (fun H' => HConv.At addr H0 h H' { l with delta := D }) := by
  unfold Conv.deltas at e
  unfold HConv.deltas
  obtain ⟨-, e2, e3, -⟩ := hl1.ext
  rw [e2, e3, hl1.filt.2.1]
  rw [ed] at e
  let R := fun (H1 : Heap α) (D : Ten α) => HConv.At addr H0 h H1 { l with delta := D }
  refine forN_sim R h1 (fun y _ s t t' hR he => ?_) e
  refine forN_sim R hR (fun x _ s t t' hR he => ?_) he
  refine forN_sim R hR (fun c _ s t t' hR he => ?_) he
  obtain ⟨sm, es, he⟩ := res_inv he
  rw [HConv.deltaCell_read hR hl1 eW es, bind_ok]
  exact (hR.delta.set he).mono (fun H' q => HConv.At.setDelta hs hR (Ten.set_dims he) q)

theorem HConv.backward_sim [Zero α] [Add α] [Mul α] {l' : Conv α} {x d : Obj} {t td : Ten α} {full : Bool} (hf : h.Fits addr l)
    (hm : H.Held h.objs l.bufs) (hs : AllApart h.objs) (hx : H.KeepsT x t) (hd : H.KeepsT d td) (ha : ∀ o ∈ h.objs, Obj.Apart o x)
    (hb : ∀ o ∈ h.objs, Obj.Apart o d) (e : l.backward t td full = .ok l') :
    Ok (h.backward H x d full) (fun H' => h.Fits addr l' ∧ H'.Held h.objs l'.bufs ∧ H.Only H' h.objs) := by
  unfold Conv.backward at e
  obtain ⟨b, e1, e⟩ := res_inv e
  obtain ⟨⟨Gs, gB⟩, e2, e⟩ := res_inv e
  obtain ⟨D, e3, e⟩ := res_inv e
  cases e
  unfold HConv.backward
  have h0 : HConv.At addr H h H l := ⟨hf, hm, Heap.Only.refl _ _⟩
  refine (HConv.spread_sim hs h0 hd (hb _ (List.mem_of_getElem? (i := 4) rfl)) e1).bind (fun H1 h1 => ?_)
  refine (HConv.grads_sim (l := { l with buff := b }) hs hx ha h1.1 hf.toFitsRaw rfl rfl e2).bind (fun H2 h2 => ?_)
  refine (HConv.deltas_sim hs h2 hf.toFitsRaw rfl rfl e3).mono (fun H3 h3 => ⟨h3.fits, h3.held, h3.only⟩)

/-! #### update -/

theorem HConv.update_sim [Mul α] {hu : HUpd σ α} {u : Upd σ α} (hfo : HUpd.Follows addr hu u) {l' : Conv α}
    {s s' : σ} {alpha : α} (hf : h.Fits addr l) (hm : H.Held h.objs l.bufs) (hs : AllApart h.objs)
    (e : l.update u s alpha = .ok (s', l')) :
    Ok (h.update hu H s alpha) (fun r => r.2 = s' ∧ h.Fits addr l' ∧ r.1.Held h.objs l'.bufs ∧ H.Only r.1 h.objs) := by
  unfold Conv.update at e
  obtain ⟨Gs, e1, e⟩ := res_inv e
  obtain ⟨gB, e2, e⟩ := res_inv e
  obtain ⟨⟨sx, Ws, Gs1⟩, e3, e⟩ := res_inv e
  dsimp only at e
  obtain ⟨⟨s2, B, gB1⟩, e4, e⟩ := res_inv e
  cases e
  unfold HConv.update
  have h0 : HConv.At addr H h H l := ⟨hf, hm, Heap.Only.refl _ _⟩
  have hlen : h.gradWs.length = l.gradWs.length := hf.gradWs.length_eq
  have s1 : Ok (hconvScale alpha H h.gradWs) (fun H' => HConv.At addr H h H' { l with gradWs := Gs }) := by
    unfold convScale at e1
    unfold hconvScale
    rw [hlen]
    refine forN_sim (fun (H1 : Heap α) (Gs : List (Ten α)) => HConv.At addr H h H1 { l with gradWs := Gs }) h0
      (fun f _ s t t' hR he => ?_) e1
    obtain ⟨G, eG, he⟩ := res_inv he
    obtain ⟨G1, eG1, he⟩ := res_inv he
    unfold Ten.onData at eG1
    obtain ⟨dd, ed, eG1⟩ := res_inv eG1
    cases eG1
    obtain ⟨-, rfl⟩ := lset_ok he
    obtain ⟨o, ho, hk⟩ := hR.G (lget_ok eG)
    rw [lget_of ho, bind_ok]
    exact (join_sim hk.2.2.2 ed).mono (fun H' q => HConv.At.setG (G' := { G with data := dd }) hs hR ho (lget_ok eG) ⟨rfl, rfl, rfl⟩ q)
  refine s1.bind (fun H1 h1 => ?_)
  refine (join_sim h1.gradB e2).bind (fun H2 h2 => ?_)
  have h2' := h1.setGradB hs h2
  have s3 : Ok (hconvUpdW hu h.Ws.length H2 s h.Ws h.gradWs)
      (fun r => r.2 = sx ∧ HConv.At addr H h r.1 { l with Ws := Ws, gradWs := Gs1, gradB := gB }) := by
    unfold convUpdW at e3
    unfold hconvUpdW
    rw [h0.lenW]
    refine forN_sim (fun (a : Heap α × σ) (b : σ × List (Ten α) × List (Ten α)) => a.2 = b.1 ∧
      HConv.At addr H h a.1 { l with Ws := b.2.1, gradWs := b.2.2, gradB := gB }) ⟨rfl, h2'⟩ (fun f _ a t t' hR he => ?_) e3
    obtain ⟨W, eW, he⟩ := res_inv he
    obtain ⟨G, eG, he⟩ := res_inv he
    obtain ⟨⟨sa, w, g⟩, eu, he⟩ := res_inv he
    dsimp only at he
    obtain ⟨Wsa, ea, he⟩ := res_inv he
    obtain ⟨Gsa, eb, he⟩ := res_inv he
    cases he
    obtain ⟨hWl, rfl⟩ := lset_ok ea
    obtain ⟨hGl, rfl⟩ := lset_ok eb
    obtain ⟨ra, hRa⟩ := hR
    obtain ⟨o, ho, hk⟩ := hRa.W (lget_ok eW)
    obtain ⟨q, hq, hkq⟩ := hRa.G (lget_ok eG)
    rw [lget_of ho, bind_ok, lget_of hq, bind_ok, ra]
    have hlt := (List.getElem?_eq_some_iff.1 ho).1
    have hne : 5 + f ≠ 5 + (h.Ws.length + f) := by omega
    rw [hRa.fits.keyW f o ho] at eu
    refine (hfo _ _ _ _ _ _ _ _ _ hk.2.2.2 hkq.2.2.2 (hs.at (HConv.at_W ho) (HConv.at_G hq) hne) eu).mono (fun r hr => ?_)
    obtain ⟨r1, r2, r3, r4⟩ := hr
    refine ⟨r1, ?_, ?_, ?_⟩
    · obtain ⟨o', ho', hd'⟩ := forall₂_at hRa.fits.Ws (lget_ok eW)
      obtain ⟨q', hq', hdq⟩ := forall₂_at hRa.fits.gradWs (lget_ok eG)
      rw [ho] at ho'; cases ho'
      rw [hq] at hq'; cases hq'
      exact { hRa.fits with
        Ws := forall₂_set hRa.fits.Ws ho (hd'.of ⟨rfl, rfl, rfl⟩), gradWs := forall₂_set hRa.fits.gradWs hq (hdq.of ⟨rfl, rfl, rfl⟩) }
    · have := hRa.held.step2 hs (HConv.at_W ho) (HConv.at_G hq) hne r2 r3 r4
      rw [hRa.lenW] at this
      have e5 := Conv.set_W (l := { l with Ws := t.2.1, gradWs := t.2.2, gradB := gB }) (i := f) (W := { W with data := w }) hWl
      dsimp only at e5 this ⊢
      rw [e5] at this
      have e6 := Conv.set_G (l := { l with Ws := t.2.1.set f { W with data := w }, gradWs := t.2.2, gradB := gB }) (i := f)
        (G := { G with data := g })
      dsimp only at e6
      rw [List.length_set] at e6
      rw [e6] at this
      exact this
    · exact hRa.only.trans (r4.of2 (HConv.at_W ho) (HConv.at_G hq))
  refine s3.bind (fun ⟨H3, t3⟩ h3 => ?_)
  dsimp only at h3 ⊢
  obtain ⟨rfl, h3⟩ := h3
  rw [hf.keyB] at e4
  have kB : H3.Keeps h.B l.B := h3.B
  refine (hfo _ _ _ _ _ _ _ _ _ kB h3.gradB (hs.at (i := 0) (j := 2) rfl rfl (by decide)) e4).mono (fun r hr => ?_)
  obtain ⟨r1, r2, r3, r4⟩ := hr
  exact ⟨r1, { h3.fits with }, h3.held.step2 hs (i := 0) (j := 2) rfl rfl (by decide) r2 r3 r4, h3.only.trans (r4.of2 (i := 0) (j := 2) rfl rfl)⟩

end Conv

/-! ### Pooling -/

section Pool
variable {H0 H H' : Heap α} {h : HPool α} {l : Pool α}

/-- The pooling object has the value `l`; since `H0` only its members changed. -/
structure HPool.At (H0 : Heap α) (h : HPool α) (H : Heap α) (l : Pool α) : Prop where
  fits : h.Fits l
  held : H.Held h.objs l.bufs
  only : H0.Only H h.objs

theorem HPool.At.value (h1 : HPool.At H0 h H l) : H.KeepsT h.value l.value := h1.fits.value.keeps (h1.held.at (i := 0) rfl rfl)
theorem HPool.At.buff (h1 : HPool.At H0 h H l) : H.KeepsT h.buff l.buff := h1.fits.buff.keeps (h1.held.at (i := 1) rfl rfl)
theorem HPool.At.mask (h1 : HPool.At H0 h H l) : H.KeepsT h.mask l.mask := h1.fits.mask.keeps (h1.held.at (i := 2) rfl rfl)
theorem HPool.At.delta (h1 : HPool.At H0 h H l) : H.KeepsT h.delta l.delta := h1.fits.delta.keeps (h1.held.at (i := 3) rfl rfl)

theorem HPool.At.setValue (hs : AllApart h.objs) (h1 : HPool.At H0 h H l) {t : Ten α} (hd : t.d = l.value.d ∧ t.h = l.value.h ∧ t.w = l.value.w)
    (h2 : H.Sets H' h.value t.data) : HPool.At H0 h H' { l with value := t } where
  fits := { h1.fits with value := h1.fits.value.of hd }
  held := h1.held.step hs (k := 0) rfl h2
  only := h1.only.trans (h2.only (k := 0) rfl)

theorem HPool.At.setBuff (hs : AllApart h.objs) (h1 : HPool.At H0 h H l) {t : Ten α} (hd : t.d = l.buff.d ∧ t.h = l.buff.h ∧ t.w = l.buff.w)
    (h2 : H.Sets H' h.buff t.data) : HPool.At H0 h H' { l with buff := t } where
  fits := { h1.fits with buff := h1.fits.buff.of hd }
  held := h1.held.step hs (k := 1) rfl h2
  only := h1.only.trans (h2.only (k := 1) rfl)

theorem HPool.At.setMask (hs : AllApart h.objs) (h1 : HPool.At H0 h H l) {t : Ten α} (hd : t.d = l.mask.d ∧ t.h = l.mask.h ∧ t.w = l.mask.w)
    (h2 : H.Sets H' h.mask t.data) : HPool.At H0 h H' { l with mask := t } where
  fits := { h1.fits with mask := h1.fits.mask.of hd }
  held := h1.held.step hs (k := 2) rfl h2
  only := h1.only.trans (h2.only (k := 2) rfl)

theorem HPool.At.setDelta (hs : AllApart h.objs) (h1 : HPool.At H0 h H l) {t : Ten α} (hd : t.d = l.delta.d ∧ t.h = l.delta.h ∧ t.w = l.delta.w)
    (h2 : H.Sets H' h.delta t.data) : HPool.At H0 h H' { l with delta := t } where
  fits := { h1.fits with delta := h1.fits.delta.of hd }
  held := h1.held.step hs (k := 3) rfl h2
  only := h1.only.trans (h2.only (k := 3) rfl)

/-- What the forward pass may write before it has read its input: mask and value. -/
theorem HPool.forward_sim [Zero α] [_root_.One α] [LT α] [DecidableLT α] {l' : Pool α} {x : Obj} {t : Ten α} (hf : h.Fits l)
    (hm : H.Held h.objs l.bufs) (hs : AllApart h.objs) (hx : H.KeepsT x t) (am : Obj.Apart h.mask x) (av : Obj.Apart h.value x)
    (e : l.forward t = .ok l') :
    Ok (h.forward H x) (fun H' => h.Fits l' ∧ H'.Held h.objs l'.bufs ∧ H.Only H' h.objs) := by
  have hw : ∀ {H1 : Heap α}, H.Only H1 [h.mask, h.value] → H1.KeepsT x t := fun ho => hx.frame ho (fun w hw => by
    rcases List.mem_cons.1 hw with rfl | hw
    · exact am
    · rw [List.mem_singleton.1 hw]; exact av)
  unfold Pool.forward at e
  obtain ⟨m0, e1, e⟩ := res_inv e
  unfold Ten.onData at e1
  obtain ⟨b0, e0, e1⟩ := res_inv e1
  cases e1
  obtain ⟨⟨v, mk⟩, e2, e⟩ := res_inv e
  dsimp only at e
  obtain ⟨r, e3, e⟩ := res_inv e
  cases e
  unfold HPool.forward
  have h0 : HPool.At H h H l := ⟨hf, hm, Heap.Only.refl _ _⟩
  refine (fillObj_sim h0.mask.2.2.2 e0).bind (fun H1 h1 => ?_)
  have h1' := HPool.At.setMask (t := { l.mask with data := b0 }) hs h0 ⟨rfl, rfl, rfl⟩ h1
  have s2 : Ok (h.scanAll H1 x) (fun H' => HPool.At H h H' { l with value := v, mask := mk } ∧ H.Only H' [h.mask, h.value]) := by
    unfold Pool.scanAll at e2
    unfold HPool.scanAll
    obtain ⟨x1, x2, x3, -, -, -, x7, x8⟩ := hf.ext
    rw [x1, x2, x3, x7, x8]
    let R := fun (H1 : Heap α) (s : Ten α × Ten α) => HPool.At H h H1 { l with value := s.1, mask := s.2 } ∧ H.Only H1 [h.mask, h.value]
    refine forN_sim R ⟨h1', h1.2.mono (fun w hw => List.mem_cons.2 (Or.inl (List.mem_singleton.1 hw)))⟩
      (fun d _ s u u' hR he => ?_) e2
    refine forN_sim R hR (fun p _ s u u' hR he => ?_) he
    refine forN_sim R hR (fun q _ s u u' hR he => ?_) he
    obtain ⟨rs, e4, he⟩ := res_inv he
    obtain ⟨v1, e5, he⟩ := res_inv he
    obtain ⟨mk1, e6, he⟩ := res_inv he
    cases he
    have s4 : Ok (hpoolScanT s x h.mask l.sv l.sh d (p * l.sv) (q * l.sh))
        (fun r => R r.heap (u.1, rs.mask) ∧ r.max = rs.max ∧ r.imax = rs.imax ∧ r.jmax = rs.jmax) := by
      unfold poolScanT at e4
      unfold hpoolScanT
      obtain ⟨m, em, e4⟩ := res_inv e4
      rw [(hw hR.2).get em, bind_ok]
      let R2 := fun (a : HScan α) (b : Scan α) => R a.heap (u.1, b.mask) ∧ a.max = b.max ∧ a.imax = b.imax ∧ a.jmax = b.jmax
      refine forN_sim R2 ⟨hR, rfl, rfl, rfl⟩ (fun i _ a b b' hR2 he2 => ?_) e4
      refine forN_sim R2 hR2 (fun j _ a b b' hR2 he2 => ?_) he2
      obtain ⟨vv, ev, he2⟩ := res_inv he2
      obtain ⟨mm, em2, he2⟩ := res_inv he2
      cases he2
      rw [(hw hR2.1.2).get ev, bind_ok]
      refine (hR2.1.1.mask.set em2).bind (fun H5 h5 => Ok_ok.2 ?_)
      have k5 : R H5 (u.1, mm) := ⟨hR2.1.1.setMask hs (Ten.set_dims em2) h5,
        hR2.1.2.trans (h5.2.mono (fun w hw => List.mem_cons.2 (Or.inl (List.mem_singleton.1 hw))))⟩
      unfold HScan.better Scan.better
      rw [hR2.2.1]
      split
      · exact ⟨k5, rfl, rfl, rfl⟩
      · exact ⟨k5, rfl, hR2.2.2⟩
    refine s4.bind (fun r hr => ?_)
    obtain ⟨hr, r1, r2, r3⟩ := hr
    rw [r1, r2, r3]
    refine (hr.1.value.set e5).bind (fun H6 h6 => ?_)
    have k6 := hr.1.setValue hs (Ten.set_dims e5) h6
    refine (k6.mask.set e6).mono (fun H7 h7 => ⟨k6.setMask hs (Ten.set_dims e6) h7, ?_⟩)
    refine (hr.2.trans (h6.2.mono (fun w hw => ?_))).trans (h7.2.mono (fun w hw => ?_))
    · exact List.mem_cons.2 (Or.inr hw)
    · exact List.mem_cons.2 (Or.inl (List.mem_singleton.1 hw))
  refine s2.bind (fun H2 h2 => ?_)
  have kb : H2.KeepsT h.buff l.buff := h2.1.buff
  refine (hf.act.f _ _ _ _ _ _ h2.1.value.2.2.2 kb.2.2.2 (hs.at (i := 0) (j := 1) rfl rfl (by decide)) e3).mono (fun H3 h3 => ?_)
  have := HPool.At.setValue (t := { v with data := r }) hs h2.1 ⟨rfl, rfl, rfl⟩ h3
  exact ⟨this.fits, this.held, this.only⟩

theorem HPool.forwardRaw_sim [LT α] [DecidableLT α] {l' : Pool α} {x : Obj} {t : Ten α} (hf : h.FitsRaw l)
    (hm : H.Held h.rawObjs l.rawBufs) (hx : H.KeepsT x t) (av : Obj.Apart h.value x) (e : l.forwardRaw t = .ok l') :
    Ok (h.forwardRaw H x) (fun H' => h.FitsRaw l' ∧ H'.Held h.rawObjs l'.rawBufs ∧ H.Only H' h.rawObjs) := by
  unfold Pool.forwardRaw at e
  obtain ⟨v, e2, e⟩ := res_inv e
  obtain ⟨r, e3, e⟩ := res_inv e
  cases e
  unfold HPool.forwardRaw
  let R := fun (H1 : Heap α) (v : Ten α) => h.value.DimsT v ∧ H.Sets H1 h.value v.data
  obtain ⟨x1, x2, x3, -, -, -, x7, x8⟩ := hf.ext
  rw [x1, x2, x3, x7, x8]
  refine Ok.bind (P := fun H1 => R H1 v) (forN_sim R ⟨hf.value, hm.at (i := 0) rfl rfl, Heap.Only.refl _ _⟩ (fun d _ s u u' hR he => ?_) e2)
    (fun H1 h1 => ?_)
  · refine forN_sim R hR (fun p _ s u u' hR he => ?_) he
    refine forN_sim R hR (fun q _ s u u' hR he => ?_) he
    obtain ⟨m, em, he⟩ := res_inv he
    have hx1 : s.KeepsT x t := hx.frame hR.2.2 (fun w hw => by rw [List.mem_singleton.1 hw]; exact av)
    have e5 : hpoolScan s x l.sv l.sh d (p * l.sv) (q * l.sh) = .ok m := by
      unfold poolScan at em
      unfold hpoolScan
      obtain ⟨m0, em0, em⟩ := res_inv em
      rw [hx1.get em0, bind_ok]
      refine forN_read (fun i _ t1 t1' he => ?_) em
      refine forN_read (fun j _ t1 t1' he => ?_) he
      obtain ⟨vv, ev, he⟩ := res_inv he
      rw [hx1.get ev, bind_ok]
      exact he
    rw [e5, bind_ok]
    exact ((hR.1.keeps hR.2.1).set he).mono (fun H' q => ⟨hR.1.of (Ten.set_dims he), hR.2.trans q⟩)
  · refine (hf.act.fSelf _ _ _ _ h1.2.1 e3).mono (fun H3 h3 => ?_)
    refine ⟨{ hf with value := h1.1.of ⟨rfl, rfl, rfl⟩ }, .cons h3.1 .nil, h1.2.2.trans h3.2⟩

theorem HPool.backward_sim [Mul α] {l' : Pool α} {x d : Obj} {t td : Ten α} {full : Bool} (hf : h.Fits l)
    (hm : H.Held h.objs l.bufs) (hs : AllApart h.objs) (hd : H.KeepsT d td)
    (hb : ∀ o ∈ h.objs, Obj.Apart o d) (e : l.backward t td full = .ok l') :
    Ok (h.backward H x d full) (fun H' => h.Fits l' ∧ H'.Held h.objs l'.bufs ∧ H.Only H' h.objs) := by
  unfold Pool.backward at e
  obtain ⟨b1, e1, e⟩ := res_inv e
  obtain ⟨b2, e2, e⟩ := res_inv e
  dsimp only at e
  obtain ⟨D, e3, e⟩ := res_inv e
  cases e
  unfold HPool.backward
  have h0 : HPool.At H h H l := ⟨hf, hm, Heap.Only.refl _ _⟩
  refine (hf.act.dfSelf _ _ _ _ h0.buff.2.2.2 e1).bind (fun H1 h1 => ?_)
  have k1 := HPool.At.setBuff (t := { l.buff with data := b1 }) hs h0 ⟨rfl, rfl, rfl⟩ h1
  have hbm := hb _ (List.mem_of_getElem? (i := 1) (l := h.objs) rfl)
  refine (assignPtr_sim k1.buff.2.2.2 (hd.2.2.2.frame1 h1 hbm) hbm e2).bind (fun H2 h2 => ?_)
  have k2 := HPool.At.setBuff (t := { l.buff with data := b2 }) hs k1 ⟨rfl, rfl, rfl⟩ h2
  let R := fun (H1 : Heap α) (D : Ten α) => HPool.At H h H1 { l with buff := { l.buff with data := b2 }, delta := D }
  obtain ⟨x1, x2, x3, -, -, -, x7, x8⟩ := hf.ext
  rw [x1, x2, x3, x7, x8]
  refine Ok.mono (P := fun H1 => R H1 D) ?_ (fun H3 h3 => ⟨h3.fits, h3.held, h3.only⟩)
  refine forN_sim R k2 (fun c _ s u u' hR he => ?_) e3
  refine forN_sim R hR (fun i _ s u u' hR he => ?_) he
  refine forN_sim R hR (fun j _ s u u' hR he => ?_) he
  obtain ⟨a, ea, he⟩ := res_inv he
  obtain ⟨m, em, he⟩ := res_inv he
  have kb : s.KeepsT h.buff { l.buff with data := b2 } := hR.buff
  have km : s.KeepsT h.mask l.mask := hR.mask
  rw [kb.get ea, bind_ok, km.get em, bind_ok]
  exact (hR.delta.set he).mono (fun H' q => HPool.At.setDelta hs hR (Ten.set_dims he) q)

end Pool

end Trixy
