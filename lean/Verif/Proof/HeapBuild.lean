import Verif.Spec.HeapBuild
import Verif.Proof.HeapTrain
import Verif.Proof.TensorMem
/- Construction of layers, networks and training objects in the free store. -/
namespace Trixy
set_option linter.unusedSectionVars false

variable {α σ : Type}

/-! ### Growing the free store -/

theorem Heap.Extends.refl (H : Heap α) : H.Extends H := ⟨Nat.le_refl _, fun _ _ => ⟨Iff.rfl, fun _ => rfl⟩⟩

theorem Heap.Extends.trans {H0 H1 H2 : Heap α} (h1 : H0.Extends H1) (h2 : H1.Extends H2) : H0.Extends H2 :=
  ⟨Nat.le_trans h1.1 h2.1, fun b hb => ⟨((h2.2 b (Nat.lt_of_lt_of_le hb h1.1)).1).trans (h1.2 b hb).1,
    fun o => ((h2.2 b (Nat.lt_of_lt_of_le hb h1.1)).2 o).trans ((h1.2 b hb).2 o)⟩⟩

/-- From `H` to `H'` the objects were allocated, and they hold the contents. -/
structure Grew (H H' : Heap α) (ps : List (Obj × Buf α)) : Prop where
  ext : H.Extends H'
  fresh : ∀ p ∈ ps, ∃ b, p.1.data = .at b 0 ∧ H.next ≤ b ∧ b < H'.next
  sep : ps.Pairwise (fun p q => p.1.data ≠ q.1.data)
  held : ∀ p ∈ ps, H'.Keeps p.1 p.2
  live : ∀ b, H'.live b ↔ H.live b ∨ ∃ p ∈ ps, p.1.data = .at b 0

theorem Grew.nil (H : Heap α) : Grew H H [] :=
  ⟨Heap.Extends.refl H, fun _ h => absurd h (List.not_mem_nil), .nil, fun _ h => absurd h (List.not_mem_nil),
    fun _ => ⟨Or.inl, fun h => h.elim id (fun ⟨_, h, _⟩ => absurd h (List.not_mem_nil))⟩⟩

theorem Heap.Keeps.extends {H H' : Heap α} {o : Obj} {b : Buf α} {k : Nat} {j : Nat} (h : H.Keeps o b) (he : H.Extends H') (ho : o.data = .at k j)
    (hk : k < H.next) : H'.Keeps o b := by
  refine ⟨h.1, ?_⟩
  rcases h.2 with h0 | ⟨pb, po, hp, hc⟩
  · exact Or.inl h0
  · refine Or.inr ⟨pb, po, hp, fun i hi => ?_⟩
    rw [ho] at hp
    cases hp
    rw [(he.2 _ hk).2]; exact hc i hi

theorem apart_blk {a b : Obj} {p q i j : Nat} (ha : a.data = .at p i) (hb : b.data = .at q j) (h : p ≠ q) : Obj.Apart a b := by
  intro pb po qb qo _ _ h1 h2 _ _ e
  rw [ha] at h1; rw [hb] at h2
  cases h1; cases h2
  exact h e.1

theorem Grew.append {H0 H1 H2 : Heap α} {ps qs : List (Obj × Buf α)} (h1 : Grew H0 H1 ps) (h2 : Grew H1 H2 qs) : Grew H0 H2 (ps ++ qs) := by
  refine ⟨h1.ext.trans h2.ext, fun p hp => ?_, List.pairwise_append.2 ⟨h1.sep, h2.sep, fun p hp q hq => ?_⟩, fun p hp => ?_, fun b => ?_⟩
  · rcases List.mem_append.1 hp with hp | hp
    · obtain ⟨b, e1, e2, e3⟩ := h1.fresh p hp
      exact ⟨b, e1, e2, Nat.lt_of_lt_of_le e3 h2.ext.1⟩
    · obtain ⟨b, e1, e2, e3⟩ := h2.fresh p hp
      exact ⟨b, e1, Nat.le_trans h1.ext.1 e2, e3⟩
  · obtain ⟨b, e1, e2, e3⟩ := h1.fresh p hp
    obtain ⟨c, f1, f2, f3⟩ := h2.fresh q hq
    rw [e1, f1]; intro hc; cases hc; omega
  · rcases List.mem_append.1 hp with hp | hp
    · obtain ⟨b, e1, e2, e3⟩ := h1.fresh p hp
      exact (h1.held p hp).extends h2.ext e1 e3
    · exact h2.held p hp
  · rw [h2.live, h1.live]
    constructor
    · rintro ((h | ⟨p, hp, e⟩) | ⟨p, hp, e⟩)
      · exact Or.inl h
      · exact Or.inr ⟨p, List.mem_append_left _ hp, e⟩
      · exact Or.inr ⟨p, List.mem_append_right _ hp, e⟩
    · rintro (h | ⟨p, hp, e⟩)
      · exact Or.inl (Or.inl h)
      · rcases List.mem_append.1 hp with hp | hp
        · exact Or.inl (Or.inr ⟨p, hp, e⟩)
        · exact Or.inr ⟨p, hp, e⟩

theorem Grew.perm {H H' : Heap α} {ps qs : List (Obj × Buf α)} (h : Grew H H' ps) (hp : ps.Perm qs) : Grew H H' qs :=
  ⟨h.ext, fun p hq => h.fresh p (hp.mem_iff.2 hq), (hp.pairwise_iff (fun h => Ne.symm h)).1 h.sep, fun p hq => h.held p (hp.mem_iff.2 hq),
    fun b => (h.live b).trans (or_congr Iff.rfl ⟨fun ⟨p, q, e⟩ => ⟨p, hp.mem_iff.1 q, e⟩, fun ⟨p, q, e⟩ => ⟨p, hp.mem_iff.2 q, e⟩⟩)⟩

theorem Grew.holds {H H' : Heap α} {ps : List (Obj × Buf α)} (h : Grew H H' ps) {os : List Obj} {bs : List (Buf α)}
    (e1 : ps.map Prod.fst = os) (e2 : ps.map Prod.snd = bs) : H'.Held os bs ∧ AllApart os ∧ H.Fresh H' os := by
  subst e1 e2
  refine ⟨?_, List.pairwise_map.2 (h.sep.imp_of_mem (fun {p q} hp hq hne => ?_)), fun o ho => ?_⟩
  · unfold Heap.Held
    rw [List.forall₂_map_left_iff, List.forall₂_map_right_iff]
    exact List.forall₂_same.2 (fun p hp => h.held p hp)
  · obtain ⟨b, e1, -⟩ := h.fresh p hp
    obtain ⟨c, f1, -⟩ := h.fresh q hq
    exact apart_blk e1 f1 (fun hc => hne (by rw [e1, f1, hc]))
  · obtain ⟨p, hp, rfl⟩ := List.mem_map.1 ho
    exact h.fresh p hp

theorem Grew.new (H : Heap α) {o : Obj} {H' : Heap α} {b : Buf α} (hd : o.data = .at H.next 0) (hn : H'.next = H.next + 1)
    (hl : ∀ k, H'.live k ↔ k = H.next ∨ H.live k) (hc : ∀ k, k ≠ H.next → ∀ j, H'.cellAt k j = H.cellAt k j) (hk : H'.Keeps o b) :
    Grew H H' [(o, b)] := by
  refine ⟨⟨by omega, fun k hk => ⟨(hl k).trans ⟨fun h => h.resolve_left (by omega), Or.inr⟩, hc k (by omega)⟩⟩, fun p hp => ?_,
    List.pairwise_singleton _ _, fun p hp => ?_, fun k => (hl k).trans ⟨fun h => h.elim (fun h => Or.inr ⟨_, List.mem_singleton.2 rfl, by rw [h]; exact hd⟩) Or.inl, fun h => h.elim Or.inr (fun ⟨p, hp, e⟩ => Or.inl ?_)⟩⟩
  · rw [List.mem_singleton.1 hp]; exact ⟨_, hd, Nat.le_refl _, by omega⟩
  · rw [List.mem_singleton.1 hp]; exact hk
  · rw [List.mem_singleton.1 hp] at e
    exact (Ptr.at.inj (e.symm.trans hd)).1

/-! ### `resize(...).fill(0)` -/

theorem size_mk3 {d h w : Nat} (hn : d * h * w < W64) : (Shape.mk3 d h w).size = d * h * w := by
  unfold Shape.mk3 wmul
  dsimp only
  rw [Nat.mod_mul_mod]
  exact Nat.mod_eq_of_lt hn

/-- Number of cells of an object of kind `k` after `resize(d, h, w)`. -/
def kindCells (k : Kind) (d h w : Nat) : Nat :=
  match k with
  | .vec => w
  | .mat => h * w
  | .ten => d * h * w

theorem zeroed_spec [Zero α] (H : Heap α) {k : Kind} {d h w : Nat} (hn : kindCells k d h w < W64) :
    Ok (Obj.zeroed H k d h w) (fun r => Grew H r.1 [(r.2, filled (kindCells k d h w) (0 : α))] ∧
      (k = .mat → r.2.shape.w = w) ∧ (k = .ten → r.2.shape.d = d ∧ r.2.shape.h = h ∧ r.2.shape.w = w)) := by
  have key : ∀ (s : Shape) (n : Nat), s.size = n →
      Ok (Obj.fill (H.new n).1 ⟨k, (H.new n).2, s⟩ (0 : α)) (fun H' => Grew H H' [((⟨k, (H.new n).2, s⟩ : Obj), filled n (0 : α))]) := by
    intro s n hs
    unfold Obj.fill
    dsimp only
    rw [hs, fillLoop_eq]
    refine (new_loop (H := H) (n := n) (m := n) (Nat.le_refl n) (new := fun _ => some (0 : α)) (fun _ _ _ _ => rfl)).mono (fun H' h => ?_)
    refine Grew.new H rfl h.1 h.2.1 (fun b hb j => by rw [h.2.2, if_neg hb]) ⟨by rw [hs]; simp [filled], Or.inr ⟨H.next, 0, rfl, fun i hi => ?_⟩⟩
    have hi' : i < n := by simpa [filled] using hi
    rw [h.2.2, if_pos rfl, Nat.zero_add, if_pos hi']
    simp [filled, hi']
  unfold Obj.zeroed Obj.default Obj.resize
  cases k with
  | vec =>
    have e : (Shape.mk3 1 w 1).size = w := by rw [size_mk3] <;> simp [kindCells] at hn ⊢; exact hn
    refine Ok.bind (P := fun r => r = ((H.new w).1, (⟨.vec, (H.new w).2, Shape.mk3 1 w 1⟩ : Obj))) (Ok_ok.2 rfl) (fun r hr => ?_)
    subst hr
    exact (key _ w e).bind (fun H' h' => Ok_ok.2 ⟨h', by simp, by simp⟩)
  | mat =>
    have e : wmul h w = h * w := Nat.mod_eq_of_lt hn
    refine Ok.bind (P := fun r => r = ((H.new (h * w)).1, (⟨.mat, (H.new (h * w)).2, ⟨0, h, w, h * w⟩⟩ : Obj))) ?_ (fun r hr => ?_)
    · show Ok (.ok ((H.new (wmul h w)).1, (⟨.mat, (H.new (wmul h w)).2, ⟨0, h, w, wmul h w⟩⟩ : Obj))) _
      rw [e]; exact Ok_ok.2 rfl
    · subst hr
      exact (key ⟨0, h, w, h * w⟩ (h * w) rfl).bind (fun H' h' => Ok_ok.2 ⟨h', by simp, by simp⟩)
  | ten =>
    have e : (Shape.mk3 d h w).size = d * h * w := size_mk3 hn
    refine Ok.bind (P := fun r => r = ((H.new (d * h * w)).1, (⟨.ten, (H.new (d * h * w)).2, Shape.mk3 d h w⟩ : Obj))) ?_ (fun r hr => ?_)
    · show Ok (.ok ((H.new (Shape.mk3 d h w).size).1, (⟨.ten, (H.new (Shape.mk3 d h w).size).2, Shape.mk3 d h w⟩ : Obj))) _
      rw [e]; exact Ok_ok.2 rfl
    · subst hr
      exact (key (Shape.mk3 d h w) (d * h * w) e).bind (fun H' h' => Ok_ok.2 ⟨h', by simp, fun _ => ⟨rfl, rfl, rfl⟩⟩)

/-! ### Layers -/

section
variable [Zero α] {addr : Ptr → Nat}

theorem HFC.make_spec (H : Heap α) {i o : Nat} {g : HAct α} {a : Act α} (ha : g.Follows a) (hi : i < W64) (ho : o < W64) (hio : i * o < W64) :
    Ok (HFC.make i o g H) (fun r => (∃ bs, Grew H r.1 bs ∧ bs.map Prod.fst = r.2.objs ∧
      bs.map Prod.snd = (FC.make i o a (addr r.2.B.data) (addr r.2.W.data)).bufs) ∧
      r.2.Fits addr (FC.make i o a (addr r.2.B.data) (addr r.2.W.data))) := by
  unfold HFC.make
  refine (zeroed_spec H (k := .vec) (d := 1) (h := 1) (w := o) ho).bind (fun ⟨H1, o1⟩ q1 => ?_)
  refine (zeroed_spec H1 (k := .mat) (d := 1) (h := i) (w := o) hio).bind (fun ⟨H2, o2⟩ q2 => ?_)
  refine (zeroed_spec H2 (k := .ten) (d := 1) (h := 1) (w := o) (by simpa [kindCells] using ho)).bind (fun ⟨H3, o3⟩ q3 => ?_)
  refine (zeroed_spec H3 (k := .vec) (d := 1) (h := 1) (w := o) ho).bind (fun ⟨H4, o4⟩ q4 => ?_)
  refine (zeroed_spec H4 (k := .vec) (d := 1) (h := 1) (w := o) ho).bind (fun ⟨H5, o5⟩ q5 => ?_)
  refine (zeroed_spec H5 (k := .mat) (d := 1) (h := i) (w := o) hio).bind (fun ⟨H6, o6⟩ q6 => ?_)
  refine (zeroed_spec H6 (k := .vec) (d := 1) (h := 1) (w := o) ho).bind (fun ⟨H7, o7⟩ q7 => ?_)
  refine (zeroed_spec H7 (k := .mat) (d := 1) (h := i) (w := o) hio).bind (fun ⟨H8, o8⟩ q8 => ?_)
  refine (zeroed_spec H8 (k := .ten) (d := 1) (h := 1) (w := i) (by simpa [kindCells] using hi)).bind (fun ⟨H9, o9⟩ q9 => ?_)
  dsimp only at q1 q2 q3 q4 q5 q6 q7 q8 q9
  refine Ok_ok.2 ⟨⟨_, (((((((((q1.1.append q2.1).append q3.1).append q4.1).append q5.1).append q6.1).append q7.1).append q8.1).append q9.1)).perm
    (qs := [(o1, filled o (0 : α)), (o2, filled (i * o) (0 : α)), (o3, filled (1 * 1 * o) (0 : α)), (o4, filled o (0 : α)),
      (o7, filled o (0 : α)), (o8, filled (i * o) (0 : α)), (o5, filled o (0 : α)), (o6, filled (i * o) (0 : α)), (o9, filled (1 * 1 * i) (0 : α))]) ?_, rfl, rfl⟩, ?_⟩
  · simp only [kindCells, List.cons_append, List.nil_append]
    refine .cons _ (.cons _ (.cons _ (.cons _ ?_)))
    exact (List.perm_append_comm_assoc [_, _] [_, _] [_])
  · exact ⟨rfl, rfl, q2.2.1 rfl, q3.2.2 rfl, q9.2.2 rfl, ha, rfl, rfl, rfl⟩

theorem zeroedList_spec {d h w : Nat} (hn : d * h * w < W64) : ∀ (n : Nat) (H : Heap α),
    Ok (Obj.zeroedList d h w n H) (fun r => Grew H r.1 (r.2.map (fun o => (o, filled (d * h * w) (0 : α)))) ∧ r.2.length = n ∧
      ∀ o ∈ r.2, o.shape.d = d ∧ o.shape.h = h ∧ o.shape.w = w) := by
  intro n
  induction n with
  | zero => intro H; exact Ok_ok.2 ⟨Grew.nil H, rfl, fun _ h => absurd h (List.not_mem_nil)⟩
  | succ n ih =>
    intro H
    unfold Obj.zeroedList
    refine (zeroed_spec H (k := .ten) hn).bind (fun ⟨H1, o1⟩ q1 => ?_)
    refine (ih H1).bind (fun ⟨H2, os⟩ q2 => ?_)
    dsimp only at q1 q2
    refine Ok_ok.2 ⟨q1.1.append q2.1, by simp [q2.2.1], fun o ho => ?_⟩
    rcases List.mem_cons.1 ho with rfl | ho
    · exact q1.2.2 rfl
    · exact q2.2.2 o ho

theorem dims_list {d h w n : Nat} {os : List Obj} (hl : os.length = n) (hd : ∀ o ∈ os, o.shape.d = d ∧ o.shape.h = h ∧ o.shape.w = w) :
    List.Forall₂ Obj.DimsT os (List.replicate n (Ten.fill d h w (0 : α))) := by
  subst hl
  refine List.forall₂_iff_get.2 ⟨by simp, fun k hk hk' => ?_⟩
  simp only [List.get_eq_getElem, List.getElem_replicate]
  exact hd _ (List.getElem_mem ..)

theorem snd_map_const {os : List Obj} {n : Nat} (hl : os.length = n) (d h w : Nat) :
    (os.map (fun o => (o, filled (d * h * w) (0 : α)))).map Prod.snd = (List.replicate n (Ten.fill d h w (0 : α))).map Ten.data := by
  subst hl
  simp only [List.map_map, List.map_replicate]
  exact List.map_const' ..

theorem fst_map_const {os : List Obj} (b : Buf α) : (os.map (fun o => (o, b))).map Prod.fst = os := by
  simp [List.map_map, Function.comp_def]

theorem HConv.make_spec (H : Heap α) {d h w c fh fw p sv sh oh ow : Nat} (hc : 0 < c) (hcw : c < W64) (hf : d * fh * fw < W64)
    (hi : d * h * w < W64) (eh : convExtent h fh p sv = .ok oh) (ew : convExtent w fw p sh = .ok ow) (ho : c * oh * ow < W64)
    (hb : c * (wadd (wmul sv (wsub oh 1)) 1) * (wadd (wmul sh (wsub ow 1)) 1) < W64) :
    Ok (HConv.make d h w c fh fw p sv sh H) (fun r => ∃ l : Conv α,
      Conv.make d h w c fh fw p sv sh (addr r.2.B.data) (fun i => ((r.2.Ws[i]?).map (fun o => addr o.data)).getD 0) = .ok l ∧
      (∃ bs, Grew H r.1 bs ∧ bs.map Prod.fst = r.2.objs ∧ bs.map Prod.snd = l.bufs) ∧ r.2.Fits addr l) := by
  unfold HConv.make
  rw [eh, bind_ok, ew, bind_ok]
  refine (zeroed_spec H (k := .vec) (d := 1) (h := 1) (w := c) hcw).bind (fun ⟨H1, o1⟩ q1 => ?_)
  refine (zeroedList_spec hf c H1).bind (fun ⟨H2, o2⟩ q2 => ?_)
  dsimp only
  rw [if_neg (by omega)]
  refine (zeroed_spec H2 (k := .ten) ho).bind (fun ⟨H3, o3⟩ q3 => ?_)
  refine (zeroedList_spec hf c H3).bind (fun ⟨H4, o4⟩ q4 => ?_)
  refine (zeroed_spec H4 (k := .vec) (d := 1) (h := 1) (w := c) hcw).bind (fun ⟨H5, o5⟩ q5 => ?_)
  refine (zeroed_spec H5 (k := .ten) hi).bind (fun ⟨H6, o6⟩ q6 => ?_)
  refine (zeroed_spec H6 (k := .ten) hb).bind (fun ⟨H7, o7⟩ q7 => ?_)
  dsimp only at q1 q2 q3 q4 q5 q6 q7
  refine Ok_ok.2 ?_
  dsimp only
  have em : ∀ kB kW, Conv.make (α := α) d h w c fh fw p sv sh kB kW = .ok
      { id := d, ih := h, iw := w, od := c, oh := oh, ow := ow, pad := p, sv := sv, sh := sh,
        B := filled c 0, Ws := List.replicate c (Ten.fill d fh fw (0 : α)), fc := c, fd := d, fh := fh, fw := fw,
        value := Ten.fill c oh ow 0,
        gradWs := List.replicate c (Ten.fill d fh fw 0), gradB := filled c 0,
        delta := Ten.fill d h w 0,
        buff := Ten.fill c (wadd (wmul sv (wsub oh 1)) 1) (wadd (wmul sh (wsub ow 1)) 1) 0,
        keyB := kB, keyW := kW } := by
    intro kB kW
    unfold Conv.make
    rw [eh, bind_ok, ew, bind_ok]
    dsimp only
    rw [if_neg (by omega)]
    rfl
  refine ⟨_, em _ _, ⟨_, ((((((q1.1.append q2.1).append q3.1).append q4.1).append q5.1).append q6.1).append q7.1).perm
    (qs := [(o1, filled c (0 : α)), (o3, filled (c * oh * ow) (0 : α)), (o5, filled c (0 : α)), (o6, filled (d * h * w) (0 : α)),
      (o7, filled (c * (wadd (wmul sv (wsub oh 1)) 1) * (wadd (wmul sh (wsub ow 1)) 1)) (0 : α))] ++
      (o2.map (fun o => (o, filled (d * fh * fw) (0 : α))) ++ o4.map (fun o => (o, filled (d * fh * fw) (0 : α))))) ?_, ?_, ?_⟩, ?_⟩
  · simp only [kindCells, List.append_assoc]
    generalize o2.map (fun o => (o, filled (d * fh * fw) (0 : α))) = A
    generalize o4.map (fun o => (o, filled (d * fh * fw) (0 : α))) = B
    classical
    rw [List.perm_iff_count]
    intro x
    simp only [List.count_append, List.count_cons, List.count_nil]
    omega
  · simp only [List.map_append, fst_map_const]; rfl
  · simp only [List.map_append]
    rw [snd_map_const q2.2.1, snd_map_const q4.2.1]
    rfl
  · exact {
      ext := ⟨rfl, rfl, rfl, rfl, rfl, rfl, rfl, rfl, rfl⟩
      filt := ⟨rfl, rfl, rfl, rfl⟩
      value := q3.2.2 rfl
      Ws := dims_list q2.2.1 q2.2.2
      gradWs := dims_list q4.2.1 q4.2.2
      delta := q6.2.2 rfl
      buff := q7.2.2 rfl
      keyB := rfl
      keyW := fun i o e => by dsimp only at e ⊢; rw [e]; rfl }

theorem HPool.make_spec (H : Heap α) {d h w sv sh : Nat} {g : HAct α} {a : Act α} (ha : g.Follows a) (h1 : 0 < sv) (h2 : 0 < sh)
    (hi : d * h * w < W64) :
    Ok (HPool.make d h w sv sh g H) (fun r => ∃ l : Pool α, Pool.make d h w sv sh a = .ok l ∧
      (∃ bs, Grew H r.1 bs ∧ bs.map Prod.fst = r.2.objs ∧ bs.map Prod.snd = l.bufs) ∧ r.2.Fits l) := by
  have e1 : poolExtent h sv = .ok (h / sv) := by unfold poolExtent; rw [if_neg (by omega)]
  have e2 : poolExtent w sh = .ok (w / sh) := by unfold poolExtent; rw [if_neg (by omega)]
  have ho : d * (h / sv) * (w / sh) < W64 :=
    Nat.lt_of_le_of_lt (Nat.mul_le_mul (Nat.mul_le_mul (Nat.le_refl d) (Nat.div_le_self h sv)) (Nat.div_le_self w sh)) hi
  unfold HPool.make
  rw [e1, bind_ok, e2, bind_ok]
  refine (zeroed_spec H (k := .ten) ho).bind (fun ⟨H1, o1⟩ q1 => ?_)
  refine (zeroed_spec H1 (k := .ten) hi).bind (fun ⟨H2, o2⟩ q2 => ?_)
  refine (zeroed_spec H2 (k := .ten) hi).bind (fun ⟨H3, o3⟩ q3 => ?_)
  refine (zeroed_spec H3 (k := .ten) ho).bind (fun ⟨H4, o4⟩ q4 => ?_)
  dsimp only at q1 q2 q3 q4
  refine Ok_ok.2 ⟨⟨d, h, w, d, h / sv, w / sh, sv, sh, a, Ten.fill d (h / sv) (w / sh) 0, Ten.fill d (h / sv) (w / sh) 0, Ten.fill d h w 0,
      Ten.fill d h w 0⟩, by unfold Pool.make; rw [e1, bind_ok, e2, bind_ok]; rfl, ⟨_, (((q1.1.append q2.1).append q3.1).append q4.1).perm
    (qs := [(o1, filled (d * (h / sv) * (w / sh)) (0 : α)), (o4, filled (d * (h / sv) * (w / sh)) (0 : α)), (o3, filled (d * h * w) (0 : α)),
      (o2, filled (d * h * w) (0 : α))]) ?_, rfl, rfl⟩, ?_⟩
  · simp only [kindCells, List.cons_append, List.nil_append]
    classical
    rw [List.perm_iff_count]
    intro x
    simp only [List.count_cons, List.count_nil]
    omega
  · exact { ext := ⟨rfl, rfl, rfl, rfl, rfl, rfl, rfl, rfl⟩, value := q1.2.2 rfl, act := ha, buff := q4.2.2 rfl, mask := q3.2.2 rfl, delta := q2.2.2 rfl }

theorem LayerArgs.build_spec (H : Heap α) {a : LayerArgs α} {s : LayerSpec α} (hs : a.Same s) (hr : s.Room) :
    Ok (a.build H) (fun r => ∃ (L : Layer α) (bs : List (Obj × Buf α)), s.make (r.2.biasAddr addr) (r.2.weightAddr addr) = .ok L ∧
      HLayer.Is addr r.1 r.2 L ∧ Grew H r.1 bs ∧ bs.map Prod.fst = r.2.objs) := by
  cases hs with
  | fc ha =>
    unfold LayerArgs.build
    refine (HFC.make_spec (addr := addr) H ha hr.1 hr.2.1 hr.2.2).bind (fun ⟨H1, l⟩ q => ?_)
    obtain ⟨⟨bs, g, f1, f2⟩, hf⟩ := q
    exact Ok_ok.2 ⟨_, bs, rfl, .fc hf (g.holds f1 f2).1, g, f1⟩
  | conv =>
    unfold LayerArgs.build
    obtain ⟨r1, r2, r3, r4, oh, ow, r5, r6, r7, r8⟩ := hr
    refine (HConv.make_spec (addr := addr) H r1 r2 r3 r4 r5 r6 r7 r8).bind (fun ⟨H1, l⟩ q => ?_)
    obtain ⟨c, e, ⟨bs, g, f1, f2⟩, hf⟩ := q
    refine Ok_ok.2 ⟨.conv c, bs, ?_, .conv hf (g.holds f1 f2).1, g, f1⟩
    show (Conv.make _ _ _ _ _ _ _ _ _ _ _ >>= _) = _
    refine (congrArg (· >>= _) e).trans rfl
  | pool ha =>
    unfold LayerArgs.build
    refine (HPool.make_spec H ha hr.1 hr.2.1 hr.2.2).bind (fun ⟨H1, l⟩ q => ?_)
    obtain ⟨c, e, ⟨bs, g, f1, f2⟩, hf⟩ := q
    refine Ok_ok.2 ⟨.pool c, bs, ?_, .pool hf (g.holds f1 f2).1, g, f1⟩
    show (Pool.make _ _ _ _ _ _ >>= _) = _
    rw [e]; rfl

theorem HLayer.Is.extends {H H' H'' : Heap α} {h : HLayer α} {L : Layer α} (hi : HLayer.Is addr H h L) (he : H.Extends H')
    (hf : H''.Fresh H h.objs) : HLayer.Is addr H' h L := by
  have key : ∀ {os : List Obj} {bs : List (Buf α)}, H''.Fresh H os → H.Held os bs → H'.Held os bs := by
    intro os bs hf hm
    unfold Heap.Held at *
    induction hm with
    | nil => exact .nil
    | cons h1 _ ih =>
      obtain ⟨b, e1, e2, e3⟩ := hf _ (List.mem_cons_self ..)
      exact .cons (h1.extends he e1 e3) (ih (fun o ho => hf o (List.mem_cons_of_mem _ ho)))
  cases hi with
  | fc hf' hm => exact .fc hf' (key hf hm)
  | conv hf' hm => exact .conv hf' (key hf hm)
  | pool hf' hm => exact .pool hf' (key hf hm)
  | rawFC hf' hm => exact .rawFC hf' (key hf hm)
  | rawConv hf' hm => exact .rawConv hf' (key hf hm)
  | rawPool hf' hm => exact .rawPool hf' (key hf hm)

theorem HNet.build_spec {as : List (LayerArgs α)} {ss : List (LayerSpec α)} (hs : List.Forall₂ LayerArgs.Same as ss)
    (hr : ∀ s ∈ ss, s.Room) : ∀ (H : Heap α),
    Ok (HNet.build as H) (fun r => ∃ (v : Net α) (bs : List (Obj × Buf α)), HNet.Made addr r.2 ss v ∧
      HNet.Is addr r.1 r.2 v ∧ Grew H r.1 bs ∧ bs.map Prod.fst = HNet.objs r.2) := by
  induction hs with
  | nil => intro H; exact Ok_ok.2 ⟨[], [], .nil, .nil, Grew.nil H, rfl⟩
  | cons h1 _ ih =>
    intro H
    unfold HNet.build
    refine (LayerArgs.build_spec (addr := addr) H h1 (hr _ (List.mem_cons_self ..))).bind (fun ⟨H1, l⟩ q1 => ?_)
    refine (ih (fun s hs => hr s (List.mem_cons_of_mem _ hs)) H1).bind (fun ⟨H2, net⟩ q2 => ?_)
    obtain ⟨L, bs, m1, i1, g1, f1⟩ := q1
    obtain ⟨v, cs, m2, i2, g2, f2⟩ := q2
    dsimp only at *
    refine Ok_ok.2 ⟨L :: v, bs ++ cs, .cons m1 m2, .cons (i1.extends g2.ext (g1.holds f1 rfl).2.2) i2, g1.append g2, ?_⟩
    rw [List.map_append, f1, f2]
    rfl

end

end Trixy
