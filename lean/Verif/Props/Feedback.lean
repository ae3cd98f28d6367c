import Verif.Props.HeapNet
import Verif.Props.Alias
/- Property C87 (the reference that `feedforward` returns: using it as an input, and keeping it). -/
namespace Trixy
set_option linter.unusedSectionVars false

variable {α σ : Type}

section
variable [Zero α] [_root_.One α] [Add α] [Mul α] [LT α] [DecidableLT α]

/-- `y = net.feedforward(x); y = net.feedforward(y); …`: `k` calls, each fed the reference the call before returned. -/
def HNet.again (net : HNet α) : Nat → Heap α → Obj → Res (Heap α × Obj)
  | 0, H, x => .ok (H, x)
  | k + 1, H, x => do
    let (H, y) ← net.feedforward H x
    net.again k H y

/-- The same with a copy of the output handed on. -/
def Net.again : Nat → Ten α → Net α → Res (Net α × Ten α)
  | 0, x, v => .ok (v, x)
  | k + 1, x, v => do
    let (v, y) ← Net.feedforward x v
    Net.again k y v

/-- The first layer does not write its output while it reads its input, or the output is another layer's. -/
def HNet.FeedsBack (net : HNet α) : Prop := (2 ≤ net.length ∧ net.length < W64) ∨ ∃ l, net = [.fc l]

theorem HNet.FeedsBack.apart {net : HNet α} (hf : net.FeedsBack) (hs : AllApart (HNet.objs net)) {h : HLayer α}
    (eh : net[wsub net.length 1]? = some h) : ∀ l, net[0]? = some l → ∀ o ∈ l.scratch, Obj.Apart o h.value := by
  intro l hl o ho
  rcases hf with ⟨h2, hw⟩ | ⟨f, rfl⟩
  · have e1 : wsub net.length 1 = net.length - 1 := wsub_eq (by omega) hw
    rw [e1] at eh
    exact hs.cross hl eh (by omega) o (l.scratch_mem o ho) _ h.value_mem
  · cases hl
    have e1 : wsub ([HLayer.fc f] : HNet α).length 1 = 0 := wsub_eq (show 1 ≤ 1 by decide) (show 1 < W64 by decide)
    rw [e1] at eh
    cases eh
    rw [List.mem_singleton.1 ho]
    exact (hs.layer (net := [HLayer.fc f]) (i := 0) rfl).at (i := 3) (j := 2) rfl rfl (by decide)

/-- Feeding a network its own output, any number of times, is right for every network of at least two layers and for a single
training dense layer. -/
theorem C87_feedback_partial (addr : Ptr → Nat) (net : HNet α) (hf : net.FeedsBack) (hs : AllApart (HNet.objs net)) :
    ∀ (k : Nat) (H : Heap α) (v v' : Net α) (x : Obj) (t y : Ten α), HNet.Is addr H net v → H.KeepsT x t →
      (∀ l, net[0]? = some l → ∀ o ∈ l.scratch, Obj.Apart o x) → Net.again k t v = .ok (v', y) →
      Ok (net.again k H x) (fun r => HNet.Is addr r.1 net v' ∧ H.Only r.1 (HNet.objs net) ∧ r.1.KeepsT r.2 y) := by
  intro k
  induction k with
  | zero => intro H v v' x t y hn hx _ e; cases e; exact Ok_ok.2 ⟨hn, Heap.Only.refl _ _, hx⟩
  | succ k ih =>
    intro H v v' x t y hn hx ha e
    obtain ⟨⟨v1, y1⟩, e1, e⟩ := res_inv e
    unfold HNet.again
    refine (HNet.feedforward_sim hn hs hx ha e1).bind (fun ⟨H1, o1⟩ q => ?_)
    dsimp only at q ⊢
    obtain ⟨q1, q2, q3, h, eh, rfl⟩ := q
    exact (ih H1 v1 v' h.value y1 y q1 q3 (hf.apart hs eh) e).mono (fun r q => ⟨q.1, q2.trans q.2.1, q.2.2⟩)

/-- Every call returns the same reference, whatever the input and the state. -/
theorem C87_reference (net : HNet α) (H H' : Heap α) (x x' : Obj) (r r' : Heap α × Obj) (e : net.feedforward H x = .ok r)
    (e' : net.feedforward H' x' = .ok r') : r.2 = r'.2 := by
  obtain ⟨a, e1, e⟩ := res_inv e
  obtain ⟨b, e2, e⟩ := res_inv e
  obtain ⟨c, e3, e⟩ := res_inv e
  obtain ⟨d, e4, e⟩ := res_inv e
  cases e
  obtain ⟨a', f1, e'⟩ := res_inv e'
  obtain ⟨b', f2, e'⟩ := res_inv e'
  obtain ⟨c', f3, e'⟩ := res_inv e'
  obtain ⟨d', f4, e'⟩ := res_inv e'
  cases e'
  cases e4.symm.trans f4
  rfl

/-- Two evaluations, the second input apart from what the first layer writes: the reference returned by the first call shows the
second result. -/
theorem C87_result_violated (addr : Ptr → Nat) (net : HNet α) (H : Heap α) (v v1 v2 : Net α) (x1 x2 : Obj) (t1 t2 y1 y2 : Ten α)
    (hn : HNet.Is addr H net v) (hs : AllApart (HNet.objs net)) (hx1 : H.KeepsT x1 t1) (hx2 : H.KeepsT x2 t2)
    (ha1 : ∀ o ∈ HNet.objs net, Obj.Apart o x1) (ha2 : ∀ o ∈ HNet.objs net, Obj.Apart o x2)
    (e1 : Net.feedforward t1 v = .ok (v1, y1)) (e2 : Net.feedforward t2 v1 = .ok (v2, y2)) :
    Ok (do let r1 ← net.feedforward H x1
           let r2 ← net.feedforward r1.1 x2
           return (r1, r2))
      (fun r => r.1.1.KeepsT r.1.2 y1 ∧ r.2.1.KeepsT r.1.2 y2) := by
  obtain ⟨r1, q1, i1, o1, k1, -⟩ := HNet.feedforward_sim hn hs hx1 (fun l hl o ho => ha1 o (HNet.mem_objs hl o (l.scratch_mem o ho))) e1
  obtain ⟨r2, q2, i2, o2, k2, -⟩ := HNet.feedforward_sim i1 hs (hx2.frame o1 ha2)
    (fun l hl o ho => ha2 o (HNet.mem_objs hl o (l.scratch_mem o ho))) e2
  rw [q1, bind_ok, q2, bind_ok]
  refine Ok_ok.2 ⟨k1, ?_⟩
  rw [C87_reference net H r1.1 x1 x2 r1 r2 q1 q2]
  exact k2

/-- Training with the network's own output as the target: whatever that reference held before, the target is the new output. -/
theorem C87_target_violated (addr : Ptr → Nat) (t : HTrain α σ) (s : σ) (w w1 w2 : Train α) (q : Obj) (x : Ten α) (h : HLayer α)
    (L1 : Layer α) (hi : t.Is addr (s, w)) (hs : AllApart t.owned) (hX : t.Data [q] [x]) (hl : t.net[wsub t.net.length 1]? = some h)
    (e1 : w.feedforward x = .ok w1) (hL : w1.net[wsub t.net.length 1]? = some L1) (e2 : w1.backprop x L1.value = .ok w2) :
    Ok (t.sample [q] [h.value] 0) (fun t' => t.Leaves addr t' (s, w2)) := by
  unfold HTrain.sample
  obtain ⟨p, ep, kp, ap⟩ := hX.at (.start hi) (i := 0) (x := x) rfl
  cases ep
  show Ok (t.feedforward q >>= _) _
  refine (HTrain.feedforward_sim hs (.start hi) kp
    (fun l hl o ho => ap o (HTrain.owned_net (HNet.mem_objs hl o (l.scratch_mem o ho)))) e1).bind (fun t1 h1 => ?_)
  show Ok (t1.backprop q h.value) _
  obtain ⟨h', eh', ih'⟩ := h1.1.is.net.at hL
  rw [h1.2, hl] at eh'
  cases eh'
  obtain ⟨q', eq', kq', aq'⟩ := hX.at h1.1 (i := 0) (x := x) rfl
  cases eq'
  refine (HTrain.backprop_sim hs h1.1 kq' ih'.value aq' ?_ e2).mono (fun t' h' => h'.1.leaves)
  rw [h1.1.delta]
  exact (hs.ofDelta _ (HNet.mem_objs hl _ h.value_mem)).symm

end

section
variable [Zero α] [_root_.One α] [Add α] [Mul α] [Div α] [NatCast α] [LT α] [DecidableLT α] [DecidableEq α]

theorem Net.init_sound {γ ρ : Type} {ks : List (LayerKind α)} {net : Net α} (hn : List.Forall₂ Layer.Sound net ks) (gi : Gen γ ρ α) (ci : γ) (ri : ρ) :
    Ok (Net.init gi ci ri net) (fun r => List.Forall₂ Layer.Sound r.1 ks) := by
  unfold Net.init
  refine (forN_spec (fun _ (r : Net α × ρ) => List.Forall₂ Layer.Sound r.1 ks) hn (fun i hi r hr => ?_))
  have e1 : r.1.length = ks.length := hr.length_eq
  have e2 : net.length = ks.length := hn.length_eq
  have a1 : i < r.1.length := by omega
  have a2 : i < ks.length := by omega
  have g1 : lget r.1 i = .ok (r.1[i]'a1) := by unfold lget; rw [List.getElem?_eq_getElem a1]
  rw [g1, bind_ok]
  refine ((hr.get a1 a2).init gi ci r.2).bind (fun q hq => ?_)
  have hset : lset r.1 i q.1 = .ok (r.1.set i q.1) := by unfold lset; rw [if_pos a1]
  show Ok (lset r.1 i q.1 >>= _) _
  rw [hset]
  refine Ok_ok.2 ?_
  have a1' := a1
  refine List.forall₂_iff_get.2 ⟨by simp [e1], fun j h1 h2 => ?_⟩
  rw [List.get_eq_getElem, List.get_eq_getElem, List.getElem_set]
  split
  · next e => subst e; exact hq
  · exact hr.get (by simpa using h1) h2

/-- Feeding back is defined on values as well when input and output have the same shape. -/
theorem Net.again_sound {size : Nat → Nat} {ks : List (LayerKind α)} {s : Shp} (hS : Static size ks s s) :
    ∀ (k : Nat) (v : Net α) (t : Ten α), List.Forall₂ Layer.Sound v ks → ShapeIs t s →
      Ok (Net.again k t v) (fun q => List.Forall₂ Layer.Sound q.1 ks ∧ ShapeIs q.2 s) := by
  intro k
  induction k with
  | zero => exact fun v t hv ht => Ok_ok.2 ⟨hv, ht⟩
  | succ k ih =>
    intro v t hv ht
    unfold Net.again
    exact (Net.feedforward_sound hS hv ht).bind (fun ⟨v1, y1⟩ q => ih v1 y1 q.1 q.2)

/-- From construction: any stack of at least two layers that maps a shape to itself is built, initialised and fed its own output `k`
times, starting from an input that was in memory before; the result is that of handing on copies. -/
theorem C87_from_construction {γ ρ : Type} (addr : Ptr → Nat) (hinj : Distinct addr) (as : List (LayerArgs α)) (ss : List (LayerSpec α))
    (hsame : List.Forall₂ LayerArgs.Same as ss) (hroom : ∀ s ∈ ss, s.Room) (hsens : ∀ s ∈ ss, s.Sensible) (s : Shp)
    (hfit : Fits s (ss.map (LayerSpec.kind 0 (fun _ => 0))) s) (h2 : 2 ≤ ss.length) (hw : ss.length < W64) (gi : Gen γ ρ α) (ci : γ) (ri : ρ)
    (H0 : Heap α) (x : Obj) (t : Ten α) (hx : H0.Old x) (hk : H0.KeepsT x t) (ht : ShapeIs t s) (k : Nat) :
    Ok (do let (H, net) ← HNet.build as H0
           let (H, _) ← HNet.init gi ci ri H net
           let (H, y) ← net.again k H x
           return (H, y, net))
      (fun r => ∃ v0 v g v' y, HNet.Made addr r.2.2 ss v0 ∧ Net.init gi ci ri v0 = .ok (v, g) ∧ Net.again k t v = .ok (v', y) ∧
        r.1.KeepsT r.2.1 y) := by
  refine (C86_build addr as ss hsame hroom H0).bind (fun ⟨H1, net⟩ q => ?_)
  obtain ⟨⟨v0, hm, hi⟩, hsep, hfr, hnd, hex⟩ := q
  dsimp only at hm hi hsep hfr hnd hex ⊢
  have hz := sizeAt_eq (addr := addr) (os := HNet.objs net) (fun o ho q hq e => by
    obtain ⟨b, e1, -⟩ := hfr o ho
    obtain ⟨c, e2, -⟩ := hfr q hq
    rw [e1, e2] at e
    have hbc := hinj b c e
    have : o = q := List.inj_on_of_nodup_map hnd ho hq (by rw [e1, e2, hbc])
    rw [this])
  have hlen : (HNet.kinds addr net ss).length = ss.length := by
    unfold HNet.kinds; rw [List.length_zipWith, hm.length, Nat.min_self]
  have hS : Static (sizeAt addr (HNet.objs net)) (HNet.kinds addr net ss) s s :=
    ⟨hm.valid hi hsens hz, kinds_fit hm.length hfit, by rw [hlen]; exact h2, by rw [hlen]; exact hw⟩
  obtain ⟨v0', em, hv0⟩ := LayerKind.makeAll_sound hS.valid
  cases em.symm.trans (hm.makeAll hsens)
  obtain ⟨⟨v, g⟩, ei, hv⟩ := Net.init_sound hv0 gi ci ri
  obtain ⟨⟨v', y⟩, ea, -, -⟩ := Net.again_sound hS k v t hv ht
  refine (C86_init addr gi ci ri g H1 net v0 v hi hsep ei).bind (fun ⟨H2, g'⟩ q => ?_)
  obtain ⟨-, i2, o2⟩ := q
  dsimp only at i2 o2 ⊢
  have hap : ∀ o ∈ HNet.objs net, Obj.Apart o x := fun o ho => by
    obtain ⟨b, b1, b2, -⟩ := hfr o ho
    obtain ⟨c, j, c1, c2⟩ := hx
    unfold Obj.Apart
    rw [b1, c1]
    exact apart_blocks _ _ _ _ _ _ (by omega)
  have hk2 : H2.KeepsT x t := (hk.extends hx hex).frame o2 hap
  have hfb : net.FeedsBack := Or.inl (by rw [hm.length]; exact ⟨h2, hw⟩)
  refine (C87_feedback_partial addr net hfb hsep k H2 v v' x t y i2 hk2
    (fun l hl o ho => hap o (HNet.mem_objs hl o (l.scratch_mem o ho))) ea).bind (fun ⟨H3, y3⟩ q => ?_)
  exact Ok_ok.2 ⟨v0, v, g, v', y, hm, ei, ea, q.2.2⟩

end

/-- With the squared error the delta is then zero: nothing is learned. -/
theorem C87_target_zero (m : Nat) (r y : Buf ℝ) (vy : Nat → ℝ) (hr : r.length = m) (hy : VecIs y m vy) :
    Ok (Losses.MSE.df r y y) (fun r' => VecIs r' m (fun _ => 0)) :=
  (mseD_writes hr hy hy).mono (fun r' h => h.congr (fun i _ => by simp))

/-- Violated: a network of one inference dense layer fed its own output computes `f(b)`, whatever the output was. -/
theorem C87_inference_violated [Semiring α] (H : Heap α) (l : HRawFC α) (n : Nat) (g g' : α → α) (a b : Nat → α) (f : Nat → Nat → α)
    (hact : l.act = HAct.elementwise g g') (hv : H.Vec l.value n a) (hW : H.Matrix l.W n n f) (hB : H.Vec l.B n b)
    (aW : Apart l.value.data n l.W.data (n * n)) (aB : Apart l.value.data n l.B.data n) :
    Ok (l.forward H l.value) (fun H' => H'.Vec l.value n (fun i => g (b i))) := by
  unfold HRawFC.forward
  refine (C85_row_violated H l.value l.W n a f hv hW aW).bind (fun H1 h1 => ?_)
  obtain ⟨z, sz, vz⟩ := h1.1.2.stores
  have kz : H1.Keeps l.value z := ⟨h1.1.1.trans vz.length.symm, sz⟩
  obtain ⟨bb, sb, vb⟩ := hB.2.stores
  have only : H.Only H1 [l.value] := ⟨h1.2.1, h1.2.2.1, fun k o hk => h1.2.2.2 k o (fun pb po e hc => by
    refine hk l.value (List.mem_singleton.2 rfl) pb po e ?_
    rw [h1.1.1]; exact hc)⟩
  have kB : H.Keeps l.B bb := ⟨hB.1.trans vb.length.symm, sb⟩
  have ap : Obj.Apart l.value l.B := by
    unfold Obj.Apart
    rw [h1.1.1, hB.1]; exact aB
  have kB1 : H1.Keeps l.B bb := kB.frame only (fun w hw => by rw [List.mem_singleton.1 hw]; exact ap)
  obtain ⟨s, es, vs⟩ := zipInto_spec (op := (· + ·)) vz vb (Nat.le_refl n)
  refine (assignPtr_sim kz kB1 ap es).bind (fun H2 h2 => ?_)
  obtain ⟨y, ey, vy⟩ := mapSelf_spec (g := g) vs
  rw [hact]
  refine ((HAct.elementwise_follows g g').fSelf H2 l.value s y h2.1 ey).mono (fun H3 h3 => ⟨h1.1.1, ?_⟩)
  exact h3.1.2.holds (vy.congr (fun i _ => by rw [zero_add]))

/-! ### A convolution in place -/

/-- A 1×2 image `[1, 1]`, one 3×3 filter of ones, bias 0; padding 1, stride 1: the output is 1×2 as well. -/
def exLoopHeap : Heap Int := ⟨fun b => if b = 0 then some (Buf.of [0]) else if b = 1 then some (Buf.of [1, 1, 1, 1, 1, 1, 1, 1, 1]) else
  if b = 2 then some (Buf.of [1, 1]) else if b = 3 then some (Buf.of [1, 1]) else none, 4⟩
def exLoopConv : HConv where
  id := 1
  ih := 1
  iw := 2
  od := 1
  oh := 1
  ow := 2
  pad := 1
  sv := 1
  sh := 1
  B := ⟨.vec, .at 0 0, Shape.mk1 1⟩
  Ws := [⟨.ten, .at 1 0, Shape.mk3 1 3 3⟩]
  fc := 1
  fd := 1
  fh := 3
  fw := 3
  value := ⟨.ten, .at 2 0, Shape.mk3 1 1 2⟩
  gradWs := []
  gradB := ⟨.vec, .null, Shape.mk1 0⟩
  delta := ⟨.ten, .null, Shape.mk3 0 0 0⟩
  buff := ⟨.ten, .null, Shape.mk3 0 0 0⟩
/-- A copy of the layer's output, elsewhere in memory. -/
def exLoopCopy : Obj := ⟨.ten, .at 3 0, Shape.mk3 1 1 2⟩

/-- Violated: the inference convolution fed its own output `[1, 1]` gives `[2, 3]`; fed a copy of the output it gives `[2, 2]`. -/
theorem C87_convolution_violated :
    (do let (H, y) ← HNet.feedforward [.rawConv exLoopConv] exLoopHeap exLoopConv.value
        let a ← y.get3 H 0 0 0
        let b ← y.get3 H 0 0 1
        return (a, b)) = .ok (2, 3) ∧
    (do let (H, y) ← HNet.feedforward [.rawConv exLoopConv] exLoopHeap exLoopCopy
        let a ← y.get3 H 0 0 0
        let b ← y.get3 H 0 0 1
        return (a, b)) = .ok (2, 2) := by
  constructor <;> decide +kernel

/-! ### Non-vacuity: two dense layers 2 → 3 → 2 with library activations -/

example : ∃ (as : List (LayerArgs ℝ)) (ss : List (LayerSpec ℝ)) (H0 : Heap ℝ) (x : Obj) (t : Ten ℝ),
    List.Forall₂ LayerArgs.Same as ss ∧ (∀ s ∈ ss, s.Room) ∧ (∀ s ∈ ss, s.Sensible) ∧
    Fits (1, 1, 2) (ss.map (LayerSpec.kind 0 (fun _ => 0))) (1, 1, 2) ∧ 2 ≤ ss.length ∧ ss.length < W64 ∧ H0.Old x ∧ H0.KeepsT x t ∧
    ShapeIs t (1, 1, 2) := by
  obtain ⟨f1, f2, -⟩ := C86_library
  obtain ⟨l1, l2, l3⟩ := C67_library
  refine ⟨[.fc 2 3 ActKind.tanh.hobj, .fc 3 2 softMaxHAct], [.fc 2 3 ActKind.tanh.obj, .fc 3 2 softMaxAct], exHeap, exY, exy,
    .cons (.fc (f1 _)) (.cons (.fc f2) .nil), fun s hs => ?_, fun s hs => ?_, ⟨rfl, rfl, rfl, rfl⟩, by simp, by decide, exY_keeps.1,
    exY_keeps.2, ⟨rfl, rfl, rfl, _, VecIs_filled 2 3⟩⟩
  · simp only [List.mem_cons, List.not_mem_nil, or_false] at hs
    rcases hs with rfl | rfl
    · exact ⟨by decide, by decide, by decide⟩
    · exact ⟨by decide, by decide, by decide⟩
  · simp only [List.mem_cons, List.not_mem_nil, or_false] at hs
    rcases hs with rfl | rfl
    · exact l1 _ _
    · exact l2 2 (by decide)

end Trixy
