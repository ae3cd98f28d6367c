import Verif.Proof.HeapProg
/- Property C86 (a network and its training in memory compute what they compute on values). -/
namespace Trixy
set_option linter.unusedSectionVars false

variable {α γ ρ σ γ' ρ' : Type}

/-! ### Construction -/

/-- Building a network: every layer is what its constructor arguments say, all tensors of all layers lie in allocations of their
own that did not exist before, and everything that was in memory before is unchanged. -/
theorem C86_build [Zero α] (addr : Ptr → Nat) (as : List (LayerArgs α)) (ss : List (LayerSpec α)) (hs : List.Forall₂ LayerArgs.Same as ss)
    (hr : ∀ s ∈ ss, s.Room) (H : Heap α) :
    Ok (HNet.build as H) (fun r => (∃ v, HNet.Made addr r.2 ss v ∧ HNet.Is addr r.1 r.2 v) ∧ AllApart (HNet.objs r.2) ∧
      H.Fresh r.1 (HNet.objs r.2) ∧ ((HNet.objs r.2).map Obj.data).Nodup ∧ H.Extends r.1) := by
  refine (HNet.build_spec (addr := addr) hs hr H).mono (fun r q => ?_)
  obtain ⟨v, bs, m1, i1, g1, f1⟩ := q
  obtain ⟨-, h2, h3⟩ := g1.holds f1 rfl
  refine ⟨⟨v, m1, i1⟩, h2, h3, ?_, g1.ext⟩
  rw [← f1, List.map_map]
  exact List.pairwise_map.2 g1.sep

/-- `init(generator)`: the parameters get the values they get in the model on values, the generator is left in the same state, and
nothing but the network's own tensors changes. -/
theorem C86_init (addr : Ptr → Nat) (gen : Gen γ ρ α) (c : γ) (g g' : ρ) (H : Heap α) (net : HNet α) (v v' : Net α)
    (hn : HNet.Is addr H net v) (hs : AllApart (HNet.objs net)) (e : Net.init gen c g v = .ok (v', g')) :
    Ok (HNet.init gen c g H net) (fun r => r.2 = g' ∧ HNet.Is addr r.1 net v' ∧ H.Only r.1 (HNet.objs net)) :=
  HNet.init_sim hn hs e

/-- `network.feedforward(x)`: the object the call returns holds the value computed on values; nothing but the network's tensors
changes. The input may be any object the first layer does not write to while it reads its input. -/
theorem C86_feedforward [Zero α] [_root_.One α] [Add α] [Mul α] [LT α] [DecidableLT α] (addr : Ptr → Nat) (H : Heap α) (net : HNet α)
    (v v' : Net α) (x : Obj) (t y : Ten α) (hn : HNet.Is addr H net v) (hs : AllApart (HNet.objs net)) (hx : H.KeepsT x t)
    (ha : ∀ l, net[0]? = some l → ∀ o ∈ l.scratch, Obj.Apart o x) (e : Net.feedforward t v = .ok (v', y)) :
    Ok (net.feedforward H x) (fun r => HNet.Is addr r.1 net v' ∧ H.Only r.1 (HNet.objs net) ∧ r.1.KeepsT r.2 y) :=
  (HNet.feedforward_sim hn hs hx ha e).mono (fun r q => ⟨q.1, q.2.1, q.2.2.1⟩)

/-! ### Training calls on any training object in memory -/

/-- What a call leaves behind: the training object in memory has the value `st`, its tensors are where they were, and nothing but
these tensors has changed. -/
def HTrain.Leaves (addr : Ptr → Nat) (t t' : HTrain α σ) (st : σ × Train α) : Prop :=
  t'.Is addr st ∧ t'.owned = t.owned ∧ t.heap.Only t'.heap t.owned

theorem HTrain.Run.leaves {addr : Ptr → Nat} {t t' : HTrain α σ} {st : σ × Train α} (h : HTrain.Run addr t t' st) : HTrain.Leaves addr t t' st :=
  ⟨h.is, h.ownedEq, h.only⟩

section
variable [Zero α] [_root_.One α] [Add α] [Mul α] [Div α] [NatCast α] [LT α] [DecidableLT α] [DecidableEq α]

/-- `batch`. -/
theorem C86_batch (addr : Ptr → Nat) (hu : HUpd σ α) (u : Upd σ α) (hfo : HUpd.Follows addr hu u) (t : HTrain α σ) (st st' : σ × Train α)
    (X Y : List Obj) (xs ys : List (Ten α)) (n : Nat) (h : t.Is addr st) (hs : AllApart t.owned) (hX : t.Data X xs) (hY : t.Data Y ys)
    (e : Train.batch u xs ys n st = .ok st') : Ok (t.batch hu X Y n) (fun t' => t.Leaves addr t' st') :=
  (HTrain.batch_sim hfo hs hX hY (.start h) e).mono (fun _ q => q.leaves)

/-- `mini_batch`. -/
theorem C86_mini_batch (addr : Ptr → Nat) (hu : HUpd σ α) (u : Upd σ α) (hfo : HUpd.Follows addr hu u) (t : HTrain α σ) (st st' : σ × Train α)
    (X Y : List Obj) (xs ys : List (Ten α)) (n m : Nat) (h : t.Is addr st) (hs : AllApart t.owned) (hX : t.Data X xs) (hY : t.Data Y ys)
    (e : Train.miniBatch u xs ys n m st = .ok st') : Ok (t.miniBatch hu X Y n m) (fun t' => t.Leaves addr t' st') :=
  (HTrain.miniBatch_sim hfo hs hX hY (.start h) e).mono (fun _ q => q.leaves)

/-- `stochastic`. -/
theorem C86_stochastic (addr : Ptr → Nat) (hu : HUpd σ α) (u : Upd σ α) (hfo : HUpd.Follows addr hu u) (t : HTrain α σ) (st st' : σ × Train α)
    (X Y : List Obj) (xs ys : List (Ten α)) (n : Nat) (gen : Gen γ ρ Nat) (c : γ) (g g' : ρ) (h : t.Is addr st) (hs : AllApart t.owned)
    (hX : t.Data X xs) (hY : t.Data Y ys) (e : Train.stochastic u xs ys n gen c g st = .ok (st', g')) :
    Ok (t.stochastic hu X Y n gen c g) (fun r => t.Leaves addr r.1 st' ∧ r.2 = g') :=
  (HTrain.stochastic_sim hfo hs hX hY (.start h) e).mono (fun _ q => ⟨q.1.leaves, q.2⟩)

/-- `loss(idata, odata)`: the returned number as well. -/
theorem C86_loss (addr : Ptr → Nat) (t : HTrain α σ) (s : σ) (w w' : Train α) (X Y : List Obj) (xs ys : List (Ten α)) (v : α)
    (h : t.Is addr (s, w)) (hs : AllApart t.owned) (hX : t.Data X xs) (hY : t.Data Y ys) (e : w.lossMean xs ys = .ok (v, w')) :
    Ok (t.lossMean X Y) (fun r => r.1 = v ∧ t.Leaves addr r.2 (s, w')) :=
  (HTrain.lossMean_sim hs hX hY (.start h) e).mono (fun _ q => ⟨q.1, q.2.leaves⟩)

/-! ### Whole programs -/

/-- The value program of C67, defined for a network whose parameters lie where the memory says. -/
theorem value_program {addr : Ptr → Nat} {H : Heap α} {net : HNet α} {ss : List (LayerSpec α)} {v : Net α} (hm : HNet.Made addr net ss v)
    (hi : HNet.Is addr H net v) (hsens : ∀ s ∈ ss, s.Sensible) {s o : Shp} (hfit : Fits s (ss.map (LayerSpec.kind 0 (fun _ => 0))) o)
    (h2 : 2 ≤ ss.length) (hw : ss.length < W64) {size : Nat → Nat} (hz : ∀ o ∈ HNet.objs net, size (addr o.data) = o.shape.size)
    {u : Upd σ α} {I : σ → Prop} (hu : UpdOk u size I) {s0 : σ} (hs0 : I s0) (gi : Gen γ' ρ' α) (ci : γ') (ri : ρ') (gen : Gen γ ρ Nat) (g : ρ)
    {l : Loss α} {L : (Nat → α) → (Nat → α) → α} {dL : (Nat → α) → (Nat → α) → Nat → α} (hl : l.Is o.vol L dL) {ops : List (TrainOp α γ)}
    (hops : ∀ op ∈ ops, op.Good s o) :
    Ok (Train.program (HNet.kinds addr net ss) gi ci ri l s0 u gen g ops)
      (fun r => I r.1.1 ∧ List.Forall₂ Layer.Sound r.1.2.net (HNet.kinds addr net ss)) := by
  have hlen : (HNet.kinds addr net ss).length = ss.length := by
    unfold HNet.kinds; rw [List.length_zipWith, hm.length, Nat.min_self]
  refine (C67_from_construction u size I hu gen gi ci ri (HNet.kinds addr net ss) s o (hm.valid hi hsens hz) (kinds_fit hm.length hfit)
    (by rw [hlen]; exact h2) (by rw [hlen]; exact hw) s0 hs0 g l L dL hl ops hops).mono (fun r q => ⟨q.1, q.2.1⟩)

/-- A whole program — constructors, `init`, a training object with a loss, any sequence of sensible calls with data that was in
memory before — is defined behaviour, and its result is the result of the same program on values: parameters, outputs, gradients,
optimizer and generator. It never changes memory that existed before, in particular not the data. -/
theorem C86_program (addr : Ptr → Nat) (hinj : Distinct addr) (hu : HUpd σ α) (u : Upd σ α) (hfo : HUpd.Follows addr hu u)
    (I : σ → Prop) (hok : ∀ size, UpdOk u size I) (s0 : σ) (hs0 : I s0)
    (as : List (LayerArgs α)) (ss : List (LayerSpec α)) (hsame : List.Forall₂ LayerArgs.Same as ss) (hroom : ∀ s ∈ ss, s.Room)
    (hsens : ∀ s ∈ ss, s.Sensible) (s o : Shp) (hfit : Fits s (ss.map (LayerSpec.kind 0 (fun _ => 0))) o) (h2 : 2 ≤ ss.length)
    (hw : ss.length < W64) (gi : Gen γ' ρ' α) (ci : γ') (ri : ρ') (hl : HLoss α) (l : Loss α) (hll : hl.Follows l)
    (L : (Nat → α) → (Nat → α) → α) (dL : (Nat → α) → (Nat → α) → Nat → α) (hlis : l.Is o.vol L dL) (gen : Gen γ ρ Nat) (g : ρ)
    (H0 : Heap α) (hops : List (HTrainOp α γ)) (ops : List (TrainOp α γ)) (hso : List.Forall₂ (HTrainOp.Same H0) hops ops)
    (hgood : ∀ op ∈ ops, op.Good s o) :
    ∃ (ks : List (LayerKind α)) (st : σ × Train α) (g' : ρ), List.Forall₂ (fun k s => ∃ kB kW, k = LayerSpec.kind kB kW s) ks ss ∧
      Train.program ks gi ci ri l s0 u gen g ops = .ok (st, g') ∧ I st.1 ∧ List.Forall₂ Layer.Sound st.2.net ks ∧
      Ok (HTrain.program as gi ci ri hl s0 hu gen g hops H0) (fun r => r.1.Is addr st ∧ r.2 = g' ∧ H0.Extends r.1.heap ∧
        AllApart r.1.owned ∧ ∀ o ∈ r.1.owned, ∃ b, o.data = .at b 0 ∧ H0.next ≤ b) := by
  obtain ⟨⟨H1, net⟩, eb, ⟨v, hm, hi⟩, hsep, hfr, hnd, hex⟩ := C86_build addr as ss hsame hroom H0
  dsimp only at hm hi hsep hfr hnd hex
  have hz := sizeAt_eq (addr := addr) (os := HNet.objs net) (fun o ho q hq e => by
    obtain ⟨b, e1, -⟩ := hfr o ho
    obtain ⟨c, e2, -⟩ := hfr q hq
    rw [e1, e2] at e
    have hbc := hinj b c e
    have : o = q := List.inj_on_of_nodup_map hnd ho hq (by rw [e1, e2, hbc])
    rw [this])
  obtain ⟨⟨st, g'⟩, ep, h1, h3⟩ := value_program hm hi hsens hfit h2 hw hz (hok _) hs0 gi ci ri gen g hlis hgood
  refine ⟨HNet.kinds addr net ss, st, g', ?_, ep, h1, h3, ?_⟩
  · refine List.forall₂_iff_get.2 ⟨by unfold HNet.kinds; rw [List.length_zipWith, hm.length, Nat.min_self], fun i a b => ?_⟩
    have hn : i < net.length := by rw [hm.length]; exact b
    refine ⟨(net[i]'hn).biasAddr addr, (net[i]'hn).weightAddr addr, ?_⟩
    simp only [HNet.kinds, List.get_eq_getElem, List.getElem_zipWith]
  · exact (HTrain.program_sim hfo hsame hroom hsens hll hso eb ep).mono (fun r q => ⟨q.1.is, q.2, q.1.ext, q.1.sep, q.1.fresh⟩)

/-- The kinds when every parameter's address is its number of cells. -/
def LayerSpec.bySize : LayerSpec α → LayerKind α
  | .fc i o a => .dense i o a o (i * o)
  | .conv d h w c fh fw p sv sh => .conv d h w c fh fw p sv sh c (fun f => if f < c then d * fh * fw else 0)
  | .pool d h w sv sh a => .pool d (h / sv) (w / sh) sv sh a

theorem kind_bySize {addr : Ptr → Nat} {H : Heap α} {h : HLayer α} {s : LayerSpec α} {L : Layer α} (hi : HLayer.Is addr H h L)
    (e : s.make (h.biasAddr addr) (h.weightAddr addr) = .ok L) (hs : s.Sensible) (hz : ∀ o ∈ h.objs, addr o.data = o.shape.size) :
    s.kind (h.biasAddr addr) (h.weightAddr addr) = s.bySize := by
  have hv := hi.valid e hs (size := id) hz
  cases s with
  | fc i o a =>
    obtain ⟨-, h1, h2⟩ := hv
    show LayerKind.dense i o a (h.biasAddr addr) (h.weightAddr addr 0) = _
    rw [show h.biasAddr addr = o from h1, show h.weightAddr addr 0 = i * o from h2]; rfl
  | conv d hh w c fh fw p sv sh =>
    obtain ⟨-, -, h1, h2⟩ := hv
    show LayerKind.conv d hh w c fh fw p sv sh (h.biasAddr addr) (h.weightAddr addr) = _
    have h3 : h.weightAddr addr = fun f => if f < c then d * fh * fw else 0 := by
      funext f
      by_cases hf : f < c
      · rw [if_pos hf]; exact h2 f hf
      · rw [if_neg hf]
        obtain ⟨l, e1, e⟩ := res_inv e
        cases e
        cases hi with
        | conv hfit hm =>
          rename_i h
          obtain ⟨l', el, hl⟩ := Conv.make_Wf (α := α) (d := d) hs.1 hs.2 (HLayer.biasAddr (α := α) addr (.conv h))
            (HLayer.weightAddr (α := α) addr (.conv h))
          cases e1.symm.trans el
          have hlen : h.Ws.length = c := hfit.Ws.length_eq.trans hl.1.Ws.1
          show ((h.Ws[f]?).map (fun o => addr o.data)).getD 0 = 0
          rw [List.getElem?_eq_none (by omega)]; rfl
    rw [show h.biasAddr addr = c from h1, h3]; rfl
  | pool d hh w sv sh a => rfl

theorem kinds_bySize {addr : Ptr → Nat} {H : Heap α} {net : HNet α} {ss : List (LayerSpec α)} {v : Net α} (hm : HNet.Made addr net ss v)
    (hi : HNet.Is addr H net v) (hs : ∀ s ∈ ss, s.Sensible) (hz : ∀ o ∈ HNet.objs net, addr o.data = o.shape.size) :
    HNet.kinds addr net ss = ss.map LayerSpec.bySize := by
  induction hm with
  | nil => rfl
  | @cons a net s ss L v h1 _ ih =>
    cases hi with
    | cons i1 i2 =>
      show LayerSpec.kind (HLayer.biasAddr addr a) (HLayer.weightAddr addr a) s :: HNet.kinds addr net ss = _ :: _
      rw [kind_bySize i1 h1 (hs s (List.mem_cons_self ..)) (fun o ho => hz o (List.mem_append_left _ ho)),
        ih i2 (fun s hs' => hs s (List.mem_cons_of_mem _ hs')) (fun o ho => hz o (List.mem_append_right _ ho))]

/-- An address function that gives every tensor of the network its number of cells. -/
theorem size_addr {os : List Obj} (hnd : (os.map Obj.data).Nodup) :
    ∃ addr : Ptr → Nat, ∀ o ∈ os, addr o.data = o.shape.size := by
  classical
  refine ⟨fun p => ((os.find? (fun o => o.data = p)).map (fun o => o.shape.size)).getD 0, fun o ho => ?_⟩
  cases e : os.find? (fun q => q.data = o.data) with
  | none => have := List.find?_eq_none.1 e o ho; simp at this
  | some q =>
    have h1 := List.mem_of_find?_eq_some e
    have h2 : q.data = o.data := by simpa using List.find?_some e
    have hq := List.inj_on_of_nodup_map hnd h1 ho h2
    dsimp only
    rw [e, hq]; rfl

/-- Where things lie in memory does not matter: two runs of a program with an optimizer without state tables, from two memories
that hold the data at different places, end with the same values in all tensors. -/
theorem C86_placement (hu : HUpd σ α) (u : Upd σ α) (hfo : ∀ addr, HUpd.Follows addr hu u)
    (I : σ → Prop) (hok : ∀ size, UpdOk u size I) (s0 : σ) (hs0 : I s0)
    (as : List (LayerArgs α)) (ss : List (LayerSpec α)) (hsame : List.Forall₂ LayerArgs.Same as ss) (hroom : ∀ s ∈ ss, s.Room)
    (hsens : ∀ s ∈ ss, s.Sensible) (s o : Shp) (hfit : Fits s (ss.map (LayerSpec.kind 0 (fun _ => 0))) o) (h2 : 2 ≤ ss.length)
    (hw : ss.length < W64) (gi : Gen γ' ρ' α) (ci : γ') (ri : ρ') (hl : HLoss α) (l : Loss α) (hll : hl.Follows l)
    (L : (Nat → α) → (Nat → α) → α) (dL : (Nat → α) → (Nat → α) → Nat → α) (hlis : l.Is o.vol L dL) (gen : Gen γ ρ Nat) (g : ρ)
    (H0 H0' : Heap α) (hops hops' : List (HTrainOp α γ)) (ops : List (TrainOp α γ)) (hso : List.Forall₂ (HTrainOp.Same H0) hops ops)
    (hso' : List.Forall₂ (HTrainOp.Same H0') hops' ops) (hgood : ∀ op ∈ ops, op.Good s o) :
    ∃ (st : σ × Train α) (g' : ρ) (addr addr' : Ptr → Nat),
      Ok (HTrain.program as gi ci ri hl s0 hu gen g hops H0) (fun r => r.1.Is addr st ∧ r.2 = g') ∧
      Ok (HTrain.program as gi ci ri hl s0 hu gen g hops' H0') (fun r => r.1.Is addr' st ∧ r.2 = g') := by
  obtain ⟨⟨H1, net⟩, eb, -, -, -, hnd, -⟩ := C86_build (fun _ => 0) as ss hsame hroom H0
  obtain ⟨⟨H1', net'⟩, eb', -, -, -, hnd', -⟩ := C86_build (fun _ => 0) as ss hsame hroom H0'
  obtain ⟨addr, ha⟩ := size_addr hnd
  obtain ⟨addr', ha'⟩ := size_addr hnd'
  obtain ⟨_, q, ⟨v, hm, hi⟩, -⟩ := C86_build addr as ss hsame hroom H0
  cases eb.symm.trans q
  obtain ⟨_, q', ⟨v', hm', hi'⟩, -⟩ := C86_build addr' as ss hsame hroom H0'
  cases eb'.symm.trans q'
  dsimp only at hm hi hm' hi' ha ha'
  have hk := kinds_bySize hm hi hsens ha
  have hk' := kinds_bySize hm' hi' hsens ha'
  obtain ⟨⟨st, g'⟩, ep, -⟩ := value_program hm hi hsens hfit h2 hw (size := id) ha (hok _) hs0 gi ci ri gen g hlis hgood
  have ep' : Train.program (HNet.kinds addr' net' ss) gi ci ri l s0 u gen g ops = .ok (st, g') := by rw [hk', ← hk]; exact ep
  exact ⟨st, g', addr, addr', (HTrain.program_sim (hfo addr) hsame hroom hsens hll hso eb ep).mono (fun r q => ⟨q.1.is, q.2⟩),
    (HTrain.program_sim (hfo addr') hsame hroom hsens hll hso' eb' ep').mono (fun r q => ⟨q.1.is, q.2⟩)⟩

end

/-! ### The library's classes -/

/-- The library's activation and loss classes and its two optimizers without tables meet the hypotheses. -/
theorem C86_library :
    (∀ k : ActKind, k.hobj.Follows k.obj) ∧ softMaxHAct.Follows softMaxAct ∧
    (HLosses.MSE.Follows Losses.MSE ∧ HLosses.MAE.Follows Losses.MAE ∧ HLosses.CCE.Follows Losses.CCE ∧ HLosses.BCE.Follows Losses.BCE ∧
      HLosses.MSLE.Follows Losses.MSLE ∧ HLosses.NLL.Follows Losses.NLL ∧ HLosses.LC.Follows Losses.LC) ∧
    (∀ addr, HUpd.Follows addr (hgdUpdate (α := ℝ)) gdUpdate) ∧ (∀ addr, HUpd.Follows addr (hsgdUpdate (α := ℝ)) sgdUpdate) := by
  refine ⟨fun k => ?_, HAct.softmax_follows realExp realRecip, ⟨HLosses.MSE_follows, HLosses.MAE_follows, HLosses.CCE_follows,
    HLosses.BCE_follows, HLosses.MSLE_follows, HLosses.NLL_follows, HLosses.LC_follows⟩, hgdUpdate_follows, hsgdUpdate_follows⟩
  cases k <;> exact HAct.elementwise_follows _ _

/-! ### Non-vacuity: convolution → max pooling → dense → dense on 5×5 images, library classes, data in memory -/

noncomputable def exArgs : List (LayerArgs ℝ) :=
  [.conv 1 5 5 2 2 2 0 1 1, .pool 2 4 4 2 2 ActKind.relu.hobj, .fc 8 3 ActKind.tanh.hobj, .fc 3 2 softMaxHAct]
noncomputable def exSpecs : List (LayerSpec ℝ) :=
  [.conv 1 5 5 2 2 2 0 1 1, .pool 2 4 4 2 2 ActKind.relu.obj, .fc 8 3 ActKind.tanh.obj, .fc 3 2 softMaxAct]

/-- An image at block 0, a target at block 1. -/
noncomputable def exHeap : Heap ℝ := ⟨fun b => if b = 0 then some (filled 25 1) else if b = 1 then some (filled 2 3) else none, 2⟩
def exX : Obj := ⟨.ten, .at 0 0, ⟨1, 5, 5, 25⟩⟩
def exY : Obj := ⟨.ten, .at 1 0, ⟨1, 1, 2, 2⟩⟩
noncomputable def exx : Ten ℝ := ⟨1, 5, 5, filled 25 1⟩
noncomputable def exy : Ten ℝ := ⟨1, 1, 2, filled 2 3⟩

theorem exX_keeps : exHeap.Old exX ∧ exHeap.KeepsT exX exx :=
  ⟨⟨0, 0, rfl, by decide⟩, rfl, rfl, rfl, rfl, Or.inr ⟨0, 0, rfl, fun i _ => by rw [Nat.zero_add]; rfl⟩⟩
theorem exY_keeps : exHeap.Old exY ∧ exHeap.KeepsT exY exy :=
  ⟨⟨1, 0, rfl, by decide⟩, rfl, rfl, rfl, rfl, Or.inr ⟨1, 0, rfl, fun i _ => by rw [Nat.zero_add]; rfl⟩⟩

def exHOps : List (HTrainOp ℝ Unit) := [.batch [exX, exX] [exY, exY] 3, .mini [exX, exX] [exY, exY] 2 1, .sto [exX] [exY] 4 (), .lossOf [exX] [exY], .eval exX]
noncomputable def exVOps : List (TrainOp ℝ Unit) := [.batch [exx, exx] [exy, exy] 3, .mini [exx, exx] [exy, exy] 2 1, .sto [exx] [exy] 4 (), .lossOf [exx] [exy], .eval exx]

example : List.Forall₂ LayerArgs.Same exArgs exSpecs ∧ (∀ s ∈ exSpecs, s.Room) ∧ (∀ s ∈ exSpecs, s.Sensible) ∧
    Fits (1, 5, 5) (exSpecs.map (LayerSpec.kind 0 (fun _ => 0))) (1, 1, 2) ∧ List.Forall₂ (HTrainOp.Same exHeap) exHOps exVOps ∧
    (∀ op ∈ exVOps, op.Good (1, 5, 5) (1, 1, 2)) ∧ (∀ size, UpdOk (gdUpdate (α := ℝ)) size (fun _ => True)) ∧
    Distinct (fun p => match p with | .null => 0 | .at b o => Nat.pair b o + 1) ∧
    (∃ L dL, Losses.NLL.Is (Shp.vol (1, 1, 2)) L dL) := by
  obtain ⟨f1, f2, -⟩ := C86_library
  obtain ⟨l1, l2, l3⟩ := C67_library
  have hX : exHeap.Dataset [exX] [exx] := .cons exX_keeps .nil
  have hY : exHeap.Dataset [exY] [exy] := .cons exY_keeps .nil
  have hX2 : exHeap.Dataset [exX, exX] [exx, exx] := .cons exX_keeps hX
  have hY2 : exHeap.Dataset [exY, exY] [exy, exy] := .cons exY_keeps hY
  have sx : ShapeIs exx (1, 5, 5) := ⟨rfl, rfl, rfl, _, VecIs_filled 25 1⟩
  have sy : Full exy.data (Shp.vol (1, 1, 2)) := ⟨_, VecIs_filled 2 3⟩
  have d1 : DataFits [exx] [exy] (1, 5, 5) (1, 1, 2) := ⟨by simp [sx], by simp [sy], rfl⟩
  have d2 : DataFits [exx, exx] [exy, exy] (1, 5, 5) (1, 1, 2) := ⟨by simp [sx], by simp [sy], rfl⟩
  refine ⟨.cons .conv (.cons (.pool (f1 _)) (.cons (.fc (f1 _)) (.cons (.fc f2) .nil))), fun s hs => ?_, fun s hs => ?_,
    ⟨rfl, rfl, rfl, rfl, rfl, rfl, rfl, rfl⟩, .cons (.batch hX2 hY2) (.cons (.mini hX2 hY2) (.cons (.sto hX hY) (.cons (.lossOf hX hY)
      (.cons (.eval exX_keeps.1 exX_keeps.2) .nil)))), fun op hop => ?_, fun size => gd_UpdOk size, fun b c e => ?_, l3 2 _ (by simp)⟩
  · simp only [exSpecs, List.mem_cons, List.not_mem_nil, or_false] at hs
    rcases hs with rfl | rfl | rfl | rfl
    · refine ⟨by decide, by decide, by decide, by decide, 4, 4, rfl, rfl, by decide, by decide⟩
    · exact ⟨by decide, by decide, by decide⟩
    · exact ⟨by decide, by decide, by decide⟩
    · exact ⟨by decide, by decide, by decide⟩
  · simp only [exSpecs, List.mem_cons, List.not_mem_nil, or_false] at hs
    rcases hs with rfl | rfl | rfl | rfl
    · exact ⟨⟨by decide, by decide, by decide, by decide, by decide, by decide⟩, by decide⟩
    · exact ⟨by decide, by decide, by decide, by decide, l1 _ _⟩
    · exact l1 _ _
    · exact l2 2 (by decide)
  · simp only [exVOps, List.mem_cons, List.not_mem_nil, or_false] at hop
    rcases hop with rfl | rfl | rfl | rfl | rfl
    · exact ⟨d2, by simp⟩
    · exact ⟨d2, by simp⟩
    · exact ⟨d1, by simp⟩
    · exact ⟨d1, by simp⟩
    · exact sx
  · have : Nat.pair b 0 = Nat.pair c 0 := by simpa using e
    exact (Nat.pair_eq_pair.1 this).1

end Trixy
