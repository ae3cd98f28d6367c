import Verif.Proof.Serial
import Verif.Props.Net
import Verif.Props.Container
/- Properties C58–C60 (archives). -/
namespace Trixy
set_option linter.unusedSectionVars false

variable {α β : Type}

/-! ## C58 round trip -/

/-- Vectors, matrices and tensors: shape (all four fields) and elements come back, and nothing else is consumed. -/
theorem C58_tensor (c : Codec α β) (hc : c.Lawful) (s : Shape) (h1 : s.d < W64) (h2 : s.h < W64) (h3 : s.w < W64) (h4 : s.size < W64)
    (b : Buf α) (hb : Full b s.size) : RoundTrip (c.putTensor s b) c.getTensor (fun t => t = (s, b)) := by
  obtain ⟨bs, e1, e2⟩ := read_tensor hc h1 h2 h3 h4 hb
  exact ⟨bs, _, e1, e2, rfl⟩

/-- Saving a tensor with an indeterminate element is undefined. -/
theorem C58_tensor_uninit (c : Codec α β) (s : Shape) (b : Buf α) (hb : b.length = s.size) (i : Nat) (hi : b[i]? = some none) :
    c.putTensor s b = .error .uninit := by
  unfold Codec.putTensor
  rw [if_neg (by omega), List.take_of_length_le (by omega)]
  have key : ∀ (l : Buf α) (i : Nat), l[i]? = some none → putMany c.putCell l = .error .uninit := by
    intro l
    induction l with
    | nil => intro i h; cases h
    | cons x xs ih =>
      intro i h
      cases i with
      | zero => injection h with h; subst h; rfl
      | succ i =>
        cases x with
        | none => rfl
        | some a => rw [putMany, show c.putCell (some a) = .ok (c.putVal a) from rfl, bind_ok, ih i h]; rfl
  rw [key b i hi]; rfl

/-- Linear and polynomial regressions: weights and number of coefficients come back. -/
theorem C58_regression (c : Codec α β) (hc : c.Lawful) (r : Reg α) (n : Nat) (hW : Full r.W n) (hn : n < W64) (hN : r.N < W64) :
    RoundTrip (c.putReg r) c.getReg (fun r' => r' = r) := by
  obtain ⟨bs, e1, e2⟩ := read_vec hc hW hn
  refine ⟨bs ++ c.putNat r.N, r, ?_, fun rest => ?_, rfl⟩
  · unfold Codec.putReg; rw [e1, bind_ok]; rfl
  · unfold Codec.getReg
    rw [List.append_assoc, e2, bind_ok]; dsimp only
    rw [hc.nat _ hN, bind_ok]; rfl

/-- The public interface of container `x` shows the abstract list, in every state reached by a valid history. -/
theorem CInv.shows {α : Type _} {w : CWorld α} {A : AState α} (I : CInv w A) {x : Nat} {l : List α} (hx : A x = some (some l)) :
    ∃ c, w.conts x = some c ∧ Shows w.store c l := by
  obtain ⟨c, hc, hr⟩ := I.rep x _ hx
  have hs := hr.size
  refine ⟨c, hc, ⟨hs.1, hs.2, ?_, hr.iterate, fun i hi => ?_, fun hne => ⟨?_, ?_⟩⟩⟩
  · simp only [Cont.empty, beq_iff_eq, hs.1, List.length_eq_zero_iff]
  · rcases hr with ⟨_, _, _, h⟩ | ⟨b, m, hd, hb, _⟩
    · subst h; exact absurd hi (Nat.not_lt_zero _)
    · unfold Cont.at_; rw [hd]; exact load_blk hb (Blk_get l m i hi)
  · rcases hr with ⟨_, _, _, h⟩ | ⟨b, m, hd, hb, _⟩
    · exact absurd h hne
    · unfold Cont.front; rw [hd]
      have hp : 0 < l.length := List.length_pos_iff.2 hne
      rw [load_blk hb (Blk_get l m 0 hp), List.head_eq_getElem]
  · rcases hr with ⟨_, _, _, h⟩ | ⟨b, m, hd, hb, _⟩
    · exact absurd h hne
    · have hp : 0 < l.length := List.length_pos_iff.2 hne
      unfold Cont.back
      rw [if_neg (by omega), hd, hs.1, load_blk hb (Blk_get l m (l.length - 1) (by omega)), List.getLast_eq_getElem]

/-- Containers: in every state reached by a valid history, saving container `x` and loading the bytes (with anything behind them) into
a new container gives one that shows the same list, without disturbing any other container. -/
theorem C58_container (c : Codec α β) (hc : c.Lawful) (dflt : α) (moved : α → α) (ops : List (COp α))
    (hv : CValidHist dflt moved CWorld.init (fun _ => none) ops) (x y : Nat) (l : List α) (hl : l.length < W64)
    (hx : absRun dflt (fun _ => none) ops x = some (some l)) (hy : absRun dflt (fun _ => none) ops y = none) :
    Ok (CWorld.init.run dflt moved ops) (fun w => ∃ k, w.conts x = some k ∧
      Ok (c.putCont w.store k) (fun r => ∀ rest, Ok (c.getCont w.store (r.1 ++ rest)) (fun q =>
        q.2 = rest ∧ Shows q.1.1 q.1.2 l ∧ q.1.2.size = q.1.2.cap ∧
        ∀ z lz, absRun dflt (fun _ => none) ops z = some (some lz) → ∃ kz, w.conts z = some kz ∧ Shows q.1.1 kz lz))) := by
  refine (run_cinv ops CInv.init hv).mono (fun w I => ?_)
  obtain ⟨k, hk, hr⟩ := I.rep x _ hx
  refine ⟨k, hk, ?_⟩
  have hput : ∀ l : List α, ∃ bs, putMany (fun a => .ok (c.putVal a)) l = .ok bs ∧ Reads (getMany (fun _ => c.getVal) l.length 0) bs l := by
    intro l
    obtain ⟨bs, ys, h1, h2, h3⟩ := putMany_ok (put := fun a => .ok (c.putVal a)) (get := fun _ => c.getVal) (Q := fun a b => a = b) l 0
      (fun i x _ => ⟨c.putVal x, x, rfl, fun rest => hc.val x rest, rfl⟩)
    have e := Forall₂_eq h3
    subst e
    exact ⟨bs, h1, h2⟩
  obtain ⟨bs, p, q⟩ := hput l
  unfold Codec.putCont Cont.save
  rw [hr.iterate, bind_ok]
  refine ⟨(c.putNat l.length ++ bs, { k with cap := k.size }), ?_, fun rest => ?_⟩
  · simp only [pure_eq_ok, bind_ok, p]
  · unfold Codec.getCont
    dsimp only
    rw [List.append_assoc, hc.nat _ hl, bind_ok]; dsimp only
    rw [q, bind_ok]; dsimp only
    obtain ⟨w', hw', I'⟩ := step_cinv (dflt := dflt) (moved := moved) I (.ofList y l) hy
    unfold CWorld.step at hw'
    dsimp only at hw'
    cases ho : Cont.ofList w.store l with
    | error e => rw [ho] at hw'; cases hw'
    | ok r =>
      rw [ho, bind_ok] at hw'
      rw [bind_ok]
      cases hw'
      have hcap : r.2.size = r.2.cap := by
        unfold Cont.ofList at ho
        dsimp only at ho
        revert ho
        generalize forN l.length _ _ = z
        intro ho
        cases z with
        | error e => cases ho
        | ok s => cases ho; rfl
      obtain ⟨k1, e1, s1⟩ := I'.shows (x := y) (l := l) (by simp [absStep])
      have e1' : cset w.conts y (some r.2) y = some k1 := e1
      rw [cset_self] at e1'
      cases e1'
      refine Ok_ok.2 ⟨rfl, s1, hcap, fun z lz hz => ?_⟩
      have hne : z ≠ y := fun h => by rw [h, hy] at hz; cases hz
      obtain ⟨kz, e2, s2⟩ := I'.shows (x := z) (l := lz) (by show aset _ _ _ _ = _; rw [aset_ne _ _ hne]; exact hz)
      refine ⟨kz, ?_, s2⟩
      have e3 : cset w.conts y (some r.2) z = some kz := e2
      rwa [cset_ne _ _ hne] at e3

/-- A FullyConnected layer: sizes, parameters and activation come back, caches and gradients are zero, no gradient is pending. -/
theorem C58_fully_connected [Zero α] (c : Codec α β) (hc : c.Lawful) (R : Registry α) (l : FC α) (n m : Nat) (b : Nat → α)
    (W : Nat → Nat → α) (hl : l.Wf n m b W) (ha : R.Has l.act) (hs : Small3 1 n m) (kB : Nat) (kW : Nat → Nat) :
    RoundTrip (c.putLayer R (.fc l)) (c.getLayer R kB kW) (fun l' => ∃ f, l' = .fc f ∧ f.Wf n m b W ∧ f.B = l.B ∧ f.W = l.W ∧
      f.act = l.act ∧ f.accumulated = false ∧ f.keyB = kB ∧ f.keyW = kW 0) := by
  obtain ⟨bs, p, r⟩ := read_dense hc (R := R) ⟨_, hl.B⟩ ⟨_, hl.W⟩ ha hs
  refine ⟨c.putNat 0 ++ bs, .fc (FC.prepare kB (kW 0) (Shape.mk3 1 1 n) (Shape.mk3 1 1 m) l.B l.W l.act), ?_, fun rest => ?_,
    _, rfl, FC.prepare_Wf hl.B hl.W hs.2.1 hs.2.2.1, rfl, rfl, rfl, rfl, rfl, rfl⟩
  · unfold Codec.putLayer; dsimp only
    rw [hl.isize, hl.osize, p, bind_ok]; rfl
  · unfold Codec.getLayer
    rw [List.append_assoc, hc.nat 0 (by decide), bind_ok]; dsimp only
    unfold Codec.getObject; dsimp only
    rw [r, bind_ok]; rfl

/-- A Convolutional layer: geometry and parameters come back, gradients are zero. -/
theorem C58_convolutional [Zero α] (c : Codec α β) (hc : c.Lawful) (l : Conv α) (d h w fc fh fw pad sv sh : Nat) (b : Nat → α)
    (W : Nat → Nat → Nat → Nat → α) (gb : Nat → α) (gW : Nat → Nat → Nat → Nat → α)
    (hl : l.Wf d h w fc fh fw pad sv sh b W gb gW) (hfc : 1 ≤ fc) (hs : ConvSmall d h w fc fh fw pad sv sh) (kB : Nat) (kW : Nat → Nat) :
    RoundTrip (c.putConv l) (c.getConv kB kW) (fun l' => l'.Wf d h w fc fh fw pad sv sh b W (fun _ => 0) (fun _ _ _ _ => 0) ∧
      l'.B = l.B ∧ l'.Ws = l.Ws) := by
  obtain ⟨bs, l', p, r, q⟩ := read_conv hc hl hfc hs kB kW
  exact ⟨bs, l', p, r, q⟩

/-- Networks of any number of FullyConnected and Convolutional layers (training or inference): the loaded network has exactly the saved
parameters, reports the same input and output sizes layer by layer, and computes every function the saved one computes. -/
theorem C58_network [CommSemiring α] [LinearOrder α] (c : Codec α β) (hc : c.Lawful) (R : Registry α) (addr : Nat → Nat × (Nat → Nat))
    (net : Net α) (hn : net.length < W64) (hs : ∀ l ∈ net, l.Savable R) :
    RoundTrip (c.putNet R net) (c.getNet R addr) (fun net' => net'.map Layer.params = net.map Layer.params ∧
      net'.map Layer.sizes = net.map Layer.sizes ∧ ∀ s s' F, net.Computes s s' F → net'.Computes s s' F) := by
  obtain ⟨bs, y, h1, h2, h3⟩ := read_net hc hn hs addr
  exact ⟨bs, y, h1, h2, same_params h3, same_sizes h3, same_computes h3⟩

/-- The predictions of the loaded network: for every input on which the saved network's function is defined, both return exactly the
same tensor. -/
theorem C58_predictions [CommSemiring α] [LinearOrder α] (c : Codec α β) (hc : c.Lawful) (R : Registry α)
    (addr : Nat → Nat × (Nat → Nat)) (net : Net α) (hne : net ≠ []) (hn : net.length < W64) (hs : ∀ l ∈ net, l.Savable R)
    (s s' : Nat × Nat × Nat) (F : (Nat → α) → Nat → α) (hF : net.Computes s s' F) :
    RoundTrip (c.putNet R net) (c.getNet R addr) (fun net' => ∀ x v, FlatIs x s v →
      ∃ r r', net.feedforward x = .ok r ∧ net'.feedforward x = .ok r' ∧ r.2 = r'.2 ∧ FlatIs r.2 s' (F v)) := by
  obtain ⟨bs, y, h1, h2, h3⟩ := read_net hc hn hs addr
  refine ⟨bs, y, h1, h2, fun x v hx => ?_⟩
  have hlen : y.length = net.length := h3.length_eq.symm
  obtain ⟨r, e, q⟩ := C37_feedforward net hne hn s s' F hF x v hx
  obtain ⟨r', e', q'⟩ := C37_feedforward y (fun h => hne (by rw [h] at hlen; exact List.length_eq_zero_iff.1 hlen.symm))
    (by omega) s s' F (same_computes h3 _ _ _ hF) x v hx
  exact ⟨r, r', e, e', q.1.ext q'.1, q.1⟩

/-- Dense networks can be trained further after loading: the loaded network is the same stack of dense layers with no pending
gradients (so the training theorems C39–C42 apply to it with the saved parameters). -/
theorem C58_dense [CommSemiring α] [LinearOrder α] (c : Codec α β) (hc : c.Lawful) (R : Registry α) (addr : Nat → Nat × (Nat → Nat))
    (net : Net α) (hn : net.length < W64) (hs : ∀ l ∈ net, l.Savable R) (ps : List (Dense α)) (hp : net.IsDense ps) :
    RoundTrip (c.putNet R net) (c.getNet R addr) (fun net' => net'.IsDense ps ∧ net'.Clean) := by
  obtain ⟨bs, y, h1, h2, h3⟩ := read_net hc hn hs addr
  exact ⟨bs, y, h1, h2, same_dense h3 ps hp, same_clean h3⟩

/-- `Serializer::serialize` then `deserialize`: whatever is in the stream before and after, the same object comes back and the stream
is positioned behind it. -/
theorem C58_serializer {X Y : Type} (c : Codec α β) (hc : c.Lawful) (put : X → Res (List β)) (get : List β → Res (Y × List β)) (x : X)
    (Q : Y → Prop) (h : RoundTrip (put x) get Q) (hsz : ∀ bs, put x = .ok bs → bs.length < W64) (out : List β) :
    ∃ bs y, c.serialize put out x = .ok (out ++ bs) ∧ (∀ rest, c.deserialize get (bs ++ rest) = .ok (y, rest)) ∧ Q y := by
  obtain ⟨bs, y, h1, h2, h3⟩ := h
  refine ⟨c.putNat bs.length ++ bs, y, ?_, fun rest => ?_, h3⟩
  · unfold Codec.serialize; rw [h1, bind_ok]; rfl
  · unfold Codec.deserialize
    rw [List.append_assoc, hc.nat _ (hsz bs h1), bind_ok]; dsimp only
    rw [if_neg (by simp), List.take_left']
    · have := h2 []
      rw [List.append_nil] at this
      rw [this, bind_ok]; dsimp only
      rw [List.drop_left']; rfl; rfl
    · rfl

/-- Non-vacuity: a codec over tagged numbers is lawful; a network of a convolution and a dense layer goes through bytes and predicts the
same. -/
def exCodec : Codec Int (Nat ⊕ Int) where
  putNat n := [.inl n]
  putVal a := [.inr a]
  getNat | .inl n :: r => .ok (n, r) | _ => .error .oob
  getVal | .inr a :: r => .ok (a, r) | _ => .error .oob
theorem exCodec_lawful : exCodec.Lawful := ⟨fun _ _ _ => rfl, fun _ _ => rfl⟩
def exReg : Registry Int := ⟨fun _ => 7, fun k => if k = 7 then some exAct else none⟩
example : exReg.Has exAct := ⟨by decide, rfl⟩

def exSaved : Res (Net Int) := do
  let c ← Conv.make 1 3 3 1 2 2 0 1 1 0 (fun f => f + 1)
  let (c, g) ← c.init exGen () 1
  let (f, _) ← (FC.make 4 2 exAct 0 1).init exGen () g
  return [.rawConv c, .fc f]

example : (do
    let net ← exSaved
    let bs ← exCodec.serialize (exCodec.putNet exReg) [.inr 5] net
    let r ← exCodec.deserialize (exCodec.getNet exReg (fun i => (i, fun j => j))) (bs.drop 1 ++ [.inl 3])
    let p ← net.feedforward ⟨1, 3, 3, Buf.of [1, 2, 3, 4, 5, 6, 7, 8, 9]⟩
    let q ← r.1.feedforward ⟨1, 3, 3, Buf.of [1, 2, 3, 4, 5, 6, 7, 8, 9]⟩
    return decide (p.2 = q.2 ∧ p.2.data = Buf.of [8259876, 9753129] ∧ r.2.length = 1) : Res Bool) = .ok true := by decide +kernel

/-! ## C59 loaded MaxPooling layers -/

/-- Loading a saved pooling layer succeeds and restores geometry and activation, but leaves the output tensor empty. -/
theorem C59_loaded [Zero α] (c : Codec α β) (hc : c.Lawful) (R : Registry α) (l : Pool α) (d oh ow sv sh : Nat)
    (hl : l.Wf d oh ow sv sh) (ha : R.Has l.act) (hi : Small3 d (oh * sv) (ow * sh)) (ho : Small3 d oh ow) (h1 : sv < W64) (h2 : sh < W64) :
    RoundTrip (.ok (c.putPool R l)) (c.getPool R) (fun l' => l'.id = d ∧ l'.ih = oh * sv ∧ l'.iw = ow * sh ∧ l'.od = d ∧ l'.oh = oh ∧
      l'.ow = ow ∧ l'.sv = sv ∧ l'.sh = sh ∧ l'.act = l.act ∧ l'.value.data = [] ∧
      TenIs l'.mask d (oh * sv) (ow * sh) (fun _ _ _ => 0)) := by
  obtain ⟨e1, e2, e3⟩ := hl.isz
  obtain ⟨e4, e5, e6⟩ := hl.osz
  obtain ⟨e7, e8⟩ := hl.str
  have k1 : Small3 l.id l.ih l.iw := by rw [e1, e2, e3]; exact hi
  have k2 : Small3 l.od l.oh l.ow := by rw [e4, e5, e6]; exact ho
  refine ⟨_, { id := l.id, ih := l.ih, iw := l.iw, od := l.od, oh := l.oh, ow := l.ow, sv := l.sv, sh := l.sh, act := l.act,
               value := ⟨0, 0, 0, []⟩, buff := tenOf (Shape.mk3 l.od l.oh l.ow), mask := tenOf (Shape.mk3 l.id l.ih l.iw),
               delta := tenOf (Shape.mk3 l.id l.ih l.iw) }, rfl, fun rest => ?_, e1, e2, e3, e4, e5, e6, e7, e8, rfl, rfl, ?_⟩
  · unfold Codec.getPool Codec.putPool
    simp only [List.append_assoc]
    rw [read_shape hc k1.1 k1.2.1 k1.2.2.1 (by rw [k1.size]; exact k1.2.2.2.2), bind_ok]; dsimp only
    rw [read_shape hc k2.1 k2.2.1 k2.2.2.1 (by rw [k2.size]; exact k2.2.2.2.2), bind_ok]; dsimp only
    rw [hc.nat _ (by rw [e7]; exact h1), bind_ok]; dsimp only
    rw [hc.nat _ (by rw [e8]; exact h2), bind_ok]; dsimp only
    rw [read_act hc ha, bind_ok]; rfl
  · show TenIs (tenOf (Shape.mk3 l.id l.ih l.iw)) _ _ _ _
    rw [e1, e2, e3]; exact tenOf_is hi

theorem rounds_pos {n s : Nat} (hn : 1 ≤ n) (hs : 1 ≤ s) : 0 < rounds n s := by
  unfold rounds
  exact Nat.div_pos (by omega) (by omega)

theorem forN_fails {σ : Type} {n : Nat} {e : UB} {s : σ} {body : Nat → σ → Res σ} (hn : 0 < n) (h : body 0 s = .error e) :
    forN n s body = .error e :=
  forN_err (k := 0) (fun _ t => t = s) hn rfl (fun i hi => absurd hi (Nat.not_lt_zero _)) (fun t ht => by rw [ht]; exact h)

theorem Ten.set_empty (d h w i j k : Nat) (a : α) : (⟨d, h, w, []⟩ : Ten α).set i j k a = .error .oob := rfl

/-- VIOLATED: a pooling layer with a non-empty output, saved and loaded, cannot be used: on every input of the right shape the
inference layer's forward and the training layer's forward write outside their (empty) output tensor, although the saved layers'
forward is defined. -/
theorem C59_violated [LinearOrder α] [Zero α] [One α] (c : Codec α β) (hc : c.Lawful) (R : Registry α) (l : Pool α) (d oh ow sv sh : Nat)
    (hl : l.Wf d oh ow sv sh) (ha : R.Has l.act) (hi : Small3 d (oh * sv) (ow * sh)) (ho : Small3 d oh ow) (h1 : sv < W64) (h2 : sh < W64)
    (hd : 1 ≤ d) (hoh : 1 ≤ oh) (how : 1 ≤ ow) (F D : (Nat → α) → Nat → α) (hA : l.act.Is (d * oh * ow) F D) :
    RoundTrip (.ok (c.putPool R l)) (c.getPool R) (fun l' => ∀ x v, TenIs x d (oh * sv) (ow * sh) v →
      (∃ r, l.forwardRaw x = .ok r) ∧ l'.forwardRaw x = .error .oob ∧ (∃ r, l.forward x = .ok r) ∧ l'.forward x = .error .oob) := by
  obtain ⟨bs, l', p, r, a1, a2, a3, a4, a5, a6, a7, a8, a9, a10, a11⟩ := C59_loaded c hc R l d oh ow sv sh hl ha hi ho h1 h2
  refine ⟨bs, l', p, r, fun x v hx => ?_⟩
  have hsv := hl.hsv
  have hsh := hl.hsh
  obtain ⟨r1, q1, _⟩ := Pool.forwardRaw_spec hl hx hA
  obtain ⟨bf, hb⟩ := hl.buff
  obtain ⟨r2, q2, _⟩ := Pool.forward_spec hl hx hb hA
  have k1 : 0 < rounds (oh * sv) sv := rounds_pos (Nat.mul_pos hoh hsv) hsv
  have k2 : 0 < rounds (ow * sh) sh := rounds_pos (Nat.mul_pos how hsh) hsh
  have hset : ∀ i j k (a : α), l'.value.set i j k a = .error .oob := fun i j k a => by
    have : l'.value = ⟨l'.value.d, l'.value.h, l'.value.w, []⟩ := by rw [← a10]
    rw [this]; rfl
  refine ⟨⟨r1, q1⟩, ?_, ⟨r2, q2⟩, ?_⟩
  · obtain ⟨m, hm, _⟩ := poolScan_spec hsv hsh hx hd hoh how
    unfold Pool.forwardRaw
    rw [a1, a2, a3, a7, a8]
    rw [forN_fails hd (e := .oob)]
    · rfl
    rw [forN_fails k1 (e := .oob)]
    rw [forN_fails k2 (e := .oob)]
    rw [hm, bind_ok, hset]
  · unfold Pool.forward Ten.onData; dsimp only
    obtain ⟨mk, hmk, hz⟩ := fillInto_spec (r := l'.mask.data) rfl (0 : α)
    rw [hmk, bind_ok, pure_eq_ok, bind_ok]
    have hm : TenIs ({ l'.mask with data := mk } : Ten α) d (oh * sv) (ow * sh) (fun _ _ _ => 0) := by
      rw [a11.2.2.2.1] at hz
      exact TenIs.of_flat (t := { l'.mask with data := mk }) a11.1 a11.2.1 a11.2.2.1 hz
    obtain ⟨sc, hsc, _⟩ := poolScanT_spec hsv hsh hx hm hd hoh how (fun _ _ _ _ => rfl)
    unfold Pool.scanAll
    rw [a1, a2, a3, a7, a8]
    rw [forN_fails hd (e := .oob)]
    · rfl
    rw [forN_fails k1 (e := .oob)]
    rw [forN_fails k2 (e := .oob)]
    dsimp only
    rw [hsc, bind_ok, hset]; rfl

/-- What holds: the round trip restores geometry and activation; on a layer whose output is empty (no channels) the loaded layer's
forward is defined. -/
theorem C59_empty_partial [LT α] [DecidableLT α] [Zero α] (c : Codec α β) (hc : c.Lawful) (R : Registry α) (l : Pool α) (oh ow sv sh : Nat)
    (hl : l.Wf 0 oh ow sv sh) (ha : R.Has l.act) (hi : Small3 0 (oh * sv) (ow * sh)) (ho : Small3 0 oh ow) (h1 : sv < W64) (h2 : sh < W64)
    (F D : (Nat → α) → Nat → α) (hA : l.act.Is 0 F D) :
    RoundTrip (.ok (c.putPool R l)) (c.getPool R) (fun l' => ∀ x, Ok (l'.forwardRaw x) (fun r => r.value.data = [])) := by
  obtain ⟨bs, l', p, r, a1, a2, a3, a4, a5, a6, a7, a8, a9, a10, a11⟩ := C59_loaded c hc R l 0 oh ow sv sh hl ha hi ho h1 h2
  refine ⟨bs, l', p, r, fun x => ?_⟩
  unfold Pool.forwardRaw
  rw [a1, forN_zero, bind_ok, a10, a9]
  obtain ⟨r', e, hr⟩ := hA.fSelf [] (fun _ => 0) ⟨rfl, fun i hi => absurd hi (Nat.not_lt_zero _)⟩
  rw [e, bind_ok]
  exact Ok_ok.2 (List.length_eq_zero_iff.1 hr.1)

/-- Non-vacuity of C59: a 1×2×4 layer with 2×2 windows. -/
example : (do let l ← Pool.make 1 2 4 2 2 exAct
              let (l', _) ← exCodec.getPool exReg (exCodec.putPool exReg l)
              l'.forwardRaw ⟨1, 2, 4, Buf.of [1, 2, 7, 8, 5, 3, 7, -1]⟩ : Res (Pool Int)).toOption.isSome = false := by decide +kernel

/-! ## C60 saving does not disturb -/

/-- In every state reached by a valid history, saving container `x` writes exactly its list, leaves the free store and every other
container as they are, and changes the object only by lowering its capacity to its size; it still shows the same list, and every
valid continuation (growth, copies, destruction, …) is defined and keeps showing the lists of the abstract history. -/
theorem C60_container {α : Type _} (dflt : α) (moved : α → α) (ops : List (COp α)) (hv : CValidHist dflt moved CWorld.init (fun _ => none) ops)
    (x : Nat) (l : List α) (hx : absRun dflt (fun _ => none) ops x = some (some l)) :
    Ok (CWorld.init.run dflt moved ops) (fun w => ∃ k, w.conts x = some k ∧ Shows w.store k l ∧
      k.save w.store = .ok (l, { k with cap := k.size }) ∧ Shows w.store { k with cap := k.size } l ∧
      ∀ more, CValidHist dflt moved ⟨w.store, cset w.conts x (some { k with cap := k.size })⟩ (absRun dflt (fun _ => none) ops) more →
        Ok (CWorld.run dflt moved ⟨w.store, cset w.conts x (some { k with cap := k.size })⟩ more) (fun w' =>
          ∀ y ly, absRun dflt (absRun dflt (fun _ => none) ops) more y = some (some ly) →
            ∃ ky, w'.conts y = some ky ∧ Shows w'.store ky ly)) := by
  refine (run_cinv ops CInv.init hv).mono (fun w I => ?_)
  obtain ⟨k, hk, hs⟩ := I.shows hx
  obtain ⟨w', hw', I'⟩ := step_cinv (dflt := dflt) (moved := moved) I (.save x) ⟨l, hx⟩
  have hsave : k.save w.store = .ok (l, { k with cap := k.size }) := by
    unfold Cont.save; rw [hs.2.2.2.1, bind_ok]; rfl
  have hget : w.get x = .ok k := by unfold CWorld.get; rw [hk]
  unfold CWorld.step at hw'
  dsimp only at hw'
  rw [hget, bind_ok, hsave, bind_ok] at hw'
  cases hw'
  have I'' : CInv ⟨w.store, cset w.conts x (some { k with cap := k.size })⟩ (absRun dflt (fun _ => none) ops) := I'
  refine ⟨k, hk, hs, hsave, ?_, fun more hm => ?_⟩
  · obtain ⟨k', e, s'⟩ := I''.shows hx
    have e' : cset w.conts x (some { k with cap := k.size }) x = some k' := e
    rw [cset_self] at e'
    cases e'
    exact s'
  · exact (run_cinv more I'' hm).mono (fun w' J y ly hy => J.shows hy)

/-- Non-vacuity: a container with spare capacity, saved, grown again. -/
example : CValidHist 0 (fun _ => 0) CWorld.init (fun _ => none)
    [.default 0, .reserve 0 4, .emplaceBack 0 5, .save 0, .emplaceBack 0 6] := by
  refine ⟨rfl, fun w h => ?_⟩; cases h
  refine ⟨⟨_, rfl⟩, fun w h => ?_⟩; cases h
  refine ⟨⟨_, rfl⟩, fun w h => ?_⟩; cases h
  refine ⟨⟨_, rfl⟩, fun w h => ?_⟩; cases h
  refine ⟨⟨_, rfl⟩, fun w h => ?_⟩; cases h
  trivial

end Trixy
