import Verif.Spec.Alias
import Verif.Model.HeapNet
/- Specification vocabulary for layers and networks whose tensors live in the free store. -/
namespace Trixy

variable {α σ : Type}

/-- The two objects have no cell in common. -/
def Obj.Apart (a b : Obj) : Prop := Trixy.Apart a.data a.shape.size b.data b.shape.size

/-- The object `o` has the contents `b` (its size is the number of cells). -/
def Heap.Keeps (H : Heap α) (o : Obj) (b : Buf α) : Prop := o.shape.size = b.length ∧ H.Stores o.data b

/-- The object `o` is the tensor `t`: same dimensions, same contents. -/
def Heap.KeepsT (H : Heap α) (o : Obj) (t : Ten α) : Prop :=
  o.shape.d = t.d ∧ o.shape.h = t.h ∧ o.shape.w = t.w ∧ H.Keeps o t.data

/-- The `i`-th object has the `i`-th contents. -/
def Heap.Held (H : Heap α) (os : List Obj) (bs : List (Buf α)) : Prop := List.Forall₂ H.Keeps os bs

/-- Different objects of the list have no cell in common. -/
def AllApart (os : List Obj) : Prop := os.Pairwise Obj.Apart

/-- `H'` differs from `H` at most in the cells of the objects `ws`: nothing is allocated or freed. -/
def Heap.Only (H H' : Heap α) (ws : List Obj) : Prop :=
  H'.next = H.next ∧ (∀ b, H'.live b ↔ H.live b) ∧
  ∀ b o, (∀ w ∈ ws, ∀ pb po, w.data = .at pb po → ¬ (b = pb ∧ po ≤ o ∧ o < po + w.shape.size)) → H'.cellAt b o = H.cellAt b o

/-! ### Function objects -/

/-- After the call the object `r` holds `b` and nothing else has changed. -/
def Heap.Sets (H H' : Heap α) (r : Obj) (b : Buf α) : Prop := H'.Keeps r b ∧ H.Only H' [r]

/-- The activation object computes, on objects in memory that are apart or the same, what `a` computes on values. -/
structure HAct.Follows (h : HAct α) (a : Act α) : Prop where
  f : ∀ (H : Heap α) (r x : Obj) (br bx b : Buf α), H.Keeps r br → H.Keeps x bx → Obj.Apart r x → a.f br bx = .ok b →
    Ok (h.f H r x) (fun H' => H.Sets H' r b)
  fSelf : ∀ (H : Heap α) (r : Obj) (br b : Buf α), H.Keeps r br → a.fSelf br = .ok b → Ok (h.f H r r) (fun H' => H.Sets H' r b)
  df : ∀ (H : Heap α) (r x : Obj) (br bx b : Buf α), H.Keeps r br → H.Keeps x bx → Obj.Apart r x → a.df br bx = .ok b →
    Ok (h.df H r x) (fun H' => H.Sets H' r b)
  dfSelf : ∀ (H : Heap α) (r : Obj) (br b : Buf α), H.Keeps r br → a.dfSelf br = .ok b → Ok (h.df H r r) (fun H' => H.Sets H' r b)

/-- The loss object computes on objects in memory what `l` computes on values (target and prediction are only read and may be
the same object). -/
structure HLoss.Follows (h : HLoss α) (l : Loss α) : Prop where
  f : ∀ (H : Heap α) (t p : Obj) (bt bp : Buf α) (v : α), H.Keeps t bt → H.Keeps p bp → l.f bt bp = .ok v → h.f H t p = .ok v
  df : ∀ (H : Heap α) (r t p : Obj) (br bt bp b : Buf α), H.Keeps r br → H.Keeps t bt → H.Keeps p bp → Obj.Apart r t →
    Obj.Apart r p → l.df br bt bp = .ok b → Ok (h.df H r t p) (fun H' => H.Sets H' r b)

/-- The optimizer computes on a parameter and a gradient in memory what `u` computes on values; `addr` gives the address the
state tables are keyed by. -/
def HUpd.Follows (addr : Ptr → Nat) (h : HUpd σ α) (u : Upd σ α) : Prop :=
  ∀ (H : Heap α) (s s' : σ) (p g : Obj) (bp bg bp' bg' : Buf α), H.Keeps p bp → H.Keeps g bg → Obj.Apart p g →
    u s (addr p.data) bp bg = .ok (s', bp', bg') →
    Ok (h H s p g) (fun r => r.2 = s' ∧ r.1.Keeps p bp' ∧ r.1.Keeps g bg' ∧ H.Only r.1 [p, g])

/-! ### Layers -/

/-- The tensor members of a layer object, in the order of `FC.bufs`. -/
def HFC.objs (l : HFC α) : List Obj := [l.B, l.W, l.value, l.buff, l.gradB, l.gradW, l.gradBs, l.gradWs, l.delta]
/-- The contents of the members. -/
def FC.bufs (l : FC α) : List (Buf α) :=
  [l.B, l.W.data, l.value.data, l.buff, l.gradB, l.gradW.data, l.gradBs, l.gradWs.data, l.delta.data]

/-- As above. -/
def HRawFC.objs (l : HRawFC α) : List Obj := [l.B, l.W, l.value]
def RawFC.bufs (l : RawFC α) : List (Buf α) := [l.B, l.W.data, l.value.data]

/-- As above; the filters and their gradients follow the other members. -/
def HConv.objs (l : HConv) : List Obj := [l.B, l.value, l.gradB, l.delta, l.buff] ++ (l.Ws ++ l.gradWs)
def Conv.bufs (l : Conv α) : List (Buf α) :=
  [l.B, l.value.data, l.gradB, l.delta.data, l.buff.data] ++ (l.Ws.map Ten.data ++ l.gradWs.map Ten.data)

/-- As above. -/
def HPool.objs (l : HPool α) : List Obj := [l.value, l.buff, l.mask, l.delta]
def Pool.bufs (l : Pool α) : List (Buf α) := [l.value.data, l.buff.data, l.mask.data, l.delta.data]

/-- The inference versions of the convolution and pooling layers do not have all members. -/
def HConv.rawObjs (l : HConv) : List Obj := [l.B, l.value] ++ l.Ws
def Conv.rawBufs (l : Conv α) : List (Buf α) := [l.B, l.value.data] ++ l.Ws.map Ten.data
def HPool.rawObjs (l : HPool α) : List Obj := [l.value]
def Pool.rawBufs (l : Pool α) : List (Buf α) := [l.value.data]

/-- Same dimensions. -/
def Obj.DimsT (o : Obj) (t : Ten α) : Prop := o.shape.d = t.d ∧ o.shape.h = t.h ∧ o.shape.w = t.w

/-- The layer object `h` and the layer value `l` agree in everything but the contents of the tensors. -/
structure HFC.Fits (addr : Ptr → Nat) (h : HFC α) (l : FC α) : Prop where
  isize : h.isize = l.isize
  osize : h.osize = l.osize
  wW : h.W.shape.w = l.W.w
  value : h.value.DimsT l.value
  delta : h.delta.DimsT l.delta
  act : h.act.Follows l.act
  acc : h.accumulated = l.accumulated
  keyB : l.keyB = addr h.B.data
  keyW : l.keyW = addr h.W.data

/-- As above. -/
structure HRawFC.Fits (h : HRawFC α) (l : RawFC α) : Prop where
  isize : h.isize = l.isize
  osize : h.osize = l.osize
  wW : h.W.shape.w = l.W.w
  value : h.value.DimsT l.value
  act : h.act.Follows l.act

/-- As above: the part the inference layer has as well. -/
structure HConv.FitsRaw (h : HConv) (l : Conv α) : Prop where
  ext : h.id = l.id ∧ h.ih = l.ih ∧ h.iw = l.iw ∧ h.od = l.od ∧ h.oh = l.oh ∧ h.ow = l.ow ∧ h.pad = l.pad ∧ h.sv = l.sv ∧ h.sh = l.sh
  filt : h.fc = l.fc ∧ h.fd = l.fd ∧ h.fh = l.fh ∧ h.fw = l.fw
  value : h.value.DimsT l.value
  Ws : List.Forall₂ Obj.DimsT h.Ws l.Ws

/-- As above. -/
structure HConv.Fits (addr : Ptr → Nat) (h : HConv) (l : Conv α) : Prop extends HConv.FitsRaw h l where
  gradWs : List.Forall₂ Obj.DimsT h.gradWs l.gradWs
  delta : h.delta.DimsT l.delta
  buff : h.buff.DimsT l.buff
  keyB : l.keyB = addr h.B.data
  keyW : ∀ (i : Nat) (o : Obj), h.Ws[i]? = some o → l.keyW i = addr o.data

/-- As above: the part the inference layer has as well. -/
structure HPool.FitsRaw (h : HPool α) (l : Pool α) : Prop where
  ext : h.id = l.id ∧ h.ih = l.ih ∧ h.iw = l.iw ∧ h.od = l.od ∧ h.oh = l.oh ∧ h.ow = l.ow ∧ h.sv = l.sv ∧ h.sh = l.sh
  value : h.value.DimsT l.value
  act : h.act.Follows l.act

/-- As above. -/
structure HPool.Fits (h : HPool α) (l : Pool α) : Prop extends HPool.FitsRaw h l where
  buff : h.buff.DimsT l.buff
  mask : h.mask.DimsT l.mask
  delta : h.delta.DimsT l.delta

/-- The tensor members of a layer. -/
def HLayer.objs : HLayer α → List Obj
  | .fc l => l.objs
  | .conv l => l.objs
  | .pool l => l.objs
  | .rawFC l => l.objs
  | .rawConv l => l.rawObjs
  | .rawPool l => l.rawObjs

/-- The layer object `h` in the memory `H` has the value `l`. -/
inductive HLayer.Is (addr : Ptr → Nat) (H : Heap α) : HLayer α → Layer α → Prop
  | fc {h : HFC α} {l : FC α} (hf : h.Fits addr l) (hm : H.Held h.objs l.bufs) : HLayer.Is addr H (.fc h) (.fc l)
  | conv {h : HConv} {l : Conv α} (hf : h.Fits addr l) (hm : H.Held h.objs l.bufs) : HLayer.Is addr H (.conv h) (.conv l)
  | pool {h : HPool α} {l : Pool α} (hf : h.Fits l) (hm : H.Held h.objs l.bufs) : HLayer.Is addr H (.pool h) (.pool l)
  | rawFC {h : HRawFC α} {l : RawFC α} (hf : h.Fits l) (hm : H.Held h.objs l.bufs) : HLayer.Is addr H (.rawFC h) (.rawFC l)
  | rawConv {h : HConv} {l : Conv α} (hf : h.FitsRaw l) (hm : H.Held h.rawObjs l.rawBufs) : HLayer.Is addr H (.rawConv h) (.rawConv l)
  | rawPool {h : HPool α} {l : Pool α} (hf : h.FitsRaw l) (hm : H.Held h.rawObjs l.rawBufs) : HLayer.Is addr H (.rawPool h) (.rawPool l)

/-- The tensor members of all layers. -/
def HNet.objs (net : HNet α) : List Obj := net.flatMap HLayer.objs

/-- The network object in the memory `H` has the value `v`. -/
def HNet.Is (addr : Ptr → Nat) (H : Heap α) (net : HNet α) (v : Net α) : Prop := List.Forall₂ (HLayer.Is addr H) net v

/-- The members of the layer that `forward` writes while it still reads its input. -/
def HLayer.scratch : HLayer α → List Obj
  | .fc l => [l.buff]
  | .conv l => [l.value]
  | .pool l => [l.mask, l.value]
  | .rawFC l => [l.value]
  | .rawConv l => [l.value]
  | .rawPool l => [l.value]

/-- The training object and the network in the memory, with the optimizer, have the value `st`. -/
structure HTrain.Is (addr : Ptr → Nat) (t : HTrain α σ) (st : σ × Train α) : Prop where
  opt : t.opt = st.1
  net : HNet.Is addr t.heap t.net st.2.net
  delta : t.heap.KeepsT t.delta st.2.delta
  loss : (t.loss = none ∧ st.2.loss = none) ∨ ∃ h l, t.loss = some h ∧ st.2.loss = some l ∧ HLoss.Follows h l

/-- The tensors that belong to the network and to the training object. -/
def HTrain.owned (t : HTrain α σ) : List Obj := HNet.objs t.net ++ [t.delta]

/-- The data set `X` in memory has the contents `xs` and is apart from all tensors of the network and the training object. -/
structure HTrain.Data (t0 : HTrain α σ) (X : List Obj) (xs : List (Ten α)) : Prop where
  holds : List.Forall₂ t0.heap.KeepsT X xs
  apart : ∀ x ∈ X, ∀ o ∈ t0.owned, Obj.Apart o x

end Trixy
