import Verif.Spec.Net
/-
Vocabulary for "training never leaves defined behaviour": networks of FullyConnected, Convolutional and MaxPooling training
layers in any order that fits, over any element type.
-/
namespace Trixy

variable {α γ ρ σ : Type}

/-- A tensor shape (depth, height, width). -/
abbrev Shp := Nat × Nat × Nat

/-- Number of cells. -/
def Shp.vol (s : Shp) : Nat := s.1 * s.2.1 * s.2.2

/-- The tensor has this shape and all its cells are initialised. -/
def ShapeIs (t : Ten α) (s : Shp) : Prop := t.d = s.1 ∧ t.h = s.2.1 ∧ t.w = s.2.2 ∧ Full t.data s.vol

/-- What never changes about a layer after construction: its class, sizes, activation and the addresses of its parameters. -/
inductive LayerKind (α : Type) where
  | dense (n m : Nat) (act : Act α) (kB kW : Nat)
  | conv (d h w fc fh fw pad sv sh : Nat) (kB : Nat) (kW : Nat → Nat)
  | pool (d oh ow sv sh : Nat) (act : Act α)

/-- Calling the layer's constructor. -/
def LayerKind.make [Zero α] : LayerKind α → Res (Layer α)
  | .dense n m act kB kW => .ok (.fc (FC.make n m act kB kW))
  | .conv d h w fc fh fw pad sv sh kB kW => do let l ← Conv.make d h w fc fh fw pad sv sh kB kW; return .conv l
  | .pool d oh ow sv sh act => do let l ← Pool.make d (oh * sv) (ow * sh) sv sh act; return .pool l

/-- Constructing all layers. -/
def LayerKind.makeAll [Zero α] : List (LayerKind α) → Res (Net α)
  | [] => .ok []
  | k :: ks => do let l ← k.make; let ls ← LayerKind.makeAll ks; return l :: ls

/-- The constructor arguments make sense; `size a` is the number of parameters stored at address `a`. -/
def LayerKind.Valid (size : Nat → Nat) : LayerKind α → Prop
  | .dense n m act kB kW => (∃ F D, act.Is m F D) ∧ size kB = m ∧ size kW = n * m
  | .conv d h w fc fh fw pad sv sh kB kW => Geo h w fh fw pad sv sh ∧ 1 ≤ fc ∧ size kB = fc ∧ ∀ f, f < fc → size (kW f) = d * fh * fw
  | .pool d oh ow sv sh act => 1 ≤ sv ∧ 1 ≤ sh ∧ ∃ F D, act.Is (d * oh * ow) F D

/-- The layer object is of this kind and all its members are allocated and initialised. -/
def Layer.Sound [Zero α] : Layer α → LayerKind α → Prop
  | .fc l, .dense n m act kB kW => (∃ b W, l.Wf n m b W) ∧ l.act = act ∧ l.keyB = kB ∧ l.keyW = kW
  | .conv l, .conv d h w nf fh fw pad sv sh kB kW =>
      (∃ b W gb gW, l.Wf d h w nf fh fw pad sv sh b W gb gW) ∧ l.keyB = kB ∧ l.keyW = kW
  | .pool l, .pool d oh ow sv sh act => l.Wf d oh ow sv sh ∧ l.act = act
  | _, _ => False

/-- Shape of `value()`. -/
def LayerKind.outShape : LayerKind α → Shp
  | .dense _ m _ _ _ => (1, 1, m)
  | .conv _ h w fc fh fw pad sv sh _ _ => (fc, extent h fh pad sv, extent w fw pad sh)
  | .pool d oh ow _ _ _ => (d, oh, ow)

/-- Shape of `delta()`. -/
def LayerKind.inShape : LayerKind α → Shp
  | .dense n _ _ _ _ => (1, 1, n)
  | .conv d h w _ _ _ _ _ _ _ _ => (d, h, w)
  | .pool d oh ow sv sh _ => (d, oh * sv, ow * sh)

/-- Shapes of inputs the layer can be given: a dense layer reads its input as a flat range, the others index it. -/
def LayerKind.Reads : LayerKind α → Shp → Prop
  | .dense n _ _ _ _, s => s.vol = n
  | .conv d h w _ _ _ _ _ _ _ _, s => s = (d, h, w)
  | .pool d oh ow sv sh _, s => s = (d, oh * sv, ow * sh)

/-- Shapes of incoming deltas: dense and pooling layers read them as a flat range, a convolution indexes them. -/
def LayerKind.Accepts : LayerKind α → Shp → Prop
  | .dense _ m _ _ _, s => s.vol = m
  | .conv _ h w fc fh fw pad sv sh _ _, s => s = (fc, extent h fh pad sv, extent w fw pad sh)
  | .pool d oh ow _ _ _, s => s.vol = d * oh * ow

/-- Layers that can follow each other in a trained network. -/
def LayerKind.Fit (k k' : LayerKind α) : Prop := k'.Reads k.outShape ∧ k.Accepts k'.inShape

/-- Every layer fits its successor, the first reads inputs of shape `s`, the last has output shape `o`. -/
def Fits : Shp → List (LayerKind α) → Shp → Prop
  | _, [], _ => False
  | s, [k], o => k.Reads s ∧ k.outShape = o
  | s, k :: k' :: ks, o => k.Reads s ∧ k.Accepts k'.inShape ∧ Fits k.outShape (k' :: ks) o

/-- A call on a training object (Training/UnifiedNet.hpp:73-208), or `network.feedforward(x)`. -/
inductive TrainOp (α γ : Type) where
  | batch (idata odata : List (Ten α)) (epochs : Nat)
  | mini (idata odata : List (Ten α)) (epochs m : Nat)
  | sto (idata odata : List (Ten α)) (iterations : Nat) (c : γ)
  | lossOf (idata odata : List (Ten α))
  | eval (x : Ten α)
  | setLoss (l : Loss α)

section
variable [Zero α] [One α] [Add α] [Mul α] [Div α] [NatCast α] [LT α] [DecidableLT α] [DecidableEq α]

/-- Executing a call; the state is (optimizer, generator, training object with its network). -/
def TrainOp.exec (upd : Upd σ α) (gen : Gen γ ρ Nat) (st : (σ × Train α) × ρ) : TrainOp α γ → Res ((σ × Train α) × ρ)
  | .batch idata odata epochs => do let r ← Train.batch upd idata odata epochs st.1; return (r, st.2)
  | .mini idata odata epochs m => do let r ← Train.miniBatch upd idata odata epochs m st.1; return (r, st.2)
  | .sto idata odata iterations c => Train.stochastic upd idata odata iterations gen c st.2 st.1
  | .lossOf idata odata => do let r ← st.1.2.lossMean idata odata; return ((st.1.1, r.2), st.2)
  | .eval x => do let t ← st.1.2.feedforward x; return ((st.1.1, t), st.2)
  | .setLoss l => .ok ((st.1.1, { st.1.2 with loss := some l }), st.2)

/-- A sequence of calls. -/
def TrainOp.run (upd : Upd σ α) (gen : Gen γ ρ Nat) : (σ × Train α) × ρ → List (TrainOp α γ) → Res ((σ × Train α) × ρ)
  | st, [] => .ok st
  | st, op :: ops => do let st ← TrainOp.exec upd gen st op; TrainOp.run upd gen st ops

end

/-- Samples and targets match the network: inputs of shape `s`, targets with as many cells as the output `o`. -/
def DataFits (idata odata : List (Ten α)) (s o : Shp) : Prop :=
  (∀ x ∈ idata, ShapeIs x s) ∧ (∀ y ∈ odata, Full y.data o.vol) ∧ idata.length = odata.length

/-- The arguments of a call make sense. -/
def TrainOp.Good (s o : Shp) : TrainOp α γ → Prop
  | .batch idata odata _ => DataFits idata odata s o ∧ idata ≠ []
  | .mini idata odata _ m => DataFits idata odata s o ∧ m ≠ 0
  | .sto idata odata _ _ => DataFits idata odata s o ∧ idata ≠ []
  | .lossOf idata odata => DataFits idata odata s o ∧ idata ≠ []
  | .eval x => ShapeIs x s
  | .setLoss l => ∃ L dL, l.Is o.vol L dL

/-- A training object whose network consists of sound layers of the kinds `ks`, with a delta of the output's shape and a loss
that is defined on outputs. -/
structure Train.Safe [Zero α] (t : Train α) (ks : List (LayerKind α)) (o : Shp) : Prop where
  net : List.Forall₂ Layer.Sound t.net ks
  delta : t.delta.d = o.1 ∧ t.delta.h = o.2.1 ∧ t.delta.w = o.2.2 ∧ t.delta.data.length = o.vol
  loss : ∃ l L dL, t.loss = some l ∧ l.Is o.vol L dL

end Trixy
