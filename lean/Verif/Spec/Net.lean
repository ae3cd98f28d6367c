import Verif.Model.Train
import Verif.Spec.Conv
import Verif.Spec.Pool
/-
Specification vocabulary for networks: what a layer computes as a function on flat tensors, networks of dense layers with
their gradients in the evaluation order of the code, losses.
-/
namespace Trixy

variable {α γ ρ σ : Type}

/-! ### Functions computed by layers -/

/-- `t` has shape `s = (d, h, w)` and holds `v 0, v 1, …` in memory order. -/
def FlatIs (t : Ten α) (s : Nat × Nat × Nat) (v : Nat → α) : Prop :=
  t.d = s.1 ∧ t.h = s.2.1 ∧ t.w = s.2.2 ∧ VecIs t.data (s.1 * s.2.1 * s.2.2) v

/-- Cell (c, i, j) of a flat `h × w` tensor. -/
def unflat (h w : Nat) (v : Nat → α) : Nat → Nat → Nat → α := fun c i j => v ((c * h + i) * w + j)

/-- The layer `l` computes `F` from inputs of shape `s` to outputs of shape `s'`: a fully connected layer the activation of
`x·W + b`, a convolution the zero-padded cross-correlation, an inference pooling layer the activation of the window
maxima. The training pooling layer is not in the list: it does not compute a function of its input (C35). -/
inductive Layer.Computes [CommSemiring α] [LinearOrder α] : Layer α → Nat × Nat × Nat → Nat × Nat × Nat →
    ((Nat → α) → Nat → α) → Prop
  | fc {l : FC α} {d h w m b W F D} : l.Wf (d * h * w) m b W → l.act.Is m F D →
      Computes (.fc l) (d, h, w) (1, 1, m) (fun v => F (affine (d * h * w) W b v))
  | rawFC {l : RawFC α} {d h w m b W F D v0} : VecIs l.B m b → MatIs l.W (d * h * w) m W → RowIs l.value m v0 → l.act.Is m F D →
      Computes (.rawFC l) (d, h, w) (1, 1, m) (fun v => F (affine (d * h * w) W b v))
  | conv {l : Conv α} {d h w fc fh fw pad sv sh b W gb gW} : l.Wf d h w fc fh fw pad sv sh b W gb gW →
      Computes (.conv l) (d, h, w) (fc, extent h fh pad sv, extent w fw pad sh)
        (fun v k => corr d h w fh fw pad sv sh b W (unflat h w v) (k / extent w fw pad sh / extent h fh pad sv)
          (k / extent w fw pad sh % extent h fh pad sv) (k % extent w fw pad sh))
  | rawConv {l : Conv α} {d h w fc fh fw pad sv sh b W gb gW} : l.Wf d h w fc fh fw pad sv sh b W gb gW →
      Computes (.rawConv l) (d, h, w) (fc, extent h fh pad sv, extent w fw pad sh)
        (fun v k => corr d h w fh fw pad sv sh b W (unflat h w v) (k / extent w fw pad sh / extent h fh pad sv)
          (k / extent w fw pad sh % extent h fh pad sv) (k % extent w fw pad sh))
  | rawPool {l : Pool α} {d oh ow sv sh} {g g' : α → α} {M : (Nat → α) → Nat → Nat → Nat → α} : l.Wf d oh ow sv sh →
      l.act = Act.elementwise g g' →
      (∀ v c p q, c < d → p < oh → q < ow → WindowMax (unflat (oh * sv) (ow * sh) v) sv sh c p q (M v c p q)) →
      Computes (.rawPool l) (d, oh * sv, ow * sh) (d, oh, ow) (fun v k => g (M v (k / ow / oh) (k / ow % oh) (k % ow)))

/-- The layers compute `F` one after the other. -/
inductive Net.Computes [CommSemiring α] [LinearOrder α] : Net α → Nat × Nat × Nat → Nat × Nat × Nat →
    ((Nat → α) → Nat → α) → Prop
  | nil {s} : Net.Computes [] s s (fun v => v)
  | cons {l : Layer α} {ls : Net α} {s s' s'' F G} : l.Computes s s' F → Net.Computes ls s' s'' G →
      Net.Computes (l :: ls) s s'' (fun v => G (F v))

/-- The trainable parameters of a layer. -/
def Layer.params : Layer α → List (Buf α)
  | .fc l => [l.B, l.W.data]
  | .rawFC l => [l.B, l.W.data]
  | .conv l => l.B :: l.Ws.map (·.data)
  | .rawConv l => l.B :: l.Ws.map (·.data)
  | .pool _ => []
  | .rawPool _ => []

/-! ### Dense networks -/

/-- One dense layer: `n` inputs, `m` outputs, bias `b`, weights `W`, activation `F` with the function `D` its `df` computes. -/
structure Dense (α : Type) where
  n : Nat
  m : Nat
  b : Nat → α
  W : Nat → Nat → α
  F : (Nat → α) → Nat → α
  D : (Nat → α) → Nat → α

/-- A pair (bias gradient, weight gradient). -/
abbrev Grad (α : Type) := (Nat → α) × (Nat → Nat → α)

section
variable [Zero α] [Add α] [Mul α]

/-- Output of a dense layer. -/
def Dense.out (p : Dense α) (v : Nat → α) : Nat → α := p.F (affine p.n p.W p.b v)

/-- Output of a stack of dense layers. -/
def netOut : List (Dense α) → (Nat → α) → Nat → α
  | [], v => v
  | p :: ps, v => netOut ps (p.out v)

/-- Gradients of one layer for input `v` and delta `u`. -/
def Dense.grad (p : Dense α) (v u : Nat → α) : Grad α :=
  (fun j => p.D (affine p.n p.W p.b v) j * u j, fun i j => v i * (p.D (affine p.n p.W p.b v) j * u j))

/-- The delta a layer passes on. -/
def Dense.back (p : Dense α) (v u : Nat → α) : Nat → α :=
  fun i => foldSum 0 p.m (fun j => p.W i j * (p.D (affine p.n p.W p.b v) j * u j))

/-- The delta that arrives at the input of a stack when `u` enters at its end. -/
def netBack : List (Dense α) → (Nat → α) → (Nat → α) → Nat → α
  | [], _, u => u
  | p :: ps, v, u => p.back v (netBack ps (p.out v) u)

/-- The gradients of all layers of a stack. -/
def netGrads : List (Dense α) → (Nat → α) → (Nat → α) → List (Grad α)
  | [], _, _ => []
  | p :: ps, v, u => p.grad v (netBack ps (p.out v) u) :: netGrads ps (p.out v) u

end

/-- The layers fit each other: `n` inputs, `m` outputs. -/
def Chain : Nat → List (Dense α) → Nat → Prop
  | n, [], m => n = m
  | n, p :: ps, m => p.n = n ∧ Chain p.m ps m

/-- `l` is a training layer with the parameters and activation `p` (its caches and gradients are arbitrary but set up). -/
def Layer.IsDense (l : Layer α) (p : Dense α) : Prop :=
  ∃ f, l = .fc f ∧ f.Wf p.n p.m p.b p.W ∧ f.act.Is p.m p.F p.D

/-- A network of such layers. -/
def Net.IsDense (net : Net α) (ps : List (Dense α)) : Prop := List.Forall₂ Layer.IsDense net ps

/-- On `m` outputs the loss object computes `L target prediction`, and its derivative companion `dL`. -/
structure Loss.Is (l : Loss α) (m : Nat) (L : (Nat → α) → (Nat → α) → α) (dL : (Nat → α) → (Nat → α) → Nat → α) : Prop where
  f : ∀ (t y : Buf α) (vt vy : Nat → α), VecIs t m vt → VecIs y m vy → l.f t y = .ok (L vt vy)
  df : ∀ (r t y : Buf α) (vt vy : Nat → α), r.length = m → VecIs t m vt → VecIs y m vy →
    Ok (l.df r t y) (fun r' => VecIs r' m (dL vt vy))

/-- Gradient descent on one dense layer. -/
def Dense.gd [Mul α] [Sub α] (lr alpha : α) (p : Dense α) (g : Grad α) : Dense α :=
  { p with b := fun j => p.b j - g.1 j * alpha * lr, W := fun i j => p.W i j - g.2 i j * alpha * lr }

/-- Componentwise sum of gradients. -/
def addGrad [Add α] (a g : Grad α) : Grad α := (fun j => a.1 j + g.1 j, fun i j => a.2 i j + g.2 i j)
/-- The zero gradient. -/
def zeroGrad [Zero α] : Grad α := (fun _ => 0, fun _ _ => 0)

/-- Gradients of all layers for one sample `vw = (input, target)`, with the loss derivative `dL`. -/
def sampleGrads [Zero α] [Add α] [Mul α] (dL : (Nat → α) → (Nat → α) → Nat → α) (ps : List (Dense α))
    (vw : (Nat → α) × (Nat → α)) : List (Grad α) := netGrads ps vw.1 (dL vw.2 (netOut ps vw.1))

/-- Sum over samples, layer by layer, in order, starting from zero. -/
def gradSum [Zero α] [Add α] [Mul α] (dL : (Nat → α) → (Nat → α) → Nat → α) (ps : List (Dense α))
    (vs : List ((Nat → α) × (Nat → α))) : List (Grad α) :=
  vs.foldl (fun acc vw => List.zipWith addGrad acc (sampleGrads dL ps vw)) (ps.map (fun _ => zeroGrad))

/-- A gradient-descent step on every layer. -/
def gdStep [Mul α] [Sub α] (lr alpha : α) (ps : List (Dense α)) (gs : List (Grad α)) : List (Dense α) :=
  List.zipWith (Dense.gd lr alpha) ps gs

/-- The data set: `n`-vectors and `m`-vectors. -/
def DataIs (idata odata : List (Ten α)) (n m : Nat) (vs : List ((Nat → α) × (Nat → α))) : Prop :=
  List.Forall₂ (fun x (vw : (Nat → α) × (Nat → α)) => VecIs x.data n vw.1) idata vs ∧
  List.Forall₂ (fun y (vw : (Nat → α) × (Nat → α)) => VecIs y.data m vw.2) odata vs

/-- A training object on a dense network `n → m` of at least two layers, with a loss. -/
structure Train.Is (t : Train α) (ps : List (Dense α)) (n m : Nat) (dL : (Nat → α) → (Nat → α) → Nat → α) : Prop where
  net : Net.IsDense t.net ps
  two : 2 ≤ ps.length
  word : ps.length < W64
  chain : Chain n ps m
  delta : t.delta.data.length = m
  loss : ∃ l L, t.loss = some l ∧ l.Is m L dL

/-- The gradient members of layer `i` of the network are `g`. -/
def Net.GradAt (net : Net α) (i : Nat) (p : Dense α) (g : Grad α) : Prop :=
  ∃ f : FC α, lget net i = .ok (.fc f) ∧ VecIs f.gradB p.m g.1 ∧ MatIs f.gradW p.n p.m g.2

/-- No layer has its `accumulated` flag set. -/
def Net.Clean (net : Net α) : Prop := ∀ l ∈ net, ∀ f : FC α, l = .fc f → f.accumulated = false
/-- Every layer has its `accumulated` flag set (the state `batch` and `mini_batch` leave behind). -/
def Net.Dirty (net : Net α) : Prop := ∀ l ∈ net, ∃ f : FC α, l = .fc f ∧ f.accumulated = true

/-- One averaged gradient-descent step on the samples `vs`: `parameter - (sum of gradients) * (1/k) * lr`. -/
def avgStep [Zero α] [Add α] [Mul α] [Sub α] (lr alpha : α) (dL : (Nat → α) → (Nat → α) → Nat → α)
    (vs : List ((Nat → α) × (Nat → α))) (ps : List (Dense α)) : List (Dense α) := gdStep lr alpha ps (gradSum dL ps vs)

/-- One gradient-descent step on a single sample. -/
def sgdStep [Zero α] [One α] [Add α] [Mul α] [Sub α] (lr : α) (dL : (Nat → α) → (Nat → α) → Nat → α) (ps : List (Dense α))
    (vw : (Nat → α) × (Nat → α)) : List (Dense α) := gdStep lr 1 ps (sampleGrads dL ps vw)

end Trixy
