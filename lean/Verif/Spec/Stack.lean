import Verif.Spec.NetDeriv
import Verif.Spec.Library
/-
Specification vocabulary for stacks that mix dense and convolution layers: what they compute, the delta that travels back, the
gradient of every parameter, and the abstract training state.
-/
namespace Trixy
open Finset

variable {α : Type}

/-- A parameter of a layer: a bias, a weight of a dense layer, a cell of a filter. -/
inductive PRef where
  | bias (k : Nat)
  | weight (i j : Nat)
  | filter (f c i j : Nat)
deriving DecidableEq

/-- A convolution: geometry and parameters. -/
structure ConvP (α : Type) where
  d : Nat
  h : Nat
  w : Nat
  fc : Nat
  fh : Nat
  fw : Nat
  pad : Nat
  sv : Nat
  sh : Nat
  b : Nat → α
  W : Nat → Nat → Nat → Nat → α

/-- Output rows. -/
def ConvP.oh (p : ConvP α) : Nat := extent p.h p.fh p.pad p.sv
/-- Output columns. -/
def ConvP.ow (p : ConvP α) : Nat := extent p.w p.fw p.pad p.sh

/-- One layer of a stack. -/
inductive Stage (α : Type) where
  | dense (p : Dense α)
  | conv (p : ConvP α)

/-- The memory-order view of a (channel, row, column) function. -/
def flat3 (h w : Nat) (x : Nat → Nat → Nat → α) : Nat → α := fun k => x (k / w / h) (k / w % h) (k % w)

/-- Input shape. -/
def Stage.sin : Stage α → Nat × Nat × Nat
  | .dense p => (1, 1, p.n)
  | .conv p => (p.d, p.h, p.w)
/-- Output shape. -/
def Stage.sout : Stage α → Nat × Nat × Nat
  | .dense p => (1, 1, p.m)
  | .conv p => (p.fc, p.oh, p.ow)

/-- Number of cells of a shape. -/
def cells (s : Nat × Nat × Nat) : Nat := s.1 * s.2.1 * s.2.2

section
variable [CommSemiring α]

/-- The function of a layer: the activation of `x·W + b`, or the zero-padded strided cross-correlation plus bias. -/
def Stage.out : Stage α → (Nat → α) → Nat → α
  | .dense p, v => p.out v
  | .conv p, v => flat3 p.oh p.ow (corr p.d p.h p.w p.fh p.fw p.pad p.sv p.sh p.b p.W (unflat p.h p.w v))

/-- The delta a layer passes on, for input `v` and incoming delta `u`. -/
def Stage.back : Stage α → (Nat → α) → (Nat → α) → Nat → α
  | .dense p, v, u => p.back v u
  | .conv p, _, u => flat3 p.h p.w (convDelta p.fc p.fh p.fw p.pad p.sv p.sh p.oh p.ow p.W (unflat p.oh p.ow u))

/-- The gradient of one backward pass, for input `v` and incoming delta `u`. -/
def Stage.grad : Stage α → (Nat → α) → (Nat → α) → PRef → α
  | .dense p, v, u, .bias k => (p.grad v u).1 k
  | .dense p, v, u, .weight i j => (p.grad v u).2 i j
  | .conv p, v, u, .bias f => biasGrad p.oh p.ow f (unflat p.h p.w v) (unflat p.oh p.ow u)
  | .conv p, v, u, .filter f c i j => filterGrad p.h p.w p.pad p.sv p.sh p.oh p.ow f c i j (unflat p.h p.w v) (unflat p.oh p.ow u)
  | _, _, _, _ => 0

/-- The function of a stack. -/
def stackOut : List (Stage α) → (Nat → α) → Nat → α
  | [], v => v
  | s :: ss, v => stackOut ss (s.out v)

/-- The delta that arrives at the input of a stack when `u` enters at its end. -/
def stackBack : List (Stage α) → (Nat → α) → (Nat → α) → Nat → α
  | [], _, u => u
  | s :: ss, v, u => s.back v (stackBack ss (s.out v) u)

/-- The gradients of one backward pass through a stack. -/
def stackGrads : List (Stage α) → (Nat → α) → (Nat → α) → List (PRef → α)
  | [], _, _ => []
  | s :: ss, v, u => s.grad v (stackBack ss (s.out v) u) :: stackGrads ss (s.out v) u

/-- Gradients of all layers for one sample `vw = (input, target)`. -/
def stackSample (dL : (Nat → α) → (Nat → α) → Nat → α) (ss : List (Stage α)) (vw : (Nat → α) × (Nat → α)) : List (PRef → α) :=
  stackGrads ss vw.1 (dL vw.2 (stackOut ss vw.1))

end

/-- The parameters a layer has. -/
def Stage.Has : Stage α → PRef → Prop
  | .dense p, .bias k => k < p.m
  | .dense p, .weight i j => i < p.n ∧ j < p.m
  | .conv p, .bias f => f < p.fc
  | .conv p, .filter f c i j => f < p.fc ∧ c < p.d ∧ i < p.fh ∧ j < p.fw
  | _, _ => False

/-- The value of a parameter. -/
def Stage.get [Zero α] : Stage α → PRef → α
  | .dense p, .bias k => p.b k
  | .dense p, .weight i j => p.W i j
  | .conv p, .bias f => p.b f
  | .conv p, .filter f c i j => p.W f c i j
  | _, _ => 0

/-- The same layer with other parameter values (`θ` by parameter). -/
def Stage.put : Stage α → (PRef → α) → Stage α
  | .dense p, θ => .dense { p with b := fun k => θ (.bias k), W := fun i j => θ (.weight i j) }
  | .conv p, θ => .conv { p with b := fun f => θ (.bias f), W := fun f c i j => θ (.filter f c i j) }

/-- The same layer with one parameter changed to `z`. -/
def Stage.set [Zero α] (s : Stage α) (r : PRef) (z : α) : Stage α := s.put (fun r' => if r' = r then z else s.get r')

/-- The layers fit each other: each takes exactly the shape its predecessor delivers. -/
def StackFits : Nat × Nat × Nat → List (Stage α) → Nat × Nat × Nat → Prop
  | a, [], b => a = b
  | a, s :: ss, b => s.sin = a ∧ StackFits s.sout ss b

/-- The input of a stack: `cells` values for a dense first layer (in any shape), exactly the shape for a convolution. -/
def StackInput (ss : List (Stage α)) (x : Ten α) (v : Nat → α) : Prop :=
  ∀ s, ss[0]? = some s →
    (∀ p, s = .dense p → VecIs x.data p.n v) ∧ (∀ p, s = .conv p → FlatIs x (p.d, p.h, p.w) v)

/-- Every dense activation of the stack is element-wise and its companion computes the derivative at the pre-activations that
occur for input `v`. -/
def StackDiff : List (Stage ℝ) → (Nat → ℝ) → Prop
  | [], _ => True
  | s :: ss, v => (∀ p, s = .dense p → ∃ g g' : ℝ → ℝ, p.F = (fun v i => g (v i)) ∧ p.D = (fun v i => g' (v i)) ∧
      ∀ k, k < p.m → HasDerivAt g (g' (pre p.n p.W p.b v k)) (pre p.n p.W p.b v k)) ∧ StackDiff ss (s.out v)

/-- Abstract training state of a layer: parameters, gradient members `g`, and for dense layers the accumulators `a` with the flag
that says they are in use. -/
structure SSt (α : Type) where
  s : Stage α
  g : PRef → α
  a : PRef → α
  acc : Bool

/-- The layer object is in this state. -/
def Layer.Holds [Zero α] (l : Layer α) (st : SSt α) : Prop :=
  (∀ p, st.s = .dense p → ∃ f : FC α, l = .fc f ∧ f.Wf p.n p.m p.b p.W ∧ f.act.Is p.m p.F p.D ∧
      VecIs f.gradB p.m (fun k => st.g (.bias k)) ∧ MatIs f.gradW p.n p.m (fun i j => st.g (.weight i j)) ∧
      VecIs f.gradBs p.m (fun k => st.a (.bias k)) ∧ MatIs f.gradWs p.n p.m (fun i j => st.a (.weight i j)) ∧
      f.accumulated = st.acc) ∧
  (∀ p, st.s = .conv p → ∃ c : Conv α, l = .conv c ∧
      c.Wf p.d p.h p.w p.fc p.fh p.fw p.pad p.sv p.sh p.b p.W (fun f => st.g (.bias f)) (fun f c i j => st.g (.filter f c i j)))

/-- The network is in this state. -/
def Net.Holds [Zero α] (net : Net α) (sts : List (SSt α)) : Prop := List.Forall₂ Layer.Holds net sts

/-- The gradient member after a backward pass that produced `G`: a dense layer overwrites it, a convolution adds to it. -/
def Stage.newGrad [Add α] : Stage α → (PRef → α) → (PRef → α) → PRef → α
  | .dense _, _, G => G
  | .conv _, g, G => fun r => g r + G r

/-- The contribution of the last backward pass to the gradient member, given its contents `g` before and `g'` after. -/
def Stage.fresh [Sub α] : Stage α → (PRef → α) → (PRef → α) → PRef → α
  | .dense _, _, g' => g'
  | .conv _, g, g' => fun r => g' r - g r

/-- A training object on a mixed stack of at least two layers, with a loss. -/
structure Train.Holds [Zero α] (t : Train α) (sts : List (SSt α)) (a b : Nat × Nat × Nat)
    (dL : (Nat → α) → (Nat → α) → Nat → α) : Prop where
  net : t.net.Holds sts
  two : 2 ≤ sts.length
  word : sts.length < W64
  fits : StackFits a (sts.map (·.s)) b
  delta : t.delta.d = b.1 ∧ t.delta.h = b.2.1 ∧ t.delta.w = b.2.2 ∧ t.delta.data.length = cells b
  loss : ∃ l L, t.loss = some l ∧ l.Is (cells b) L dL

/-! ### Stacks of library classes -/

/-- A layer of a library class: fully connected with a library activation, or convolution. -/
inductive LibStage
  | dense (l : LibLayer)
  | conv (p : ConvP ℝ)

/-- Its function, parameters and shapes; `D` stands for whatever the activation's `df` computes. -/
noncomputable def LibStage.stage (D : LibAct → (Nat → ℝ) → Nat → ℝ) : LibStage → Stage ℝ
  | .dense l => .dense ⟨l.n, l.m, l.b, l.W, l.act.fn l.m, D l.act⟩
  | .conv p => .conv p

/-- The object is a layer of that class with these parameters and gradient members `g`. -/
def Layer.IsLib (l : Layer ℝ) : LibStage → (PRef → ℝ) → Prop
  | .dense a, g => ∃ f : FC ℝ, l = .fc f ∧ f.Wf a.n a.m a.b a.W ∧ f.act = a.act.obj ∧
      VecIs f.gradB a.m (fun k => g (.bias k)) ∧ MatIs f.gradW a.n a.m (fun i j => g (.weight i j))
  | .conv p, g => ∃ c : Conv ℝ, l = .conv c ∧
      c.Wf p.d p.h p.w p.fc p.fh p.fw p.pad p.sv p.sh p.b p.W (fun f => g (.bias f)) (fun f c i j => g (.filter f c i j))

/-- No dense activation of the stack is `GELU`, softmax or evaluated at one of its kinks. -/
def LibStage.smooth (D : LibAct → (Nat → ℝ) → Nat → ℝ) : List LibStage → (Nat → ℝ) → Prop
  | [], _ => True
  | s :: ss, v => (∀ l, s = .dense l → 0 < l.m ∧ ∃ k, l.act = .elem k ∧ k ≠ .gelu ∧ ∀ j, j < l.m → l.pre v j ∉ k.kinks) ∧
      LibStage.smooth D ss ((s.stage D).out v)

end Trixy
