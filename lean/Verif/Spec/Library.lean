import Verif.Model.Train
import Verif.Spec.Loss
import Verif.Spec.Activation
/- Networks built from the activation classes and loss classes of the library, described by textbook functions only. -/
namespace Trixy
open Finset

/-- An activation class of the library. -/
inductive LibAct
  | elem (k : ActKind)
  | softmax

/-- The object of that class. -/
noncomputable def LibAct.obj : LibAct → Act ℝ
  | .elem k => k.obj
  | .softmax => softMaxAct

/-- The textbook function on vectors of `m` components. -/
noncomputable def LibAct.fn (m : Nat) : LibAct → (Nat → ℝ) → Nat → ℝ
  | .elem k => fun v i => k.fn (v i)
  | .softmax => softmaxFn m

/-- A fully connected layer `n → m` with biases `b`, weights `W` and a library activation. -/
structure LibLayer where
  n : Nat
  m : Nat
  b : Nat → ℝ
  W : Nat → Nat → ℝ
  act : LibAct

/-- Weighted sums plus biases. -/
noncomputable def LibLayer.pre (l : LibLayer) (v : Nat → ℝ) (j : Nat) : ℝ := ∑ i ∈ range l.n, v i * l.W i j + l.b j

/-- The function of a stack of layers. -/
noncomputable def libOut : List LibLayer → (Nat → ℝ) → Nat → ℝ
  | [], v => v
  | l :: ls, v => libOut ls (l.act.fn l.m (l.pre v))

/-- Sizes fit together, `n` inputs, `m` outputs. -/
def libFits : Nat → List LibLayer → Nat → Prop
  | n, [], m => n = m
  | n, l :: ls, m => l.n = n ∧ libFits l.m ls m

/-- Every activation on the way is an element-wise one other than `GELU`, evaluated away from its kinks. -/
def libSmooth : List LibLayer → (Nat → ℝ) → Prop
  | [], _ => True
  | l :: ls, v => (∃ k, l.act = .elem k ∧ k ≠ .gelu ∧ ∀ j, j < l.m → l.pre v j ∉ k.kinks) ∧ libSmooth ls (l.act.fn l.m (l.pre v))

/-- The loss classes whose derivative is the gradient for every target and prediction. -/
inductive LibLoss
  | mse
  | lc

/-- The object of that class. -/
noncomputable def LibLoss.obj : LibLoss → Loss ℝ
  | .mse => Losses.MSE
  | .lc => Losses.LC

/-- The textbook function on `m` components (target, prediction). -/
noncomputable def LibLoss.fn (m : Nat) : LibLoss → (Nat → ℝ) → (Nat → ℝ) → ℝ
  | .mse => mseFn m
  | .lc => lcFn m

/-- Mean loss of the network over the samples (input, target). -/
noncomputable def libMean (m : Nat) (k : LibLoss) (vs : List ((Nat → ℝ) × (Nat → ℝ))) (ls : List LibLayer) : ℝ :=
  1 / (vs.length : ℝ) * (vs.map (fun vw => k.fn m vw.2 (libOut ls vw.1))).sum

/-- `t` trains the network `ls` (at least two layers) with the loss object `loss`. -/
structure Train.IsLib (t : Train ℝ) (ls : List LibLayer) (n m : Nat) (loss : Loss ℝ) : Prop where
  net : List.Forall₂ (fun (l : Layer ℝ) a => ∃ f, l = .fc f ∧ f.Wf a.n a.m a.b a.W ∧ f.act = a.act.obj) t.net ls
  two : 2 ≤ ls.length
  word : ls.length < W64
  fits : libFits n ls m
  pos : ∀ l ∈ ls, 0 < l.m
  delta : t.delta.data.length = m
  loss : t.loss = some loss

end Trixy
