import Verif.Model.FltLoss
import Verif.Spec.Library
import Verif.Spec.Converge
/-
Floating-point types of growing precision, and networks and data given in each of them. Nothing here mentions how the code computes.
-/
namespace Trixy
open Filter Topology

/-- A sequence of number types: `fin p a` says that `a` is a finite number of the `p`-th type and `val p a` is the real number it stands for; `u p`, `η p` and `M p`
are the relative error of its operations, its underflow threshold and its largest number. -/
structure Digits (α : Nat → Type) where
  fin : ∀ p, α p → Prop
  val : ∀ p, α p → ℝ
  u : Nat → ℝ
  η : Nat → ℝ
  M : Nat → ℝ

/-- `r` is the computed result of an operation whose exact result is `z`: unless `z` is too large, `r` is finite and as near to `z` as the type allows. -/
def Digits.Rounds {α : Nat → Type} (D : Digits α) (p : Nat) (r : α p) (z : ℝ) : Prop := |z| ≤ D.M p → D.fin p r ∧ |D.val p r - z| ≤ D.u p * |z| + D.η p

/-- The types become more and more precise: the errors tend to zero and the largest numbers to infinity. Every operation and every function of `<cmath>` is accurate up to
`u p` and `η p` where the real function is defined; finite numbers are compared correctly; multiplication by 1 changes nothing. -/
structure Digits.Refine {α : Nat → Type} [∀ p, Flt (α p)] [∀ p, NatCast (α p)] (D : Digits α) : Prop where
  u : Tendsto D.u atTop (𝓝 0)
  η : Tendsto D.η atTop (𝓝 0)
  M : Tendsto D.M atTop atTop
  zero : ∀ p, D.fin p 0 ∧ D.val p 0 = 0
  one : ∀ p, D.fin p 1 ∧ D.val p 1 = 1
  lit : ∀ p (q : ℚ), D.Rounds p (Flt.lit q) q
  nat : ∀ p (n : Nat), D.Rounds p (n : α p) n
  neg : ∀ p a, D.fin p a → D.Rounds p (-a) (-D.val p a)
  add : ∀ p a b, D.fin p a → D.fin p b → D.Rounds p (a + b) (D.val p a + D.val p b)
  sub : ∀ p a b, D.fin p a → D.fin p b → D.Rounds p (a - b) (D.val p a - D.val p b)
  mul : ∀ p a b, D.fin p a → D.fin p b → D.Rounds p (a * b) (D.val p a * D.val p b)
  div : ∀ p a b, D.fin p a → D.fin p b → D.val p b ≠ 0 → D.Rounds p (a / b) (D.val p a / D.val p b)
  exp : ∀ p a, D.fin p a → D.Rounds p (Flt.exp a) (Real.exp (D.val p a))
  expm1 : ∀ p a, D.fin p a → D.Rounds p (Flt.expm1 a) (Real.exp (D.val p a) - 1)
  log : ∀ p a, D.fin p a → 0 < D.val p a → D.Rounds p (Flt.log a) (Real.log (D.val p a))
  log1p : ∀ p a, D.fin p a → -1 < D.val p a → D.Rounds p (Flt.log1p a) (Real.log (1 + D.val p a))
  tanh : ∀ p a, D.fin p a → D.Rounds p (Flt.tanh a) (Real.tanh (D.val p a))
  cosh : ∀ p a, D.fin p a → D.Rounds p (Flt.cosh a) (Real.cosh (D.val p a))
  fabs : ∀ p a, D.fin p a → D.Rounds p (Flt.fabs a) |D.val p a|
  lt : ∀ p a b, D.fin p a → D.fin p b → (a < b ↔ D.val p a < D.val p b)
  mul_one : ∀ p (a : α p), a * 1 = a

variable {α : Nat → Type}

/-- The numbers `a p` tend to the real number `x` as the precision grows (and are finite from some precision on). -/
def Digits.Tends (D : Digits α) (a : ∀ p, α p) (x : ℝ) : Prop := (∀ᶠ p in atTop, D.fin p (a p)) ∧ Tendsto (fun p => D.val p (a p)) atTop (𝓝 x)

/-- The same for the first `n` components of vectors. -/
def Digits.VecTends (D : Digits α) (n : Nat) (a : ∀ p, Nat → α p) (x : Nat → ℝ) : Prop := ∀ i, i < n → D.Tends (fun p => a p i) (x i)

/-- A fully connected layer `n → m` over a floating-point type, with a library activation. -/
structure FltLayer (α : Type) where
  n : Nat
  m : Nat
  b : Nat → α
  W : Nat → Nat → α
  act : LibAct

/-- The object of the activation class over a floating-point type. -/
def LibAct.fltObj {α : Type} [Flt α] : LibAct → Act α
  | .elem k => k.fltObj
  | .softmax => fltSoftMax

/-- The object of the loss class over the reals. -/
noncomputable def LossKind.obj : LossKind → Loss ℝ
  | .mse => Losses.MSE
  | .mae => Losses.MAE
  | .cce => Losses.CCE
  | .bce => Losses.BCE
  | .msle => Losses.MSLE
  | .nll => Losses.NLL
  | .lc => Losses.LC

/-- `net` is the network `ls`. -/
def Net.IsFlt {α : Type} [Flt α] (net : Net α) (ls : List (FltLayer α)) : Prop :=
  List.Forall₂ (fun (l : Layer α) a => ∃ f, l = .fc f ∧ f.Wf a.n a.m a.b a.W ∧ f.act = a.act.fltObj) net ls

/-- The parameters of `net` are those of `ls`. -/
def Net.FltParams {α : Type} (net : Net α) (ls : List (FltLayer α)) : Prop :=
  List.Forall₂ (fun (l : Layer α) a => ∃ f, l = .fc f ∧ f.Wf a.n a.m a.b a.W) net ls

/-- Sizes fit together, `n` inputs, `m` outputs. -/
def fltFits {α : Type} : Nat → List (FltLayer α) → Nat → Prop
  | n, [], m => n = m
  | n, l :: ls, m => l.n = n ∧ fltFits l.m ls m

/-- `t` trains the network `ls` (at least two layers) with the loss object `loss`. -/
structure Train.IsFlt {α : Type} [Flt α] (t : Train α) (ls : List (FltLayer α)) (n m : Nat) (loss : Loss α) : Prop where
  net : t.net.IsFlt ls
  two : 2 ≤ ls.length
  word : ls.length < W64
  fits : fltFits n ls m
  pos : ∀ l ∈ ls, 0 < l.m
  delta : t.delta.data.length = m
  loss : t.loss = some loss

/-- Layer by layer: sizes and activations of `L p` are those of `qs`, and every bias and weight of `L p` tends to that of `qs`. -/
def Digits.LayersTend (D : Digits α) : (∀ p, List (FltLayer (α p))) → List LibLayer → Prop
  | L, [] => ∀ p, L p = []
  | L, q :: qs => ∃ (l : ∀ p, FltLayer (α p)) (L' : ∀ p, List (FltLayer (α p))), (∀ p, L p = l p :: L' p) ∧
      (∀ p, (l p).n = q.n ∧ (l p).m = q.m ∧ (l p).act = q.act) ∧
      (∀ j, j < q.m → D.Tends (fun p => (l p).b j) (q.b j)) ∧
      (∀ i j, i < q.n → j < q.m → D.Tends (fun p => (l p).W i j) (q.W i j)) ∧ D.LayersTend L' qs

/-- Sample by sample: the inputs (`n` components) and targets (`m` components) of `V p` tend to those of `vs`. -/
def Digits.DataTend (D : Digits α) (n m : Nat) : (∀ p, List ((Nat → α p) × (Nat → α p))) → List ((Nat → ℝ) × (Nat → ℝ)) → Prop
  | V, [] => ∀ p, V p = []
  | V, vw :: vs => ∃ (a : ∀ p, (Nat → α p) × (Nat → α p)) (V' : ∀ p, List ((Nat → α p) × (Nat → α p))), (∀ p, V p = a p :: V' p) ∧
      D.VecTends n (fun p => (a p).1) vw.1 ∧ D.VecTends m (fun p => (a p).2) vw.2 ∧ D.DataTend n m V' vs

/-- No activation on the way is evaluated at one of its kinks. -/
def libAway : List LibLayer → (Nat → ℝ) → Prop
  | [], _ => True
  | l :: ls, v => (∀ k, l.act = .elem k → ∀ j, j < l.m → l.pre v j ∉ k.kinks) ∧ libAway ls (l.act.fn l.m (l.pre v))

/-- Nor is the derivative of the loss: only `MAE` has a kink, where a prediction equals its target. -/
def LossKind.Away (k : LossKind) (m : Nat) (t y : Nat → ℝ) : Prop := k = .mae → ∀ j, j < m → t j ≠ y j

/-- On none of the samples does the network or the loss meet a kink. -/
def kinkFree (k : LossKind) (m : Nat) (vs : List ((Nat → ℝ) × (Nat → ℝ))) (ls : List LibLayer) : Prop := ∀ vw ∈ vs, libAway ls vw.1 ∧ k.Away m vw.2 (libOut ls vw.1)

/-- Sizes and activations agree. -/
def sameShape (as ls : List LibLayer) : Prop := List.Forall₂ (fun (a l : LibLayer) => a.n = l.n ∧ a.m = l.m ∧ a.act = l.act) as ls

/-- `t` trains the network `ls` on the samples `vs` in exact arithmetic; the `T p` train networks `L p` on samples `V p` in the `p`-th type; parameters, learning rates and
samples of the latter tend to those of the former. -/
structure Digits.Trains [∀ p, Flt (α p)] (D : Digits α) (k : LossKind) (n m : Nat) (t : Train ℝ) (ls : List LibLayer) (lr : ℝ) (idata odata : List (Ten ℝ))
    (vs : List ((Nat → ℝ) × (Nat → ℝ))) (T : ∀ p, Train (α p)) (L : ∀ p, List (FltLayer (α p))) (LR : ∀ p, α p) (I O : ∀ p, List (Ten (α p)))
    (V : ∀ p, List ((Nat → α p) × (Nat → α p))) : Prop where
  exact : t.IsLib ls n m k.obj
  flt : ∀ p, (T p).IsFlt (L p) n m k.fltObj
  layers : D.LayersTend L ls
  rate : D.Tends LR lr
  data : DataIs idata odata n m vs
  fdata : ∀ p, DataIs (I p) (O p) n m (V p)
  tend : D.DataTend n m V vs

/-- An exact training run ends with the network `ls`: its parameters are those of `ls` and it predicts by the function of `ls`. -/
def endsWith (n m : Nat) (run : Res (ℝ × Train ℝ)) (ls : List LibLayer) : Prop := Ok run (fun r => r.2.net.Params ls ∧
  ∀ (x : Ten ℝ) (v : Nat → ℝ), VecIs x.data n v → Ok (Net.feedforward x r.2.net) (fun o => VecIs o.2.data m (libOut ls v)))

/-- Training runs in the types of growing precision: they all end properly, their parameters tend to those of `ls`, and their predictions for inputs that tend to `w` tend to
the prediction of `ls` for `w`. -/
def Digits.RunsTend [∀ p, Flt (α p)] (D : Digits α) (n m : Nat) (run : ∀ p, Res (α p × Train (α p))) (ls : List LibLayer) : Prop :=
  ∃ (Q : ∀ p, List (FltLayer (α p))) (F : ∀ p, (Nat → α p) → Nat → α p), D.LayersTend Q ls ∧
    (∀ p, Ok (run p) (fun r => r.2.net.FltParams (Q p) ∧
      ∀ (x : Ten (α p)) (v : Nat → α p), VecIs x.data n v → Ok (Net.feedforward x r.2.net) (fun o => VecIs o.2.data m (F p v)))) ∧
    ∀ (v : ∀ p, Nat → α p) (w : Nat → ℝ), D.VecTends n v w → D.VecTends m (fun p => F p (v p)) (libOut ls w)

end Trixy
