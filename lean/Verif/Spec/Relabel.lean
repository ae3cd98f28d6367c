import Verif.Spec.Order
import Verif.Spec.Checkpoint
import Verif.Spec.Library
/- Networks whose units have been renamed. -/
namespace Trixy

variable {α σ : Type}

/-- The values `w` are the values `v` in another order: the `i`-th has become the `e i`-th. -/
def Renamed (n : Nat) (e : Nat → Nat) (v w : Nat → α) : Prop := ∀ i, i < n → w (e i) = v i

/-- The layer `q` is the layer `p` with its inputs renamed by `ρ` and its units by `τ`; both have the same kind of activation. -/
structure Dense.Renamed (ρ τ : Nat → Nat) (p q : Dense α) : Prop where
  n : q.n = p.n
  m : q.m = p.m
  ins : Reorders p.n ρ
  outs : Reorders p.m τ
  b : ∀ j, j < p.m → q.b (τ j) = p.b j
  W : ∀ i j, i < p.n → j < p.m → q.W (ρ i) (τ j) = p.W i j
  F : ∀ v w : Nat → α, Trixy.Renamed p.m τ v w → Trixy.Renamed p.m τ (p.F v) (q.F w)
  D : ∀ v w : Nat → α, Trixy.Renamed p.m τ v w → Trixy.Renamed p.m τ (p.D v) (q.D w)

/-- The same for stacks: `e k` renames the units between layer `k-1` and layer `k` (`e 0`: the inputs). -/
def NetRenamed : (Nat → Nat → Nat) → List (Dense α) → List (Dense α) → Prop
  | _, [], [] => True
  | e, p :: ps, q :: qs => p.Renamed (e 0) (e 1) q ∧ NetRenamed (fun k => e (k + 1)) ps qs
  | _, _, _ => False

/-- The loss treats its components alike. -/
def LossRenamed (m : Nat) (τ : Nat → Nat) (dL dL' : (Nat → α) → (Nat → α) → Nat → α) : Prop :=
  ∀ t t' y y', Renamed m τ t t' → Renamed m τ y y' → Renamed m τ (dL t y) (dL' t' y')

/-- The training object `u` is `t` with the units of its network of `L` layers renamed. -/
def Train.Renamed (e : Nat → Nat → Nat) (L n m : Nat) (t u : Train α) : Prop :=
  ∃ ps qs dL dL', ps.length = L ∧ t.Is ps n m dL ∧ u.Is qs n m dL' ∧ NetRenamed e ps qs ∧ LossRenamed m (e L) dL dL'

/-- The second data set is the first with the components of the inputs and of the targets renamed. -/
def DataRenamed (n m : Nat) (ρ τ : Nat → Nat) (idata odata idata' odata' : List (Ten α)) : Prop :=
  ∃ vs ws, DataIs idata odata n m vs ∧ DataIs idata' odata' n m ws ∧
    List.Forall₂ (fun a b : (Nat → α) × (Nat → α) => Renamed n ρ a.1 b.1 ∧ Renamed m τ a.2 b.2) vs ws

/-- Every way of training `x` on the first data set and `y` on the second ends on both sides, with training objects that are related
by `R` (stochastic training: networks that were never trained in batches, the same random numbers on both sides). -/
def TrainTogether [Zero α] [One α] [Add α] [Mul α] [Div α] [NatCast α] [LT α] [DecidableLT α] [DecidableEq α] (upd : Upd σ α)
    (idata odata idata' odata' : List (Ten α)) (x y : σ × Train α) (R : Train α → Train α → Prop) : Prop :=
  (∀ epochs, ∃ x' y', Train.batch upd idata odata epochs x = .ok x' ∧ Train.batch upd idata' odata' epochs y = .ok y' ∧ R x'.2 y'.2) ∧
  (∀ k epochs, 1 ≤ k → ∃ x' y', Train.miniBatch upd idata odata epochs k x = .ok x' ∧
    Train.miniBatch upd idata' odata' epochs k y = .ok y' ∧ R x'.2 y'.2) ∧
  (x.2.net.Clean → y.2.net.Clean → ∀ (γ ρ : Type) (gen : Gen γ ρ Nat) (c : γ) (g : ρ) (iterations : Nat),
    ∃ x' y', Train.stochastic upd idata odata iterations gen c g x = .ok x' ∧
      Train.stochastic upd idata' odata' iterations gen c g y = .ok y' ∧ R x'.1.2 y'.1.2)

/-- Both networks give the same predictions: for every input of `n` components. -/
def SamePredictions [Zero α] [One α] [Add α] [Mul α] [LT α] [DecidableLT α] (n m : Nat) (t u : Train α) : Prop :=
  ∀ (x : Ten α) (v : Nat → α), VecIs x.data n v → ∃ r r' y, Net.feedforward x t.net = .ok r ∧ Net.feedforward x u.net = .ok r' ∧
    RowIs r.2 m y ∧ RowIs r'.2 m y

/-- Renamed networks of library layers: the same activation classes, biases and weights moved. -/
def LibRenamed : (Nat → Nat → Nat) → List LibLayer → List LibLayer → Prop
  | _, [], [] => True
  | e, p :: ps, q :: qs => (q.n = p.n ∧ q.m = p.m ∧ q.act = p.act ∧ Reorders p.n (e 0) ∧ Reorders p.m (e 1) ∧
      (∀ j, j < p.m → q.b (e 1 j) = p.b j) ∧ ∀ i j, i < p.n → j < p.m → q.W (e 0 i) (e 1 j) = p.W i j) ∧ LibRenamed (fun k => e (k + 1)) ps qs
  | _, _, _ => False

end Trixy
