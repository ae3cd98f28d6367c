import Verif.Spec.TrainSafe
/-
Units that are copies of each other. `R k i j` says that units `i` and `j` of interface `k` are to be copies; interface 0 is the
input of the network, interface `k + 1` the output of layer `k`.
-/
namespace Trixy

variable {α γ σ : Type}

/-- Cells that the relation connects hold the same. -/
def SameCells (R : Nat → Nat → Prop) (b : Buf α) : Prop := ∀ i j, i < b.length → j < b.length → R i j → b[i]? = b[j]?

/-- The relation on the cells of a matrix with `w` columns (row-major) that connects cells in connected rows and connected columns. -/
def gridRel (w : Nat) (Ri Ro : Nat → Nat → Prop) : Nat → Nat → Prop := fun a b => Ri (a / w) (b / w) ∧ Ro (a % w) (b % w)

/-- In this layer the outputs that `Ro` connects have the same bias and the same incoming weights, the inputs that `Ri` connects have the
same outgoing weights, and the same holds of both pairs of gradients the layer keeps. -/
structure FC.Copies (l : FC α) (Ri Ro : Nat → Nat → Prop) : Prop where
  B : SameCells Ro l.B
  W : SameCells (gridRel l.osize Ri Ro) l.W.data
  gradB : SameCells Ro l.gradB
  gradW : SameCells (gridRel l.osize Ri Ro) l.gradW.data
  gradBs : SameCells Ro l.gradBs
  gradWs : SameCells (gridRel l.osize Ri Ro) l.gradWs.data

/-- Every dense layer of the network has the copies `R` asks for. -/
def Net.Copies (R : Nat → Nat → Nat → Prop) (net : Net α) : Prop :=
  ∀ (k : Nat) (f : FC α), net[k]? = some (.fc f) → f.Copies (R k) (R (k + 1))

/-- The activation gives units with the same argument the same value and the same derivative. -/
def Act.Respects (a : Act α) (m : Nat) (R : Nat → Nat → Prop) : Prop :=
  ∃ F D, a.Is m F D ∧ ∀ v : Nat → α, (∀ i j, i < m → j < m → R i j → v i = v j) →
    ∀ i j, i < m → j < m → R i j → F v i = F v j ∧ D v i = D v j

/-- The addresses of the parameters of a layer. -/
def LayerKind.addrs : LayerKind α → List Nat
  | .dense _ _ _ kB kW => [kB, kW]
  | .conv _ _ _ fc _ _ _ _ _ kB kW => kB :: (List.range fc).map kW
  | .pool _ _ _ _ _ _ => []

/-- What `R` may ask for: nothing of the units before or behind a layer that is not dense, and behind a dense layer only what its
activation respects. -/
def LayerKind.Allows (Ri Ro : Nat → Nat → Prop) : LayerKind α → Prop
  | .dense _ m act _ _ => act.Respects m Ro
  | _ => (∀ i j, Ri i j → i = j) ∧ ∀ i j, Ro i j → i = j

/-- The samples of a call have the copies `R` asks for at the input. -/
def TrainOp.Copies (R : Nat → Nat → Prop) : TrainOp α γ → Prop
  | .batch idata _ _ => ∀ x ∈ idata, SameCells R x.data
  | .mini idata _ _ _ => ∀ x ∈ idata, SameCells R x.data
  | .sto idata _ _ _ => ∀ x ∈ idata, SameCells R x.data
  | .lossOf _ _ => True
  | .eval _ => True
  | .setLoss _ => True

/-- An optimizer that treats cells alike: `E k` connects cells of the parameter at address `k` (of `size k` cells). From a state
satisfying `I`, an update of an initialised parameter is defined and keeps `I`, and parameter and gradient cells that are
connected and agree still agree after it. -/
def UpdAlike (upd : Upd σ α) (size : Nat → Nat) (E : Nat → Nat → Nat → Prop) (I : σ → Prop) : Prop :=
  ∀ s k p g, I s → Full p (size k) → Full g (size k) → SameCells (E k) p → SameCells (E k) g →
    Ok (upd s k p g) (fun r => I r.1 ∧ Full r.2.1 (size k) ∧ Full r.2.2 (size k) ∧ SameCells (E k) r.2.1 ∧ SameCells (E k) r.2.2)

/-- An optimizer object that treats cells alike, whatever cells are compared. -/
def TreatsAlike (upd : Upd σ α) (size : Nat → Nat) (s0 : σ) : Prop :=
  ∀ E : Nat → Nat → Nat → Prop, ∃ I : σ → Prop, UpdAlike upd size E I ∧ I s0

/-- Units `p` and `q` of the hidden layer `k` are copies of each other: same bias, same incoming weights, same outgoing weights (and
the same holds of the gradients the two layers keep, which are all zero in new layers). -/
structure Twins (net : Net α) (k p q : Nat) (f g : FC α) : Prop where
  this : net[k]? = some (.fc f)
  next : net[k + 1]? = some (.fc g)
  bias : ∀ b ∈ [f.B, f.gradB, f.gradBs], b[p]? = b[q]?
  ins : ∀ M ∈ [f.W, f.gradW, f.gradWs], ∀ i, i < f.isize → M.data[i * f.osize + p]? = M.data[i * f.osize + q]?
  outs : ∀ M ∈ [g.W, g.gradW, g.gradWs], ∀ j, j < g.osize → M.data[p * g.osize + j]? = M.data[q * g.osize + j]?

/-- Layers `k` and `k + 1` are both dense: interface `k + 1` lies between them. -/
def BetweenDense (ks : List (LayerKind α)) (l : Nat) : Prop :=
  ∃ k n m a b c n' m' a' b' c', l = k + 1 ∧ ks[k]? = some (.dense n m a b c) ∧ ks[k + 1]? = some (.dense n' m' a' b' c')

end Trixy
