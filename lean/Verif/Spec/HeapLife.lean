import Verif.Spec.HeapProg
import Verif.Spec.Thread
import Verif.Model.HeapLife
/-
Histories of networks: a program builds networks with training objects, calls them and destroys them, in any order.
-/
namespace Trixy

variable {α γ ρ σ γ' ρ' : Type}

/-- What a program needs to build one network and to train it. -/
structure NetPlan (α γ ρ σ γ' ρ' : Type) where
  layers : List (LayerArgs α)
  gi : Gen γ' ρ' α
  ci : γ'
  ri : ρ'
  loss : HLoss α
  opt : σ
  upd : HUpd σ α
  gen : Gen γ ρ Nat
  g : ρ

/-- The same on values, with the shapes of inputs and outputs. -/
structure NetValue (α σ : Type) where
  layers : List (LayerSpec α)
  loss : Loss α
  upd : Upd σ α
  s : Shp
  o : Shp

/-- The plan makes sense, as in C86. -/
structure NetPlan.Sensible (addr : Ptr → Nat) (p : NetPlan α γ ρ σ γ' ρ') (v : NetValue α σ) : Prop where
  layers : List.Forall₂ LayerArgs.Same p.layers v.layers
  room : ∀ s ∈ v.layers, s.Room
  sensible : ∀ s ∈ v.layers, s.Sensible
  two : 2 ≤ v.layers.length
  few : v.layers.length < W64
  fits : Fits v.s (v.layers.map (LayerSpec.kind 0 (fun _ => 0))) v.o
  lossIs : ∃ L dL, v.loss.Is v.o.vol L dL
  loss : p.loss.Follows v.loss
  opt : HUpd.Follows addr p.upd v.upd
  optOk : ∃ I : σ → Prop, I p.opt ∧ ∀ size, UpdOk v.upd size I

/-- The plan carried out alone, on values, followed by these calls, gives `st` and leaves the generator as `g`. -/
def NetPlan.Alone [Zero α] [One α] [Add α] [Mul α] [Div α] [NatCast α] [LT α] [DecidableLT α] [DecidableEq α] (p : NetPlan α γ ρ σ γ' ρ')
    (v : NetValue α σ) (calls : List (TrainOp α γ)) (st : σ × Train α) (g : ρ) : Prop :=
  ∃ ks : List (LayerKind α), List.Forall₂ (fun k s => ∃ kB kW, k = LayerSpec.kind kB kW s) ks v.layers ∧
    Train.program ks p.gi p.ci p.ri v.loss p.opt v.upd p.gen p.g calls = .ok (st, g)

/-! ### Programs -/

/-- A network with its training object, optimizer and generator. -/
structure LifeSlot (α γ ρ σ : Type) where
  t : HTrain α σ
  upd : HUpd σ α
  gen : Gen γ ρ Nat
  g : ρ

/-- The memory and the networks that were built so far (`none`: destroyed). -/
structure Life (α γ ρ σ : Type) where
  heap : Heap α
  slots : List (Option (LifeSlot α γ ρ σ))

/-- A step of the program. The network may be destroyed before or after its training object. -/
inductive LifeOp (α γ ρ σ γ' ρ' : Type) where
  | create (p : NetPlan α γ ρ σ γ' ρ')
  | call (k : Nat) (op : HTrainOp α γ)
  | destroy (k : Nat) (netFirst : Bool)

/-- The network number `k`. -/
def Life.slot (w : Life α γ ρ σ) (k : Nat) : Res (LifeSlot α γ ρ σ) :=
  match w.slots[k]? with
  | some (some s) => .ok s
  | _ => .error .useAfterFree

/-- The training object and its network go out of scope, in either order. -/
def HTrain.destroyBoth (t : HTrain α σ) (H : Heap α) : Bool → Res (Heap α)
  | true => do let H ← HNet.destroy H t.net; t.destroy H
  | false => do let H ← t.destroy H; HNet.destroy H t.net

section
variable [Zero α] [One α] [Add α] [Mul α] [Div α] [NatCast α] [LT α] [DecidableLT α] [DecidableEq α]

/-- Executing a step. -/
def Life.step (w : Life α γ ρ σ) : LifeOp α γ ρ σ γ' ρ' → Res (Life α γ ρ σ)
  | .create p => do
    let (t, g) ← HTrain.program p.layers p.gi p.ci p.ri p.loss p.opt p.upd p.gen p.g [] w.heap
    return ⟨t.heap, w.slots ++ [some ⟨t, p.upd, p.gen, g⟩]⟩
  | .call k op => do
    let s ← w.slot k
    let (t, g) ← HTrainOp.exec s.upd s.gen ({ s.t with heap := w.heap }, s.g) op
    return ⟨t.heap, w.slots.set k (some ⟨t, s.upd, s.gen, g⟩)⟩
  | .destroy k netFirst => do
    let s ← w.slot k
    let H ← s.t.destroyBoth w.heap netFirst
    return ⟨H, w.slots.set k none⟩

/-- A program. -/
def Life.run : Life α γ ρ σ → List (LifeOp α γ ρ σ γ' ρ') → Res (Life α γ ρ σ)
  | w, [] => .ok w
  | w, op :: ops => do let w ← w.step op; Life.run w ops

end

/-! ### Sensible histories -/

/-- What has happened to one network: its plan and the calls. -/
structure LifeHist (α γ ρ σ γ' ρ' : Type) where
  plan : NetPlan α γ ρ σ γ' ρ'
  val : NetValue α σ
  calls : List (TrainOp α γ)

/-- A sensible program (starting with the memory `H0`, which contains the data) and what has happened to its networks: networks are built
by sensible plans, calls are made on networks that exist, with data that was in memory before and fits, and each network is destroyed at
most once. -/
inductive Life.History (addr : Ptr → Nat) (H0 : Heap α) : List (LifeOp α γ ρ σ γ' ρ') → List (Option (LifeHist α γ ρ σ γ' ρ')) → Prop
  | nil : Life.History addr H0 [] []
  | create {ops hs p v} (h : Life.History addr H0 ops hs) (hp : NetPlan.Sensible addr p v) :
      Life.History addr H0 (ops ++ [.create p]) (hs ++ [some ⟨p, v, []⟩])
  | call {ops hs k s op vop} (h : Life.History addr H0 ops hs) (hk : hs[k]? = some (some s)) (ho : HTrainOp.Same H0 op vop)
      (hg : vop.Good s.val.s s.val.o) :
      Life.History addr H0 (ops ++ [.call k op]) (hs.set k (some { s with calls := s.calls ++ [vop] }))
  | destroy {ops hs k s b} (h : Life.History addr H0 ops hs) (hk : hs[k]? = some (some s)) :
      Life.History addr H0 (ops ++ [.destroy k b]) (hs.set k none)

/-- The allocation belongs to a tensor of a network, or of a training object, that exists. -/
def Life.Uses (w : Life α γ ρ σ) (b : Nat) : Prop := ∃ s, some s ∈ w.slots ∧ ∃ o ∈ s.t.owned, o.data = .at b 0

end Trixy
