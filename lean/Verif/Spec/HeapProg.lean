import Verif.Spec.HeapBuild
import Verif.Spec.TrainSafe
/-
Whole programs: build a network in the free store, initialise it, make a training object, and call it with data that was in
memory before. The same program on values is the sequence of calls of Spec/TrainSafe.lean.
-/
namespace Trixy

variable {α γ ρ σ γ' ρ' : Type}

/-- A call on a training object (Training/UnifiedNet.hpp:73-208) or `network.feedforward(x)`, the data being objects in memory. -/
inductive HTrainOp (α γ : Type) where
  | batch (idata odata : List Obj) (epochs : Nat)
  | mini (idata odata : List Obj) (epochs m : Nat)
  | sto (idata odata : List Obj) (iterations : Nat) (c : γ)
  | lossOf (idata odata : List Obj)
  | eval (x : Obj)
  | setLoss (l : HLoss α)

section
variable [Zero α] [One α] [Add α] [Mul α] [Div α] [NatCast α] [LT α] [DecidableLT α] [DecidableEq α]

/-- Executing a call. -/
def HTrainOp.exec (upd : HUpd σ α) (gen : Gen γ ρ Nat) (st : HTrain α σ × ρ) : HTrainOp α γ → Res (HTrain α σ × ρ)
  | .batch X Y epochs => do let t ← st.1.batch upd X Y epochs; return (t, st.2)
  | .mini X Y epochs m => do let t ← st.1.miniBatch upd X Y epochs m; return (t, st.2)
  | .sto X Y iterations c => st.1.stochastic upd X Y iterations gen c st.2
  | .lossOf X Y => do let r ← st.1.lossMean X Y; return (r.2, st.2)
  | .eval x => do let t ← st.1.feedforward x; return (t, st.2)
  | .setLoss l => .ok ({ st.1 with loss := some l }, st.2)

/-- A sequence of calls. -/
def HTrainOp.run (upd : HUpd σ α) (gen : Gen γ ρ Nat) : HTrain α σ × ρ → List (HTrainOp α γ) → Res (HTrain α σ × ρ)
  | st, [] => .ok st
  | st, op :: ops => do let st ← HTrainOp.exec upd gen st op; HTrainOp.run upd gen st ops

/-- The whole program on the free store: constructors, `init`, a training object, a loss, calls. -/
def HTrain.program (as : List (LayerArgs α)) (gi : Gen γ' ρ' α) (ci : γ') (ri : ρ') (loss : HLoss α) (opt : σ) (upd : HUpd σ α)
    (gen : Gen γ ρ Nat) (g : ρ) (ops : List (HTrainOp α γ)) (H : Heap α) : Res (HTrain α σ × ρ) := do
  let (H, net) ← HNet.build as H
  let (H, _) ← HNet.init gi ci ri H net
  let t ← HTrain.make H net none opt
  HTrainOp.run upd gen (t, g) (.setLoss loss :: ops)

/-- The same program on values. -/
def Train.program (ks : List (LayerKind α)) (gi : Gen γ' ρ' α) (ci : γ') (ri : ρ') (loss : Loss α) (opt : σ) (upd : Upd σ α)
    (gen : Gen γ ρ Nat) (g : ρ) (ops : List (TrainOp α γ)) : Res ((σ × Train α) × ρ) := do
  let net ← LayerKind.makeAll ks
  let (net, _) ← Net.init gi ci ri net
  let t ← Train.make net
  TrainOp.run upd gen ((opt, t), g) (.setLoss loss :: ops)

end

/-- The object lies in a block that was allocated in `H` already. -/
def Heap.Old (H : Heap α) (o : Obj) : Prop := ∃ b j, o.data = .at b j ∧ b < H.next

/-- The list of objects, all in memory that was allocated in `H` already, has the contents `xs`. -/
def Heap.Dataset (H : Heap α) (X : List Obj) (xs : List (Ten α)) : Prop := List.Forall₂ (fun o x => H.Old o ∧ H.KeepsT o x) X xs

/-- The call with data in the memory `H` is the call with these values. -/
inductive HTrainOp.Same (H : Heap α) : HTrainOp α γ → TrainOp α γ → Prop
  | batch {X Y : List Obj} {xs ys : List (Ten α)} {n : Nat} (hX : H.Dataset X xs) (hY : H.Dataset Y ys) :
      HTrainOp.Same H (.batch X Y n) (.batch xs ys n)
  | mini {X Y : List Obj} {xs ys : List (Ten α)} {n m : Nat} (hX : H.Dataset X xs) (hY : H.Dataset Y ys) :
      HTrainOp.Same H (.mini X Y n m) (.mini xs ys n m)
  | sto {X Y : List Obj} {xs ys : List (Ten α)} {n : Nat} {c : γ} (hX : H.Dataset X xs) (hY : H.Dataset Y ys) :
      HTrainOp.Same H (.sto X Y n c) (.sto xs ys n c)
  | lossOf {X Y : List Obj} {xs ys : List (Ten α)} (hX : H.Dataset X xs) (hY : H.Dataset Y ys) :
      HTrainOp.Same H (.lossOf X Y) (.lossOf xs ys)
  | eval {o : Obj} {x : Ten α} (ho : H.Old o) (hx : H.KeepsT o x) : HTrainOp.Same H (.eval o) (.eval x)
  | setLoss {h : HLoss α} {l : Loss α} (hl : h.Follows l) : HTrainOp.Same H (.setLoss h) (.setLoss l)

/-- The kind of the layer these constructor arguments make, with the addresses of its bias and weights. -/
def LayerSpec.kind (kB : Nat) (kW : Nat → Nat) : LayerSpec α → LayerKind α
  | .fc i o a => .dense i o a kB (kW 0)
  | .conv d h w c fh fw p sv sh => .conv d h w c fh fw p sv sh kB kW
  | .pool d h w sv sh a => .pool d (h / sv) (w / sh) sv sh a

/-- The constructor arguments make sense: total activations, filters that fit, pooling windows that tile. -/
def LayerSpec.Sensible : LayerSpec α → Prop
  | .fc _ o a => ∃ F D, a.Is o F D
  | .conv _ h w c fh fw p sv sh => Geo h w fh fw p sv sh ∧ 1 ≤ c
  | .pool d h w sv sh a => 1 ≤ sv ∧ 1 ≤ sh ∧ sv ∣ h ∧ sh ∣ w ∧ ∃ F D, a.Is (d * (h / sv) * (w / sh)) F D

/-- The kinds of the layers of a network in memory. -/
def HNet.kinds (addr : Ptr → Nat) (net : HNet α) (ss : List (LayerSpec α)) : List (LayerKind α) :=
  List.zipWith (fun h s => s.kind (h.biasAddr addr) (h.weightAddr addr)) net ss

/-- Different allocations have different addresses. -/
def Distinct (addr : Ptr → Nat) : Prop := ∀ b c, addr (.at b 0) = addr (.at c 0) → b = c

end Trixy
