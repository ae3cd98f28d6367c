import Verif.Model.Grow
import Verif.Spec.TrainSafe
/- Networks that grow after the training object was created. -/
namespace Trixy

variable {α γ ρ σ : Type}

/-- A call on the training object (or its network), or `network.add(l)`. -/
inductive GrowOp (α γ : Type) where
  | call (op : TrainOp α γ)
  | add (l : Layer α)

section
variable [Zero α] [One α] [Add α] [Mul α] [Div α] [NatCast α] [LT α] [DecidableLT α] [DecidableEq α]

/-- The program with one training object. -/
def GrowOp.run (upd : Upd σ α) (gen : Gen γ ρ Nat) : (σ × Train α) × ρ → List (GrowOp α γ) → Res ((σ × Train α) × ρ)
  | st, [] => .ok st
  | st, .call op :: ops => do let st ← TrainOp.exec upd gen st op; GrowOp.run upd gen st ops
  | st, .add l :: ops => GrowOp.run upd gen ((st.1.1, st.1.2.add l), st.2) ops

/-- The program that creates a new training object, with the loss of the old one, whenever a layer was added. -/
def GrowOp.runNew (upd : Upd σ α) (gen : Gen γ ρ Nat) : (σ × Train α) × ρ → List (GrowOp α γ) → Res ((σ × Train α) × ρ)
  | st, [] => .ok st
  | st, .call op :: ops => do let st ← TrainOp.exec upd gen st op; GrowOp.runNew upd gen st ops
  | st, .add l :: ops => do
    let t ← Train.make (st.1.2.net ++ [l])
    GrowOp.runNew upd gen ((st.1.1, { t with loss := st.1.2.loss }), st.2) ops

end

/-- What is left at the end: optimizer, network, loss function, random engine. -/
def GrowOp.seen (r : (σ × Train α) × ρ) : σ × Net α × Option (Loss α) × ρ := (r.1.1, r.1.2.net, r.1.2.loss, r.2)

/-- The derivative of the loss overwrites its result range, whatever was in there, and reads the prediction cell by cell. -/
structure Loss.Overwrites (l : Loss α) : Prop where
  same : ∀ r r' t p : Buf α, r.length = r'.length → l.df r t p = l.df r' t p
  length : ∀ r t p d : Buf α, l.df r t p = .ok d → d.length = r.length
  reads : ∀ r t p d : Buf α, l.df r t p = .ok d → r.length ≤ p.length

/-- The loss set by the call, if any, is of that kind. -/
def GrowOp.Sane (o : Nat × Nat × Nat) : GrowOp α γ → Prop
  | .call (.setLoss l) => l.Overwrites
  | .call _ => True
  | .add l => l.osize = o

end Trixy
