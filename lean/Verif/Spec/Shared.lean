import Verif.Spec.TrainSafe
/- Several networks trained with one optimizer object. -/
namespace Trixy

variable {α γ ρ σ : Type}

/-- The addresses of the parameters of a layer: what an optimizer knows a parameter by. -/
def Layer.keys : Layer α → List Nat
  | .fc l => [l.keyB, l.keyW]
  | .conv l => l.keyB :: (List.range l.Ws.length).map l.keyW
  | _ => []

/-- The addresses of the parameters of a network. -/
def Net.keys (net : Net α) : List Nat := net.flatMap Layer.keys

section
variable [Zero α] [One α] [Add α] [Mul α] [Div α] [NatCast α] [LT α] [DecidableLT α] [DecidableEq α]

/-- Training objects, each with the random engine of its own, and one optimizer `s` for all of them: `(i, op)` is the call `op` on the `i`-th. -/
def Shared.run (upd : Upd σ α) (gen : Gen γ ρ Nat) : σ → List (Train α × ρ) → List (Nat × TrainOp α γ) → Res (σ × List (Train α × ρ))
  | s, ts, [] => .ok (s, ts)
  | s, ts, (i, op) :: ops => do
    let c ← lget ts i
    let r ← TrainOp.exec upd gen ((s, c.1), c.2) op
    Shared.run upd gen r.1.1 (ts.set i (r.1.2, r.2)) ops

/-- The calls on the `i`-th training object. -/
def Shared.mine (i : Nat) (ops : List (Nat × TrainOp α γ)) : List (TrainOp α γ) := (ops.filter (fun o => o.1 == i)).map (·.2)

/-- One training object with an optimizer of its own that only sees the calls `ops`: the training object and the engine at the end. -/
def Shared.alone (upd : Upd σ α) (gen : Gen γ ρ Nat) (s : σ) (c : Train α × ρ) (ops : List (TrainOp α γ)) : Res (Train α × ρ) := do
  let r ← TrainOp.run upd gen ((s, c.1), c.2) ops
  return (r.1.2, r.2)

/-- One optimizer object can serve several networks: whatever calls are made, in whatever order, every network ends up as if it
had had an optimizer of its own (which starts as the shared one did) and the other networks did not exist. -/
def Serves (γ ρ : Type) (upd : Upd σ α) (s : σ) : Prop :=
  ∀ (gen : Gen γ ρ Nat) (ts ends : List (Train α × ρ)) (ops : List (Nat × TrainOp α γ)),
    ts.Pairwise (fun a b => ∀ k ∈ Net.keys a.1.net, k ∉ Net.keys b.1.net) → (∀ o ∈ ops, o.1 < ts.length) →
    ((∃ s', Shared.run upd gen s ts ops = .ok (s', ends)) ↔
      List.Forall₂ (fun i e => ∃ c, ts[i]? = some c ∧ Shared.alone upd gen s c (Shared.mine i ops) = .ok e) (List.range ts.length) ends)

end

end Trixy
