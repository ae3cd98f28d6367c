import Verif.Spec.Shared
/- Where in memory the parameters are. -/
namespace Trixy

variable {α : Type}

/-- A layer without the addresses of its parameters: everything else a program can see of it. -/
def Layer.placeless : Layer α → Layer α
  | .fc l => .fc { l with keyB := 0, keyW := 0 }
  | .conv l => .conv { l with keyB := 0, keyW := fun _ => 0 }
  | .rawConv l => .rawConv { l with keyB := 0, keyW := fun _ => 0 }
  | l => l

/-- A training object without the addresses of the parameters. -/
def Train.placeless (t : Train α) : Train α := { t with net := t.net.map Layer.placeless }

/-- What a sequence of calls leaves apart from the optimizer: the training object with its network, without addresses, and the random engine. -/
def placelessEnd {σ ρ : Type} (r : Res ((σ × Train α) × ρ)) : Res (Train α × ρ) := do
  let r ← r
  return (r.1.2.placeless, r.2)

/-- The same for several training objects that share an optimizer. -/
def placelessEnds {σ ρ : Type} (r : Res (σ × List (Train α × ρ))) : Res (List (Train α × ρ)) := do
  let r ← r
  return r.2.map (fun c => (c.1.placeless, c.2))

/-- All addresses of the parameters of these networks. -/
def allKeys {ρ : Type} (ts : List (Train α × ρ)) : List Nat := ts.flatMap (fun c => Net.keys c.1.net)

end Trixy
