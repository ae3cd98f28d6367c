import Verif.Spec.Net
import Verif.Spec.Trace
/- Specification vocabulary for parameter initialisation. -/
namespace Trixy

variable {α γ ρ : Type}

/-- The parameter tensors of a layer in the order in which `init` fills them. -/
def Layer.initOrder : Layer α → List (Buf α)
  | .fc l => [l.B, l.W.data]
  | .conv l => l.Ws.map (·.data) ++ [l.B]
  | .rawConv l => l.Ws.map (·.data) ++ [l.B]
  | _ => []

/-- `k` consecutive values of a random source with state `ρ`. -/
def stream (step : ρ → α × ρ) : Nat → ρ → List α
  | 0, _ => []
  | k + 1, g => (step g).1 :: stream step k (step g).2

/-- A functor that keeps its state outside and only refers to it. -/
def byRef (step : ρ → α × ρ) : Gen Unit ρ α := fun _ g => ((step g).1, (), (step g).2)

/-- A functor that keeps its state in its own members. -/
def byVal (step : ρ → α × ρ) : Gen ρ Unit α := fun c _ => ((step c).1, (step c).2, ())

end Trixy
