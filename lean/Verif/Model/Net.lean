import Verif.Model.Pool
/-
Model of Neuro/Network/UnifiedNet.hpp over the layers of Neuro/Network/Layer. `inner_` is a list of layer objects:
simplification: the pointers in `inner_` are distinct (ownership is modelled separately in Model/Own.lean), so
every layer is represented by its own state.
-/
namespace Trixy

variable {α γ ρ σ : Type}

/-- The dynamic types behind an `ILayer*` (Layer/Base.hpp:24-102): the training layers and the inference layers. A `rawConv`/
`rawPool` uses only the members its class has (Model/Conv, Model/Pool). -/
inductive Layer (α : Type) where
  | fc (l : FC α)
  | conv (l : Conv α)
  | pool (l : Pool α)
  | rawFC (l : RawFC α)
  | rawConv (l : Conv α)
  | rawPool (l : Pool α)

/-- `value()` (Layer/Base.hpp:57). -/
def Layer.value : Layer α → Ten α
  | .fc l => l.value
  | .conv l => l.value
  | .pool l => l.value
  | .rawFC l => l.value
  | .rawConv l => l.value
  | .rawPool l => l.value

/-- `osize()` (Layer/Base.hpp:60): depth, height, width (a dense layer has shape (1,1,n), FullyConnected.hpp:58,145). -/
def Layer.osize : Layer α → Nat × Nat × Nat
  | .fc l => (1, 1, l.osize)
  | .conv l => (l.od, l.oh, l.ow)
  | .pool l => (l.od, l.oh, l.ow)
  | .rawFC l => (1, 1, l.osize)
  | .rawConv l => (l.od, l.oh, l.ow)
  | .rawPool l => (l.od, l.oh, l.ow)

/-- `forward(input)` (Layer/Base.hpp:56, virtual). -/
def Layer.forward [Zero α] [One α] [Add α] [Mul α] [LT α] [DecidableLT α] (x : Ten α) : Layer α → Res (Layer α)
  | .fc l => do let l ← l.forward x; return .fc l
  | .conv l => do let l ← l.forward x; return .conv l
  | .pool l => do let l ← l.forward x; return .pool l
  | .rawFC l => do let l ← l.forward x; return .rawFC l
  | .rawConv l => do let l ← l.forward x; return .rawConv l
  | .rawPool l => do let l ← l.forwardRaw x; return .rawPool l

/-- `init(generator)` (Layer/Base.hpp:53; the inference FullyConnected and both MaxPooling layers keep the empty default). -/
def Layer.init (gen : Gen γ ρ α) (c : γ) (g : ρ) : Layer α → Res (Layer α × ρ)
  | .fc l => do let (l, g) ← l.init gen c g; return (.fc l, g)
  | .conv l => do let (l, g) ← l.init gen c g; return (.conv l, g)
  | .rawConv l => do let (l, g) ← l.init gen c g; return (.rawConv l, g)
  | l => .ok (l, g)

/-- `delta()` (Layer/Base.hpp:96), reached through the `static_cast<ITrainLayer&>` of Training/UnifiedNet.hpp:210-214. -/
def Layer.delta : Layer α → Res (Ten α)
  | .fc l => .ok l.delta
  | .conv l => .ok l.delta
  | .pool l => .ok l.delta
  | _ => .error .badCast

/-- `backward(input, idelta, full)` (Layer/Base.hpp:95). -/
def Layer.backward [Zero α] [Add α] [Mul α] (x d : Ten α) (full : Bool) : Layer α → Res (Layer α)
  | .fc l => do let l ← l.backward x d full; return .fc l
  | .conv l => do let l ← l.backward x d full; return .conv l
  | .pool l => do let l ← l.backward x d full; return .pool l
  | _ => .error .badCast

/-- `update(optimizer, alpha)` (Layer/Base.hpp:98; MaxPooling keeps the empty default). -/
def Layer.update [Mul α] [One α] [DecidableEq α] (upd : Upd σ α) (s : σ) (alpha : α) : Layer α → Res (σ × Layer α)
  | .fc l => do let (s, l) ← l.update upd s alpha; return (s, .fc l)
  | .conv l => do let (s, l) ← l.update upd s alpha; return (s, .conv l)
  | .pool l => .ok (s, .pool l)
  | _ => .error .badCast

/-- `accumulate()` (Layer/Base.hpp:100; Convolutional and MaxPooling keep the empty default). -/
def Layer.accumulate [Add α] : Layer α → Res (Layer α)
  | .fc l => do let l ← l.accumulate; return .fc l
  | .conv l => .ok (.conv l)
  | .pool l => .ok (.pool l)
  | _ => .error .badCast

/-- `reset()` (Layer/Base.hpp:101; Convolutional and MaxPooling keep the empty default). -/
def Layer.reset [Zero α] : Layer α → Res (Layer α)
  | .fc l => do let l ← l.reset; return .fc l
  | .conv l => .ok (.conv l)
  | .pool l => .ok (.pool l)
  | _ => .error .badCast

/-- The layers of a network (UnifiedNet.hpp:54). -/
abbrev Net (α : Type) := List (Layer α)

/-- UnifiedNet.hpp:104-105, body of the loop: `layer(i).forward(layer(i - 1).value())`. -/
def Net.step [Zero α] [One α] [Add α] [Mul α] [LT α] [DecidableLT α] (i : Nat) (net : Net α) : Res (Net α) := do
  let p ← lget net (i - 1)
  let l ← lget net i
  let l ← l.forward p.value
  lset net i l

/-- UnifiedNet.hpp:100-108; returns the network and the value of its last layer. -/
def Net.feedforward [Zero α] [One α] [Add α] [Mul α] [LT α] [DecidableLT α] (x : Ten α) (net : Net α) : Res (Net α × Ten α) := do
  let l ← lget net 0
  let l ← l.forward x
  let net ← lset net 0 l
  let net ← forLoop 1 net.length net (fun i net => Net.step i net)
  let l ← lget net (wsub net.length 1)
  return (net, l.value)

/-- UnifiedNet.hpp:115-122: one `std::function` is made from the functor and passed to all layers by reference; every
`fill` copies it. -/
def Net.init (gen : Gen γ ρ α) (c : γ) (g : ρ) (net : Net α) : Res (Net α × ρ) :=
  forN net.length (net, g) (fun i s => do
    let l ← lget s.1 i
    let (l, g) ← l.init gen c s.2
    let net ← lset s.1 i l
    return (net, g))

end Trixy
