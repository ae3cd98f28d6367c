import Verif.Model.HeapNet
import Verif.Model.Loss
import Verif.Model.Softmax
/-
The constructors of the layers, of a network and of the training object on the free store, and the loss classes of
Loss.hpp on objects in memory.
-/
namespace Trixy

variable {α γ ρ σ : Type}

/-! ### Constructors -/

/-- `member.resize(d, h, w).fill(0.f)` on a default constructed member (FullyConnected.hpp:149-163,
Convolutional.hpp:195-225, MaxPooling.hpp:177-187). For a Vector only `w` is used (Vector.hpp:135-149). -/
def Obj.zeroed [Zero α] (H : Heap α) (k : Kind) (d h w : Nat) : Res (Heap α × Obj) := do
  let (H, o) ← (Obj.default k).resize H d h w
  let H ← o.fill H 0
  return (H, o)

/-- FullyConnected.hpp:143-165. -/
def HFC.make [Zero α] (isize osize : Nat) (act : HAct α) (H : Heap α) : Res (Heap α × HFC α) := do
  let (H, B) ← Obj.zeroed H .vec 1 1 osize
  let (H, W) ← Obj.zeroed H .mat 1 isize osize
  let (H, value) ← Obj.zeroed H .ten 1 1 osize
  let (H, buff) ← Obj.zeroed H .vec 1 1 osize
  let (H, gradBs) ← Obj.zeroed H .vec 1 1 osize
  let (H, gradWs) ← Obj.zeroed H .mat 1 isize osize
  let (H, gradB) ← Obj.zeroed H .vec 1 1 osize
  let (H, gradW) ← Obj.zeroed H .mat 1 isize osize
  let (H, delta) ← Obj.zeroed H .ten 1 1 isize
  return (H, { isize := isize, osize := osize, B := B, W := W, act := act, value := value, buff := buff, gradB := gradB,
               gradW := gradW, gradBs := gradBs, gradWs := gradWs, delta := delta, accumulated := false })

/-- `for (auto& W : Ws_) W.resize(d, h, w).fill(0.f)` on `n` default constructed tensors (Convolutional.hpp:197-198,
209-210). -/
def Obj.zeroedList [Zero α] (d h w : Nat) : Nat → Heap α → Res (Heap α × List Obj)
  | 0, H => .ok (H, [])
  | n + 1, H => do
    let (H, o) ← Obj.zeroed H .ten d h w
    let (H, os) ← Obj.zeroedList d h w n H
    return (H, o :: os)

/-- Convolutional.hpp:183-226; the storage of the containers is not part of the tensor free store. -/
def HConv.make [Zero α] (d h w fc fh fw pad sv sh : Nat) (H : Heap α) : Res (Heap α × HConv) := do
  let oh ← convExtent h fh pad sv
  let ow ← convExtent w fw pad sh
  let (H, B) ← Obj.zeroed H .vec 1 1 fc
  let (H, Ws) ← Obj.zeroedList d fh fw fc H
  if fc = 0 then .error .nullDeref else
  let (H, value) ← Obj.zeroed H .ten fc oh ow
  let (H, gradWs) ← Obj.zeroedList d fh fw fc H
  let (H, gradB) ← Obj.zeroed H .vec 1 1 fc
  let (H, delta) ← Obj.zeroed H .ten d h w
  let (H, buff) ← Obj.zeroed H .ten fc (wadd (wmul sv (wsub oh 1)) 1) (wadd (wmul sh (wsub ow 1)) 1)
  return (H, { id := d, ih := h, iw := w, od := fc, oh := oh, ow := ow, pad := pad, sv := sv, sh := sh, B := B, Ws := Ws,
               fc := fc, fd := d, fh := fh, fw := fw, value := value, gradWs := gradWs, gradB := gradB, delta := delta, buff := buff })

/-- MaxPooling.hpp:165-188. -/
def HPool.make [Zero α] (d h w sv sh : Nat) (act : HAct α) (H : Heap α) : Res (Heap α × HPool α) := do
  let oh ← poolExtent h sv
  let ow ← poolExtent w sh
  let (H, value) ← Obj.zeroed H .ten d oh ow
  let (H, delta) ← Obj.zeroed H .ten d h w
  let (H, mask) ← Obj.zeroed H .ten d h w
  let (H, buff) ← Obj.zeroed H .ten d oh ow
  return (H, { id := d, ih := h, iw := w, od := d, oh := oh, ow := ow, sv := sv, sh := sh, act := act, value := value,
               buff := buff, mask := mask, delta := delta })

/-- The arguments of one `net.add(new Layer(...))` (training layers). -/
inductive LayerArgs (α : Type) where
  | fc (isize osize : Nat) (act : HAct α)
  | conv (d h w fc fh fw pad sv sh : Nat)
  | pool (d h w sv sh : Nat) (act : HAct α)

/-- `new Layer(...)`. -/
def LayerArgs.build [Zero α] (H : Heap α) : LayerArgs α → Res (Heap α × HLayer α)
  | .fc i o a => do let (H, l) ← HFC.make i o a H; return (H, .fc l)
  | .conv d h w c fh fw p sv sh => do let (H, l) ← HConv.make d h w c fh fw p sv sh H; return (H, .conv l)
  | .pool d h w sv sh a => do let (H, l) ← HPool.make d h w sv sh a H; return (H, .pool l)

/-- A program `net.add(new Layer(...)); net.add(new Layer(...)); …` (UnifiedNet.hpp:76-80). -/
def HNet.build [Zero α] : List (LayerArgs α) → Heap α → Res (Heap α × HNet α)
  | [], H => .ok (H, [])
  | a :: as, H => do
    let (H, l) ← a.build H
    let (H, net) ← HNet.build as H
    return (H, l :: net)

/-- `osize()` of a layer (Layer/Base.hpp:60). -/
def HLayer.osize : HLayer α → Nat × Nat × Nat
  | .fc l => (1, 1, l.osize)
  | .conv l => (l.od, l.oh, l.ow)
  | .pool l => (l.od, l.oh, l.ow)
  | .rawFC l => (1, 1, l.osize)
  | .rawConv l => (l.od, l.oh, l.ow)
  | .rawPool l => (l.od, l.oh, l.ow)

/-- Training/UnifiedNet.hpp:59-62 followed by `loss(loss)` (209-213), with an optimizer. -/
def HTrain.make (H : Heap α) (net : HNet α) (loss : Option (HLoss α)) (opt : σ) : Res (HTrain α σ) := do
  let l ← lget net (wsub net.length 1)
  let (H, d) := Obj.sized H .ten l.osize.1 l.osize.2.1 l.osize.2.2
  return { heap := H, net := net, delta := d, loss := loss, opt := opt }

/-! ### Initialisation -/

/-- TensorBase.hpp:148-154 (the generator is taken by value). -/
def Obj.fillBy (gen : Gen γ ρ α) (c : γ) (g : ρ) (H : Heap α) (r : Obj) : Res (Heap α × ρ) := do
  let (H, _, g) ← forN r.shape.size (H, c, g) (fun i (H, c, g) => do
    let (a, c, g) := gen c g
    let H ← r.set1 H i a
    return (H, c, g))
  return (H, g)

/-- FullyConnected.hpp:170-174. -/
def HFC.init (gen : Gen γ ρ α) (c : γ) (g : ρ) (H : Heap α) (l : HFC α) : Res (Heap α × ρ) := do
  let (H, g) ← l.B.fillBy gen c g H
  l.W.fillBy gen c g H

/-- Convolutional.hpp:229-233 (and 91-95). -/
def HConv.init (gen : Gen γ ρ α) (c : γ) (g : ρ) (H : Heap α) (l : HConv) : Res (Heap α × ρ) := do
  let (H, g) ← forN l.Ws.length (H, g) (fun f s => do
    let W ← lget l.Ws f
    W.fillBy gen c s.2 s.1)
  l.B.fillBy gen c g H

/-- `init(generator)` (Layer/Base.hpp:53). -/
def HLayer.init (gen : Gen γ ρ α) (c : γ) (g : ρ) (H : Heap α) : HLayer α → Res (Heap α × ρ)
  | .fc l => l.init gen c g H
  | .conv l => l.init gen c g H
  | .rawConv l => l.init gen c g H
  | _ => .ok (H, g)

/-- UnifiedNet.hpp:115-122. -/
def HNet.init (gen : Gen γ ρ α) (c : γ) (g : ρ) (H : Heap α) (net : HNet α) : Res (Heap α × ρ) :=
  forN net.length (H, g) (fun i s => do
    let l ← lget net i
    l.init gen c s.2 s.1)

/-! ### Activation classes on objects in memory -/

/-- Activation.hpp:143-160 (class, `f`, `df`) with Activation.hpp:24-40: an object of the class, applied to objects in memory. -/
noncomputable def ActKind.hobj : ActKind → HAct ℝ
  | .identity => HAct.elementwise Fn.identity Fn.identityD
  | .relu => HAct.elementwise Fn.relu Fn.reluD
  | .elu => HAct.elementwise Fn.elu Fn.eluD
  | .lrelu => HAct.elementwise Fn.lrelu Fn.lreluD
  | .selu => HAct.elementwise Fn.selu Fn.seluD
  | .gelu => HAct.elementwise Fn.gelu Fn.geluD
  | .sigmoid => HAct.elementwise Fn.sigmoid Fn.sigmoidD
  | .tanh => HAct.elementwise Fn.tanh Fn.tanhD
  | .softsign => HAct.elementwise Fn.softsign Fn.softsignD
  | .softplus => HAct.elementwise Fn.softplus Fn.softplusD
  | .swish => HAct.elementwise Fn.swish Fn.swishD
  | .modRelu => HAct.elementwise Fn.modRelu Fn.modReluD
  | .modTanh => HAct.elementwise Fn.modTanh Fn.modTanhD

/-- Activation.hpp:162 (`SoftMax`), applied to objects in memory. -/
noncomputable def softMaxHAct : HAct ℝ := HAct.softmax realExp realRecip

/-! ### Loss classes on objects in memory -/
namespace HLosses
open Losses

/-- Loss.hpp:61-100, 320. -/
noncomputable def MSE : HLoss ℝ := HLoss.elementwise (fun s a b => .ok (s + (a - b) * (a - b))) (· * 0.5) (fun a b => .ok (b - a))
/-- Loss.hpp:120-140: the difference is stored in `*first` and read back. -/
noncomputable def maeD (H : Heap ℝ) (r t p : Obj) : Res (Heap ℝ) :=
  forN r.shape.size H (fun i H => do
    let a ← t.get1 H i
    let b ← p.get1 H i
    let H ← r.set1 H i (a - b)
    let d ← r.get1 H i
    r.set1 H i (if d < 0 then -1 else if d > 0 then 1 else 0))
/-- Loss.hpp:102-140, 321. -/
noncomputable def MAE : HLoss ℝ := { HLoss.elementwise (fun s a b => .ok (s + |b - a|)) id (fun a _ => .ok a) with df := maeD }
/-- Loss.hpp:21-39, 84-100, 322. -/
noncomputable def CCE : HLoss ℝ := HLoss.elementwise (fun s a b => .ok (s - a * Real.log (b + eps))) id (fun a b => .ok (b - a))
/-- Loss.hpp:187-205, 228-244, 323. -/
noncomputable def BCE : HLoss ℝ :=
  HLoss.elementwise (fun s a b => .ok (s - (a * Real.log (b + eps) + (1 - a) * Real.log (1 + (eps - b))))) id
    (fun a b => .ok (a * (b - 1) + b * (1 - a)))
/-- Loss.hpp:167-185: `*pred + 1` is stored in `*first` and read back twice. -/
noncomputable def msleD (H : Heap ℝ) (r t p : Obj) : Res (Heap ℝ) :=
  forN r.shape.size H (fun i H => do
    let b ← p.get1 H i
    let H ← r.set1 H i (b + 1)
    let d ← r.get1 H i
    let a ← t.get1 H i
    let q ← fdiv d (a + 1)
    let d ← r.get1 H i
    let q ← fdiv (Real.log q) d
    r.set1 H i q)
/-- Loss.hpp:142-185, 324. -/
noncomputable def MSLE : HLoss ℝ :=
  { HLoss.elementwise (fun s a b => do let f ← fdiv (b + 1) (a + 1); return s + Real.log f * Real.log f) (· * 0.5) (fun a _ => .ok a)
    with df := msleD }
/-- Loss.hpp:246-282, 325. -/
noncomputable def NLL : HLoss ℝ := HLoss.elementwise (fun s a b => .ok (s + a * b)) (fun s => -Real.log s) (fun a b => .ok (b - a))
/-- Loss.hpp:284-318, 326. -/
noncomputable def LC : HLoss ℝ :=
  HLoss.elementwise (fun s a b => .ok (s + Real.log (Real.cosh (b - a)))) id (fun a b => .ok (Real.tanh (b - a)))

end HLosses
end Trixy
