import Verif.Model.Act
import Verif.Model.Linear
import Verif.Model.Optim
/-
Model of Neuro/Network/Layer/FullyConnected.hpp. All members are distinct objects, `input` and `idelta` are objects
outside the layer (the outputs and deltas of the neighbouring layers or the sample).
-/
namespace Trixy

variable {α γ ρ σ : Type}

/-- FullyConnected.hpp:101-132, training layer. `isize`/`osize` are the widths of the shapes (1,1,n); `keyB`, `keyW`
are the addresses of the parameter storage, which never changes after construction. -/
structure FC (α : Type) where
  isize : Nat
  osize : Nat
  B : Buf α
  W : Mat α
  act : Act α
  value : Ten α
  buff : Buf α
  gradB : Buf α
  gradW : Mat α
  gradBs : Buf α
  gradWs : Mat α
  delta : Ten α
  accumulated : Bool
  keyB : Nat
  keyW : Nat

/-- FullyConnected.hpp:143-165: constructor and `prepare()`. -/
def FC.make [Zero α] (isize osize : Nat) (act : Act α) (keyB keyW : Nat) : FC α where
  isize := isize
  osize := osize
  B := filled osize 0
  W := Mat.fill isize osize 0
  act := act
  value := Ten.fill 1 1 osize 0
  buff := filled osize 0
  gradB := filled osize 0
  gradW := Mat.fill isize osize 0
  gradBs := filled osize 0
  gradWs := Mat.fill isize osize 0
  delta := Ten.fill 1 1 isize 0
  accumulated := false
  keyB := keyB
  keyW := keyW

/-- FullyConnected.hpp:170-174. The same `std::function` is copied for each `fill`. -/
def FC.init (gen : Gen γ ρ α) (c : γ) (g : ρ) (l : FC α) : Res (FC α × ρ) := do
  let (B, g) ← fillBy gen c g l.B
  let (W, g) ← fillBy gen c g l.W.data
  return ({ l with B := B, W := { l.W with data := W } }, g)

/-- FullyConnected.hpp:176-180 (the deletion of the old activation is modelled in Model/Own.lean). -/
def FC.connect (act : Act α) (l : FC α) : FC α := { l with act := act }

/-- FullyConnected.hpp:182-194. -/
def FC.forward [Zero α] [Add α] [Mul α] (input : Ten α) (l : FC α) : Res (FC α) := do
  let buff ← dotRow l.buff input.data l.W
  let buff ← zipInto (· + ·) buff l.B
  let v ← l.act.f l.value.data buff
  return { l with buff := buff, value := { l.value with data := v } }

/-- FullyConnected.hpp:214: `if (full) linear.dot(delta_, W_, gradB_)`. -/
def FC.backDelta [Zero α] [Add α] [Mul α] (full : Bool) (delta : Ten α) (W : Mat α) (gradB : Buf α) : Res (Ten α) :=
  if full then delta.onData (fun d => dotCol d W gradB) else .ok delta

/-- FullyConnected.hpp:196-215. -/
def FC.backward [Zero α] [Add α] [Mul α] (input idelta : Ten α) (full : Bool) (l : FC α) : Res (FC α) := do
  let gradB ← l.act.df l.gradB l.buff
  let gradB ← zipInto (· * ·) gradB idelta.data
  let gradW ← tensordot l.gradW input.data gradB
  let delta ← FC.backDelta full l.delta l.W gradB
  return { l with gradB := gradB, gradW := gradW, delta := delta }

/-- FullyConnected.hpp:222-226: `if (alpha != 1.f) linear.join(grad, alpha)`. -/
def scaleUnlessOne [Mul α] [One α] [DecidableEq α] (alpha : α) (g : Buf α) : Res (Buf α) :=
  if alpha ≠ 1 then scaleInto g alpha else .ok g

/-- FullyConnected.hpp:217-230, after the choice of the gradient pair `(gB, gW)`. -/
def FC.updateWith [Mul α] [One α] [DecidableEq α] (upd : Upd σ α) (s : σ) (alpha : α) (l : FC α) (gB : Buf α) (gW : Mat α) :
    Res (σ × Buf α × Buf α × Buf α × Buf α) := do
  let gB ← scaleUnlessOne alpha gB
  let gW ← scaleUnlessOne alpha gW.data
  let (s, B, gB) ← upd s l.keyB l.B gB
  let (s, W, gW) ← upd s l.keyW l.W.data gW
  return (s, B, gB, W, gW)

/-- FullyConnected.hpp:217-230. -/
def FC.update [Mul α] [One α] [DecidableEq α] (upd : Upd σ α) (s : σ) (alpha : α) (l : FC α) : Res (σ × FC α) :=
  if l.accumulated then do
    let (s, B, gB, W, gW) ← FC.updateWith upd s alpha l l.gradBs l.gradWs
    return (s, { l with B := B, gradBs := gB, W := { l.W with data := W }, gradWs := { l.gradWs with data := gW } })
  else do
    let (s, B, gB, W, gW) ← FC.updateWith upd s alpha l l.gradB l.gradW
    return (s, { l with B := B, gradB := gB, W := { l.W with data := W }, gradW := { l.gradW with data := gW } })

/-- FullyConnected.hpp:232-238. -/
def FC.reset [Zero α] (l : FC α) : Res (FC α) := do
  let gB ← fillInto l.gradBs 0
  let gW ← l.gradWs.onData (fun d => fillInto d 0)
  return { l with gradBs := gB, gradWs := gW, accumulated := false }

/-- FullyConnected.hpp:240-246. -/
def FC.accumulate [Add α] (l : FC α) : Res (FC α) := do
  let gB ← zipInto (· + ·) l.gradBs l.gradB
  let gW ← l.gradWs.onData (fun d => zipInto (· + ·) d l.gradW.data)
  return { l with gradBs := gB, gradWs := gW, accumulated := true }

/-- FullyConnected.hpp:26-46, inference layer (its constructor does not compile, `fll` in line 62; objects come
from an archive). -/
structure RawFC (α : Type) where
  isize : Nat
  osize : Nat
  B : Buf α
  W : Mat α
  act : Act α
  value : Ten α

/-- FullyConnected.hpp:82-93: the affine image is computed in `value_` and activated in place. -/
def RawFC.forward [Zero α] [Add α] [Mul α] (input : Ten α) (l : RawFC α) : Res (RawFC α) := do
  let v ← dotRow l.value.data input.data l.W
  let v ← zipInto (· + ·) v l.B
  let v ← l.act.fSelf v
  return { l with value := { l.value with data := v } }

/-! ### Client programs -/

/-- One call of the public interface of a layer (FullyConnected.hpp:170-251). -/
inductive FCOp (α γ : Type) where
  | init (c : γ)
  | connect (a : Act α)
  | forward (x : Ten α)
  | backward (x d : Ten α) (full : Bool)
  | update (alpha : α)
  | reset
  | accumulate

/-- Executing one call with the optimizer `upd` and generator `gen`; the state is (optimizer, outside state of the
generator, layer). -/
def FCOp.exec [Zero α] [One α] [Add α] [Mul α] [DecidableEq α] (upd : Upd σ α) (gen : Gen γ ρ α) :
    σ × ρ × FC α → FCOp α γ → Res (σ × ρ × FC α)
  | (s, g, l), .init c => do let (l, g) ← l.init gen c g; return (s, g, l)
  | (s, g, l), .connect a => .ok (s, g, l.connect a)
  | (s, g, l), .forward x => do let l ← l.forward x; return (s, g, l)
  | (s, g, l), .backward x d full => do let l ← l.backward x d full; return (s, g, l)
  | (s, g, l), .update alpha => do let (s, l) ← l.update upd s alpha; return (s, g, l)
  | (s, g, l), .reset => do let l ← l.reset; return (s, g, l)
  | (s, g, l), .accumulate => do let l ← l.accumulate; return (s, g, l)

/-- A sequence of calls. -/
def FCOp.run [Zero α] [One α] [Add α] [Mul α] [DecidableEq α] (upd : Upd σ α) (gen : Gen γ ρ α) :
    σ × ρ × FC α → List (FCOp α γ) → Res (σ × ρ × FC α)
  | st, [] => .ok st
  | st, op :: ops => do let st ← FCOp.exec upd gen st op; FCOp.run upd gen st ops

/-- The gradient part of a batch on one layer: for every sample (input, delta) `forward`, `backward`, `accumulate`
(Training/UnifiedNet.hpp:103-109 restricted to one layer). -/
def FC.rounds [Zero α] [Add α] [Mul α] (full : Bool) : FC α → List (Ten α × Ten α) → Res (FC α)
  | l, [] => .ok l
  | l, (x, d) :: rest => do
    let l ← l.forward x
    let l ← l.backward x d full
    let l ← l.accumulate
    l.rounds full rest

end Trixy
