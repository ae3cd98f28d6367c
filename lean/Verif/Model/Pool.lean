import Verif.Model.Conv
/-
Model of Neuro/Network/Layer/MaxPooling.hpp. A loop `for (i = 0; i < n; i += s)` makes ⌈n/s⌉ rounds; simplification: the
counter itself does not wrap (sizes plus strides below 2^64).
-/
namespace Trixy

variable {α : Type}

/-- MaxPooling.hpp:126-147 training layer; the inference layer (29-46) has the members up to `value`. -/
structure Pool (α : Type) where
  id : Nat
  ih : Nat
  iw : Nat
  od : Nat
  oh : Nat
  ow : Nat
  sv : Nat
  sh : Nat
  act : Act α
  value : Ten α
  buff : Ten α
  mask : Ten α
  delta : Ten α

/-- Integer division of the constructor (MaxPooling.hpp:68-70, 170-172); division by zero is undefined. -/
def poolExtent (size stride : Nat) : Res Nat := if stride = 0 then .error .divByZero else .ok (size / stride)

/-- MaxPooling.hpp:165-188: constructor and `prepare()` (63-81 for the inference layer). -/
def Pool.make [Zero α] (d h w sv sh : Nat) (act : Act α) : Res (Pool α) := do
  let oh ← poolExtent h sv
  let ow ← poolExtent w sh
  return { id := d, ih := h, iw := w, od := d, oh := oh, ow := ow, sv := sv, sh := sh, act := act,
           value := Ten.fill d oh ow 0, buff := Ten.fill d oh ow 0, mask := Ten.fill d h w 0, delta := Ten.fill d h w 0 }

/-- Rounds of `for (i = 0; i < n; i += s)`. -/
def rounds (n s : Nat) : Nat := (n + s - 1) / s

/-- MaxPooling.hpp:100-109: the scan of one window of the inference layer; the window starts at `(i, j)`. -/
def poolScan [LT α] [DecidableLT α] (input : Ten α) (sv sh d i j : Nat) : Res α := do
  let m ← input.get d i j
  forN sv m (fun a m => forN sh m (fun b m => do
    let v ← input.get d (i + a) (j + b)
    return if m < v then v else m))

/-- MaxPooling.hpp:92-117, inference layer. -/
def Pool.forwardRaw [LT α] [DecidableLT α] (input : Ten α) (l : Pool α) : Res (Pool α) := do
  let v ← forN l.id l.value (fun d v => forN (rounds l.ih l.sv) v (fun p v => forN (rounds l.iw l.sh) v (fun q v => do
    let m ← poolScan input l.sv l.sh d (p * l.sv) (q * l.sh)
    v.set d (p * l.sv / l.sv) (q * l.sh / l.sh) m)))
  let r ← l.act.fSelf v.data
  return { l with value := { v with data := r } }

/-- State of the scan in the training layer: mask, maximum, its position. -/
structure Scan (α : Type) where
  mask : Ten α
  max : α
  imax : Nat
  jmax : Nat

/-- MaxPooling.hpp:223-228. -/
def Scan.better [LT α] [DecidableLT α] (s : Scan α) (mask : Ten α) (v : α) (y x : Nat) : Scan α :=
  if s.max < v then ⟨mask, v, y, x⟩ else { s with mask := mask }

/-- MaxPooling.hpp:211-230: the scan of one window of the training layer, clearing the mask. -/
def poolScanT [Zero α] [LT α] [DecidableLT α] (input mask : Ten α) (sv sh d i j : Nat) : Res (Scan α) := do
  let m ← input.get d i j
  forN sv ⟨mask, m, i, j⟩ (fun a s => forN sh s (fun b s => do
    let v ← input.get d (i + a) (j + b)
    let mk ← s.mask.set d (i + a) (j + b) 0
    return s.better mk v (i + a) (j + b)))

/-- MaxPooling.hpp:201-236: the loops of the training layer's forward pass. -/
def Pool.scanAll [Zero α] [One α] [LT α] [DecidableLT α] (input : Ten α) (l : Pool α) (mask : Ten α) : Res (Ten α × Ten α) :=
  forN l.id (l.value, mask) (fun d s => forN (rounds l.ih l.sv) s (fun p s => forN (rounds l.iw l.sh) s (fun q s => do
    let r ← poolScanT input s.2 l.sv l.sh d (p * l.sv) (q * l.sh)
    let v ← s.1.set d (p * l.sv / l.sv) (q * l.sh / l.sh) r.max
    let mk ← r.mask.set d r.imax r.jmax 1
    return (v, mk))))

/-- MaxPooling.hpp:201-239, training layer: `activation_->f(value_, buff_)`. -/
def Pool.forward [Zero α] [One α] [LT α] [DecidableLT α] (input : Ten α) (l : Pool α) : Res (Pool α) := do
  let mask ← l.mask.onData (fun d => fillInto d 0)
  let (v, mask) ← l.scanAll input mask
  let r ← l.act.f v.data l.buff.data
  return { l with mask := mask, value := { v with data := r } }

/-- MaxPooling.hpp:241-250. -/
def Pool.backward [Mul α] (_input idelta : Ten α) (_full : Bool) (l : Pool α) : Res (Pool α) := do
  let b ← l.act.dfSelf l.buff.data
  let b ← zipInto (· * ·) b idelta.data
  let buff := { l.buff with data := b }
  let D ← forN l.id l.delta (fun d D => forN l.ih D (fun i D => forN l.iw D (fun j D => do
    let a ← buff.get d (i / l.sv) (j / l.sh)
    let m ← l.mask.get d i j
    D.set d i j (a * m))))
  return { l with buff := buff, delta := D }

/-- MaxPooling.hpp:193-197 (the deletion of the old activation is modelled in Model/Own.lean). -/
def Pool.connect (act : Act α) (l : Pool α) : Pool α := { l with act := act }

end Trixy
