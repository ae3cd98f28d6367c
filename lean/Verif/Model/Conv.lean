import Verif.Model.FC
/-
Model of Neuro/Network/Layer/Convolutional.hpp. Index arithmetic is `size_t` arithmetic (`wadd`, `wsub`, `wmul`).
-/
namespace Trixy

variable {α γ ρ σ : Type}

/-- Element access of a `Container`/array of objects (Container.hpp `operator[]`); outside the contents it is
undefined. -/
def lget {β : Type} (l : List β) (i : Nat) : Res β :=
  match l[i]? with
  | none => .error .oob
  | some b => .ok b

/-- Assignment to an element of a container of objects. -/
def lset {β : Type} (l : List β) (i : Nat) (b : β) : Res (List β) :=
  if i < l.length then .ok (l.set i b) else .error .oob

/-- Convolutional.hpp:138-168 training layer; the inference layer (26-50) has the members up to `value`.
`(id, ih, iw)` is `isize_`, `(od, oh, ow)` is `osize_`, `(fd, fh, fw)` is `filter_size_`. -/
structure Conv (α : Type) where
  id : Nat
  ih : Nat
  iw : Nat
  od : Nat
  oh : Nat
  ow : Nat
  pad : Nat
  sv : Nat
  sh : Nat
  B : Buf α
  Ws : List (Ten α)
  fc : Nat
  fd : Nat
  fh : Nat
  fw : Nat
  value : Ten α
  gradWs : List (Ten α)
  gradB : Buf α
  delta : Ten α
  buff : Ten α
  keyB : Nat
  keyW : Nat → Nat

/-- Convolutional.hpp:188-190 (75-77): one output extent, `(size - filter + 2 * padding) / stride + 1` in `size_t`. -/
def convExtent (size filter padding stride : Nat) : Res Nat :=
  if stride = 0 then .error .divByZero
  else .ok (wadd (wadd (wsub size filter) (wmul 2 padding) / stride) 1)

/-- Convolutional.hpp:183-226: constructor and `prepare()`. `Ws_.front()` on zero filters is undefined (null
dereference). -/
def Conv.make [Zero α] (d h w fc fh fw pad sv sh : Nat) (keyB : Nat) (keyW : Nat → Nat) : Res (Conv α) := do
  let oh ← convExtent h fh pad sv
  let ow ← convExtent w fw pad sh
  let Ws := List.replicate fc (Ten.fill d fh fw (0 : α))
  if fc = 0 then .error .nullDeref else
  return {
    id := d, ih := h, iw := w, od := fc, oh := oh, ow := ow, pad := pad, sv := sv, sh := sh,
    B := filled fc 0, Ws := Ws, fc := fc, fd := d, fh := fh, fw := fw,
    value := Ten.fill fc oh ow 0,
    gradWs := List.replicate fc (Ten.fill d fh fw 0), gradB := filled fc 0,
    delta := Ten.fill d h w 0,
    buff := Ten.fill fc (wadd (wmul sv (wsub oh 1)) 1) (wadd (wmul sh (wsub ow 1)) 1) 0,
    keyB := keyB, keyW := keyW }

/-- The inner loop over channels, Convolutional.hpp:258-259: `for c: sum += input(c, i0, j0) * Ws_[f](c, i, j)`. -/
def convAccum [Add α] [Mul α] (fd : Nat) (input W : Ten α) (i0 j0 i j : Nat) (sum : α) : Res α :=
  forN fd sum (fun c sum => do
    let a ← input.get c i0 j0
    let b ← W.get c i j
    return sum + a * b)

/-- Convolutional.hpp:245-260: the value of one output cell. -/
def Conv.cell [Add α] [Mul α] (l : Conv α) (input W : Ten α) (b : α) (y x : Nat) : Res α :=
  forN l.fh b (fun i sum => forN l.fw sum (fun j sum =>
    let i0 := wsub (wadd (wmul l.sv y) i) l.pad
    let j0 := wsub (wadd (wmul l.sh x) j) l.pad
    if l.ih ≤ i0 ∨ l.iw ≤ j0 then .ok sum
    else convAccum l.fd input W i0 j0 i j sum))

/-- Convolutional.hpp:237-267 (99-129 is identical). `Ws_[f]` is looked up once per cell. -/
def Conv.forward [Add α] [Mul α] (input : Ten α) (l : Conv α) : Res (Conv α) := do
  let v ← forN l.fc l.value (fun f v => forN l.oh v (fun y v => forN l.ow v (fun x v => do
    let b ← l.B.get f
    let W ← lget l.Ws f
    let sum ← l.cell input W b y x
    v.set f y x sum)))
  return { l with value := v }

/-- Convolutional.hpp:271-276: the incoming delta is spread with the strides. -/
def Conv.spread (l : Conv α) (idelta : Ten α) : Res (Ten α) :=
  forN l.buff.d l.buff (fun d B => forN l.oh B (fun i B => forN l.ow B (fun j B => do
    let a ← idelta.get d i j
    B.set d (wmul i l.sv) (wmul j l.sh) a)))

/-- Convolutional.hpp:296-297: `for c: gradWs_[f](c, i, j) += delta_value * input(c, i0, j0)`. -/
def convGradChan [Add α] [Mul α] (fd : Nat) (input : Ten α) (dv : α) (i0 j0 i j : Nat) (G : Ten α) : Res (Ten α) :=
  forN fd G (fun c G => do
    let g ← G.get c i j
    let a ← input.get c i0 j0
    G.set c i j (g + dv * a))

/-- Convolutional.hpp:284-298: the contribution of one (spread) delta to the filter gradient. -/
def Conv.gradCell [Add α] [Mul α] (l : Conv α) (input : Ten α) (dv : α) (y x : Nat) (G : Ten α) : Res (Ten α) :=
  forN l.fh G (fun i G => forN l.fw G (fun j G =>
    let i0 := wsub (wadd i y) l.pad
    let j0 := wsub (wadd j x) l.pad
    if l.ih ≤ i0 ∨ l.iw ≤ j0 then .ok G
    else convGradChan l.fd input dv i0 j0 i j G))

/-- Convolutional.hpp:278-303: filter and bias gradients (`+=`). `gradWs_[f]` is looked up once per `f`. -/
def Conv.grads [Add α] [Mul α] (l : Conv α) (input buff : Ten α) : Res (List (Ten α) × Buf α) :=
  forN l.fc (l.gradWs, l.gradB) (fun f s => do
    let G ← lget s.1 f
    let (G, gB) ← forN buff.h (G, s.2) (fun y s => forN buff.w s (fun x s => do
      let dv ← buff.get f y x
      let G ← l.gradCell input dv y x s.1
      let gb ← s.2.get f
      let gB ← s.2.set f (gb + dv)
      return (G, gB)))
    let Gs ← lset s.1 f G
    return (Gs, gB))

/-- Convolutional.hpp:326-327: `for f: sum += Ws_[f](c, fh-1-i, fw-1-j) * buff_(f, i0, j0)`. -/
def Conv.deltaFilters [Add α] [Mul α] (l : Conv α) (buff : Ten α) (c i j i0 j0 : Nat) (sum : α) : Res α :=
  forN l.fc sum (fun f sum => do
    let W ← lget l.Ws f
    let w ← W.get c (wsub (wsub l.fh 1) i) (wsub (wsub l.fw 1) j)
    let b ← buff.get f i0 j0
    return sum + w * b)

/-- Convolutional.hpp:314-329: one cell of the outgoing delta. -/
def Conv.deltaCell [Zero α] [Add α] [Mul α] (l : Conv α) (buff : Ten α) (c y x : Nat) : Res α :=
  forN l.fh (0 : α) (fun i sum => forN l.fw sum (fun j sum =>
    let i0 := wsub (wadd y i) (wsub (wsub l.fh 1) l.pad)
    let j0 := wsub (wadd x j) (wsub (wsub l.fw 1) l.pad)
    if buff.h ≤ i0 ∨ buff.w ≤ j0 then .ok sum
    else l.deltaFilters buff c i j i0 j0 sum))

/-- Convolutional.hpp:305-334. -/
def Conv.deltas [Zero α] [Add α] [Mul α] (l : Conv α) (buff : Ten α) : Res (Ten α) :=
  forN l.ih l.delta (fun y D => forN l.iw D (fun x D => forN l.fd D (fun c D => do
    let sum ← l.deltaCell buff c y x
    D.set c y x sum)))

/-- Convolutional.hpp:269-335 (`full` is unused). -/
def Conv.backward [Zero α] [Add α] [Mul α] (input idelta : Ten α) (_full : Bool) (l : Conv α) : Res (Conv α) := do
  let buff ← l.spread idelta
  let (Gs, gB) ← l.grads input buff
  let D ← l.deltas buff
  return { l with buff := buff, gradWs := Gs, gradB := gB, delta := D }

/-- Convolutional.hpp:339: `for (auto& gradW : gradWs_) linear.join(gradW, alpha)`. -/
def convScale [Mul α] (alpha : α) (Gs : List (Ten α)) : Res (List (Ten α)) :=
  forN Gs.length Gs (fun f Gs => do
    let G ← lget Gs f
    let G ← G.onData (fun d => scaleInto d alpha)
    lset Gs f G)

/-- Convolutional.hpp:342: `for i: optimizer.update(Ws_[i], gradWs_[i])`. -/
def convUpdW (upd : Upd σ α) (keyW : Nat → Nat) (n : Nat) (s : σ) (Ws Gs : List (Ten α)) :
    Res (σ × List (Ten α) × List (Ten α)) :=
  forN n (s, Ws, Gs) (fun f st => do
    let W ← lget st.2.1 f
    let G ← lget st.2.2 f
    let (s, w, g) ← upd st.1 (keyW f) W.data G.data
    let Ws ← lset st.2.1 f { W with data := w }
    let Gs ← lset st.2.2 f { G with data := g }
    return (s, Ws, Gs))

/-- Convolutional.hpp:337-344. -/
def Conv.update [Mul α] (upd : Upd σ α) (s : σ) (alpha : α) (l : Conv α) : Res (σ × Conv α) := do
  let Gs ← convScale alpha l.gradWs
  let gB ← scaleInto l.gradB alpha
  let (s, Ws, Gs) ← convUpdW upd l.keyW l.Ws.length s l.Ws Gs
  let (s, B, gB) ← upd s l.keyB l.B gB
  return (s, { l with B := B, Ws := Ws, gradWs := Gs, gradB := gB })

/-- Convolutional.hpp:229-233: filters first, then the bias; the `std::function` is copied for each `fill`. -/
def Conv.init (gen : Gen γ ρ α) (c : γ) (g : ρ) (l : Conv α) : Res (Conv α × ρ) := do
  let (Ws, g) ← forN l.Ws.length (l.Ws, g) (fun f s => do
    let W ← lget s.1 f
    let (d, g) ← fillBy gen c s.2 W.data
    let Ws ← lset s.1 f { W with data := d }
    return (Ws, g))
  let (B, g) ← fillBy gen c g l.B
  return ({ l with B := B, Ws := Ws }, g)

/-! ### Client programs -/

/-- One call of the public interface of a convolution layer (Convolutional.hpp:229-344; `reset` and `accumulate`
are the empty defaults of Layer/Base.hpp). -/
inductive ConvOp (α γ : Type) where
  | init (c : γ)
  | forward (x : Ten α)
  | backward (x d : Ten α) (full : Bool)
  | update (alpha : α)

/-- Executing one call. -/
def ConvOp.exec [Zero α] [Add α] [Mul α] (upd : Upd σ α) (gen : Gen γ ρ α) :
    σ × ρ × Conv α → ConvOp α γ → Res (σ × ρ × Conv α)
  | (s, g, l), .init c => do let (l, g) ← l.init gen c g; return (s, g, l)
  | (s, g, l), .forward x => do let l ← l.forward x; return (s, g, l)
  | (s, g, l), .backward x d full => do let l ← l.backward x d full; return (s, g, l)
  | (s, g, l), .update alpha => do let (s, l) ← l.update upd s alpha; return (s, g, l)

/-- A sequence of calls. -/
def ConvOp.run [Zero α] [Add α] [Mul α] (upd : Upd σ α) (gen : Gen γ ρ α) :
    σ × ρ × Conv α → List (ConvOp α γ) → Res (σ × ρ × Conv α)
  | st, [] => .ok st
  | st, op :: ops => do let st ← ConvOp.exec upd gen st op; ConvOp.run upd gen st ops

end Trixy
