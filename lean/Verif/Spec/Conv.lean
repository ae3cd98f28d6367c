import Verif.Model.Conv
import Verif.Spec.Layer
import Mathlib.Algebra.BigOperators.Intervals
/-
Specification vocabulary for convolutions: zero padding over ℤ, strided cross-correlation, geometry.
-/
namespace Trixy
open Finset

variable {α : Type}

/-- Output extent of a convolution in ordinary arithmetic. -/
def extent (size filter padding stride : Nat) : Nat := (size + 2 * padding - filter) / stride + 1

/-- A geometry for which the filter fits into the padded input and all extents fit `size_t`. -/
structure Geo (h w fh fw pad sv sh : Nat) : Prop where
  sv : 1 ≤ sv
  sh : 1 ≤ sh
  fitH : fh ≤ h + 2 * pad
  fitW : fw ≤ w + 2 * pad
  wordH : h + 2 * pad + 1 < W64
  wordW : w + 2 * pad + 1 < W64

/-- The input `x` (channel, row, column) of size `h × w` extended by zeros to all integer positions. -/
def padded [Zero α] (x : Nat → Nat → Nat → α) (h w : Nat) (c : Nat) (i j : Int) : α :=
  if 0 ≤ i ∧ i < h ∧ 0 ≤ j ∧ j < w then x c i.toNat j.toNat else 0

/-- Strided cross-correlation of the zero-padded input with filter `f`, plus bias. -/
def corr [CommSemiring α] (d h w fh fw pad sv sh : Nat) (b : Nat → α) (Wf : Nat → Nat → Nat → Nat → α)
    (x : Nat → Nat → Nat → α) (f oy ox : Nat) : α :=
  b f + ∑ i ∈ range fh, ∑ j ∈ range fw, ∑ c ∈ range d,
    padded x h w c ((sv : Int) * oy + i - pad) ((sh : Int) * ox + j - pad) * Wf f c i j

/-- The derivative of ⟨u, output⟩ with respect to input cell (c,y,x): the sum of `u(f,oy,ox)·W_f(c,i,j)` over all output
cells and filter positions that touch this input cell, i.e. `sv·oy + i - pad = y` and `sh·ox + j - pad = x`. -/
def convDelta [CommSemiring α] (fc fh fw pad sv sh OH OW : Nat) (W : Nat → Nat → Nat → Nat → α) (u : Nat → Nat → Nat → α)
    (c y x : Nat) : α :=
  ∑ i ∈ range fh, ∑ j ∈ range fw, ∑ oy ∈ range OH, ∑ ox ∈ range OW,
    if sv * oy + i = y + pad ∧ sh * ox + j = x + pad then ∑ f ∈ range fc, u f oy ox * W f c i j else 0

/-- A container of `fc` tensors of shape (d, h, w) with contents `W f`. -/
def WsIs (Ws : List (Ten α)) (fc d h w : Nat) (W : Nat → Nat → Nat → Nat → α) : Prop :=
  Ws.length = fc ∧ ∀ f, f < fc → ∃ t, Ws[f]? = some t ∧ TenIs t d h w (W f)

/-- A constructed convolution layer with `fc` filters, parameters `b`, `W`, gradients `gb`, `gW`. The spread buffer
is zero off the stride grid. -/
structure Conv.Wf [Zero α] (l : Conv α) (d h w fc fh fw pad sv sh : Nat) (b : Nat → α) (W : Nat → Nat → Nat → Nat → α)
    (gb : Nat → α) (gW : Nat → Nat → Nat → Nat → α) : Prop where
  geo : Geo h w fh fw pad sv sh
  isz : l.id = d ∧ l.ih = h ∧ l.iw = w
  osz : l.od = fc ∧ l.oh = extent h fh pad sv ∧ l.ow = extent w fw pad sh
  par : l.pad = pad ∧ l.sv = sv ∧ l.sh = sh
  fil : l.fc = fc ∧ l.fd = d ∧ l.fh = fh ∧ l.fw = fw
  B : VecIs l.B fc b
  Ws : WsIs l.Ws fc d fh fw W
  value : ∃ v, TenIs l.value fc (extent h fh pad sv) (extent w fw pad sh) v
  gradWs : WsIs l.gradWs fc d fh fw gW
  gradB : VecIs l.gradB fc gb
  delta : ∃ v, TenIs l.delta d h w v
  buff : ∃ v, TenIs l.buff fc (sv * (extent h fh pad sv - 1) + 1) (sh * (extent w fw pad sh - 1) + 1) v ∧
    ∀ f y x, ¬ (sv ∣ y ∧ sh ∣ x) → v f y x = 0

/-- The arguments of a call fit the geometry. -/
def ConvOp.Fits {γ : Type} (d h w fc OH OW : Nat) : ConvOp α γ → Prop
  | .init _ => True
  | .forward x => ∃ v, TenIs x d h w v
  | .backward x u _ => (∃ v, TenIs x d h w v) ∧ ∃ v, TenIs u fc OH OW v
  | .update _ => True

/-- One event in the life of a parameter: a backward pass with input `x` and incoming delta `u`, or an update. -/
inductive ConvEv (α : Type) where
  | back (x u : Nat → Nat → Nat → α)
  | upd (alpha : α)

/-- The call `op` is the event `ev`. -/
def ConvEv.Is {γ : Type} (d h w fc OH OW : Nat) : ConvOp α γ → ConvEv α → Prop
  | .backward x u _, .back vx vu => TenIs x d h w vx ∧ TenIs u fc OH OW vu
  | .update a, .upd a' => a = a'
  | _, _ => False

/-- What the property demands of a parameter `p` with pending gradient `g` under gradient descent with rate `lr`:
`grad` gives the gradient of an event; an update subtracts `alpha` times the pending gradient times `lr` and
starts collecting anew. -/
def convIntended [Zero α] [Add α] [Mul α] [Sub α] (lr : α)
    (grad : (Nat → Nat → Nat → α) → (Nat → Nat → Nat → α) → α) : α × α → List (ConvEv α) → α × α
  | s, [] => s
  | (p, g), .back x u :: es => convIntended lr grad (p, g + grad x u) es
  | (p, g), .upd a :: es => convIntended lr grad (p - g * a * lr, 0) es

/-- What the code does: the scaled gradient that was applied stays in the accumulator. -/
def convActual [Add α] [Mul α] [Sub α] (lr : α)
    (grad : (Nat → Nat → Nat → α) → (Nat → Nat → Nat → α) → α) : α × α → List (ConvEv α) → α × α
  | s, [] => s
  | (p, g), .back x u :: es => convActual lr grad (p, g + grad x u) es
  | (p, g), .upd a :: es => convActual lr grad (p - g * a * lr, g * a * lr) es

/-- Derivative of ⟨u, value⟩ with respect to bias `f`. -/
def biasGrad [CommSemiring α] (OH OW f : Nat) (_x u : Nat → Nat → Nat → α) : α :=
  ∑ oy ∈ range OH, ∑ ox ∈ range OW, u f oy ox

/-- Derivative of ⟨u, value⟩ with respect to filter cell `(f, c, i, j)`. -/
def filterGrad [CommSemiring α] (h w pad sv sh OH OW f c i j : Nat) (x u : Nat → Nat → Nat → α) : α :=
  ∑ oy ∈ range OH, ∑ ox ∈ range OW, u f oy ox * padded x h w c ((sv : Int) * oy + i - pad) ((sh : Int) * ox + j - pad)

/-- The delta `u` spread over the stride grid. -/
def spreadFn [Zero α] (sv sh : Nat) (u : Nat → Nat → Nat → α) (f Y X : Nat) : α :=
  if sv ∣ Y ∧ sh ∣ X then u f (Y / sv) (X / sh) else 0

end Trixy
