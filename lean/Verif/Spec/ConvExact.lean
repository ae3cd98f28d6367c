import Verif.Spec.Conv
/-
The convolution layer for any element type with any `0`, `+` and `*` (floating point included): the order of evaluation is
part of the specification. `iter n s f` runs `f 0, …, f (n-1)` on `s`.
-/
namespace Trixy

variable {α : Type}

/-- Row `a` (of the padded input) lies in the input of `n` rows. -/
def Inside (pad n a : Nat) : Prop := pad ≤ a ∧ a - pad < n

instance (pad n a : Nat) : Decidable (Inside pad n a) := by unfold Inside; infer_instance

/-- One output: start with the bias, go through the filter by rows, columns, channels, adding `input * weight`; cells
in the padding are skipped. -/
def corrExact [Add α] [Mul α] (d h w fh fw pad sv sh : Nat) (b : Nat → α) (W : Nat → Nat → Nat → Nat → α)
    (x : Nat → Nat → Nat → α) (f oy ox : Nat) : α :=
  iter fh (b f) (fun i s => iter fw s (fun j s =>
    if Inside pad h (sv * oy + i) ∧ Inside pad w (sh * ox + j)
    then iter d s (fun c s => s + x c (sv * oy + i - pad) (sh * ox + j - pad) * W f c i j)
    else s))

/-- One cell of a filter gradient: start with what it holds, go through the (spread) delta by rows and columns, adding
`delta * input`; cells in the padding are skipped. -/
def filterGradExact [Add α] [Mul α] (h w pad BH BW : Nat) (g : α) (x bf : Nat → Nat → Nat → α) (f c i j : Nat) : α :=
  iter BH g (fun Y s => iter BW s (fun X s =>
    if Inside pad h (Y + i) ∧ Inside pad w (X + j) then s + bf f Y X * x c (Y + i - pad) (X + j - pad) else s))

/-- One bias gradient: what it holds plus all cells of the (spread) delta, by rows and columns. -/
def biasGradExact [Add α] (BH BW : Nat) (g : α) (bf : Nat → Nat → Nat → α) (f : Nat) : α :=
  iter BH g (fun Y s => iter BW s (fun X s => s + bf f Y X))

/-- One cell of the outgoing delta: from zero, through the filter backwards by rows and columns, then by filters, adding
`weight * delta`; positions outside the (spread) delta are skipped. -/
def convDeltaExact [Zero α] [Add α] [Mul α] (fc fh fw pad BH BW : Nat) (W : Nat → Nat → Nat → Nat → α) (bf : Nat → Nat → Nat → α)
    (c y x : Nat) : α :=
  iter fh 0 (fun i s => iter fw s (fun j s =>
    if Inside (fh - 1 - i) BH (y + pad) ∧ Inside (fw - 1 - j) BW (x + pad)
    then iter fc s (fun f s => s + W f c (fh - 1 - i) (fw - 1 - j) * bf f (y + pad - (fh - 1 - i)) (x + pad - (fw - 1 - j)))
    else s))

end Trixy
