import Verif.Model.Pool
import Verif.Spec.Layer
import Mathlib.Order.Bounds.Basic
/- Specification vocabulary for max-pooling. -/
namespace Trixy

variable {α : Type}

/-- `m` is the maximum of the `sv × sh` window number `(p, q)` of channel `c`. -/
def WindowMax [LE α] (x : Nat → Nat → Nat → α) (sv sh c p q : Nat) (m : α) : Prop :=
  IsGreatest {v | ∃ a b, a < sv ∧ b < sh ∧ v = x c (p * sv + a) (q * sh + b)} m

/-- Cell `(y, z)` of channel `c` is the first (row-major) maximum of its window. -/
def FirstMax [LE α] [LT α] (x : Nat → Nat → Nat → α) (sv sh c y z : Nat) : Prop :=
  ∀ y' z', y' / sv = y / sv → z' / sh = z / sh →
    x c y' z' ≤ x c y z ∧ ((y' < y ∨ (y' = y ∧ z' < z)) → x c y' z' < x c y z)

/-- A constructed pooling layer whose strides divide the input size: `oh × ow` windows per channel. -/
structure Pool.Wf (l : Pool α) (d oh ow sv sh : Nat) : Prop where
  hsv : 1 ≤ sv
  hsh : 1 ≤ sh
  isz : l.id = d ∧ l.ih = oh * sv ∧ l.iw = ow * sh
  osz : l.od = d ∧ l.oh = oh ∧ l.ow = ow
  str : l.sv = sv ∧ l.sh = sh
  value : ∃ v, TenIs l.value d oh ow v
  buff : ∃ v, TenIs l.buff d oh ow v
  mask : ∃ v, TenIs l.mask d (oh * sv) (ow * sh) v
  delta : ∃ v, TenIs l.delta d (oh * sv) (ow * sh) v

end Trixy
