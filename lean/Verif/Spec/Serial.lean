import Verif.Model.Serial
import Verif.Spec.Net
/-
Specification vocabulary for archives.
-/
namespace Trixy

variable {α β : Type}

/-- What is assumed of the SF library: reading a number below 2^64 or an element back gives what was written and consumes exactly the
bytes written, whatever follows. -/
structure Codec.Lawful (c : Codec α β) : Prop where
  nat : ∀ n, n < W64 → ∀ rest, c.getNat (c.putNat n ++ rest) = .ok (n, rest)
  val : ∀ a rest, c.getVal (c.putVal a ++ rest) = .ok (a, rest)

/-- Saving succeeds with some bytes; loading from these bytes, with anything behind them in the stream, succeeds, yields one object
(independent of what follows) satisfying `Q` and leaves exactly what was behind. -/
def RoundTrip {Y : Type} (put : Res (List β)) (get : List β → Res (Y × List β)) (Q : Y → Prop) : Prop :=
  ∃ bs y, put = .ok bs ∧ (∀ rest, get (bs ++ rest) = .ok (y, rest)) ∧ Q y

/-- The class of the activation is registered: the key written for it makes an equal object again. -/
def Registry.Has (R : Registry α) (a : Act α) : Prop := R.key a < W64 ∧ R.create (R.key a) = some a

/-- The dimensions and the size of a tensor fit `size_t`. -/
def Small3 (a b c : Nat) : Prop := a < W64 ∧ b < W64 ∧ c < W64 ∧ a * b < W64 ∧ a * b * c < W64

/-- All tensors of a convolution layer fit `size_t`. -/
structure ConvSmall (d h w fc fh fw pad sv sh : Nat) : Prop where
  inp : Small3 d h w
  out : Small3 fc (extent h fh pad sv) (extent w fw pad sh)
  fil : Small3 d fh fw
  buf : Small3 fc (sv * (extent h fh pad sv - 1) + 1) (sh * (extent w fw pad sh - 1) + 1)
  par : pad < W64 ∧ sv < W64 ∧ sh < W64

/-- A layer in the state a user can have it in when saving: set up, its activation registered, sizes below 2^64. Pooling layers are
not in the list (C59). -/
inductive Layer.Savable [Zero α] (R : Registry α) : Layer α → Prop
  | fc {l : FC α} {n m b W} : l.Wf n m b W → R.Has l.act → Small3 1 n m → Savable R (.fc l)
  | rawFC {l : RawFC α} {n m b W} : l.isize = n → l.osize = m → VecIs l.B m b → MatIs l.W n m W → R.Has l.act →
      Small3 1 n m → Savable R (.rawFC l)
  | conv {l : Conv α} {d h w fc fh fw pad sv sh b W gb gW} : l.Wf d h w fc fh fw pad sv sh b W gb gW → 1 ≤ fc →
      ConvSmall d h w fc fh fw pad sv sh → Savable R (.conv l)
  | rawConv {l : Conv α} {d h w fc fh fw pad sv sh b W gb gW} : l.Wf d h w fc fh fw pad sv sh b W gb gW → 1 ≤ fc →
      ConvSmall d h w fc fh fw pad sv sh → Savable R (.rawConv l)

/-- The sizes a layer reports (`isize()` and `osize()`, Layer/Base.hpp:59-60): depth,
height and width of what it accepts and of what it returns. -/
def Layer.sizes : Layer α → (Nat × Nat × Nat) × (Nat × Nat × Nat)
  | .fc l => ((1, 1, l.isize), (1, 1, l.osize))
  | .rawFC l => ((1, 1, l.isize), (1, 1, l.osize))
  | .conv l => ((l.id, l.ih, l.iw), (l.od, l.oh, l.ow))
  | .rawConv l => ((l.id, l.ih, l.iw), (l.od, l.oh, l.ow))
  | .pool l => ((l.id, l.ih, l.iw), (l.od, l.oh, l.ow))
  | .rawPool l => ((l.id, l.ih, l.iw), (l.od, l.oh, l.ow))

end Trixy
