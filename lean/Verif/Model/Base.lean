/-
Basic vocabulary of the model: undefined behaviour, checked buffers and loops.

This file models no specific function of /repo; it fixes the meaning of the C++ constructs
(pointer access, `for` loops, `std::size_t` arithmetic) that the translated functions use.
-/

namespace Trixy

/-- Kinds of undefined behaviour a C++ execution can run into. -/
inductive UB
  | nullDeref      -- access through a null pointer
  | oob            -- access outside the allocation
  | uninit         -- use of an indeterminate value
  | useAfterFree   -- access to a freed block / destroyed object
  | badFree        -- delete of something that is not a live allocation start
  | overflow       -- signed integer overflow
  | divByZero      -- division (or remainder) by zero
  | badCast        -- static_cast of a layer to a class it is not
  | lifetime       -- object lifetime broken: construction over a live object, destruction of none, storage of a live object released
  deriving DecidableEq, Repr

/-- Result of running a piece of C++: a value, or undefined behaviour. -/
abbrev Res (α : Type _) := Except UB α

/-- `Ok r Q`: the computation `r` has defined behaviour and its result satisfies `Q`. -/
def Ok {α : Type _} (r : Res α) (Q : α → Prop) : Prop := ∃ a, r = .ok a ∧ Q a

/-! ### Loops -/

/-- `for (size_t i = 0; i < n; ++i) body(i)` on the state `s`. -/
def forN {σ : Type _} (n : Nat) (s : σ) (body : Nat → σ → Res σ) : Res σ :=
  match n with
  | 0 => .ok s
  | n + 1 => do
    let s ← forN n s body
    body n s

/-- `for (size_t i = lo; i < hi; ++i) body(i)`. -/
def forLoop {σ : Type _} (lo hi : Nat) (s : σ) (body : Nat → σ → Res σ) : Res σ :=
  forN (hi - lo) s (fun i => body (lo + i))

/-! ### Checked buffers (value level)

A block of `n` cells obtained from `new T[n]`; `none` is an indeterminate cell. -/

abbrev Buf (α : Type _) := List (Option α)

/-- `new T[n]` for a trivially default constructible `T`. -/
def Buf.alloc {α : Type _} (n : Nat) : Buf α := List.replicate n none

/-- Read of `p[i]` whose value is used. -/
def Buf.get {α : Type _} (b : Buf α) (i : Nat) : Res α :=
  match b[i]? with
  | none => .error .oob
  | some none => .error .uninit
  | some (some a) => .ok a

/-- `p[i] = a`. -/
def Buf.set {α : Type _} (b : Buf α) (i : Nat) (a : α) : Res (Buf α) :=
  if i < b.length then .ok (List.set b i (some a)) else .error .oob

/-- A fully initialised buffer with the given contents. -/
def Buf.of {α : Type _} (l : List α) : Buf α := l.map some

/-! ### `std::size_t` (64-bit words) -/

/-- 2^64. -/
def W64 : Nat := 18446744073709551616

/-- `a + b` on `size_t`. -/
def wadd (a b : Nat) : Nat := (a + b) % W64
/-- `a - b` on `size_t` (operands already words). -/
def wsub (a b : Nat) : Nat := (a + (W64 - b % W64)) % W64
/-- `a * b` on `size_t`. -/
def wmul (a b : Nat) : Nat := (a * b) % W64

end Trixy
