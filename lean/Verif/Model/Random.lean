import Verif.Model.Train
/-
Model of Random/Core.hpp and of `parallel_info` (Detail/FunctionDetail.hpp). The generator (`std::rand` by default) is external:
a call contributes the integer `g` it returned.
-/
namespace Trixy

/-- An integral type: width in bits and signedness. -/
structure IntTy where
  bits : Nat
  signed : Bool

/-- Least value. -/
def IntTy.lo (t : IntTy) : Int := if t.signed then -(2 ^ (t.bits - 1)) else 0
/-- Greatest value. -/
def IntTy.hi (t : IntTy) : Int := if t.signed then 2 ^ (t.bits - 1) - 1 else 2 ^ t.bits - 1
/-- `x` is a value of the type. -/
def IntTy.Rep (t : IntTy) (x : Int) : Prop := t.lo ≤ x ∧ x ≤ t.hi
instance (t : IntTy) (x : Int) : Decidable (t.Rep x) := inferInstanceAs (Decidable (_ ∧ _))

/-- `static_cast<T>(x)`: the value congruent to `x` modulo 2^bits (for signed `T` implementation-defined before C++20, and so
defined by every supported compiler). -/
def IntTy.cast (t : IntTy) (x : Int) : Int := (x - t.lo) % 2 ^ t.bits + t.lo

/-- Integral promotion: operands narrower than `int` are computed in `int` (32 bits). -/
def IntTy.promote (t : IntTy) : IntTy := if t.bits < 32 then ⟨32, true⟩ else t

/-- The result `x` of an arithmetic operation in `T`: unsigned arithmetic wraps, signed overflow is undefined. -/
def IntTy.arith (t : IntTy) (x : Int) : Res Int :=
  if t.Rep x then .ok x else if t.signed then .error .overflow else .ok (t.cast x)

/-- Random/Core.hpp:96-104: `static_cast<T>(gen()) % (max - min + 1) + min`, converted to `T` on return; `%` truncates
(`Int.tmod`). -/
def randomIntegral (t : IntTy) (g min max : Int) : Res Int := do
  let v := t.cast g
  let d ← t.promote.arith (max - min)
  let d ← t.promote.arith (d + 1)
  if d = 0 then .error .divByZero else
  if t.promote.signed = true ∧ v = t.promote.lo ∧ d = -1 then .error .overflow else
  let r ← t.promote.arith (v.tmod d + min)
  return t.cast r

/-- Random/Core.hpp:125-128: `floating_type(gen()) / floating_type(gen.max())`; floating-point rounding is not modelled. -/
def randomUnit {K : Type} [Div K] [IntCast K] (g gmax : Int) : Res K := if gmax = 0 then .error .divByZero else .ok ((g : K) / (gmax : K))

/-- Random/Core.hpp:130-133. -/
def randomFloating {K : Type} [Add K] [Mul K] [Sub K] [Div K] [IntCast K] (g gmax : Int) (min max : K) : Res K := do
  let u ← randomUnit g gmax
  return (max - min) * u + min

/-- FunctionDetail.hpp:17-36: (number of threads, block size); `hw` is `std::thread::hardware_concurrency()`, `m` the template
parameter `min_per_thread`. -/
def parallelInfo (m hw size : Nat) : Res (Nat × Nat) :=
  if size = 0 then .ok (1, 0) else do
  let q ← quot (wsub size 1) m
  let maxThreads := wadd q 1
  let threads := Nat.min (if hw = 0 then 2 else hw) maxThreads
  let block ← quot size threads
  return (threads, block)

end Trixy
