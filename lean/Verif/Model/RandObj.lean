import Verif.Model.Random
/-
Model of the generator objects of Random/Core.hpp: where the state behind the random numbers lives.
-/
namespace Trixy

variable {ρ γ : Type}

/-- A generator class (template parameter `Generator`): what its constructor, `seed(s)` and call operator do to the object (`γ`) and to
the state hidden in the C library (`ρ`). -/
structure GenClass (ρ γ : Type) where
  ctor : Nat → ρ → γ × ρ
  seed : Nat → γ → ρ → γ × ρ
  next : γ → ρ → Int × γ × ρ

/-- The C functions `srand(unsigned)` and `rand()`. -/
structure CRand (ρ : Type) where
  srand : Nat → ρ
  rand : ρ → Int × ρ

/-- Random/Core.hpp:48-73 `DefaultGenerator`: no members; the constructor and `seed` call `std::srand` (whose parameter is
`unsigned`: the `size_t` argument is reduced modulo 2³²), the call operator calls `std::rand`. -/
def defaultGen (C : CRand ρ) : GenClass ρ Unit where
  ctor s _ := ((), C.srand (s % 2 ^ 32))
  seed s _ _ := ((), C.srand (s % 2 ^ 32))
  next _ r := ((C.rand r).1, (), (C.rand r).2)

/-- A generator class that keeps its state in the object, like those of the standard library (`std::mt19937` …). -/
def ownGen (init : Nat → γ) (next : γ → Int × γ) : GenClass ρ γ where
  ctor s r := (init s, r)
  seed s _ r := (init s, r)
  next g r := ((next g).1, (next g).2, r)

/-- What a program does with its `Random` objects. -/
inductive REv where
  /-- `Random x(seed)`: Random/Core.hpp:92, 121. -/
  | make (x seed : Nat)
  /-- `Random x;` at the time `now`: Random/Core.hpp:91, 120 (`DefaultGenerator::seed()` is `std::time`, lines 66-69). -/
  | makeNow (x now : Nat)
  /-- `x.seed(seed)`: Random/Core.hpp:94, 123. -/
  | seed (x seed : Nat)
  /-- `x()`: Random/Core.hpp:96-99, 125-128; the number the generator delivers is recorded. -/
  | draw (x : Nat)
  /-- `Random y(x)`: the generated copy constructor. -/
  | copy (x y : Nat)
deriving DecidableEq

/-- The program state: the C library state, the objects, and everything drawn so far (object, number). -/
structure RWorld (ρ γ : Type) where
  lib : ρ
  objs : Nat → Option γ
  out : List (Nat × Int)

def RWorld.init (r : ρ) : RWorld ρ γ := ⟨r, fun _ => none, []⟩

/-- Access to an object. -/
def RWorld.get (w : RWorld ρ γ) (x : Nat) : Res γ :=
  match w.objs x with
  | none => .error .lifetime
  | some g => .ok g

def RWorld.put (w : RWorld ρ γ) (x : Nat) (g : γ) (r : ρ) : RWorld ρ γ := { w with lib := r, objs := fun i => if i = x then some g else w.objs i }

/-- One event; Random/Core.hpp:78-134. -/
def RWorld.step (G : GenClass ρ γ) (w : RWorld ρ γ) : REv → Res (RWorld ρ γ)
  | .make x s => .ok (w.put x (G.ctor s w.lib).1 (G.ctor s w.lib).2)
  | .makeNow x now => .ok (w.put x (G.ctor now w.lib).1 (G.ctor now w.lib).2)
  | .seed x s => do
    let g ← w.get x
    return w.put x (G.seed s g w.lib).1 (G.seed s g w.lib).2
  | .draw x => do
    let g ← w.get x
    let q := G.next g w.lib
    return { w.put x q.2.1 q.2.2 with out := w.out ++ [(x, q.1)] }
  | .copy x y => do
    let g ← w.get x
    return w.put y g w.lib

/-- A program. -/
def RWorld.run (G : GenClass ρ γ) : RWorld ρ γ → List REv → Res (RWorld ρ γ)
  | w, [] => .ok w
  | w, e :: es => do
    let w ← w.step G e
    RWorld.run G w es

end Trixy
