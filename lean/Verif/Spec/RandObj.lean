import Verif.Model.RandObj
/- Streams of random numbers. -/
namespace Trixy

variable {ρ γ : Type}

/-- The numbers drawn from the object `x`, in order. -/
def drawnFrom (x : Nat) (out : List (Nat × Int)) : List Int := (out.filter (fun q => q.1 == x)).map Prod.snd

/-- The numbers a program draws from `x` (if the program is valid). -/
def numbersOf (G : GenClass ρ γ) (r : ρ) (es : List REv) (x : Nat) : Res (List Int) := do
  let w ← RWorld.run G (RWorld.init r) es
  return drawnFrom x w.out

/-- The first `k` numbers of a source. -/
def rstream {τ : Type} (next : τ → Int × τ) : Nat → τ → List Int
  | 0, _ => []
  | k + 1, t => (next t).1 :: rstream next k (next t).2

/-- The event changes or uses the object `x`. -/
def REv.touches (x : Nat) : REv → Bool
  | .make y _ => y == x
  | .makeNow y _ => y == x
  | .seed y _ => y == x
  | .draw y => y == x
  | .copy _ z => z == x

/-- The event gives `x` the seed `s` (`makeNow`: the current time is the seed). -/
def REv.Seeds (x s : Nat) (e : REv) : Prop := e = .seed x s ∨ e = .make x s ∨ e = .makeNow x s

/-- What a user of a seeded generator expects: after seeding `x` with `s`, whatever else the program does to other `Random` objects, the
numbers drawn from `x` are those of the seed, `number s k` the first `k` of them. `pre` is the program before, `post` after seeding;
`post` touches `x` only to draw. -/
def SeedDecides (G : GenClass ρ γ) (number : Nat → Nat → List Int) : Prop :=
  ∀ (r : ρ) (pre post : List REv) (x s : Nat) (ev : REv) (w w' : RWorld ρ γ), ev.Seeds x s →
    RWorld.run G (RWorld.init r) (pre ++ [ev]) = .ok w → RWorld.run G w post = .ok w' →
    (∀ e ∈ post, e.touches x = true → e = .draw x) →
    drawnFrom x w'.out = drawnFrom x w.out ++ number s (post.count (.draw x))

end Trixy
