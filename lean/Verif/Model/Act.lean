import Verif.Model.Elem
/-
Activation objects (Neuro/Functional/Function/Base.hpp:21-33) and generators (std::function<precision_type()>,
Neuro/Network/Layer/Base.hpp:45) as the layers see them.
-/
namespace Trixy

variable {α γ ρ : Type}

/-- `IActivation` (Function/Base.hpp:21-33): `f(result, input)` and `df(result, input)`. The calls in the layers
pass either two distinct objects (`f`, `df`) or the same one twice (`fSelf`, `dfSelf`). -/
structure Act (α : Type) where
  f : Buf α → Buf α → Res (Buf α)
  fSelf : Buf α → Res (Buf α)
  df : Buf α → Buf α → Res (Buf α)
  dfSelf : Buf α → Res (Buf α)

/-- An activation declared by `TRIXY_FUNCTION_GENERIC_HELPER` (Function/Detail/MacroScope.hpp:6-13,
Activation.hpp:24-40): the scalar function `g` and its `_derived` companion `g'` are applied to every element. -/
def Act.elementwise (g g' : α → α) : Act α := ⟨mapInto g, mapSelf g, mapInto g', mapSelf g'⟩

/-- A callable stored in a `std::function`: calling it uses its own members (type `γ`, copied whenever the
`std::function` is copied) and outside state it only refers to (type `ρ`, shared by all copies). -/
abbrev Gen (γ ρ α : Type) := γ → ρ → α × γ × ρ

/-- TensorBase.hpp:148-154 `fill(Generator generator)`, Lique/Detail/FunctionDetail.hpp `fill`: the generator is
taken by value, so the calls start from the copy `c` and the copy is discarded at the end. -/
def fillBy (gen : Gen γ ρ α) (c : γ) (g : ρ) (r : Buf α) : Res (Buf α × ρ) := do
  let (r, _, g) ← forN r.length (r, c, g) (fun i (r, c, g) => do
    let (a, c, g) := gen c g
    let r ← r.set i a
    return (r, c, g))
  return (r, g)

end Trixy
