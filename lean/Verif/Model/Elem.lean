import Verif.Model.Mat
/-
Element-wise loops of Lique/Linear.hpp:320-436 and Lique/Detail/FunctionDetail.hpp (`detail::assign`,
`detail::apply`, `detail::copy`) at the value level, i.e. for operands that are distinct objects; the versions
on possibly overlapping storage are in Model/TensorMem.lean (property C08). The loops run over the destination.
-/
namespace Trixy

variable {α : Type _}

/-- `detail::assign(first(r), last(r), op, first(x))`: `r[i] op= x[i]` (Linear.hpp:320-328 add, 342-350 sub, 364-372 mul). -/
def zipInto (op : α → α → α) (r x : Buf α) : Res (Buf α) :=
  forN r.length r (fun i r => do
    let a ← r.get i
    let b ← x.get i
    r.set i (op a b))

/-- `detail::assign(first(r), last(r), op, first(x), first(y))`: `r[i] = op x[i] y[i]` (Linear.hpp:330-340, 352-362, 374-384);
`x` and `y` may be the same object. -/
def zip2Into (op : α → α → α) (r x y : Buf α) : Res (Buf α) :=
  forN r.length r (fun i r => do
    let a ← x.get i
    let b ← y.get i
    r.set i (op a b))

/-- `join(r, value)`: `r[i] *= value` (Linear.hpp:386-393). -/
def scaleInto [Mul α] (r : Buf α) (v : α) : Res (Buf α) :=
  forN r.length r (fun i r => do
    let a ← r.get i
    r.set i (a * v))

/-- `join(r, value, x)`: `r[i] = value * x[i]` (Linear.hpp:395-404). -/
def scaleTo [Mul α] (r : Buf α) (v : α) (x : Buf α) : Res (Buf α) :=
  forN r.length r (fun i r => do
    let a ← x.get i
    r.set i (v * a))

/-- `apply(r, g, x)`: `r[i] = g(x[i])` (Linear.hpp:415-424) and the generic function loop
`while (first != last) *first++ = name(*it++);` (Functional/Function/Detail/MacroScope.hpp:6-13). -/
def mapInto (g : α → α) (r x : Buf α) : Res (Buf α) :=
  forN r.length r (fun i r => do
    let a ← x.get i
    r.set i (g a))

/-- `apply(r, g)` in place (Linear.hpp:406-413), and the loop of MacroScope.hpp:6-13 called with `result` and
`input` being the same range. -/
def mapSelf (g : α → α) (r : Buf α) : Res (Buf α) :=
  forN r.length r (fun i r => do
    let a ← r.get i
    r.set i (g a))

/-- `fill(value)`: TensorBase.hpp:156-160. -/
def fillInto (r : Buf α) (v : α) : Res (Buf α) := forN r.length r (fun i r => r.set i v)

/-- `T.resize(...)` followed by `.fill(v)` at construction time: `n` cells holding `v`. -/
def filled (n : Nat) (v : α) : Buf α := List.replicate n (some v)

/-- The data of a tensor replaced by the result of a computation on it. -/
def Ten.onData (t : Ten α) (f : Buf α → Res (Buf α)) : Res (Ten α) := do
  let d ← f t.data
  return { t with data := d }

/-- The data of a matrix replaced by the result of a computation on it. -/
def Mat.onData (m : Mat α) (f : Buf α → Res (Buf α)) : Res (Mat α) := do
  let d ← f m.data
  return { m with data := d }

end Trixy
