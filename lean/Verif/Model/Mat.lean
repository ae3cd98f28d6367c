import Verif.Model.Base
/-
Value-level matrices and tensors: a checked buffer plus its dimensions, used for the numerical code
(Linear, layers, regression) where operands are distinct objects. Element access is the row-major
access of Matrix.hpp:127-145 and Tensor.hpp:126-144.
-/
namespace Trixy

variable {α : Type _}

/-- A matrix object (Matrix.hpp): `shape_.height`, `shape_.width` and the cells. -/
structure Mat (α : Type _) where
  h : Nat
  w : Nat
  data : Buf α
  deriving DecidableEq

/-- `Matrix(h, w)`: Matrix.hpp:73-77 (cells indeterminate). -/
def Mat.alloc (h w : Nat) : Mat α := ⟨h, w, Buf.alloc (h * w)⟩
/-- `Matrix(h, w, value)`: Matrix.hpp:66-71. -/
def Mat.fill (h w : Nat) (v : α) : Mat α := ⟨h, w, List.replicate (h * w) (some v)⟩
/-- `matrix(i, j)` as a value: Matrix.hpp:132-145. -/
def Mat.get (m : Mat α) (i j : Nat) : Res α := m.data.get (i * m.w + j)
/-- `matrix(i, j) = a`: Matrix.hpp:127-140. -/
def Mat.set (m : Mat α) (i j : Nat) (a : α) : Res (Mat α) := do
  let d ← m.data.set (i * m.w + j) a
  return { m with data := d }

/-- A 3-D tensor object (Tensor.hpp). -/
structure Ten (α : Type _) where
  d : Nat
  h : Nat
  w : Nat
  data : Buf α
  deriving DecidableEq

/-- `Tensor(d, h, w)`: Tensor.hpp:68-72 (cells indeterminate). -/
def Ten.alloc (d h w : Nat) : Ten α := ⟨d, h, w, Buf.alloc (d * h * w)⟩
/-- `Tensor(d, h, w, value)`: Tensor.hpp:61-66. -/
def Ten.fill (d h w : Nat) (v : α) : Ten α := ⟨d, h, w, List.replicate (d * h * w) (some v)⟩
/-- `tensor(i, j, k)` as a value: Tensor.hpp:131-144. -/
def Ten.get (t : Ten α) (i j k : Nat) : Res α := t.data.get ((i * t.h + j) * t.w + k)
/-- `tensor(i, j, k) = a`: Tensor.hpp:126-139. -/
def Ten.set (t : Ten α) (i j k : Nat) (a : α) : Res (Ten α) := do
  let d ← t.data.set ((i * t.h + j) * t.w + k) a
  return { t with data := d }

end Trixy
