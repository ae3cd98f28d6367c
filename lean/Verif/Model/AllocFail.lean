import Verif.Model.TensorMem
/-
Allocation failure: the state in which an operation on a Vector / Matrix / Tensor leaves the program when the
`new precision_type [n]` inside it throws `std::bad_alloc`. Each operation contains at most one `new[]`. The C++ rules
used: an exception leaving a constructor means that there is no object (its destructor does not run; the base class
TensorBase.hpp:78 `~Tensor() = default` frees nothing); an exception leaving any other member leaves the object as it is
at the `throw`, and its destructor will run when its scope is left.
-/
namespace Trixy

variable {α : Type _}

/-- Copy assignment between different objects, up to the throwing `new[]`: `delete[] this->data_` has run, `data_` still
holds the deleted pointer, `shape_` is not yet assigned. Vector.hpp:105-112, Matrix.hpp:95-102, Tensor.hpp:98-104. -/
def Obj.copyAssignThrow (H : Heap α) (a : Obj) : Res (Heap α × Obj) := do
  let H ← H.delete a.data
  return (H, a)

/-- `resize` up to the throwing `new[]`: the old block is deleted and `shape_` already has the new value, `data_` still
holds the deleted pointer. Vector.hpp:141-146, Matrix.hpp:153-160, Tensor.hpp:152-157. -/
def Obj.resizeThrow (H : Heap α) (a : Obj) (d h w : Nat) : Res (Heap α × Obj) := do
  let H ← H.delete a.data
  match a.kind with
  | .vec => return (H, { a with shape := Shape.mk3 1 w 1 })
  | .mat => return (H, { a with shape := { a.shape with h := h, w := w, size := wmul h w } })
  | .ten => return (H, { a with shape := Shape.mk3 d h w })

/-- The operation `op` in which `new[]`, if it is reached, throws. Constructors: no object comes into being and nothing
else has changed (sized/valued/list/copy constructors allocate before anything else, Vector.hpp:60-98,
Matrix.hpp:53-91, Tensor.hpp:48-94). Assignment and resize: above. All other operations do not allocate. -/
def World.stepThrow (w : World α) : Op α → Res (World α)
  | .sizedCtor _ _ _ _ _ => .ok w
  | .valueCtor _ _ _ _ _ _ => .ok w
  | .listCtor _ _ _ => .ok w
  | .copyCtor _ y => do
    let _ ← look w.own y
    return w
  | .copyAssign x y => do
    let a ← look w.own x
    let _ ← look w.own y
    if x = y then return w
    let (H, o) ← Obj.copyAssignThrow w.heap a
    return { w with heap := H, own := upd w.own x (some o) }
  | .resize x d h wd => do
    let a ← look w.own x
    let (H, o) ← Obj.resizeThrow w.heap a d h wd
    return { w with heap := H, own := upd w.own x (some o) }
  | op => w.step op

/-- One event of a history with allocation failures: an operation whose `new[]` succeeds, or one whose `new[]` throws and
whose exception is caught by the program. -/
inductive MemEv (α : Type _)
  | done (op : Op α)
  | threw (op : Op α)

/-- One event. -/
def World.ev (w : World α) : MemEv α → Res (World α)
  | .done op => w.step op
  | .threw op => w.stepThrow op

/-- A history with allocation failures. -/
def World.runEv (w : World α) : List (MemEv α) → Res (World α)
  | [] => .ok w
  | e :: es => do
    let w ← w.ev e
    w.runEv es

end Trixy
