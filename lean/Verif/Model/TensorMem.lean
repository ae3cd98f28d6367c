import Verif.Model.Heap
/-
Owning and viewing Vector / Matrix / Tensor objects on the free store
(Lique/TensorBase.hpp, Vector.hpp, Matrix.hpp, Tensor.hpp).
-/
namespace Trixy

variable {α : Type _}

/-- Which of the three specialisations (`TensorType::vector / matrix / tensor`). -/
inductive Kind
  | vec | mat | ten
  deriving DecidableEq, Repr

/-- Lique/TensorBase.hpp:73-74: data members `data_`, `shape_`; `kind` is the static type. -/
structure Obj where
  kind : Kind
  data : Ptr
  shape : Shape
  deriving DecidableEq, Repr

/-- Default constructor: TensorBase.hpp:77 (`data_(nullptr), shape_(0,0,0)`), Vector.hpp:34,
Matrix.hpp:33, Tensor.hpp:28. -/
def Obj.default (k : Kind) : Obj := ⟨k, .null, Shape.mk3 0 0 0⟩

/-- Destructor `delete[] data_`: Vector.hpp:35-38, Matrix.hpp:34-37, Tensor.hpp:29-32. -/
def Obj.destroy (h : Heap α) (o : Obj) : Res (Heap α) := h.delete o.data

/-- Shape given to the base by the sized constructors: Vector.hpp:81-82 `Base(width)`,
Matrix.hpp:73-74 `Base(height,width)`, Tensor.hpp:68-69 `Base(depth,height,width)`. -/
def ctorShape (k : Kind) (d h w : Nat) : Shape :=
  match k with
  | .vec => Shape.mk1 w
  | .mat => Shape.mk2 h w
  | .ten => Shape.mk3 d h w

/-- Sized constructor: Vector.hpp:81-85, Matrix.hpp:73-77, Tensor.hpp:68-72 (for Matrix/Tensor also the
`Shape` overloads Matrix.hpp:53-57 – which pass `depth*height` as height – and Tensor.hpp:48-52). -/
def Obj.sized (H : Heap α) (k : Kind) (d h w : Nat) : Heap α × Obj :=
  let s := ctorShape k d h w
  let (H, p) := H.new s.size
  (H, ⟨k, p, s⟩)

/-- Sized constructor with fill value: Vector.hpp:74-79, Matrix.hpp:66-71, Tensor.hpp:61-66 (fill:
TensorBase.hpp:156-160). -/
def Obj.valued (H : Heap α) (k : Kind) (d h w : Nat) (v : α) : Res (Heap α × Obj) := do
  let (H, o) := Obj.sized H k d h w
  let H ← fillLoop H o.data o.shape.size v
  return (H, o)

/-- Construction from an initialiser list / a pair of pointers: Vector.hpp:60-65, 87-92;
Matrix.hpp:79-84; Tensor.hpp:74-86. The source is a list of initialised values. -/
def Obj.fromList (H : Heap α) (k : Kind) (l : List α) : Res (Heap α × Obj) := do
  let s := ctorShape k 1 1 l.length
  let (H, p) := H.new s.size
  let H ← copyList H p s.size l
  return (H, ⟨k, p, s⟩)

/-- Shape given to the base by the copy constructors: Vector.hpp:94 (base default constructed, shape
0,0,0), Matrix.hpp:87 `Base(depth*height, width)`, Tensor.hpp:89 `Base(tensor.shape_)`. -/
def copyCtorShape (t : Obj) : Shape :=
  match t.kind with
  | .vec => Shape.mk3 0 0 0
  | .mat => Shape.mk2 (wmul t.shape.d t.shape.h) t.shape.w
  | .ten => t.shape

/-- Copy constructor.
Vector.hpp:94-98: base default constructed (shape 0,0,0), `new[tensor.size]`, `copy` with own size 0;
Matrix.hpp:86-91: `Base(depth*height, width)`, `new[tensor.size]`, `copy` with own size;
Tensor.hpp:88-94: `Base(tensor.shape_)`, `new[tensor.size]`, `copy`. -/
def Obj.copyCtor (H : Heap α) (t : Obj) : Res (Heap α × Obj) := do
  let s := copyCtorShape t
  let (H, p) := H.new t.shape.size
  let H ← copyLoop H p s.size t.data
  return (H, ⟨t.kind, p, s⟩)

/-- Move constructor: TensorBase.hpp:98-103 via Vector.hpp:100-103, Matrix.hpp:93, Tensor.hpp:96.
Returns (new object, source afterwards). -/
def Obj.moveCtor (t : Obj) : Obj × Obj := (⟨t.kind, t.data, t.shape⟩, { t with data := .null })

/-- Copy assignment between different objects (`this != &tensor`).
Vector.hpp:105-118: delete, new, set width and size, copy with the new size;
Matrix.hpp:95-109: delete, new, copy with the OLD size, then set height, width, size;
Tensor.hpp:98-110: delete, new, copy with the OLD size, then `shape_ = tensor.shape_`. -/
def Obj.copyAssign (H : Heap α) (a t : Obj) : Res (Heap α × Obj) := do
  let H ← H.delete a.data
  let (H, p) := H.new t.shape.size
  match a.kind with
  | .vec =>
    let s := { a.shape with w := t.shape.w, size := t.shape.size }
    let H ← copyLoop H p s.size t.data
    return (H, ⟨a.kind, p, s⟩)
  | .mat =>
    let H ← copyLoop H p a.shape.size t.data
    return (H, ⟨a.kind, p, { a.shape with h := t.shape.h, w := t.shape.w, size := t.shape.size }⟩)
  | .ten =>
    let H ← copyLoop H p a.shape.size t.data
    return (H, ⟨a.kind, p, t.shape⟩)

/-- Move assignment between different objects: Vector.hpp:120-133, Matrix.hpp:111-125,
Tensor.hpp:112-124. Returns (heap, destination, source afterwards). -/
def Obj.moveAssign (H : Heap α) (a t : Obj) : Res (Heap α × Obj × Obj) := do
  let H ← H.delete a.data
  let s := match a.kind with
    | .vec => { a.shape with w := t.shape.w, size := t.shape.size }
    | .mat => { a.shape with h := t.shape.h, w := t.shape.w, size := t.shape.size }
    | .ten => t.shape
  return (H, ⟨a.kind, t.data, s⟩, { t with data := .null })

/-- `resize`: Vector.hpp:141-149 (`shape_ = shape_type(1, width, 1)`), Matrix.hpp:153-163 (depth is not
touched), Tensor.hpp:152-160. -/
def Obj.resize (H : Heap α) (a : Obj) (d h w : Nat) : Res (Heap α × Obj) := do
  let H ← H.delete a.data
  match a.kind with
  | .vec =>
    let (H, p) := H.new w
    return (H, ⟨a.kind, p, Shape.mk3 1 w 1⟩)
  | .mat =>
    let s := { a.shape with h := h, w := w, size := wmul h w }
    let (H, p) := H.new s.size
    return (H, ⟨a.kind, p, s⟩)
  | .ten =>
    let s := Shape.mk3 d h w
    let (H, p) := H.new s.size
    return (H, ⟨a.kind, p, s⟩)

/-- `resize(const shape_type&)`: Vector.hpp:135-139 (uses `shape.width`), Matrix.hpp:147-151 (uses
`shape.height, shape.width`), Tensor.hpp:146-150. -/
def Obj.resizeShape (H : Heap α) (a : Obj) (s : Shape) : Res (Heap α × Obj) := a.resize H s.d s.h s.w

/-- `reshape`: Vector.hpp:151-155, Matrix.hpp:165-171, Tensor.hpp:162-169; `size` is not touched. -/
def Obj.reshape (a : Obj) (d h w : Nat) : Obj :=
  match a.kind with
  | .vec => { a with shape := { a.shape with w := w } }
  | .mat => { a with shape := { a.shape with h := h, w := w } }
  | .ten => { a with shape := { a.shape with d := d, h := h, w := w } }

/-! #### Element access -/

/-- `operator()(i)` as an rvalue: TensorBase.hpp:288-301. -/
def Obj.get1 (H : Heap α) (a : Obj) (i : Nat) : Res α := H.load a.data i
/-- `operator()(i) = v`: TensorBase.hpp:283-296. -/
def Obj.set1 (H : Heap α) (a : Obj) (i : Nat) (v : α) : Res (Heap α) := H.store a.data i v
/-- `operator()(i,j)`: Matrix.hpp:127-145. -/
def Obj.get2 (H : Heap α) (a : Obj) (i j : Nat) : Res α := H.load a.data (a.shape.at2 i j)
/-- `operator()(i,j,k)`: Tensor.hpp:126-144. -/
def Obj.get3 (H : Heap α) (a : Obj) (i j k : Nat) : Res α := H.load a.data (a.shape.at3 i j k)
/-- `operator()(i,j) = v`: Matrix.hpp:127-145. -/
def Obj.set2 (H : Heap α) (a : Obj) (i j : Nat) (v : α) : Res (Heap α) := H.store a.data (a.shape.at2 i j) v
/-- `operator()(i,j,k) = v`: Tensor.hpp:126-144. -/
def Obj.set3 (H : Heap α) (a : Obj) (i j k : Nat) (v : α) : Res (Heap α) :=
  H.store a.data (a.shape.at3 i j k) v

/-! #### In-place element-wise members (TensorBase.hpp:128-264) -/

/-- `fill(value)`: TensorBase.hpp:156-160. -/
def Obj.fill (H : Heap α) (a : Obj) (v : α) : Res (Heap α) := fillLoop H a.data a.shape.size v
/-- `copy(tensor)`: TensorBase.hpp:134-140; `same` is `this == &tensor`. -/
def Obj.copy (H : Heap α) (a t : Obj) (same : Bool) : Res (Heap α) :=
  if same then .ok H else copyLoop H a.data a.shape.size t.data
/-- `apply(func)` (in place): TensorBase.hpp:170-175. -/
def Obj.apply (H : Heap α) (a : Obj) (f : α → α) : Res (Heap α) := applyLoop f H a.data a.shape.size
/-- `apply(func, rhs)`: TensorBase.hpp:177-188. -/
def Obj.apply2 (H : Heap α) (a : Obj) (f : α → α) (r : Obj) : Res (Heap α) :=
  applyPtr f H a.data a.shape.size r.data
/-- `add(rhs)`: TensorBase.hpp:197-201. -/
def Obj.add [Add α] (H : Heap α) (a r : Obj) : Res (Heap α) := assignPtr (· + ·) H a.data a.shape.size r.data
/-- `add(lhs, rhs)`: TensorBase.hpp:203-207. -/
def Obj.add2 [Add α] (H : Heap α) (a l r : Obj) : Res (Heap α) :=
  assignPtrPtr (· + ·) H a.data a.shape.size l.data r.data
/-- `sub(rhs)`: TensorBase.hpp:216-220. -/
def Obj.sub [Sub α] (H : Heap α) (a r : Obj) : Res (Heap α) := assignPtr (· - ·) H a.data a.shape.size r.data
/-- `sub(lhs, rhs)`: TensorBase.hpp:222-226. -/
def Obj.sub2 [Sub α] (H : Heap α) (a l r : Obj) : Res (Heap α) :=
  assignPtrPtr (· - ·) H a.data a.shape.size l.data r.data
/-- `mul(rhs)`: TensorBase.hpp:235-239. -/
def Obj.mul [Mul α] (H : Heap α) (a r : Obj) : Res (Heap α) := assignPtr (· * ·) H a.data a.shape.size r.data
/-- `mul(lhs, rhs)`: TensorBase.hpp:241-245. -/
def Obj.mul2 [Mul α] (H : Heap α) (a l r : Obj) : Res (Heap α) :=
  assignPtrPtr (· * ·) H a.data a.shape.size l.data r.data
/-- `join(value)`: TensorBase.hpp:254-258. -/
def Obj.join [Mul α] (H : Heap α) (a : Obj) (v : α) : Res (Heap α) :=
  assignConst (· * ·) H a.data a.shape.size v
/-- `join(value, rhs)`: TensorBase.hpp:260-264. -/
def Obj.join2 [Mul α] (H : Heap α) (a : Obj) (v : α) (r : Obj) : Res (Heap α) :=
  assignValPtr (· * ·) H a.data a.shape.size v r.data

/-! #### Value-returning const members (TensorBase.hpp:162-168, 190-195, 209-214, 228-233, 247-252)

All build `Tensor vector(shape_.size)`, i.e. the base constructor TensorBase.hpp:89-90 with
`data = nullptr`, and then call the in-place member on it. -/

/-- The base object `Tensor(size_type w, pointer data = nullptr)`: TensorBase.hpp:89-90. -/
def Obj.constTmp (a : Obj) : Obj := ⟨a.kind, .null, Shape.mk1 a.shape.size⟩

/-- `apply(func) const`: TensorBase.hpp:162-168. -/
def Obj.applyConst (H : Heap α) (a : Obj) (f : α → α) : Res (Heap α × Obj) := do
  let H ← a.constTmp.apply2 H f a
  return (H, a.constTmp)
/-- `add(rhs) const`: TensorBase.hpp:190-195. -/
def Obj.addConst [Add α] (H : Heap α) (a r : Obj) : Res (Heap α × Obj) := do
  let H ← a.constTmp.add2 H a r
  return (H, a.constTmp)
/-- `sub(rhs) const`: TensorBase.hpp:209-214. -/
def Obj.subConst [Sub α] (H : Heap α) (a r : Obj) : Res (Heap α × Obj) := do
  let H ← a.constTmp.sub2 H a r
  return (H, a.constTmp)
/-- `mul(rhs) const`: TensorBase.hpp:228-233. -/
def Obj.mulConst [Mul α] (H : Heap α) (a r : Obj) : Res (Heap α × Obj) := do
  let H ← a.constTmp.mul2 H a r
  return (H, a.constTmp)
/-- `join(value) const`: TensorBase.hpp:247-252. -/
def Obj.joinConst [Mul α] (H : Heap α) (a : Obj) (v : α) : Res (Heap α × Obj) := do
  let H ← a.constTmp.join2 H v a
  return (H, a.constTmp)

/-! #### Views -/

/-- `View(shape, data)`: Vector.hpp:169-172 (`Base(shape.width, data)`), Matrix.hpp:185-188
(`Base(depth*height, width, data)`), Tensor.hpp:183-186 (`Base(shape, data)`). -/
def Obj.viewOf (k : Kind) (s : Shape) (p : Ptr) : Obj :=
  match k with
  | .vec => ⟨k, p, Shape.mk1 s.w⟩
  | .mat => ⟨k, p, Shape.mk2 (wmul s.d s.h) s.w⟩
  | .ten => ⟨k, p, s⟩

/-- `View(first, last)`: Vector.hpp:179-182, Matrix.hpp:195-198, Tensor.hpp:193-196; `n = last - first`. -/
def Obj.viewRange (k : Kind) (p : Ptr) (n : Nat) : Obj := ⟨k, p, ctorShape k 1 1 n⟩

/-- View copy assignment between different objects: Vector.hpp:187-197, Matrix.hpp:203-214,
Tensor.hpp:201 (defaulted: TensorBase.hpp:105-114). -/
def Obj.viewAssign (a t : Obj) : Obj :=
  match a.kind with
  | .vec => ⟨a.kind, t.data, { a.shape with w := t.shape.w, size := t.shape.size }⟩
  | .mat => ⟨a.kind, t.data, { a.shape with h := t.shape.h, w := t.shape.w, size := t.shape.size }⟩
  | .ten => ⟨a.kind, t.data, t.shape⟩

/-- `swap`: TensorBase.hpp:272-276. Pointer and shape are exchanged; the static types stay (the parameter is a `TensorBase&`, so that
the signature accepts two objects of different classes). Returns (this, argument afterwards). -/
def Obj.swap (a t : Obj) : Obj × Obj := ({ a with data := t.data, shape := t.shape }, { t with data := a.data, shape := a.shape })

/-! ### Programs: histories of operations on named objects -/

/-- Program state: free store, owning objects and views by name. -/
structure World (α : Type _) where
  heap : Heap α
  own : Nat → Option Obj
  view : Nat → Option Obj

/-- Start of a program. -/
def World.init : World α := ⟨Heap.empty, fun _ => none, fun _ => none⟩

/-- Operations of a history. -/
inductive Op (α : Type _)
  | defaultCtor (x : Nat) (k : Kind)
  | sizedCtor (x : Nat) (k : Kind) (d h w : Nat)
  | valueCtor (x : Nat) (k : Kind) (d h w : Nat) (v : α)
  | listCtor (x : Nat) (k : Kind) (l : List α)
  | copyCtor (x y : Nat)
  | moveCtor (x y : Nat)
  | copyAssign (x y : Nat)
  | moveAssign (x y : Nat)
  | resize (x d h w : Nat)
  | reshape (x d h w : Nat)
  | fill (x : Nat) (v : α)
  | write (x i : Nat) (v : α)
  | destroy (x : Nat)
  | viewMake (v x : Nat)
  | viewCopy (v u : Nat)
  | viewAssign (v u : Nat)
  | viewWrite (v i : Nat) (a : α)
  | viewDestroy (v : Nat)
  | swap (x y : Nat)
  | viewSwap (v u : Nat)

def upd {β : Type _} (m : Nat → Option β) (x : Nat) (o : Option β) : Nat → Option β :=
  fun y => if y = x then o else m y

/-- Look up a live object; using a dead name would be `useAfterFree`. -/
def look {β : Type _} (m : Nat → Option β) (x : Nat) : Res β :=
  match m x with
  | none => .error .useAfterFree
  | some o => .ok o

/-- One operation; the pieces are the definitions above (assignments carry the guard
`this != &tensor` of the code). -/
def World.step (w : World α) : Op α → Res (World α)
  | .defaultCtor x k => .ok { w with own := upd w.own x (some (Obj.default k)) }
  | .sizedCtor x k d h wd =>
    let (H, o) := Obj.sized w.heap k d h wd
    .ok { w with heap := H, own := upd w.own x (some o) }
  | .valueCtor x k d h wd v => do
    let (H, o) ← Obj.valued w.heap k d h wd v
    return { w with heap := H, own := upd w.own x (some o) }
  | .listCtor x k l => do
    let (H, o) ← Obj.fromList w.heap k l
    return { w with heap := H, own := upd w.own x (some o) }
  | .copyCtor x y => do
    let t ← look w.own y
    let (H, o) ← Obj.copyCtor w.heap t
    return { w with heap := H, own := upd w.own x (some o) }
  | .moveCtor x y => do
    let t ← look w.own y
    let (o, t') := t.moveCtor
    return { w with own := upd (upd w.own y (some t')) x (some o) }
  | .copyAssign x y => do
    let a ← look w.own x
    let t ← look w.own y
    if x = y then return w
    let (H, o) ← Obj.copyAssign w.heap a t
    return { w with heap := H, own := upd w.own x (some o) }
  | .moveAssign x y => do
    let a ← look w.own x
    let t ← look w.own y
    if x = y then return w
    let (H, o, t') ← Obj.moveAssign w.heap a t
    return { w with heap := H, own := upd (upd w.own y (some t')) x (some o) }
  | .resize x d h wd => do
    let a ← look w.own x
    let (H, o) ← Obj.resize w.heap a d h wd
    return { w with heap := H, own := upd w.own x (some o) }
  | .reshape x d h wd => do
    let a ← look w.own x
    return { w with own := upd w.own x (some (a.reshape d h wd)) }
  | .fill x v => do
    let a ← look w.own x
    let H ← a.fill w.heap v
    return { w with heap := H }
  | .write x i v => do
    let a ← look w.own x
    let H ← a.set1 w.heap i v
    return { w with heap := H }
  | .destroy x => do
    let a ← look w.own x
    let H ← a.destroy w.heap
    return { w with heap := H, own := upd w.own x none }
  | .viewMake v x => do
    let a ← look w.own x
    return { w with view := upd w.view v (some (Obj.viewOf a.kind a.shape a.data)) }
  | .viewCopy v u => do
    let a ← look w.view u
    return { w with view := upd w.view v (some a) }
  | .viewAssign v u => do
    let a ← look w.view v
    let t ← look w.view u
    if v = u then return w
    return { w with view := upd w.view v (some (a.viewAssign t)) }
  | .viewWrite v i a => do
    let o ← look w.view v
    let H ← o.set1 w.heap i a
    return { w with heap := H }
  | .viewDestroy v => do
    let _ ← look w.view v
    return { w with view := upd w.view v none }
  | .swap x y => do
    let a ← look w.own x
    let t ← look w.own y
    return { w with own := upd (upd w.own y (some (a.swap t).2)) x (some (a.swap t).1) }
  | .viewSwap v u => do
    let a ← look w.view v
    let t ← look w.view u
    return { w with view := upd (upd w.view u (some (a.swap t).2)) v (some (a.swap t).1) }

/-- Running a whole history. -/
def World.run (w : World α) : List (Op α) → Res (World α)
  | [] => .ok w
  | op :: ops => do
    let w ← w.step op
    w.run ops

end Trixy
