import Verif.Spec.TensorMem
/-
Tensors as values (C92): what a program that uses vectors, matrices, tensors and views means when every owning object simply *is* a list
of numbers with dimensions, and a view is the name of the object it looks at. No pointers, no storage.
-/
namespace Trixy

variable {α : Type _}

/-- A value: its dimensions (vector: the size; matrix: height, width; tensor: depth, height, width) and its elements in row-major order
(`none`: not yet written). -/
structure TVal (α : Type _) where
  dims : List Nat
  cells : List (Option α)

/-- An object: its class, and its value, if it has not been moved from. -/
structure TObj (α : Type _) where
  kind : Kind
  val : Option (TVal α)

/-- A view: its class, its dimensions, and the object whose elements it shows (`none`: that storage has gone). -/
structure TView where
  kind : Kind
  dims : List Nat
  target : Option Nat

/-- State of the abstract program. -/
structure TState (α : Type _) where
  own : Nat → Option (TObj α)
  view : Nat → Option TView

def TState.init : TState α := ⟨fun _ => none, fun _ => none⟩

/-- The dimensions given by three numbers, for each class. -/
def Kind.dims (k : Kind) (d h w : Nat) : List Nat :=
  match k with
  | .vec => [w]
  | .mat => [h, w]
  | .ten => [d, h, w]

/-- The views follow the elements they show: `f x` is the object that now has the elements `x` had, `none` if they are gone. -/
def TState.follow (s : TState α) (f : Nat → Option Nat) : Nat → Option TView :=
  fun v => (s.view v).map (fun a => { a with target := a.target.bind f })

/-- Nobody has the elements of `x` any more. -/
def gone (x : Nat) : Nat → Option Nat := fun z => if z = x then none else some z

/-- `y` has handed its elements to `x`; those `x` had are gone. -/
def handed (x y : Nat) : Nat → Option Nat := fun z => if z = x then none else if z = y then some x else some z

/-- `x` and `y` have exchanged their elements. -/
def exchanged (x y : Nat) : Nat → Option Nat := fun z => if z = x then some y else if z = y then some x else some z

/-- Element `i` of an object becomes `a`. -/
def TObj.write (o : TObj α) (i : Nat) (a : α) : TObj α :=
  { o with val := o.val.map (fun v => { v with cells := v.cells.set i (some a) }) }

/-- An object that has been moved from has no value any more, unless it was empty. -/
def TObj.moved (o : TObj α) : TObj α :=
  { o with val := o.val.bind (fun v => if v.cells.length = 0 then some v else none) }

/-- The meaning of each operation. -/
def TState.step (s : TState α) : Op α → TState α
  | .defaultCtor x k => { s with own := upd s.own x (some ⟨k, some ⟨k.dims 0 0 0, []⟩⟩) }
  | .sizedCtor x k d h w =>
    { s with own := upd s.own x (some ⟨k, some ⟨k.dims d h w, List.replicate (k.dims d h w).prod none⟩⟩) }
  | .valueCtor x k d h w a =>
    { s with own := upd s.own x (some ⟨k, some ⟨k.dims d h w, List.replicate (k.dims d h w).prod (some a)⟩⟩) }
  | .listCtor x k l => { s with own := upd s.own x (some ⟨k, some ⟨k.dims 1 1 l.length, l.map some⟩⟩) }
  | .copyCtor x y => { s with own := upd s.own x (s.own y) }
  | .moveCtor x y =>
    ⟨upd (upd s.own y ((s.own y).map TObj.moved)) x (s.own y), s.follow (handed x y)⟩
  | .copyAssign x y => if x = y then s else ⟨upd s.own x (s.own y), s.follow (gone x)⟩
  | .moveAssign x y =>
    if x = y then s
    else ⟨upd (upd s.own y ((s.own y).map TObj.moved)) x (s.own y), s.follow (handed x y)⟩
  | .resize x d h w =>
    ⟨upd s.own x ((s.own x).map (fun o => ⟨o.kind, some ⟨o.kind.dims d h w, List.replicate (o.kind.dims d h w).prod none⟩⟩)),
      s.follow (gone x)⟩
  | .reshape x d h w =>
    { s with own := upd s.own x ((s.own x).map (fun o => { o with val := o.val.map (fun v => { v with dims := o.kind.dims d h w }) })) }
  | .fill x a =>
    { s with own := upd s.own x ((s.own x).map (fun o =>
        { o with val := o.val.map (fun v => { v with cells := List.replicate v.cells.length (some a) }) })) }
  | .write x i a => { s with own := upd s.own x ((s.own x).map (·.write i a)) }
  | .destroy x => ⟨upd s.own x none, s.follow (gone x)⟩
  | .viewMake v x =>
    { s with view := upd s.view v ((s.own x).bind (fun o => o.val.map (fun t => ⟨o.kind, t.dims, some x⟩))) }
  | .viewCopy v u => { s with view := upd s.view v (s.view u) }
  | .viewAssign v u => { s with view := upd s.view v (s.view u) }
  | .viewWrite v i a =>
    match (s.view v).bind (·.target) with
    | some x => { s with own := upd s.own x ((s.own x).map (·.write i a)) }
    | none => s
  | .viewDestroy v => { s with view := upd s.view v none }
  | .swap x y => ⟨upd (upd s.own y (s.own x)) x (s.own y), s.follow (exchanged x y)⟩
  | .viewSwap v u => { s with view := upd (upd s.view u (s.view v)) v (s.view u) }

def TState.run (s : TState α) : List (Op α) → TState α
  | [] => s
  | op :: ops => (s.step op).run ops

/-- The dimensions an object or a view reports. (For a vector the number of its elements: `size()`.) -/
def Obj.dims (o : Obj) : List Nat :=
  match o.kind with
  | .vec => [o.shape.size]
  | .mat => [o.shape.h, o.shape.w]
  | .ten => [o.shape.d, o.shape.h, o.shape.w]

/-- The `shape()` of the object describes it completely. This fails for vectors that have been resized (C63) and for matrices that were
default constructed (C06), however they were resized or assigned later. (The height of a matrix is a `size_t`.) -/
def Obj.Plain (o : Obj) : Prop :=
  match o.kind with
  | .vec => o.shape.w = o.shape.size
  | .mat => o.shape.d = 1 ∧ o.shape.h < W64
  | .ten => True

/-- What a client has to respect in addition to `Valid`: element counts fit `size_t`; `reshape` keeps the element count; moved-from objects are
not looked at; views are assigned and exchanged within one class; and the known defects are avoided: no copy construction of a
non-empty vector (C04) or of a matrix whose shape is incomplete (C06), copy assignment of matrices and tensors between objects with the
same number of elements (C05), no view of an object whose shape is incomplete (C06, C63). -/
def Sane (w : World α) : Op α → Prop
  | .defaultCtor _ _ => True
  | .sizedCtor _ k d h wd => (k.dims d h wd).prod < W64 ∧ (k = .ten → d * h < W64)
  | .valueCtor _ k d h wd _ => (k.dims d h wd).prod < W64 ∧ (k = .ten → d * h < W64)
  | .listCtor _ _ l => l.length < W64
  | .copyCtor _ y => ∀ t, w.own y = some t → match t.kind with
    | .vec => t.shape.size = 0
    | .mat => t.shape.d = 1 ∧ t.shape.h < W64
    | .ten => True
  | .moveCtor _ _ => True
  | .copyAssign x y => ∀ a t, w.own x = some a → w.own y = some t → a.kind ≠ .vec → a.shape.size = t.shape.size
  | .moveAssign _ _ => True
  | .resize x d h wd => ∀ a, w.own x = some a → (a.kind.dims d h wd).prod < W64 ∧ (a.kind = .ten → d * h < W64)
  | .reshape x d h wd => ∀ a, w.own x = some a → (a.kind.dims d h wd).prod = a.shape.size
  | .fill _ _ => True
  | .write _ _ _ => True
  | .destroy _ => True
  | .viewMake _ x => ∀ a, w.own x = some a → a.Usable ∧ a.Plain
  | .viewCopy _ _ => True
  | .viewAssign v u => ∀ a t, w.view v = some a → w.view u = some t → a.kind = t.kind
  | .viewWrite _ _ _ => True
  | .viewDestroy _ => True
  | .swap _ _ => True
  | .viewSwap v u => ∀ a t, w.view v = some a → w.view u = some t → a.kind = t.kind

/-- Every operation respects the contract at the moment it is executed. -/
def SaneHist (w : World α) : List (Op α) → Prop
  | [] => True
  | op :: ops => Valid w op ∧ Sane w op ∧ ∀ w', w.step op = .ok w' → SaneHist w' ops

end Trixy
