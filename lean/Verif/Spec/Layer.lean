import Verif.Model.FC
import Verif.Spec.Mat
/-
Specification vocabulary for layers: what an activation computes, when a fully connected layer is well formed, the
affine map.
-/
namespace Trixy

variable {α : Type}

/-- On `n` values the activation computes `F` and its derivative companion computes `D`, whatever the result range
held before, also in place. -/
structure Act.Is (a : Act α) (n : Nat) (F D : (Nat → α) → Nat → α) : Prop where
  f : ∀ (r x : Buf α) (v : Nat → α), r.length = n → VecIs x n v → Ok (a.f r x) (fun r' => VecIs r' n (F v))
  fSelf : ∀ (x : Buf α) (v : Nat → α), VecIs x n v → Ok (a.fSelf x) (fun r' => VecIs r' n (F v))
  df : ∀ (r x : Buf α) (v : Nat → α), r.length = n → VecIs x n v → Ok (a.df r x) (fun r' => VecIs r' n (D v))
  dfSelf : ∀ (x : Buf α) (v : Nat → α), VecIs x n v → Ok (a.dfSelf x) (fun r' => VecIs r' n (D v))
  Fcongr : ∀ v v' : Nat → α, (∀ i, i < n → v i = v' i) → ∀ i, i < n → F v i = F v' i
  Dcongr : ∀ v v' : Nat → α, (∀ i, i < n → v i = v' i) → ∀ i, i < n → D v i = D v' i

/-- All `n` cells are initialised. -/
def Full (b : Buf α) (n : Nat) : Prop := ∃ f, VecIs b n f
/-- All cells of the `h × w` matrix are initialised. -/
def MFull (m : Mat α) (h w : Nat) : Prop := ∃ f, MatIs m h w f
/-- `t` has shape (1,1,n) and is initialised with the values `v`. -/
def RowIs (t : Ten α) (n : Nat) (v : Nat → α) : Prop := t.d = 1 ∧ t.h = 1 ∧ t.w = n ∧ VecIs t.data n v

/-- The affine image of `x`, in the evaluation order of the code: (((0 + x₀W₀ⱼ) + x₁W₁ⱼ) + …) + bⱼ. -/
def affine [Zero α] [Add α] [Mul α] (n : Nat) (W : Nat → Nat → α) (b : Nat → α) (x : Nat → α) : Nat → α :=
  fun j => foldSum 0 n (fun i => x i * W i j) + b j

/-- A fully connected layer of `n` inputs and `m` outputs with parameters `b`, `W` whose caches have been set up. -/
structure FC.Wf (l : FC α) (n m : Nat) (b : Nat → α) (W : Nat → Nat → α) : Prop where
  isize : l.isize = n
  osize : l.osize = m
  B : VecIs l.B m b
  W : MatIs l.W n m W
  value : ∃ v, RowIs l.value m v
  buff : Full l.buff m
  gradB : Full l.gradB m
  gradW : MFull l.gradW n m
  gradBs : Full l.gradBs m
  gradWs : MFull l.gradWs n m
  delta : ∃ v, RowIs l.delta n v

/-- An optimizer that works on parameters whose number is fixed by their address (`size`): from a state satisfying
`I` an update of initialised parameters with initialised gradients is defined, keeps `I` and keeps both initialised. -/
def UpdOk {σ : Type} (upd : Upd σ α) (size : Nat → Nat) (I : σ → Prop) : Prop :=
  ∀ s k p g, I s → Full p (size k) → Full g (size k) →
    Ok (upd s k p g) (fun r => I r.1 ∧ Full r.2.1 (size k) ∧ Full r.2.2 (size k))

/-- The arguments of a call fit an `n → m` layer. -/
def FCOp.Fits {γ : Type} (n m : Nat) : FCOp α γ → Prop
  | .init _ => True
  | .connect a => ∃ F D, a.Is m F D
  | .forward x => Full x.data n
  | .backward x d _ => Full x.data n ∧ Full d.data m
  | .update _ => True
  | .reset => True
  | .accumulate => True

end Trixy
