import Verif.Spec.Stack
/- Specification vocabulary for training stacks of convolution and dense layers with GradDescent. -/
namespace Trixy

variable {α : Type}

/-- A sample set: inputs in the shape the first layer takes, targets with as many values as the output. -/
def StackData (ss : List (Stage α)) (b : Nat × Nat × Nat) (idata odata : List (Ten α)) (vs : List ((Nat → α) × (Nat → α))) : Prop :=
  List.Forall₂ (fun x (vw : (Nat → α) × (Nat → α)) => StackInput ss x vw.1) idata vs ∧
  List.Forall₂ (fun y (vw : (Nat → α) × (Nat → α)) => VecIs y.data (cells b) vw.2) odata vs

/-- `size k` is the number of elements of the parameter array at address `k`. -/
def Layer.SizedBy (size : Nat → Nat) : Layer α → Prop
  | .fc f => size f.keyB = f.osize ∧ size f.keyW = f.isize * f.osize
  | .conv c => size c.keyB = c.fc ∧ ∀ f, f < c.fc → size (c.keyW f) = c.fd * c.fh * c.fw
  | _ => True

section
variable [CommRing α]

/-- The gradients of all layers summed over the samples `vs`, at fixed parameters. -/
def stackSum (dL : (Nat → α) → (Nat → α) → Nat → α) (ss : List (Stage α)) (vs : List ((Nat → α) × (Nat → α))) : List (PRef → α) :=
  vs.foldl (fun acc vw => List.zipWith (fun a g r => a r + g r) acc (stackSample dL ss vw)) (ss.map (fun _ _ => 0))

/-- Every parameter of the layer moves by `- gradient · alpha · lr`. -/
def Stage.descend (lr alpha : α) (s : Stage α) (G : PRef → α) : Stage α := s.put (fun r => s.get r - G r * alpha * lr)

/-- What one averaged step should do: gradient descent with the summed gradients. -/
def stackStep (lr alpha : α) (dL : (Nat → α) → (Nat → α) → Nat → α) (vs : List ((Nat → α) × (Nat → α))) (ss : List (Stage α)) :
    List (Stage α) := List.zipWith (Stage.descend lr alpha) ss (stackSum dL ss vs)

/-- A layer together with what its gradient members carry over into the next step (dense layers: nothing). -/
abbrev Carried (α : Type) := Stage α × (PRef → α)

/-- What a step leaves in the gradient members. -/
def Stage.kept (lr alpha : α) : Stage α → (PRef → α) → PRef → α
  | .dense _, _ => fun _ => 0
  | .conv _, T => fun r => T r * alpha * lr

/-- What one averaged step does: convolutions descend along the carried value plus the summed gradients, and carry the scaled sum. -/
def carryStep (lr alpha : α) (dL : (Nat → α) → (Nat → α) → Nat → α) (vs : List ((Nat → α) × (Nat → α))) (cs : List (Carried α)) :
    List (Carried α) :=
  List.zipWith (fun c G => (c.1.descend lr alpha (c.1.newGrad c.2 G), c.1.kept lr alpha (c.1.newGrad c.2 G))) cs
    (stackSum dL (cs.map (·.1)) vs)

/-- The carried view of the abstract state of a layer. -/
def SSt.carry (st : SSt α) : Carried α := (st.s, match st.s with | .dense _ => fun _ => 0 | .conv _ => st.g)

/-- Mean loss of a stack over the samples. -/
noncomputable def stackMean (L : (Nat → ℝ) → (Nat → ℝ) → ℝ) (vs : List ((Nat → ℝ) × (Nat → ℝ))) (ss : List (Stage ℝ)) : ℝ :=
  (1 / (vs.length : ℝ)) * (vs.map (fun vw => L vw.2 (stackOut ss vw.1))).sum

end

end Trixy
