import Verif.Model.Own
/-
Ownership discipline: what the documentation-free interface expects of its user. `c` is the list of objects the client owns, i.e.
has created and not yet handed over.
-/
namespace Trixy

/-- The client's objects after a step. -/
def ownNext (w : OWorld) (c : List Nat) : OOp → List Nat
  | .newAct | .newLoss | .newConv => w.next :: c
  | .newLayer none => w.next :: c
  | .newLayer (some a) => w.next :: c.erase a
  | .connect l (some a) => if (l, OObj.conv) ∈ w.objs then c else c.erase a
  | .netFrom _ ls => ls.foldl List.erase c
  | .add _ p => c.erase p
  | .setLoss _ (some a) => c.erase a
  | .delete p => c.erase p
  | _ => c

/-- `p` is a layer. -/
def OWorld.IsLayer (w : OWorld) (p : Nat) : Prop := (p, OObj.conv) ∈ w.objs ∨ ∃ a, (p, OObj.layer a) ∈ w.objs

/-- What a step may do: hand over only objects the client owns, of the right kind, each once; name new things with new names; use
only things that exist; a training's network must exist when the training is used; no copies of networks or trainings. -/
def OValid (w : OWorld) (c : List Nat) : OOp → Prop
  | .newAct | .newLoss | .newConv => True
  | .newLayer none => True
  | .newLayer (some a) => a ∈ c ∧ (a, OObj.act) ∈ w.objs
  | .connect l none => w.IsLayer l
  | .connect l (some a) => w.IsLayer l ∧ a ∈ c ∧ (a, OObj.act) ∈ w.objs
  | .netNew n => ∀ e ∈ w.nets, e.1 ≠ n
  | .netFrom n ls => (∀ e ∈ w.nets, e.1 ≠ n) ∧ ls.Nodup ∧ ∀ p ∈ ls, p ∈ c ∧ w.IsLayer p
  | .netCopy _ _ => False
  | .add n p => (∃ ls, (n, ls) ∈ w.nets) ∧ p ∈ c ∧ w.IsLayer p
  | .feedforward n => ∃ ls, (n, ls) ∈ w.nets ∧ ls ≠ [] ∧ ∀ p ∈ ls, (p, OObj.layer none) ∉ w.objs
  | .netDestroy n => ∃ ls, (n, ls) ∈ w.nets
  | .trainNew t n => (∀ e ∈ w.trains, e.1 ≠ t) ∧ ∃ ls, (n, ls) ∈ w.nets ∧ ls ≠ []
  | .trainCopy _ _ => False
  | .setLoss t none => ∃ e ∈ w.trains, e.1 = t
  | .setLoss t (some a) => (∃ e ∈ w.trains, e.1 = t) ∧ a ∈ c ∧ (a, OObj.loss) ∈ w.objs
  | .evalLoss t => ∃ n a ls, (t, n, some a) ∈ w.trains ∧ (n, ls) ∈ w.nets ∧ ls ≠ [] ∧
      ∀ p ∈ ls, (p, OObj.layer none) ∉ w.objs
  | .trainDestroy t => ∃ e ∈ w.trains, e.1 = t
  | .delete p => p ∈ c

/-- Every step of the program is allowed when it is executed. -/
def OValidHist (w : OWorld) (c : List Nat) : List OOp → Prop
  | [] => True
  | op :: ops => OValid w c op ∧ ∀ w', w.step op = .ok w' → OValidHist w' (ownNext w c op) ops

/-- The client's objects at the end of the program. -/
def ownRun (w : OWorld) (c : List Nat) : List OOp → List Nat
  | [] => c
  | op :: ops =>
    match w.step op with
    | .ok w' => ownRun w' (ownNext w c op) ops
    | .error _ => c

/-- The activation a layer owns. -/
def OObj.owns : OObj → Option Nat
  | .layer a => a
  | _ => none

/-- Something that exists points to `p` and owns it: the client, a network, a training or a layer. -/
def OWorld.Owned (w : OWorld) (c : List Nat) (p : Nat) : Prop :=
  p ∈ c ∨ (∃ e ∈ w.nets, p ∈ e.2) ∨ (∃ e ∈ w.trains, e.2.2 = some p) ∨ ∃ e ∈ w.objs, e.2.owns = some p

/-- `w` is the state, and `c` the client's objects, after some program that kept to the discipline. -/
def OWorld.Reached (w : OWorld) (c : List Nat) : Prop :=
  ∃ ops, OValidHist OWorld.init [] ops ∧ OWorld.init.run ops = .ok w ∧ ownRun OWorld.init [] ops = c

/-- `p` is alive. -/
def OWorld.Alive (w : OWorld) (p : Nat) : Prop := ∃ o, (p, o) ∈ w.objs

end Trixy
