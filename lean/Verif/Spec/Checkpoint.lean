import Verif.Spec.Serial
import Verif.Spec.TrainSafe
/-
Vocabulary for stopping and resuming a training.
-/
namespace Trixy

variable {α β σ : Type}

/-- Every layer is a dense training layer whose activation class is registered and whose sizes fit `size_t`. -/
def Net.Storable (R : Registry α) (net : Net α) : Prop :=
  ∀ l ∈ net, ∃ f : FC α, l = .fc f ∧ R.Has f.act ∧ Small3 1 f.isize f.osize

/-- The client: save the network, load it into new objects (parameter arrays at the addresses `addr`; `rest` is whatever follows in
the stream), make a new Training object for the loaded network and give it the loss. -/
def reload [Zero α] (c : Codec α β) (R : Registry α) (addr : Nat → Nat × (Nat → Nat)) (rest : List β) (loss : Loss α) (net : Net α) :
    Res (Train α) := do
  let bs ← c.putNet R net
  let (net, _) ← c.getNet R addr (bs ++ rest)
  let t ← Train.make net
  return { t with loss := some loss }

/-- The parameters of a network: for every layer the contents of its arrays. -/
def Net.params (net : Net α) : List (List (Buf α)) := net.map Layer.params

/-- What a training call leaves: the optimizer and the parameters. -/
def outcome (r : Res (σ × Train α)) : Res (σ × List (List (Buf α))) := do
  let r ← r
  return (r.1, r.2.net.params)

/-- The optimizer does not look at the address of the parameter and keeps arrays allocated and initialised, whatever their size. -/
structure Oblivious (upd : Upd σ α) : Prop where
  key : ∀ s k k' p g, upd s k p g = upd s k' p g
  total : ∀ s k p g n, Full p n → Full g n → Ok (upd s k p g) (fun r => Full r.2.1 n ∧ Full r.2.2 n)

/-- `upd` behaves the same on the optimizer states `s₁`, `s₂` related by `S` when the parameters live at addresses related by `K`. -/
def Equivariant (upd : Upd σ α) (K : Nat → Nat → Prop) (S : σ → σ → Prop) : Prop :=
  ∀ s₁ s₂ k₁ k₂ p g r, S s₁ s₂ → K k₁ k₂ → upd s₁ k₁ p g = .ok r → ∃ s', upd s₂ k₂ p g = .ok (s', r.2) ∧ S r.1 s'

/-- `k₁ ↦ k₂` is one-to-one where it is defined. -/
def OneToOne (K : Nat → Nat → Prop) : Prop := ∀ a b a' b', K a b → K a' b' → (a = a' ↔ b = b')

/-- Starting from the state `s`, what the optimizer does to parameters does not depend on where they are: for every one-to-one
renaming of addresses it behaves the same on the renamed parameters. -/
def AddressFree (upd : Upd σ α) (s : σ) : Prop := ∀ K, OneToOne K → ∃ S, Equivariant upd K S ∧ S s s

/-- The addresses of the parameter arrays of a network (its dense training layers). -/
def Layer.addrs : Layer α → List Nat
  | .fc l => [l.keyB, l.keyW]
  | _ => []

/-- No two parameter arrays have the same address. -/
def Net.Apart (net : Net α) : Prop := (net.flatMap Layer.addrs).Nodup

/-- `size a` is the number of elements of the parameter array at address `a`. -/
def Net.Sized (size : Nat → Nat) (net : Net α) : Prop :=
  ∀ f : FC α, .fc f ∈ net → size f.keyB = f.osize ∧ size f.keyW = f.isize * f.osize

/-- The parameters a training call leaves. -/
def trained (r : Res (σ × Train α)) : Res (List (List (Buf α))) := do
  let r ← r
  return r.2.net.params

end Trixy
