import Verif.Spec.Checkpoint
import Verif.Spec.Net
/- Training that moves nothing. -/
namespace Trixy

variable {α σ : Type}

/-- Every way of training from `x` ends, with a training object that satisfies `P` (stochastic training: on a network that was never trained in batches). -/
def TrainingGives [Zero α] [One α] [Add α] [Mul α] [Div α] [NatCast α] [LT α] [DecidableLT α] [DecidableEq α] (upd : Upd σ α)
    (idata odata : List (Ten α)) (x : σ × Train α) (P : Train α → Prop) : Prop :=
  (∀ epochs, Ok (Train.batch upd idata odata epochs x) (fun r => P r.2)) ∧
  (∀ k epochs, 1 ≤ k → Ok (Train.miniBatch upd idata odata epochs k x) (fun r => P r.2)) ∧
  (x.2.net.Clean → ∀ (γ ρ : Type) (gen : Gen γ ρ Nat) (c : γ) (g : ρ) (iterations : Nat),
    Ok (Train.stochastic upd idata odata iterations gen c g x) (fun r => P r.1.2))

/-- The optimizer leaves the parameters at the addresses `Z` alone as long as their gradients vanish (`V k n`: the array at `k` has `n`
elements; `J`: the states of the optimizer that occur). -/
structure StillOpt [Zero α] (upd : Upd σ α) (Z : Nat → Prop) (V : Nat → Nat → Prop) (J : σ → Prop) : Prop where
  still : ∀ s k n p g, J s → Z k → V k n → Full p n → VecIs g n (fun _ => 0) → ∃ s' g', upd s k p g = .ok (s', p, g') ∧ J s' ∧ Full g' n
  other : ∀ s k n p g, J s → ¬ Z k → V k n → Full p n → Full g n → ∃ s' p' g', upd s k p g = .ok (s', p', g') ∧ J s' ∧ Full p' n ∧ Full g' n

/-- The last layer of a network is a fully connected one whose biases are at the address `k`. -/
def Net.LastBias (net : Net α) (k : Nat) : Prop := ∃ ls f, net = ls ++ [.fc f] ∧ f.keyB = k

end Trixy
