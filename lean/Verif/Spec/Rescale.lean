import Verif.Spec.Order
import Verif.Spec.Checkpoint
import Verif.Spec.Checker
/- Repeated data sets, multiplied losses and learning rates. -/
namespace Trixy
open Finset

variable {α σ : Type}

/-- The second data set holds every (input, target) pair of the first `c` times as often, in any order. -/
def Copies (c : Nat) (idata odata idata' odata' : List (Ten α)) : Prop :=
  idata.length = odata.length ∧ idata'.length = odata'.length ∧
    ((List.replicate c (idata.zip odata)).flatten).Perm (idata'.zip odata')

/-- `e` sends the indices `0 … h'-1` to `0 … h-1` and hits each of these exactly `c` times. -/
def RepeatsEach (c h h' : Nat) (e : Nat → Nat) : Prop :=
  (∀ i, i < h' → e i < h) ∧ ∀ j, j < h → ((range h').filter (fun i => e i = j)).card = c

/-- Two runs end with the same parameters (and both end). -/
def SameParams (x y : Res (σ × Train α)) : Prop := ∃ r, trained x = .ok r ∧ trained y = .ok r

/-- Every way of training from `x` ends with the same parameters as from `y`. -/
def TrainAlike [Zero α] [One α] [Add α] [Mul α] [Div α] [NatCast α] [LT α] [DecidableLT α] [DecidableEq α] (upd : Upd σ α)
    (idata odata : List (Ten α)) (x y : σ × Train α) : Prop :=
  (∀ epochs, SameParams (Train.batch upd idata odata epochs x) (Train.batch upd idata odata epochs y)) ∧
  (∀ k epochs, 1 ≤ k → SameParams (Train.miniBatch upd idata odata epochs k x) (Train.miniBatch upd idata odata epochs k y)) ∧
  (x.2.net.Clean → ∀ (γ ρ : Type) (gen : Gen γ ρ Nat) (c : γ) (g : ρ) (iterations : Nat),
    SameParams (do let r ← Train.stochastic upd idata odata iterations gen c g x; return r.1)
      (do let r ← Train.stochastic upd idata odata iterations gen c g y; return r.1))

end Trixy
