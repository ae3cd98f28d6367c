import Verif.Spec.Library
import Verif.Spec.Net
/- Networks of library layers and their predictions. -/
namespace Trixy

/-- `net` is a network of fully connected layers of the library, `n` inputs, `m` outputs, with the parameters and activations of `ls`. -/
structure Net.IsLib (net : Net ℝ) (ls : List LibLayer) (n m : Nat) : Prop where
  layers : List.Forall₂ (fun (l : Layer ℝ) a => ∃ f, l = .fc f ∧ f.Wf a.n a.m a.b a.W ∧ f.act = a.act.obj) net ls
  some : ls ≠ []
  word : ls.length < W64
  fits : libFits n ls m
  pos : ∀ l ∈ ls, 0 < l.m

/-- `feedforward` of both networks is defined for every input of `n` components and gives the same `m` outputs. -/
def PredictAlike (n m : Nat) (net net' : Net ℝ) : Prop :=
  ∀ (x : Ten ℝ) (v : Nat → ℝ), VecIs x.data n v → ∃ r r' y, Net.feedforward x net = .ok r ∧ Net.feedforward x net' = .ok r' ∧
    RowIs r.2 m y ∧ RowIs r'.2 m y

/-- The factors `c` for which the activation satisfies `f (c·x) = c·f x`: all but 0 for the identity, the positive ones for `ReLU` and
`LeakyReLU`, 1 and -1 for the odd functions. -/
def ActKind.Scales : ActKind → ℝ → Prop
  | .identity, c => c ≠ 0
  | .relu, c | .lrelu, c => 0 < c
  | .tanh, c | .softsign, c => c = 1 ∨ c = -1
  | _, c => c = 1

end Trixy
