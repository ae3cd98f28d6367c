import Verif.Spec.Net
import Verif.Spec.ConvExact
import Mathlib.Data.Real.Basic
/-
Specification vocabulary: floating-point arithmetic in the "standard model" of rounding error analysis, and what it means
for a computed number, vector or tensor to be near an exact real one. Nothing here mentions the code.
-/
namespace Trixy
open Finset (range)

variable {α : Type}

/-- An arithmetic on `α` that approximates the reals. `fin a` says that `a` is a finite number, `val a` is then the real
number it stands for. An operation whose exact result is at most `M` in absolute value does not overflow and commits a
relative error of at most `u`; a product may also underflow, which costs at most `η` more. (For IEEE-754 single precision
with round-to-nearest: `u = 2^-24`, `η = 2^-150`, `M` = the largest finite number; sums and differences do not underflow.) -/
structure Rounding (α : Type) [Zero α] [Add α] [Sub α] [Mul α] where
  fin : α → Prop
  val : α → ℝ
  u : ℝ
  η : ℝ
  M : ℝ
  u0 : 0 ≤ u
  η0 : 0 ≤ η
  zero : fin 0 ∧ val 0 = 0
  add : ∀ a b, fin a → fin b → |val a + val b| ≤ M → fin (a + b) ∧ |val (a + b) - (val a + val b)| ≤ u * |val a + val b|
  sub : ∀ a b, fin a → fin b → |val a - val b| ≤ M → fin (a - b) ∧ |val (a - b) - (val a - val b)| ≤ u * |val a - val b|
  mul : ∀ a b, fin a → fin b → |val a * val b| ≤ M → fin (a * b) ∧ |val (a * b) - val a * val b| ≤ u * |val a * val b| + η

section
variable [Zero α] [Add α] [Sub α] [Mul α] (R : Rounding α)

/-- `a` is finite and within `e` of the real number `X`. -/
def Rounding.Near (a : α) (X e : ℝ) : Prop := R.fin a ∧ |R.val a - X| ≤ e

/-- The first `n` numbers of `a` are near those of `X`, each within its own bound. -/
def Rounding.NearVec (n : Nat) (a : Nat → α) (X e : Nat → ℝ) : Prop := ∀ i, i < n → R.Near (a i) (X i) (e i)

/-- The tensor `t` has shape `s` and its cells (in memory order) are near `X`, each within its own bound. -/
def Rounding.NearTen (t : Ten α) (s : Nat × Nat × Nat) (X e : Nat → ℝ) : Prop :=
  ∃ a, FlatIs t s a ∧ R.NearVec (s.1 * s.2.1 * s.2.2) a X e

/-- The scalar function `g` on computed numbers approximates the real function `γ` with absolute error `ε`, and `γ` is
`L`-Lipschitz. -/
structure Rounding.FunNear (g : α → α) (γ : ℝ → ℝ) (L ε : ℝ) : Prop where
  near : ∀ a, R.fin a → R.Near (g a) (γ (R.val a)) ε
  lip : ∀ x y, |γ x - γ y| ≤ L * |x - y|
  L0 : 0 ≤ L

/-- An activation on vectors of length `m` takes computed vectors near `X` to computed vectors near `Φ X`; `Ae X δ` is the bound
for inputs within `δ`, `As X δ` the condition under which it applies. -/
def Rounding.ActNear (m : Nat) (F : (Nat → α) → Nat → α) (Φ : (Nat → ℝ) → Nat → ℝ) (Ae : (Nat → ℝ) → (Nat → ℝ) → Nat → ℝ)
    (As : (Nat → ℝ) → (Nat → ℝ) → Prop) : Prop :=
  ∀ (a : Nat → α) (X δ : Nat → ℝ), R.NearVec m a X δ → As X δ → R.NearVec m (F a) (Φ X) (Ae X δ)

/-- The comparison of finite numbers is that of the reals they stand for. -/
def Rounding.Ordered [LT α] : Prop := ∀ a b, R.fin a → R.fin b → (a < b ↔ R.val a < R.val b)

end

/-- The magnitude of one pre-activation `Σ xᵢ·wᵢ + b` of `n` products with all its rounding errors: inputs within `δ`, weights and
bias exact, `n + 2` roundings on a path. It must not exceed the largest number, so that nothing overflows on the way. -/
noncomputable def dotMag (u η : ℝ) (n : Nat) (x δ w : Nat → ℝ) (b : ℝ) : ℝ :=
  (1 + u) ^ (n + 2) * (∑ i ∈ range n, ((|x i| + δ i) * |w i| + η) + |b|)

/-- Error bound of the pre-activation: the magnitude with errors less the magnitude without. -/
noncomputable def dotErr (u η : ℝ) (n : Nat) (x δ w : Nat → ℝ) (b : ℝ) : ℝ :=
  dotMag u η n x δ w b - (∑ i ∈ range n, |x i| * |w i| + |b|)

/-- The same for one output of a convolution: `fh·fw·d` products and the bias; `x` and `δ` are extended by zeros. -/
noncomputable def corrMag (u η : ℝ) (d h w fh fw pad sv sh : Nat) (b : Nat → ℝ) (W : Nat → Nat → Nat → Nat → ℝ)
    (x δ : Nat → Nat → Nat → ℝ) (f oy ox : Nat) : ℝ :=
  (1 + u) ^ (fh * fw * d + 1) * (|b f| + ∑ i ∈ range fh, ∑ j ∈ range fw, ∑ c ∈ range d,
    ((|padded x h w c ((sv : Int) * oy + i - pad) ((sh : Int) * ox + j - pad)| +
      padded δ h w c ((sv : Int) * oy + i - pad) ((sh : Int) * ox + j - pad)) * |W f c i j| + η))

noncomputable def corrErr (u η : ℝ) (d h w fh fw pad sv sh : Nat) (b : Nat → ℝ) (W : Nat → Nat → Nat → Nat → ℝ)
    (x δ : Nat → Nat → Nat → ℝ) (f oy ox : Nat) : ℝ :=
  corrMag u η d h w fh fw pad sv sh b W x δ f oy ox - (|b f| + ∑ i ∈ range fh, ∑ j ∈ range fw, ∑ c ∈ range d,
    |padded x h w c ((sv : Int) * oy + i - pad) ((sh : Int) * ox + j - pad)| * |W f c i j|)

section
variable [Zero α] [Add α] [Sub α] [Mul α] (R : Rounding α)

/-- The layer `l`, used with the arithmetic `R`, approximates the function `G` on real tensors (flat, in memory order) of shape
`s`: for an input within `δ` of `v` the result is within `E v δ` of `G v`, provided that `S v δ` holds (nothing overflows). The
parameters are finite numbers and `G` is the exact layer with these parameters: a fully connected layer `Φ(x·W + b)`, a
convolution, an inference pooling layer `γ` of the window maxima. -/
inductive Layer.Rounds [LT α] : Layer α → Nat × Nat × Nat → Nat × Nat × Nat →
    ((Nat → ℝ) → Nat → ℝ) → ((Nat → ℝ) → (Nat → ℝ) → Nat → ℝ) → ((Nat → ℝ) → (Nat → ℝ) → Prop) → Prop
  | fc {l : FC α} {d h w m b W F D Φ Ae As} : l.Wf (d * h * w) m b W → l.act.Is m F D → R.ActNear m F Φ Ae As →
      (∀ j, j < m → R.fin (b j)) → (∀ i j, i < d * h * w → j < m → R.fin (W i j)) →
      Rounds (.fc l) (d, h, w) (1, 1, m)
        (fun v => Φ (fun j => ∑ i ∈ range (d * h * w), v i * R.val (W i j) + R.val (b j)))
        (fun v δ => Ae (fun j => ∑ i ∈ range (d * h * w), v i * R.val (W i j) + R.val (b j))
          (fun j => dotErr R.u R.η (d * h * w) v δ (fun i => R.val (W i j)) (R.val (b j))))
        (fun v δ => (∀ j, j < m → dotMag R.u R.η (d * h * w) v δ (fun i => R.val (W i j)) (R.val (b j)) ≤ R.M) ∧
          As (fun j => ∑ i ∈ range (d * h * w), v i * R.val (W i j) + R.val (b j))
            (fun j => dotErr R.u R.η (d * h * w) v δ (fun i => R.val (W i j)) (R.val (b j))))
  | rawFC {l : RawFC α} {d h w m b W F D v0 Φ Ae As} : VecIs l.B m b → MatIs l.W (d * h * w) m W → RowIs l.value m v0 →
      l.act.Is m F D → R.ActNear m F Φ Ae As →
      (∀ j, j < m → R.fin (b j)) → (∀ i j, i < d * h * w → j < m → R.fin (W i j)) →
      Rounds (.rawFC l) (d, h, w) (1, 1, m)
        (fun v => Φ (fun j => ∑ i ∈ range (d * h * w), v i * R.val (W i j) + R.val (b j)))
        (fun v δ => Ae (fun j => ∑ i ∈ range (d * h * w), v i * R.val (W i j) + R.val (b j))
          (fun j => dotErr R.u R.η (d * h * w) v δ (fun i => R.val (W i j)) (R.val (b j))))
        (fun v δ => (∀ j, j < m → dotMag R.u R.η (d * h * w) v δ (fun i => R.val (W i j)) (R.val (b j)) ≤ R.M) ∧
          As (fun j => ∑ i ∈ range (d * h * w), v i * R.val (W i j) + R.val (b j))
            (fun j => dotErr R.u R.η (d * h * w) v δ (fun i => R.val (W i j)) (R.val (b j))))
  | conv {l : Conv α} {d h w fc fh fw pad sv sh b W gb gW} : l.Wf d h w fc fh fw pad sv sh b W gb gW →
      (∀ f, f < fc → R.fin (b f)) → (∀ f c i j, f < fc → c < d → i < fh → j < fw → R.fin (W f c i j)) →
      Rounds (.conv l) (d, h, w) (fc, extent h fh pad sv, extent w fw pad sh)
        (fun v k => corr d h w fh fw pad sv sh (fun f => R.val (b f)) (fun f c i j => R.val (W f c i j)) (unflat h w v)
          (k / extent w fw pad sh / extent h fh pad sv) (k / extent w fw pad sh % extent h fh pad sv) (k % extent w fw pad sh))
        (fun v δ k => corrErr R.u R.η d h w fh fw pad sv sh (fun f => R.val (b f)) (fun f c i j => R.val (W f c i j)) (unflat h w v)
          (unflat h w δ) (k / extent w fw pad sh / extent h fh pad sv) (k / extent w fw pad sh % extent h fh pad sv)
          (k % extent w fw pad sh))
        (fun v δ => ∀ f oy ox, f < fc → oy < extent h fh pad sv → ox < extent w fw pad sh →
          corrMag R.u R.η d h w fh fw pad sv sh (fun f => R.val (b f)) (fun f c i j => R.val (W f c i j)) (unflat h w v)
            (unflat h w δ) f oy ox ≤ R.M)
  | rawConv {l : Conv α} {d h w fc fh fw pad sv sh b W gb gW} : l.Wf d h w fc fh fw pad sv sh b W gb gW →
      (∀ f, f < fc → R.fin (b f)) → (∀ f c i j, f < fc → c < d → i < fh → j < fw → R.fin (W f c i j)) →
      Rounds (.rawConv l) (d, h, w) (fc, extent h fh pad sv, extent w fw pad sh)
        (fun v k => corr d h w fh fw pad sv sh (fun f => R.val (b f)) (fun f c i j => R.val (W f c i j)) (unflat h w v)
          (k / extent w fw pad sh / extent h fh pad sv) (k / extent w fw pad sh % extent h fh pad sv) (k % extent w fw pad sh))
        (fun v δ k => corrErr R.u R.η d h w fh fw pad sv sh (fun f => R.val (b f)) (fun f c i j => R.val (W f c i j)) (unflat h w v)
          (unflat h w δ) (k / extent w fw pad sh / extent h fh pad sv) (k / extent w fw pad sh % extent h fh pad sv)
          (k % extent w fw pad sh))
        (fun v δ => ∀ f oy ox, f < fc → oy < extent h fh pad sv → ox < extent w fw pad sh →
          corrMag R.u R.η d h w fh fw pad sv sh (fun f => R.val (b f)) (fun f c i j => R.val (W f c i j)) (unflat h w v)
            (unflat h w δ) f oy ox ≤ R.M)
  | rawPool {l : Pool α} {d oh ow sv sh} {g g' : α → α} {γ : ℝ → ℝ} {L ε : ℝ} {Mx : (Nat → ℝ) → Nat → Nat → Nat → ℝ} :
      l.Wf d oh ow sv sh → l.act = Act.elementwise g g' → R.FunNear g γ L ε → R.Ordered →
      (∀ v c p q, c < d → p < oh → q < ow → WindowMax (unflat (oh * sv) (ow * sh) v) sv sh c p q (Mx v c p q)) →
      Rounds (.rawPool l) (d, oh * sv, ow * sh) (d, oh, ow)
        (fun v k => γ (Mx v (k / ow / oh) (k / ow % oh) (k % ow)))
        (fun _ δ k => L * Mx δ (k / ow / oh) (k / ow % oh) (k % ow) + ε)
        (fun _ _ => True)

/-- The layers one after the other: each works on the result of the one before, with its error. -/
inductive Net.Rounds [LT α] : Net α → Nat × Nat × Nat → Nat × Nat × Nat →
    ((Nat → ℝ) → Nat → ℝ) → ((Nat → ℝ) → (Nat → ℝ) → Nat → ℝ) → ((Nat → ℝ) → (Nat → ℝ) → Prop) → Prop
  | nil {s} : Net.Rounds [] s s (fun v => v) (fun _ δ => δ) (fun _ _ => True)
  | cons {l : Layer α} {ls : Net α} {s s' s'' G E S G' E' S'} : l.Rounds R s s' G E S → Net.Rounds ls s' s'' G' E' S' →
      Net.Rounds (l :: ls) s s'' (fun v => G' (G v)) (fun v δ => E' (G v) (E v δ)) (fun v δ => S v δ ∧ S' (G v) (E v δ))

end

end Trixy
