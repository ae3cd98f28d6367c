import Verif.Proof.FC
import Verif.Proof.Deriv
import Verif.Proof.Optim
import Mathlib.Analysis.Calculus.Deriv.Pow
/- Properties C26–C29 (fully connected layer). -/
namespace Trixy
open Finset

variable {α γ ρ σ : Type}

/-! ## C26 forward -/

/-- `forward(x)` on a layer with parameters `b`, `W`: `value()` is the activation of the affine image, and nothing but
the two forward caches changes. -/
theorem C26_forward [Zero α] [Add α] [Mul α] (l : FC α) (n m : Nat) (b : Nat → α) (W : Nat → Nat → α)
    (h : l.Wf n m b W) (F D : (Nat → α) → Nat → α) (hact : l.act.Is m F D) (x : Ten α) (v : Nat → α)
    (hx : VecIs x.data n v) :
    Ok (l.forward x) (fun l' => RowIs l'.value m (F (affine n W b v)) ∧
      l'.B = l.B ∧ l'.W = l.W ∧ l'.gradB = l.gradB ∧ l'.gradW = l.gradW ∧ l'.gradBs = l.gradBs ∧ l'.gradWs = l.gradWs ∧
      l'.accumulated = l.accumulated ∧ l'.delta = l.delta) :=
  (FC.forward_spec h hact hx).mono (fun l' q => by
    have e := q.2.2.2
    refine ⟨q.2.1, ?_, ?_, ?_, ?_, ?_, ?_, ?_, ?_⟩ <;> rw [e])

/-- After ANY sequence of calls that fits the layer's sizes (with any generator and any optimizer that keeps its
buffers initialised) there has been no undefined behaviour, and `forward(x)` yields the activation of `x·W + b` for the
parameters the layer holds at that moment. -/
theorem C26_history [Zero α] [One α] [Add α] [Mul α] [DecidableEq α] (upd : Upd σ α) (size : Nat → Nat) (I : σ → Prop)
    (hu : UpdOk upd size I) (gen : Gen γ ρ α) (n m kB kW : Nat) (hB : size kB = m) (hW : size kW = n * m)
    (act : Act α) (F0 D0 : (Nat → α) → Nat → α) (hact : act.Is m F0 D0) (s : σ) (hs : I s) (g : ρ)
    (ops : List (FCOp α γ)) (hops : ∀ op ∈ ops, op.Fits n m) :
    Ok (FCOp.run upd gen (s, g, FC.make n m act kB kW) ops) (fun r =>
      ∃ b W F D, VecIs r.2.2.B m b ∧ MatIs r.2.2.W n m W ∧ r.2.2.act.Is m F D ∧
        ∀ (x : Ten α) (v : Nat → α), VecIs x.data n v →
          Ok (r.2.2.forward x) (fun l' => RowIs l'.value m (F (affine n W b v)) ∧ l'.B = r.2.2.B ∧ l'.W = r.2.2.W)) := by
  have := FCOp.run_spec hu gen (n := n) (m := m) (kB := kB) (kW := kW) hB hW ops s g (FC.make n m act kB kW) hs
    ⟨⟨_, _, FC.Wf_make n m act kB kW⟩, ⟨F0, D0, hact⟩, rfl, rfl⟩ hops
  refine this.mono (fun r hr => ?_)
  obtain ⟨_, ⟨b, W, hwf⟩, ⟨F, D, ha⟩, _, _⟩ := hr
  exact ⟨b, W, F, D, hwf.B, hwf.W, ha, fun x v hx => (C26_forward _ n m b W hwf F D ha x v hx).mono (fun l' q => ⟨q.1, q.2.1, q.2.2.1⟩)⟩

/-- The result is independent of the history: two layers with equal parameters and activation give equal outputs. -/
theorem C26_history_free [Zero α] [Add α] [Mul α] (l₁ l₂ : FC α) (n m : Nat) (b : Nat → α) (W : Nat → Nat → α)
    (h₁ : l₁.Wf n m b W) (h₂ : l₂.Wf n m b W) (hact : l₂.act = l₁.act) (F D : (Nat → α) → Nat → α) (ha : l₁.act.Is m F D)
    (x : Ten α) (v : Nat → α) (hx : VecIs x.data n v) :
    ∃ l₁' l₂', l₁.forward x = .ok l₁' ∧ l₂.forward x = .ok l₂' ∧ l₁'.value = l₂'.value := by
  obtain ⟨l₁', e₁, q₁⟩ := FC.forward_spec h₁ ha hx
  obtain ⟨l₂', e₂, q₂⟩ := FC.forward_spec h₂ (by rw [hact]; exact ha) hx
  exact ⟨l₁', l₂', e₁, e₂, q₁.2.1.ext q₂.2.1⟩

/-- The inference layer computes the same values. -/
theorem C26_raw [Zero α] [Add α] [Mul α] (l : RawFC α) (n m : Nat) (b : Nat → α) (W : Nat → Nat → α) (v0 : Nat → α)
    (hB : VecIs l.B m b) (hW : MatIs l.W n m W) (hv : RowIs l.value m v0) (F D : (Nat → α) → Nat → α) (hact : l.act.Is m F D)
    (x : Ten α) (v : Nat → α) (hx : VecIs x.data n v) :
    Ok (l.forward x) (fun l' => RowIs l'.value m (F (affine n W b v)) ∧ l'.B = l.B ∧ l'.W = l.W) := by
  unfold RawFC.forward
  refine (dotRow_spec hx hW (Nat.le_refl _) hv.2.2.2.length).bind (fun b1 h1 => ?_)
  refine (zipInto_spec h1 hB (Nat.le_refl _)).bind (fun b2 h2 => ?_)
  refine (hact.fSelf b2 _ h2).bind (fun vd hvd => ?_)
  exact Ok_ok.2 ⟨⟨hv.1, hv.2.1, hv.2.2.1, hvd⟩, rfl, rfl⟩

/-- Non-vacuity: a 2→1 layer with the activation `x ↦ x*x` after initialisation with 3, 4, 5, …; input (10, 100). -/
def exAct : Act Int := Act.elementwise (fun x => x * x) (fun x => 2 * x)
/-- Generator with its state outside (by reference). -/
def exGen : Gen Unit Int Int := fun _ k => (k, (), k + 1)
def exRow (l : List Int) : Ten Int := ⟨1, 1, l.length, Buf.of l⟩
example : (do
    let r ← FCOp.run (gdUpdate (α := Int)) exGen (1, 3, FC.make 2 1 exAct 0 1) [.init (), .forward (exRow [7, 8])]
    let l ← r.2.2.forward (exRow [10, 100])
    return l.value : Res (Ten Int)) = .ok (exRow [(10 * 4 + 100 * 5 + 3) * (10 * 4 + 100 * 5 + 3)]) := by decide +kernel
/-- Gradient descent is an optimizer in the sense of `UpdOk`. -/
theorem gd_UpdOk [Mul α] [Sub α] (size : Nat → Nat) : UpdOk (gdUpdate (α := α)) size (fun _ => True) := by
  intro s k p g _ ⟨fp, hp⟩ ⟨fg, hg⟩
  exact (gd_spec hp hg).mono (fun r hr => ⟨trivial, hr.2.1.full, hr.2.2.full⟩)

/-! ## C27 backward -/

/-- The gradients and the delta computed by `backward` after `forward`, for any activation (value form, evaluation
order of the code). -/
theorem C27_backward [Zero α] [Add α] [Mul α] (l : FC α) (n m : Nat) (b : Nat → α) (W : Nat → Nat → α)
    (h : l.Wf n m b W) (F D : (Nat → α) → Nat → α) (hact : l.act.Is m F D) (x d : Ten α) (v u : Nat → α)
    (hx : VecIs x.data n v) (hd : VecIs d.data m u) (full : Bool) :
    Ok (do let l ← l.forward x; l.backward x d full) (fun l' =>
      VecIs l'.gradB m (fun j => D (affine n W b v) j * u j) ∧
      MatIs l'.gradW n m (fun i j => v i * (D (affine n W b v) j * u j)) ∧
      (full = true → RowIs l'.delta n (fun i => foldSum 0 m (fun j => W i j * (D (affine n W b v) j * u j)))) ∧
      (full = false → l'.delta = l.delta) ∧
      l'.B = l.B ∧ l'.W = l.W ∧ RowIs l'.value m (F (affine n W b v))) := by
  refine (FC.forward_spec h hact hx).bind (fun l1 q1 => ?_)
  have e1 := q1.2.2.2
  refine (FC.backward_spec q1.1 (by rw [e1]; exact hact) hx hd q1.2.2.1 full).mono (fun l2 q2 => ?_)
  have e2 := q2.2.2.2.2.2
  refine ⟨q2.2.1, q2.2.2.1, q2.2.2.2.1, fun hf => (q2.2.2.2.2.1 hf).trans (by rw [e1]), ?_, ?_, ?_⟩
  · rw [e2, e1]
  · rw [e2, e1]
  · rw [e2]; exact q1.2.1

theorem affine_real (n : Nat) (W : Nat → Nat → ℝ) (b x : Nat → ℝ) : affine n W b x = pre n W b x := by
  funext j; unfold affine pre; rw [foldSum_zero_eq]

/-- Over the reals: for an element-wise activation `g` that has derivative `g'` at the pre-activations, the results of
`backward` are the derivative of ⟨d, value⟩ — along arbitrary differentiable curves of weights, biases and input. -/
theorem C27_curve (g g' : ℝ → ℝ) (l : FC ℝ) (hl : l.act = Act.elementwise g g') (n m : Nat) (b : Nat → ℝ) (W : Nat → Nat → ℝ)
    (h : l.Wf n m b W) (x d : Ten ℝ) (v u : Nat → ℝ) (hx : VecIs x.data n v) (hd : VecIs d.data m u)
    (hg : ∀ k, k < m → HasDerivAt g (g' (pre n W b v k)) (pre n W b v k)) :
    Ok (do let l ← l.forward x; l.backward x d true) (fun l' => ∃ β ω δ,
      VecIs l'.gradB m β ∧ MatIs l'.gradW n m ω ∧ RowIs l'.delta n δ ∧
      ∀ (t0 : ℝ) (Wc : ℝ → Nat → Nat → ℝ) (bc xc : ℝ → Nat → ℝ) (W' : Nat → Nat → ℝ) (b' x' : Nat → ℝ),
        Wc t0 = W → bc t0 = b → xc t0 = v →
        (∀ i k, i < n → k < m → HasDerivAt (fun t => Wc t i k) (W' i k) t0) →
        (∀ k, k < m → HasDerivAt (fun t => bc t k) (b' k) t0) →
        (∀ i, i < n → HasDerivAt (fun t => xc t i) (x' i) t0) →
        HasDerivAt (fun t => ∑ k ∈ range m, u k * g (pre n (Wc t) (bc t) (xc t) k))
          (∑ k ∈ range m, β k * b' k + ∑ i ∈ range n, ∑ k ∈ range m, ω i k * W' i k + ∑ i ∈ range n, δ i * x' i) t0) := by
  have := C27_backward l n m b W h _ _ (by rw [hl]; exact Act.Is.elementwise g g' m) x d v u hx hd true
  refine this.mono (fun l' q => ⟨_, _, _, q.1, q.2.1, q.2.2.1 rfl, ?_⟩)
  intro t0 Wc bc xc W' b' x' eW eb ex hW hb hx'
  subst eW eb ex
  have hc : HasDerivAt (fun t => ∑ k ∈ range m, u k * g (pre n (Wc t) (bc t) (xc t) k))
      (∑ k ∈ range m, u k * (g' (pre n (Wc t0) (bc t0) (xc t0) k) *
        (∑ i ∈ range n, (x' i * Wc t0 i k + xc t0 i * W' i k) + b' k))) t0 :=
    hasDerivAt_sum (fun k hk => (fc_curve (fun i hi => hW i k hi hk) (hb k hk) hx' (hg k hk)).const_mul (u k))
  have e : ∑ k ∈ range m, u k * (g' (pre n (Wc t0) (bc t0) (xc t0) k) *
        (∑ i ∈ range n, (x' i * Wc t0 i k + xc t0 i * W' i k) + b' k)) =
      ∑ k ∈ range m, (g' (pre n (Wc t0) (bc t0) (xc t0) k) * u k) *
        (∑ i ∈ range n, (x' i * Wc t0 i k + xc t0 i * W' i k) + b' k) :=
    Finset.sum_congr rfl (fun k _ => by ring)
  rw [e, fc_pairing] at hc
  simp only [affine_real, foldSum_zero_eq]
  exact hc

/-- Partial derivatives: `gradB`, `gradW` and `delta()` are the partial derivatives of ⟨d, value⟩ with respect to each
bias, weight and input component. -/
theorem C27_partials (g g' : ℝ → ℝ) (l : FC ℝ) (hl : l.act = Act.elementwise g g') (n m : Nat) (b : Nat → ℝ)
    (W : Nat → Nat → ℝ) (h : l.Wf n m b W) (x d : Ten ℝ) (v u : Nat → ℝ) (hx : VecIs x.data n v) (hd : VecIs d.data m u)
    (hg : ∀ k, k < m → HasDerivAt g (g' (pre n W b v k)) (pre n W b v k)) :
    Ok (do let l ← l.forward x; l.backward x d true) (fun l' => ∃ β ω δ,
      VecIs l'.gradB m β ∧ MatIs l'.gradW n m ω ∧ RowIs l'.delta n δ ∧
      (∀ j, j < m → HasDerivAt (fun t => ∑ k ∈ range m, u k * g (pre n W (setAt b j t) v k)) (β j) (b j)) ∧
      (∀ i j, i < n → j < m →
        HasDerivAt (fun t => ∑ k ∈ range m, u k * g (pre n (setEntry W i j t) b v k)) (ω i j) (W i j)) ∧
      (∀ i, i < n → HasDerivAt (fun t => ∑ k ∈ range m, u k * g (pre n W b (setAt v i t) k)) (δ i) (v i))) := by
  refine (C27_curve g g' l hl n m b W h x d v u hx hd hg).mono (fun l' q => ?_)
  obtain ⟨β, ω, δ, h1, h2, h3, hc⟩ := q
  refine ⟨β, ω, δ, h1, h2, h3, fun j hj => ?_, fun i j hi hj => ?_, fun i hi => ?_⟩
  · have := hc (b j) (fun _ => W) (fun t => setAt b j t) (fun _ => v) (fun _ _ => 0) (fun k => if k = j then 1 else 0)
      (fun _ => 0) rfl (setAt_self b j) rfl (fun _ _ _ _ => hasDerivAt_const _ _) (fun k _ => hasDerivAt_setAt b j k _)
      (fun _ _ => hasDerivAt_const _ _)
    simpa [hj] using this
  · have := hc (W i j) (fun t => setEntry W i j t) (fun _ => b) (fun _ => v) (fun a c => if a = i ∧ c = j then 1 else 0)
      (fun _ => 0) (fun _ => 0) (setEntry_self W i j) rfl rfl (fun a c _ _ => hasDerivAt_setEntry W i j a c _)
      (fun _ _ => hasDerivAt_const _ _) (fun _ _ => hasDerivAt_const _ _)
    have e : ∑ a ∈ range n, ∑ c ∈ range m, ω a c * (if a = i ∧ c = j then (1 : ℝ) else 0) = ω i j := by
      rw [Finset.sum_eq_single i, Finset.sum_eq_single j]
      · simp
      · intro c _ hc'; simp [hc']
      · intro hh; exact absurd (mem_range.2 hj) hh
      · intro a _ ha; exact Finset.sum_eq_zero (fun c _ => by simp [ha])
      · intro hh; exact absurd (mem_range.2 hi) hh
    rw [e] at this
    simpa using this
  · have := hc (v i) (fun _ => W) (fun _ => b) (fun t => setAt v i t) (fun _ _ => 0) (fun _ => 0)
      (fun k => if k = i then 1 else 0) rfl rfl (setAt_self v i) (fun _ _ _ _ => hasDerivAt_const _ _)
      (fun _ _ => hasDerivAt_const _ _) (fun k _ => hasDerivAt_setAt v i k _)
    simpa [hi] using this

/-- Non-vacuity of the derivative statements: square activation, everywhere differentiable, any sizes and parameters. -/
example (n m : Nat) : (FC.make n m (Act.elementwise (fun x : ℝ => x ^ 2) (fun x => 2 * x)) 0 1).Wf n m (fun _ => 0) (fun _ _ => 0) ∧
    ∀ s : ℝ, HasDerivAt (fun x : ℝ => x ^ 2) (2 * s) s :=
  ⟨FC.Wf_make n m _ 0 1, fun s => by simpa using (hasDerivAt_id s).fun_pow 2⟩
example : (do
    let l := { (FC.make 2 1 exAct 0 1 : FC Int) with B := Buf.of [1], W := ⟨2, 1, Buf.of [2, 3]⟩ }
    let l ← l.forward (exRow [10, 100])
    let l ← l.backward (exRow [10, 100]) (exRow [5]) true
    return (l.gradB, l.gradW, l.delta) : Res _) =
    .ok (Buf.of [3210], ⟨2, 1, Buf.of [32100, 321000]⟩, exRow [6420, 9630]) := by decide +kernel

/-! ## C28 accumulation -/

/-- What `update(opt, alpha)` hands to the optimizer: first the biases, then the weights, each with `alpha` times the
gradient selected by the flag. -/
theorem C28_update_hands [Mul α] [One α] [DecidableEq α] (hone : ∀ a : α, a * 1 = a) (upd : Upd σ α) (s : σ) (alpha : α)
    (l : FC α) (n m : Nat) (gB : Nat → α) (gW : Nat → Nat → α)
    (hB : VecIs (if l.accumulated then l.gradBs else l.gradB) m gB)
    (hW : MatIs (if l.accumulated then l.gradWs else l.gradW) n m gW) :
    ∃ GB GW, VecIs GB m (fun j => gB j * alpha) ∧ VecIs GW (n * m) (fun k => gW (k / m) (k % m) * alpha) ∧
      ((l.update upd s alpha).map (fun r => (r.1, r.2.B, r.2.W.data)) = do
        let r ← upd s l.keyB l.B GB
        let r' ← upd r.1 l.keyW l.W.data GW
        return (r'.1, r.2.1, r'.2.1)) := by
  unfold FC.update FC.updateWith
  by_cases ha : l.accumulated = true
  · rw [if_pos ha] at hB hW ⊢
    obtain ⟨GB, e1, h1⟩ := scaleUnlessOne_spec hone hB alpha
    obtain ⟨GW, e2, h2⟩ := scaleUnlessOne_spec hone hW.flat alpha
    refine ⟨GB, GW, h1, h2, ?_⟩
    rw [e1, bind_ok, e2, bind_ok]
    cases upd s l.keyB l.B GB with
    | error e => rfl
    | ok r =>
      rw [bind_ok, bind_ok]
      dsimp only
      cases upd r.1 l.keyW l.W.data GW <;> rfl
  · rw [if_neg ha] at hB hW ⊢
    obtain ⟨GB, e1, h1⟩ := scaleUnlessOne_spec hone hB alpha
    obtain ⟨GW, e2, h2⟩ := scaleUnlessOne_spec hone hW.flat alpha
    refine ⟨GB, GW, h1, h2, ?_⟩
    rw [e1, bind_ok, e2, bind_ok]
    cases upd s l.keyB l.B GB with
    | error e => rfl
    | ok r =>
      rw [bind_ok, bind_ok]
      dsimp only
      cases upd r.1 l.keyW l.W.data GW <;> rfl

/-- `reset()`, then any positive number of (forward, backward, accumulate) rounds, then `update(opt, alpha)`: the
optimizer — any optimizer — receives `alpha` times the sum of the per-round gradients (summed from 0 in the order of the
rounds), each gradient being the one described by `C27_backward`. -/
theorem C28_accumulated [Zero α] [One α] [Add α] [Mul α] [DecidableEq α] (hone : ∀ a : α, a * 1 = a) (upd : Upd σ α) (s : σ)
    (alpha : α) (l : FC α) (n m : Nat) (b : Nat → α) (W : Nat → Nat → α) (h : l.Wf n m b W) (F D : (Nat → α) → Nat → α)
    (hact : l.act.Is m F D) (full : Bool) (samples : List (Ten α × Ten α)) (vus : List ((Nat → α) × (Nat → α)))
    (hs : List.Forall₂ (SampleIs n m) samples vus) (hne : samples ≠ []) :
    ∃ GB GW,
      VecIs GB m (fun j => vus.foldl (fun acc vu => acc + D (affine n W b vu.1) j * vu.2 j) 0 * alpha) ∧
      VecIs GW (n * m) (fun k =>
        vus.foldl (fun acc vu => acc + vu.1 (k / m) * (D (affine n W b vu.1) (k % m) * vu.2 (k % m))) 0 * alpha) ∧
      (do let l ← l.reset
          let l ← l.rounds full samples
          (l.update upd s alpha).map (fun r => (r.1, r.2.B, r.2.W.data))) = (do
        let r ← upd s l.keyB l.B GB
        let r' ← upd r.1 l.keyW l.W.data GW
        return (r'.1, r.2.1, r'.2.1) : Res _) := by
  obtain ⟨l1, e1, q1⟩ := FC.reset_spec h
  have eq1 := q1.2.2.2.2
  obtain ⟨l2, e2, q2⟩ := FC.rounds_spec full samples vus hs q1.1 (F := F) (D := D) (by rw [eq1]; exact hact) q1.2.1 q1.2.2.1
  obtain ⟨a1, a2, a3, a4, a5, a6, a7, a8, a9⟩ := q2
  have hacc : l2.accumulated = true := a7 (Or.inl hne)
  obtain ⟨GB, GW, h1, h2, h3⟩ := C28_update_hands hone upd s alpha l2 n m _ _ (by rw [if_pos hacc]; exact a8)
    (by rw [if_pos hacc]; exact a9)
  refine ⟨GB, GW, h1, h2, ?_⟩
  rw [e1, bind_ok, e2, bind_ok, h3, a3, a4, a5, a6, eq1]

/-- `reset()`, one forward/backward, `update(opt, alpha)` without `accumulate()`: the optimizer receives `alpha` times
the gradient just computed. -/
theorem C28_latest [Zero α] [One α] [Add α] [Mul α] [DecidableEq α] (hone : ∀ a : α, a * 1 = a) (upd : Upd σ α) (s : σ)
    (alpha : α) (l : FC α) (n m : Nat) (b : Nat → α) (W : Nat → Nat → α) (h : l.Wf n m b W) (F D : (Nat → α) → Nat → α)
    (hact : l.act.Is m F D) (full : Bool) (x d : Ten α) (v u : Nat → α) (hx : VecIs x.data n v) (hd : VecIs d.data m u) :
    ∃ GB GW,
      VecIs GB m (fun j => D (affine n W b v) j * u j * alpha) ∧
      VecIs GW (n * m) (fun k => v (k / m) * (D (affine n W b v) (k % m) * u (k % m)) * alpha) ∧
      (do let l ← l.reset
          let l ← l.forward x
          let l ← l.backward x d full
          (l.update upd s alpha).map (fun r => (r.1, r.2.B, r.2.W.data))) = (do
        let r ← upd s l.keyB l.B GB
        let r' ← upd r.1 l.keyW l.W.data GW
        return (r'.1, r.2.1, r'.2.1) : Res _) := by
  obtain ⟨l1, e1, q1⟩ := FC.reset_spec h
  have eq1 := q1.2.2.2.2
  obtain ⟨l2, e2, q2⟩ := FC.forward_spec q1.1 (F := F) (D := D) (by rw [eq1]; exact hact) hx
  have eq2 := q2.2.2.2
  obtain ⟨l3, e3, q3⟩ := FC.backward_spec q2.1 (F := F) (D := D) (by rw [eq2, eq1]; exact hact) hx hd q2.2.2.1 full
  have eq3 := q3.2.2.2.2.2
  have hacc : l3.accumulated = false := by rw [eq3, eq2]; exact q1.2.2.2.1
  obtain ⟨GB, GW, h1, h2, h3⟩ := C28_update_hands hone upd s alpha l3 n m _ _ (by rw [if_neg (by simp [hacc])]; exact q3.2.1)
    (by rw [if_neg (by simp [hacc])]; exact q3.2.2.1)
  refine ⟨GB, GW, h1, h2, ?_⟩
  rw [e1, bind_ok, e2, bind_ok, e3, bind_ok, h3, eq3, eq2, eq1]

/-- A new layer has nothing pending: the constructor, `init`, one forward/backward and `update(opt, alpha)`, with no `reset()`,
hand the optimizer `alpha` times the gradient just computed, at the parameters `init` has drawn. -/
theorem C28_new_layer [Zero α] [One α] [Add α] [Mul α] [DecidableEq α] (hone : ∀ a : α, a * 1 = a) (upd : Upd σ α) (s : σ)
    (alpha : α) (n m : Nat) (act : Act α) (kB kW : Nat) (gen : Gen γ ρ α) (c : γ) (g : ρ) (F D : (Nat → α) → Nat → α)
    (hact : act.Is m F D) (full : Bool) (x d : Ten α) (v u : Nat → α) (hx : VecIs x.data n v) (hd : VecIs d.data m u) :
    ∃ l g' b W, (FC.make n m act kB kW).init gen c g = .ok (l, g') ∧ VecIs l.B m b ∧ MatIs l.W n m W ∧ ∃ GB GW,
      VecIs GB m (fun j => D (affine n W b v) j * u j * alpha) ∧
      VecIs GW (n * m) (fun k => v (k / m) * (D (affine n W b v) (k % m) * u (k % m)) * alpha) ∧
      (do let l ← l.forward x
          let l ← l.backward x d full
          (l.update upd s alpha).map (fun r => (r.1, r.2.B, r.2.W.data))) = (do
        let r ← upd s kB l.B GB
        let r' ← upd r.1 kW l.W.data GW
        return (r'.1, r.2.1, r'.2.1) : Res _) := by
  obtain ⟨⟨l, g'⟩, e0, b, W, hw, e1⟩ := FC.init_spec (FC.Wf_make n m act kB kW) gen c g
  dsimp only at hw e1
  refine ⟨l, g', b, W, e0, hw.B, hw.W, ?_⟩
  have a1 : l.act = act := by rw [e1]; rfl
  have a2 : l.accumulated = false := by rw [e1]; rfl
  have a3 : l.keyB = kB := by rw [e1]; rfl
  have a4 : l.keyW = kW := by rw [e1]; rfl
  obtain ⟨l2, e2, q2⟩ := FC.forward_spec hw (F := F) (D := D) (by rw [a1]; exact hact) hx
  have eq2 := q2.2.2.2
  obtain ⟨l3, e3, q3⟩ := FC.backward_spec q2.1 (F := F) (D := D) (by rw [eq2, a1]; exact hact) hx hd q2.2.2.1 full
  have eq3 := q3.2.2.2.2.2
  have hacc : l3.accumulated = false := by rw [eq3, eq2]; exact a2
  obtain ⟨GB, GW, h1, h2, h3⟩ := C28_update_hands hone upd s alpha l3 n m _ _ (by rw [if_neg (by simp [hacc])]; exact q3.2.1)
    (by rw [if_neg (by simp [hacc])]; exact q3.2.2.1)
  refine ⟨GB, GW, h1, h2, ?_⟩
  rw [e2, bind_ok, e3, bind_ok, h3, eq3, eq2, a3, a4]

/-- Non-vacuity: two rounds with gradient descent (learning rate 1, alpha 10). -/
example : (do
    let l := { (FC.make 1 1 exAct 0 1 : FC Int) with B := Buf.of [1], W := ⟨1, 1, Buf.of [2]⟩ }
    let l ← l.reset
    let l ← l.rounds true [(exRow [3], exRow [1]), (exRow [4], exRow [2])]
    let r ← l.update (gdUpdate (α := Int)) 1 10
    return (r.2.B, r.2.W.data) : Res _) =
    .ok (Buf.of [1 - 10 * (2 * 7 * 1 + 2 * 9 * 2)], Buf.of [2 - 10 * (3 * (2 * 7 * 1) + 4 * (2 * 9 * 2))]) := by decide +kernel

/-! ## C29 the current gradient (layer level) -/

/-- Once `accumulate()` has been called without a later `reset()`, the sample processed by a forward/backward/update
step is ignored: whatever the samples, the optimizer gets the same arguments. (Training-level statement: Props/Train.) -/
theorem C29_layer_violated [Zero α] [One α] [Add α] [Mul α] [DecidableEq α] (upd : Upd σ α) (s : σ)
    (l : FC α) (n m : Nat) (b : Nat → α) (W : Nat → Nat → α) (h : l.Wf n m b W) (F D : (Nat → α) → Nat → α)
    (hact : l.act.Is m F D) (hacc : l.accumulated = true) (full : Bool) (x d x' d' : Ten α)
    (hx : Full x.data n) (hd : Full d.data m) (hx' : Full x'.data n) (hd' : Full d'.data m) (alpha : α) :
    (do let l ← l.forward x
        let l ← l.backward x d full
        (l.update upd s alpha).map (fun r => (r.1, r.2.B, r.2.W)) : Res _) =
    (do let l ← l.forward x'
        let l ← l.backward x' d' full
        (l.update upd s alpha).map (fun r => (r.1, r.2.B, r.2.W)) : Res _) := by
  have key : ∀ (x d : Ten α), Full x.data n → Full d.data m →
      (do let l ← l.forward x
          let l ← l.backward x d full
          (l.update upd s alpha).map (fun r => (r.1, r.2.B, r.2.W)) : Res _) =
      (FC.updateWith upd s alpha l l.gradBs l.gradWs).map (fun r => (r.1, r.2.1, { l.W with data := r.2.2.2.1 })) := by
    intro x d ⟨v, hv⟩ ⟨u, hu⟩
    obtain ⟨l2, e2, q2⟩ := FC.forward_spec h hact hv
    have eq2 := q2.2.2.2
    obtain ⟨l3, e3, q3⟩ := FC.backward_spec q2.1 (F := F) (D := D) (by rw [eq2]; exact hact) hv hu q2.2.2.1 full
    have eq3 := q3.2.2.2.2.2
    rw [e2, bind_ok, e3, bind_ok]
    unfold FC.update
    have ha3 : l3.accumulated = true := by rw [eq3, eq2]; exact hacc
    have k0 : l3.gradBs = l.gradBs := by rw [eq3, eq2]
    have k1 : l3.gradWs = l.gradWs := by rw [eq3, eq2]
    have k2 : l3.W = l.W := by rw [eq3, eq2]
    have this : FC.updateWith upd s alpha l3 l.gradBs l.gradWs = FC.updateWith upd s alpha l l.gradBs l.gradWs := by
      unfold FC.updateWith; rw [eq3, eq2]
    rw [if_pos ha3, k0, k1, this]
    cases FC.updateWith upd s alpha l l.gradBs l.gradWs with
    | error e => rfl
    | ok r => rw [bind_ok, k2]; rfl
  rw [key x d hx hd, key x' d' hx' hd']

end Trixy
