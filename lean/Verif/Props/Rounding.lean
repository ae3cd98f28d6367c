import Verif.Proof.Rounding
import Verif.Props.Tool
import Verif.Props.Linear
import Verif.Proof.Optim
import Verif.Model.Scalar
import Mathlib.Data.Int.Log
import Mathlib.Algebra.Order.Archimedean.Real.Basic
import Mathlib.Algebra.Order.Floor.Ring
import Mathlib.Tactic.FieldSimp
/- C78: rounding error bounds. -/
namespace Trixy
set_option linter.unusedSectionVars false

open Finset

variable {α : Type} [Zero α] [Add α] [Sub α] [Mul α] (R : Rounding α)

/-- `accumulate(vector, init)`: relative error `(1+u)^n - 1` of the sum of magnitudes, if that does not overflow. -/
theorem C78_accumulate (v : Buf α) (n : Nat) (f : Nat → α) (init : α) (hv : VecIs v n f) (h0 : R.fin init) (hf : ∀ i, i < n → R.fin (f i))
    (hM : (1 + R.u) ^ (n + 1) * (|R.val init| + ∑ i ∈ range n, |R.val (f i)|) ≤ R.M) :
    Ok (accumulate v init) (fun s => R.Near s (R.val init + ∑ i ∈ range n, R.val (f i))
      (((1 + R.u) ^ (n + 1) - 1) * (|R.val init| + ∑ i ∈ range n, |R.val (f i)|))) := by
  rw [C13_accumulate v n f init hv]
  refine Ok_ok.2 ?_
  have st : StepOk R 1 (n * 1) (fun s => iter n s (fun i s => s + f i)) (∑ i ∈ range n, R.val (f i)) (∑ i ∈ range n, |R.val (f i)|)
      (∑ i ∈ range n, |R.val (f i)|) :=
    StepOk.iter (fun i hi => StepOk.add ((Approx.exact (hf i hi)).mono (by omega) (le_refl _)))
  have h1 := st.2 1 init _ _ _ (le_refl _) ((Approx.exact h0).mono (by omega) (le_refl _)) (by rw [Nat.mul_one, Nat.add_comm]; exact hM)
  dsimp only at h1
  rw [← foldSum_iter, Nat.mul_one, Nat.add_comm] at h1
  have h2 := h1.near
  rw [show ((1 + R.u) ^ (n + 1) - 1) * (|R.val init| + ∑ i ∈ range n, |R.val (f i)|) =
    (1 + R.u) ^ (n + 1) * (|R.val init| + ∑ i ∈ range n, |R.val (f i)|) - (|R.val init| + ∑ i ∈ range n, |R.val (f i)|) by ring]
  exact h2

/-- A dot product of finite numbers. -/
theorem foldDot_near {n : Nat} {a b : Nat → α} (ha : ∀ i, i < n → R.fin (a i)) (hb : ∀ i, i < n → R.fin (b i))
    (hM : (1 + R.u) ^ (n + 1) * ∑ i ∈ range n, (|R.val (a i)| * |R.val (b i)| + R.η) ≤ R.M) :
    R.Near (foldSum 0 n (fun i => a i * b i)) (∑ i ∈ range n, R.val (a i) * R.val (b i))
      ((1 + R.u) ^ (n + 1) * (∑ i ∈ range n, (|R.val (a i)| * |R.val (b i)| + R.η)) - ∑ i ∈ range n, |R.val (a i)| * |R.val (b i)|) := by
  have st : StepOk R 1 (n * 1) (fun s => iter n s (fun i s => s + a i * b i)) (∑ i ∈ range n, R.val (a i) * R.val (b i))
      (∑ i ∈ range n, |R.val (a i)| * |R.val (b i)|) (∑ i ∈ range n, (|R.val (a i)| * |R.val (b i)| + R.η)) :=
    StepOk.iter (fun i hi => StepOk.mulAdd (Approx.exact (ha i hi)) (Approx.exact (hb i hi)))
  have h1 := st.2 1 0 0 0 0 (le_refl _) (Approx.zero'.mono (by omega) (le_refl _)) (by rw [Nat.mul_one, Nat.add_comm, zero_add]; exact hM)
  dsimp only at h1
  rw [← foldSum_iter, Nat.mul_one, Nat.add_comm, zero_add, zero_add, zero_add] at h1
  exact h1.near

/-- `dot(vector, vector)`. -/
theorem C78_inner (x y : Buf α) (n : Nat) (a b : Nat → α) (hx : VecIs x n a) (hy : VecIs y n b) (ha : ∀ i, i < n → R.fin (a i))
    (hb : ∀ i, i < n → R.fin (b i)) (hM : (1 + R.u) ^ (n + 1) * ∑ i ∈ range n, (|R.val (a i)| * |R.val (b i)| + R.η) ≤ R.M) :
    Ok (dotVec x y) (fun s => R.Near s (∑ i ∈ range n, R.val (a i) * R.val (b i))
      ((1 + R.u) ^ (n + 1) * (∑ i ∈ range n, (|R.val (a i)| * |R.val (b i)| + R.η)) - ∑ i ∈ range n, |R.val (a i)| * |R.val (b i)|)) := by
  rw [dotVec_spec hx hy (Nat.le_refl _)]
  exact Ok_ok.2 (foldDot_near R ha hb hM)

/-- `dot(matrix, matrix)`: every cell of the product. -/
theorem C78_product (A B : Mat α) (n m p : Nat) (a b : Nat → Nat → α) (hA : MatIs A n m a) (hB : MatIs B m p b)
    (ha : ∀ i r, i < n → r < m → R.fin (a i r)) (hb : ∀ r j, r < m → j < p → R.fin (b r j))
    (hM : ∀ i j, i < n → j < p → (1 + R.u) ^ (m + 1) * ∑ r ∈ range m, (|R.val (a i r)| * |R.val (b r j)| + R.η) ≤ R.M) :
    Ok (dotMatNew A B) (fun C => ∃ c, MatIs C n p c ∧ ∀ i j, i < n → j < p → R.Near (c i j) (∑ r ∈ range m, R.val (a i r) * R.val (b r j))
      ((1 + R.u) ^ (m + 1) * (∑ r ∈ range m, (|R.val (a i r)| * |R.val (b r j)| + R.η)) -
        ∑ r ∈ range m, |R.val (a i r)| * |R.val (b r j)|)) := by
  unfold dotMatNew
  rw [hA.1, hB.2.1]
  exact (C19_accumulates _ A B n m p _ a b (MatIs_fill n p 0) hA hB).mono (fun C h => ⟨_, h, fun i j hi hj =>
    foldDot_near R (fun r hr => ha i r hi hr) (fun r hr => hb r j hr hj) (hM i j hi hj)⟩)

/-- An element-wise activation. -/
theorem C78_activation {m : Nat} {g : α → α} {γ : ℝ → ℝ} {L ε : ℝ} (h : R.FunNear g γ L ε) :
    R.ActNear m (fun v i => g (v i)) (fun X i => γ (X i)) (fun _ δ i => L * δ i + ε) (fun _ _ => True) := by
  intro a X δ ha _ i hi
  obtain ⟨h1, h2⟩ := ha i hi
  obtain ⟨h3, h4⟩ := h.near (a i) h1
  refine ⟨h3, ?_⟩
  have h5 := h.lip (R.val (a i)) (X i)
  have h6 := mul_le_mul_of_nonneg_left h2 h.L0
  have e : R.val (g (a i)) - γ (X i) = (R.val (g (a i)) - γ (R.val (a i))) + (γ (R.val (a i)) - γ (X i)) := by ring
  have h7 := abs_add_le (R.val (g (a i)) - γ (R.val (a i))) (γ (R.val (a i)) - γ (X i))
  rw [← e] at h7
  linarith

/-- The rectifier is computed without error. -/
theorem C78_relu [LT α] [DecidableLT α] (ho : R.Ordered) : R.FunNear (fun x => if 0 < x then x else 0) Fn.relu 1 0 := by
  refine ⟨fun a ha => ?_, fun x y => ?_, zero_le_one⟩
  · unfold Fn.relu Rounding.Near
    by_cases h : 0 < a
    · have h' := (ho 0 a R.zero.1 ha).1 h
      rw [R.zero.2] at h'
      rw [if_pos h, if_pos h']
      exact ⟨ha, by simp⟩
    · have h' : ¬ R.val a > 0 := fun h' => h ((ho 0 a R.zero.1 ha).2 (by rw [R.zero.2]; exact h'))
      rw [if_neg h, if_neg h']
      exact ⟨R.zero.1, by simp [R.zero.2]⟩
  · unfold Fn.relu
    rw [one_mul]
    split_ifs with h1 h2 h2
    · exact le_refl _
    · rw [sub_zero]
      refine abs_le_abs_of_nonneg (le_of_lt h1) ?_
      linarith [not_lt.1 h2]
    · rw [zero_sub, abs_neg, abs_sub_comm]
      refine abs_le_abs_of_nonneg (le_of_lt h2) ?_
      linarith [not_lt.1 h1]
    · simp

variable {R}

theorem FC.Wf.rounds_act {m : Nat} {n : Nat} {b : Nat → α} {W : Nat → Nat → α} {F : (Nat → α) → Nat → α} {Φ : (Nat → ℝ) → Nat → ℝ}
    {Ae : (Nat → ℝ) → (Nat → ℝ) → Nat → ℝ} {As : (Nat → ℝ) → (Nat → ℝ) → Prop} (hF : R.ActNear m F Φ Ae As)
    (hb : ∀ j, j < m → R.fin (b j)) (hW : ∀ i j, i < n → j < m → R.fin (W i j)) {a : Nat → α} {v δ : Nat → ℝ} (ha : R.NearVec n a v δ)
    (hS : (∀ j, j < m → dotMag R.u R.η n v δ (fun i => R.val (W i j)) (R.val (b j)) ≤ R.M) ∧
      As (fun j => ∑ i ∈ range n, v i * R.val (W i j) + R.val (b j))
        (fun j => dotErr R.u R.η n v δ (fun i => R.val (W i j)) (R.val (b j)))) :
    R.NearVec m (F (affine n W b a)) (Φ (fun j => ∑ i ∈ range n, v i * R.val (W i j) + R.val (b j)))
      (Ae (fun j => ∑ i ∈ range n, v i * R.val (W i j) + R.val (b j))
          (fun j => dotErr R.u R.η n v δ (fun i => R.val (W i j)) (R.val (b j)))) :=
  hF _ _ _ (fun j hj => affine_near ha (fun i hi => hW i j hi hj) (hb j hj) (hS.1 j hj)) hS.2

theorem Rounding.NearVec.unflat {d h w : Nat} {a : Nat → α} {v δ : Nat → ℝ} (ha : R.NearVec (d * h * w) a v δ) :
    ∀ c i j, c < d → i < h → j < w → R.Near (unflat h w a c i j) (unflat h w v c i j) (unflat h w δ c i j) :=
  fun _ _ _ hc hi hj => ha _ (idx3_lt hc hi hj)

theorem conv_rounds [LT α] {l : Conv α} {d h w fc fh fw pad sv sh : Nat} {b : Nat → α} {W : Nat → Nat → Nat → Nat → α} {gb : Nat → α}
    {gW : Nat → Nat → Nat → Nat → α} (hl : l.Wf d h w fc fh fw pad sv sh b W gb gW) (hb : ∀ f, f < fc → R.fin (b f))
    (hW : ∀ f c i j, f < fc → c < d → i < fh → j < fw → R.fin (W f c i j)) {x : Ten α} {v δ : Nat → ℝ}
    (hx : R.NearTen x (d, h, w) v δ)
    (hS : ∀ f oy ox, f < fc → oy < extent h fh pad sv → ox < extent w fw pad sh →
          corrMag R.u R.η d h w fh fw pad sv sh (fun f => R.val (b f)) (fun f c i j => R.val (W f c i j)) (unflat h w v)
            (unflat h w δ) f oy ox ≤ R.M) :
    Ok (l.forward x) (fun l' => l'.Wf d h w fc fh fw pad sv sh b W gb gW ∧ l' = { l with value := l'.value } ∧
      R.NearTen l'.value (fc, extent h fh pad sv, extent w fw pad sh)
        (fun k => corr d h w fh fw pad sv sh (fun f => R.val (b f)) (fun f c i j => R.val (W f c i j)) (unflat h w v)
          (k / extent w fw pad sh / extent h fh pad sv) (k / extent w fw pad sh % extent h fh pad sv) (k % extent w fw pad sh))
        (fun k => corrErr R.u R.η d h w fh fw pad sv sh (fun f => R.val (b f)) (fun f c i j => R.val (W f c i j)) (unflat h w v)
          (unflat h w δ) (k / extent w fw pad sh / extent h fh pad sv) (k / extent w fw pad sh % extent h fh pad sv)
          (k % extent w fw pad sh))) := by
  obtain ⟨a, h1, h2⟩ := hx
  refine (Conv.forward_exact hl h1.tenIs).mono (fun l' q => ⟨q.1, q.2.2, _, q.2.1.flatIs, fun k hk => ?_⟩)
  obtain ⟨e1, e2, e3⟩ := idx3_bounds hk
  exact corr_near (h2.unflat) (fun c i j hc hi hj => hW _ c i j e1 hc hi hj) (hb _ e1) (hS _ _ _ e1 e2 e3)

/-- One layer. -/
theorem C78_layer [One α] [LT α] [DecidableLT α] (l : Layer α) (s s' : Nat × Nat × Nat) (G : (Nat → ℝ) → Nat → ℝ)
    (E : (Nat → ℝ) → (Nat → ℝ) → Nat → ℝ) (S : (Nat → ℝ) → (Nat → ℝ) → Prop) (hl : l.Rounds R s s' G E S) (x : Ten α) (v δ : Nat → ℝ)
    (hx : R.NearTen x s v δ) (hS : S v δ) :
    Ok (l.forward x) (fun l' => R.NearTen l'.value s' (G v) (E v δ) ∧ l'.Rounds R s s' G E S ∧ l'.params = l.params) := by
  cases hl with
  | fc hwf hact hF hb hW =>
    unfold Layer.forward
    obtain ⟨a, h1, h2⟩ := hx
    refine (FC.forward_spec hwf hact h1.2.2.2).bind (fun l' q => Ok_ok.2 ⟨⟨_, q.2.1.flatIs, ?_⟩, ?_, ?_⟩)
    · dsimp only
      rw [Nat.one_mul]
      exact FC.Wf.rounds_act hF hb hW h2 hS
    · exact .fc q.1 (by rw [q.2.2.2]; exact hact) hF hb hW
    · show [_, _] = [_, _]
      rw [q.2.2.2]
  | rawFC hB hWm hv hact hF hb hW =>
    unfold Layer.forward
    rename_i l d h w m b W F D v0 Φ Ae As
    obtain ⟨a, h1, h2⟩ := hx
    have key : Ok (l.forward x) (fun l' => RowIs l'.value m (F (affine (d * h * w) W b a)) ∧ l' = { l with value := l'.value }) := by
      unfold RawFC.forward
      refine (dotRow_spec h1.2.2.2 hWm (Nat.le_refl _) hv.2.2.2.length).bind (fun b1 h1 => ?_)
      refine (zipInto_spec h1 hB (Nat.le_refl _)).bind (fun b2 h2 => ?_)
      refine (hact.fSelf b2 _ h2).bind (fun vd hvd => ?_)
      exact Ok_ok.2 ⟨⟨hv.1, hv.2.1, hv.2.2.1, hvd⟩, rfl⟩
    refine key.bind (fun l' q => Ok_ok.2 ⟨⟨_, q.1.flatIs, ?_⟩, ?_, ?_⟩)
    · dsimp only
      rw [Nat.one_mul]
      exact FC.Wf.rounds_act hF hb hW h2 hS
    · exact .rawFC (by rw [q.2]; exact hB) (by rw [q.2]; exact hWm) q.1 (by rw [q.2]; exact hact) hF hb hW
    · show [_, _] = [_, _]
      rw [q.2]
  | conv hwf hb hW =>
    unfold Layer.forward
    refine (conv_rounds hwf hb hW hx hS).bind (fun l' q => Ok_ok.2 ⟨q.2.2, .conv q.1 hb hW, ?_⟩)
    show _ :: _ = _ :: _
    rw [q.2.1]
  | rawConv hwf hb hW =>
    unfold Layer.forward
    refine (conv_rounds hwf hb hW hx hS).bind (fun l' q => Ok_ok.2 ⟨q.2.2, .rawConv q.1 hb hW, ?_⟩)
    show _ :: _ = _ :: _
    rw [q.2.1]
  | rawPool hwf ha hg ho hM =>
    unfold Layer.forward
    rename_i l d oh ow sv sh g g' γ L ε Mx
    obtain ⟨a, h1, h2⟩ := hx
    refine (Pool.forwardRaw_near ho hwf h1.tenIs (fun c i j hc hi hj => (h2.unflat c i j hc hi hj).1) ha).bind (fun l' q => ?_)
    obtain ⟨mx, h3, h4, h5, h6⟩ := q
    refine Ok_ok.2 ⟨⟨_, h4.flatIs, fun k hk => ?_⟩, .rawPool h6 (by rw [h5]; exact ha) hg ho hM, rfl⟩
    obtain ⟨e1, e2, e3⟩ := idx3_bounds hk
    have hn := window_near (h2.unflat) e1 e2 e3 (h3 _ _ _ e1 e2 e3).1 (h3 _ _ _ e1 e2 e3).2 (hM v _ _ _ e1 e2 e3) (hM δ _ _ _ e1 e2 e3)
    exact C78_activation R (m := 1) hg (fun _ => mx (k / ow / oh) (k / ow % oh) (k % ow))
      (fun _ => Mx v (k / ow / oh) (k / ow % oh) (k % ow)) (fun _ => Mx δ (k / ow / oh) (k / ow % oh) (k % ow))
      (fun _ _ => hn) trivial 0 Nat.one_pos

theorem ff_rounds [One α] [LT α] [DecidableLT α] (net : Net α) : ∀ (s s' : Nat × Nat × Nat) (G : (Nat → ℝ) → Nat → ℝ)
    (E : (Nat → ℝ) → (Nat → ℝ) → Nat → ℝ) (S : (Nat → ℝ) → (Nat → ℝ) → Prop), net.Rounds R s s' G E S →
    ∀ (x : Ten α) (v δ : Nat → ℝ), R.NearTen x s v δ → S v δ →
    Ok (ffRec x net) (fun net' => net'.Rounds R s s' G E S ∧ net'.map Layer.params = net.map Layer.params ∧
      (net ≠ [] → ∃ l, lget net' (net'.length - 1) = .ok l ∧ R.NearTen l.value s' (G v) (E v δ))) := by
  induction net with
  | nil => intro s s' G E S h x v δ _ _; exact Ok_ok.2 ⟨h, rfl, fun h => absurd rfl h⟩
  | cons l ls ih =>
    intro s s'' G0 E0 S0 h x v δ hx hS
    cases h with
    | @cons _ _ _ s' _ G E S G' E' S' hl hls =>
      unfold ffRec
      refine (C78_layer l s s' G E S hl x v δ hx hS.1).bind (fun l' q => ?_)
      refine (ih s' s'' G' E' S' hls l'.value (G v) (E v δ) q.1 hS.2).bind (fun ls' r => Ok_ok.2 ⟨.cons q.2.1 r.1, ?_, fun _ => ?_⟩)
      · rw [List.map_cons, List.map_cons, q.2.2, r.2.1]
      · cases ls with
        | nil =>
          have hz : ls' = [] := by have := r.2.1; simpa using this
          subst hz
          cases hls
          exact ⟨l', rfl, q.1⟩
        | cons l2 ls =>
          obtain ⟨l3, e, h3⟩ := r.2.2 (by simp)
          refine ⟨l3, ?_, h3⟩
          have : ls' ≠ [] := by have := congrArg List.length r.2.1; intro e; rw [e] at this; simp at this
          cases ls' with
          | nil => exact absurd rfl this
          | cons a as => rw [← e]; rfl

/-- `feedforward(x)`: for an input within `δ` of `v` the prediction is within `E v δ` of the exact network with the same
parameters, after any earlier `feedforward` calls too (the network still satisfies the hypothesis afterwards). -/
theorem C78_feedforward [One α] [LT α] [DecidableLT α] (net : Net α) (hne : net ≠ []) (hN : net.length < W64) (s s' : Nat × Nat × Nat)
    (G : (Nat → ℝ) → Nat → ℝ) (E : (Nat → ℝ) → (Nat → ℝ) → Nat → ℝ) (S : (Nat → ℝ) → (Nat → ℝ) → Prop) (h : net.Rounds R s s' G E S)
    (x : Ten α) (v δ : Nat → ℝ) (hx : R.NearTen x s v δ) (hS : S v δ) :
    Ok (net.feedforward x) (fun r => R.NearTen r.2 s' (G v) (E v δ) ∧ r.1.Rounds R s s' G E S ∧
      r.1.map Layer.params = net.map Layer.params) := by
  rw [Net.feedforward_eq x net hne hN]
  refine (ff_rounds net s s' G E S h x v δ hx hS).bind (fun net' q => ?_)
  obtain ⟨l, e, hl⟩ := q.2.2 hne
  rw [e, bind_ok]
  exact Ok_ok.2 ⟨hl, q.1, q.2.1⟩

theorem grad_near {a b : α} {X Y e f : ℝ} (ha : R.Near a X e) (hb : R.Near b Y f) (hM : (|X| + e) * (|Y| + f) ≤ R.M) :
    Approx R 1 (a * b) (X * Y) (|X| * |Y|) ((|X| + e) * (|Y| + f) + R.η) := by
  have := (Approx.of_near ha).mul (Approx.of_near hb) (by simpa using hM)
  simpa using this

/-- The gradients and the delta of a fully connected layer after `forward` and `backward`: `Δ` is the exact derivative of the
activation at the exact pre-activation, `e` the bound for the computed one, `U` the exact delta from above, computed
within `d`. -/
theorem C78_backward (l : FC α) (n m : Nat) (b : Nat → α) (W : Nat → Nat → α) (h : l.Wf n m b W) (F D : (Nat → α) → Nat → α)
    (hact : l.act.Is m F D) (x dl : Ten α) (a c : Nat → α) (hx : VecIs x.data n a) (hd : VecIs dl.data m c)
    (hb : ∀ j, j < m → R.fin (b j)) (hW : ∀ i j, i < n → j < m → R.fin (W i j))
    (v δ Δ e U d : Nat → ℝ) (ha : R.NearVec n a v δ) (hc : R.NearVec m c U d)
    (hpre : ∀ j, j < m → dotMag R.u R.η n v δ (fun i => R.val (W i j)) (R.val (b j)) ≤ R.M)
    (hD : ∀ s, R.NearVec m s (fun j => ∑ i ∈ range n, v i * R.val (W i j) + R.val (b j))
      (fun j => dotErr R.u R.η n v δ (fun i => R.val (W i j)) (R.val (b j))) → R.NearVec m (D s) Δ e)
    (hM : ∀ j, j < m → (|Δ j| + e j) * (|U j| + d j) ≤ R.M)
    (hMW : ∀ i j, i < n → j < m → (1 + R.u) * ((|v i| + δ i) * ((|Δ j| + e j) * (|U j| + d j) + R.η)) ≤ R.M)
    (hMD : ∀ i, i < n → (1 + R.u) ^ (m + 2) * ∑ j ∈ range m, (|R.val (W i j)| * ((|Δ j| + e j) * (|U j| + d j) + R.η) + R.η) ≤ R.M) :
    Ok (do let l ← l.forward x; l.backward x dl true) (fun l' => ∃ β ω ψ, VecIs l'.gradB m β ∧ MatIs l'.gradW n m ω ∧ RowIs l'.delta n ψ ∧
      (∀ j, j < m → R.Near (β j) (Δ j * U j) ((1 + R.u) * ((|Δ j| + e j) * (|U j| + d j) + R.η) - |Δ j| * |U j|)) ∧
      (∀ i j, i < n → j < m → R.Near (ω i j) (v i * (Δ j * U j))
        ((1 + R.u) ^ 2 * ((|v i| + δ i) * ((|Δ j| + e j) * (|U j| + d j) + R.η) + R.η) - |v i| * (|Δ j| * |U j|))) ∧
      (∀ i, i < n → R.Near (ψ i) (∑ j ∈ range m, R.val (W i j) * (Δ j * U j))
        ((1 + R.u) ^ (m + 2) * ∑ j ∈ range m, (|R.val (W i j)| * ((|Δ j| + e j) * (|U j| + d j) + R.η) + R.η) -
          ∑ j ∈ range m, |R.val (W i j)| * (|Δ j| * |U j|)))) := by
  refine (C27_backward l n m b W h F D hact x dl a c hx hd true).mono (fun l' q => ?_)
  have hs := hD (affine n W b a) (fun j hj => affine_near ha (fun i hi => hW i j hi hj) (hb j hj) (hpre j hj))
  have g : ∀ j, j < m → Approx R 1 (D (affine n W b a) j * c j) (Δ j * U j) (|Δ j| * |U j|) ((|Δ j| + e j) * (|U j| + d j) + R.η) :=
    fun j hj => grad_near (hs j hj) (hc j hj) (hM j hj)
  refine ⟨_, _, _, q.1, q.2.1, q.2.2.1 rfl, fun j hj => by simpa using (g j hj).near, fun i j hi hj => ?_, fun i hi => ?_⟩
  · have h1 := (Approx.of_near (ha i hi)).mul (g j hj) (by simpa using hMW i j hi hj)
    simpa using h1.near
  · have hMi := hMD i hi
    have g2 : ∀ j, j < m → Approx R 2 (W i j * (D (affine n W b a) j * c j)) (R.val (W i j) * (Δ j * U j))
        (|R.val (W i j)| * (|Δ j| * |U j|)) (|R.val (W i j)| * ((|Δ j| + e j) * (|U j| + d j) + R.η) + R.η) := by
      intro j hj
      have h1 := (Approx.exact (hW i j hi hj)).mul (g j hj) (le_trans (pw_mono R (k' := m + 2) (by omega)
        (mul_nonneg (abs_nonneg _) (g j hj).B0) ?_) hMi)
      · exact h1
      refine le_trans ?_ (single_le_sum (f := fun j => |R.val (W i j)| * ((|Δ j| + e j) * (|U j| + d j) + R.η) + R.η)
        (fun j hj => add_nonneg (mul_nonneg (abs_nonneg _) (g j (mem_range.1 hj)).B0) R.η0) (mem_range.2 hj))
      linarith [R.η0]
    have st : StepOk R 2 (m * 1) (fun s => iter m s (fun j s => s + W i j * (D (affine n W b a) j * c j)))
        (∑ j ∈ range m, R.val (W i j) * (Δ j * U j)) (∑ j ∈ range m, |R.val (W i j)| * (|Δ j| * |U j|))
        (∑ j ∈ range m, (|R.val (W i j)| * ((|Δ j| + e j) * (|U j| + d j) + R.η) + R.η)) :=
      StepOk.iter (fun j hj => StepOk.add (g2 j hj))
    have h1 := st.2 2 0 0 0 0 (le_refl _) (Approx.zero'.mono (by omega) (le_refl _)) (by
      rw [Nat.mul_one, Nat.add_comm, zero_add]; exact hMi)
    dsimp only at h1
    rw [← foldSum_iter, Nat.mul_one, Nat.add_comm, zero_add, zero_add, zero_add] at h1
    exact h1.near

/-- One gradient-descent update of a tensor. -/
theorem C78_update (lr : α) (k n : Nat) (P Q : Buf α) (p g : Nat → α) (hP : VecIs P n p) (hQ : VecIs Q n g)
    (X Y e f : Nat → ℝ) (hp : R.NearVec n p X e) (hg : R.NearVec n g Y f) (hlr : R.fin lr)
    (hM : ∀ i, i < n → (1 + R.u) * ((|X i| + e i) + ((|Y i| + f i) * |R.val lr| + R.η)) ≤ R.M) :
    Ok (gdUpdate lr k P Q) (fun r => ∃ p', VecIs r.2.1 n p' ∧ R.NearVec n p' (fun i => X i - Y i * R.val lr)
      (fun i => (1 + R.u) ^ 2 * ((|X i| + e i) + ((|Y i| + f i) * |R.val lr| + R.η)) - (|X i| + |Y i| * |R.val lr|))) := by
  refine (gd_spec hP hQ).mono (fun r q => ⟨_, q.2.1, fun i hi => ?_⟩)
  have e0 : 0 ≤ e i := le_trans (abs_nonneg _) (hp i hi).2
  have f0 : 0 ≤ f i := le_trans (abs_nonneg _) (hg i hi).2
  have n0 : 0 ≤ (|Y i| + f i) * |R.val lr| := mul_nonneg (by linarith [abs_nonneg (Y i)]) (abs_nonneg _)
  have h0 : (|Y i| + f i) * |R.val lr| ≤ R.M := by
    refine le_trans ?_ (hM i hi)
    have h1 : (|Y i| + f i) * |R.val lr| ≤ (|X i| + e i) + ((|Y i| + f i) * |R.val lr| + R.η) := by linarith [abs_nonneg (X i), R.η0]
    have h2 := mul_le_mul R.one h1 n0 (by linarith [R.u0])
    linarith
  have h1 := (Approx.of_near (hg i hi)).mul (Approx.exact hlr) (by simpa using h0)
  have h2 := ((Approx.of_near (hp i hi)).mono (k' := 1) (by omega) (le_refl _)).sub h1 (by simpa using hM i hi)
  exact h2.near

/-! Non-vacuity: binary floating point with `p` fraction bits and unbounded exponent, rounding towards minus infinity. -/

/-- A number of the format (only numbers that are results of operations are rounded). -/
structure Fl (p : Nat) where
  x : ℝ

/-- Round to `p` bits after the leading one, downwards. -/
noncomputable def flRound (p : Nat) (x : ℝ) : ℝ :=
  (⌊x / ((2 : ℝ) ^ (Int.log 2 |x|) / 2 ^ p)⌋ : ℝ) * ((2 : ℝ) ^ (Int.log 2 |x|) / 2 ^ p)

theorem flRound_err (p : Nat) (x : ℝ) : |flRound p x - x| ≤ 1 / 2 ^ p * |x| := by
  by_cases h0 : x = 0
  · subst h0; simp [flRound]
  have hx : 0 < |x| := abs_pos.2 h0
  have hl : (2 : ℝ) ^ (Int.log 2 |x|) ≤ |x| := by exact_mod_cast Int.zpow_log_le_self (b := 2) (by norm_num) hx
  unfold flRound
  generalize hq : (2 : ℝ) ^ (Int.log 2 |x|) / 2 ^ p = q
  have hq0 : 0 < q := by rw [← hq]; positivity
  have hq1 : q ≤ 1 / 2 ^ p * |x| := by
    rw [← hq, div_mul_eq_mul_div, one_mul]
    exact div_le_div_of_nonneg_right hl (by positivity)
  have h1 := Int.floor_le (x / q)
  have h2 := Int.lt_floor_add_one (x / q)
  have e : x = x / q * q := by field_simp
  have h3 : (⌊x / q⌋ : ℝ) * q ≤ x := by
    have := mul_le_mul_of_nonneg_right h1 hq0.le
    linarith
  have h4 : x ≤ ((⌊x / q⌋ : ℝ) + 1) * q := by
    have := mul_le_mul_of_nonneg_right h2.le hq0.le
    linarith
  rw [abs_le]
  constructor <;> linarith

noncomputable section
instance (p : Nat) : Zero (Fl p) := ⟨⟨0⟩⟩
instance (p : Nat) : One (Fl p) := ⟨⟨1⟩⟩
instance (p : Nat) : Add (Fl p) := ⟨fun a b => ⟨flRound p (a.x + b.x)⟩⟩
instance (p : Nat) : Sub (Fl p) := ⟨fun a b => ⟨flRound p (a.x - b.x)⟩⟩
instance (p : Nat) : Mul (Fl p) := ⟨fun a b => ⟨flRound p (a.x * b.x)⟩⟩
instance (p : Nat) : LT (Fl p) := ⟨fun a b => a.x < b.x⟩
instance (p : Nat) : DecidableLT (Fl p) := fun _ _ => Classical.propDecidable _

/-- It satisfies the rounding laws with `u = 2^-p`; there is no underflow, and `M` can be anything. -/
def flRounding (p : Nat) (M : ℝ) : Rounding (Fl p) where
  fin := fun _ => True
  val := Fl.x
  u := 1 / 2 ^ p
  η := 0
  M := M
  u0 := by positivity
  η0 := le_refl _
  zero := ⟨trivial, rfl⟩
  add := fun a b _ _ _ => ⟨trivial, flRound_err p _⟩
  sub := fun a b _ _ _ => ⟨trivial, flRound_err p _⟩
  mul := fun a b _ _ _ => ⟨trivial, by rw [add_zero]; exact flRound_err p _⟩

theorem flRounding_ordered (p : Nat) (M : ℝ) : (flRounding p M).Ordered := fun _ _ _ _ => Iff.rfl

/-- A rectifier layer 2 → 1 followed by another one 1 → 1, all parameters 1, in 23-bit arithmetic. The hypotheses of `C78_feedforward` are
met for an input given within 1/100 (of 0.1, which no binary format has, and 2); the exact result is 4.1. -/
example : ∃ (net : Net (Fl 23)) (G : (Nat → ℝ) → Nat → ℝ) (E : (Nat → ℝ) → (Nat → ℝ) → Nat → ℝ) (S : (Nat → ℝ) → (Nat → ℝ) → Prop)
    (x : Ten (Fl 23)), net.length = 2 ∧ net.Rounds (flRounding 23 1000) (1, 1, 2) (1, 1, 1) G E S ∧
    (flRounding 23 1000).NearTen x (1, 1, 2) (fun i => if i = 0 then 0.1 else 2) (fun _ => 0.01) ∧
    S (fun i => if i = 0 then 0.1 else 2) (fun _ => 0.01) ∧ G (fun i => if i = 0 then 0.1 else 2) 0 = 4.1 := by
  let act : Act (Fl 23) := Act.elementwise (fun x => if 0 < x then x else 0) (fun x => if 0 < x then 1 else 0)
  let l1 : RawFC (Fl 23) := ⟨2, 1, Buf.of [1], ⟨2, 1, Buf.of [1, 1]⟩, act, Ten.fill 1 1 1 0⟩
  let l2 : RawFC (Fl 23) := ⟨1, 1, Buf.of [1], ⟨1, 1, Buf.of [1]⟩, act, Ten.fill 1 1 1 0⟩
  have hv : ∀ n, VecIs (List.replicate n (some (1 : Fl 23))) n (fun _ => 1) := fun n => VecIs_filled n 1
  have r1 := Layer.Rounds.rawFC (R := flRounding 23 1000) (l := l1) (d := 1) (h := 1) (w := 2) (m := 1) (b := fun _ => 1)
    (W := fun _ _ => 1) (hv 1) (MatIs.of_flat' (m := l1.W) (v := fun _ => 1) rfl rfl (hv 2)) (RowIs_fill 1 0) (Act.Is.elementwise _ _ 1)
    (C78_activation _ (C78_relu _ (flRounding_ordered _ _))) (fun _ _ => trivial) (fun _ _ _ _ => trivial)
  have r2 := Layer.Rounds.rawFC (R := flRounding 23 1000) (l := l2) (d := 1) (h := 1) (w := 1) (m := 1) (b := fun _ => 1)
    (W := fun _ _ => 1) (hv 1) (MatIs.of_flat' (m := l2.W) (v := fun _ => 1) rfl rfl (hv 1)) (RowIs_fill 1 0) (Act.Is.elementwise _ _ 1)
    (C78_activation _ (C78_relu _ (flRounding_ordered _ _))) (fun _ _ => trivial) (fun _ _ _ _ => trivial)
  refine ⟨[.rawFC l1, .rawFC l2], _, _, _, ⟨1, 1, 2, Buf.of [⟨0.1⟩, ⟨2⟩]⟩, rfl, .cons r1 (.cons r2 .nil),
    ⟨fun i => if i = 0 then ⟨0.1⟩ else ⟨2⟩, ⟨rfl, rfl, rfl, VecIs_of (α := Fl 23) [⟨0.1⟩, ⟨2⟩] _ (fun i hi => ?_)⟩, fun i hi => ⟨trivial, ?_⟩⟩, ?_, ?_⟩
  · simp only [List.length_cons, List.length_nil] at hi
    have : i = 0 ∨ i = 1 := by omega
    rcases this with rfl | rfl <;> rfl
  · have : i = 0 ∨ i = 1 := by simp at hi; omega
    rcases this with rfl | rfl <;> norm_num [flRounding]
  · have one : (flRounding 23 1000).val 1 = 1 := rfl
    have hu : (flRounding 23 1000).u = 1 / 2 ^ 23 := rfl
    have hη : (flRounding 23 1000).η = 0 := rfl
    have hM : (flRounding 23 1000).M = 1000 := rfl
    refine ⟨⟨fun j hj => ?_, trivial⟩, ⟨fun j hj => ?_, trivial⟩, trivial⟩
    · simp only [one, hu, hη, hM, dotMag]
      norm_num [sum_range_succ]
    · simp only [one, hu, hη, hM, dotErr, dotMag, Fn.relu]
      norm_num [sum_range_succ]
  · have one : (flRounding 23 1000).val 1 = 1 := rfl
    simp only [one, Fn.relu]
    norm_num [sum_range_succ]

/-- The other statements in the same arithmetic: all ones, every length. -/
example (n : Nat) (lr : Fl 23) (P G : Buf (Fl 23)) (hP : VecIs P n (fun _ => 1)) (hG : VecIs G n (fun _ => 1)) :
    Ok (accumulate P 0) (fun s => |s.x - n| ≤ ((1 + 1 / 2 ^ 23) ^ (n + 1) - 1) * n) ∧
    Ok (dotVec P G) (fun s => |s.x - n| ≤ (1 + 1 / 2 ^ 23) ^ (n + 1) * n - n) ∧
    Ok (gdUpdate lr 0 P G) (fun r => ∃ p', VecIs r.2.1 n p' ∧ ∀ i, i < n → |(p' i).x - (1 - lr.x)| ≤
      (1 + 1 / 2 ^ 23) ^ 2 * (1 + |lr.x|) - (1 + |lr.x|)) := by
  have one : ∀ M, (flRounding 23 M).val 1 = 1 := fun _ => rfl
  have zero : ∀ M, (flRounding 23 M).val 0 = 0 := fun _ => rfl
  have hη : ∀ M, (flRounding 23 M).η = 0 := fun _ => rfl
  refine ⟨?_, ?_, ?_⟩
  · refine (C78_accumulate (flRounding 23 ((1 + 1 / 2 ^ 23) ^ (n + 1) * (0 + n))) P n _ 0 hP trivial (fun _ _ => trivial) ?_).mono (fun s h => ?_)
    · simp only [one, zero]; simp [flRounding]
    · have := h.2; simp only [one, zero] at this; simpa [flRounding] using this
  · refine (C78_inner (flRounding 23 ((1 + 1 / 2 ^ 23) ^ (n + 1) * n)) P G n _ _ hP hG (fun _ _ => trivial) (fun _ _ => trivial) ?_).mono (fun s h => ?_)
    · simp only [one, hη]; simp [flRounding]
    · have := h.2; simp only [one, hη] at this; simpa [flRounding] using this
  · refine (C78_update (R := flRounding 23 ((1 + 1 / 2 ^ 23) * (1 + |lr.x|))) lr 0 n P G _ _ hP hG (fun _ => 1) (fun _ => 1) (fun _ => 0) (fun _ => 0)
      (fun _ _ => ⟨trivial, ?_⟩) (fun _ _ => ⟨trivial, ?_⟩) trivial (fun i _ => ?_)).mono (fun r h => ?_)
    · simp [one]
    · simp [one]
    · simp [flRounding]
    · obtain ⟨p', h1, h2⟩ := h
      refine ⟨p', h1, fun i hi => ?_⟩
      have := (h2 i hi).2
      simpa [flRounding] using this
end

end Trixy
