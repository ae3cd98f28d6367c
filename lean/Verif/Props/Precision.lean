import Verif.Proof.Precision
import Verif.Props.RuleLimit
import Verif.Model.Checker
/-
C119. The library is used with `float` or `double`, but users reason about real numbers. For every network of library layers, every library loss but `MSLE` and every data
set: as the precision of the floating-point type grows, a training run converges to the run in exact arithmetic, parameter by parameter, provided the exact run meets no
kink of an activation or of the loss; so do its predictions, and the classes it predicts are the exact ones from some precision on.
-/
namespace Trixy
set_option linter.unusedSectionVars false
open Filter Topology

/-! ### The functions at the reals -/

/-- On the real line the derivative functions and loss objects are those of Model/Loss.lean. -/
theorem C119_real_losses (r t p : Buf ℝ) :
    @FltLoss.mseD ℝ realFlt r t p = Losses.mseD r t p ∧ @FltLoss.maeD ℝ realFlt r t p = Losses.maeD r t p ∧ @FltLoss.bceDSigmoid ℝ realFlt r t p = Losses.bceDSigmoid r t p ∧
    @FltLoss.nllDSoftmax ℝ realFlt r t p = Losses.nllDSoftmax r t p ∧ @FltLoss.logcoshD ℝ realFlt r t p = Losses.logcoshD r t p :=
  ⟨rfl, rfl, rfl, rfl, rfl⟩

/-- On the real line the derivative functions of the activation classes are those of Model/Scalar.lean. -/
theorem C119_real_derivatives (k : ActKind) : k.obj.df = mapInto (@ActKind.fltD ℝ realFlt k) ∧ k.obj.dfSelf = mapSelf (@ActKind.fltD ℝ realFlt k) := by
  have lits : ((0.2 : ℚ) : ℝ) = 0.2 ∧ ((0.01 : ℚ) : ℝ) = 0.01 ∧ ((1.050701 : ℚ) : ℝ) = 1.050701 ∧ ((1.758099 : ℚ) : ℝ) = 1.758099 ∧
      ((0.5 : ℚ) : ℝ) = 0.5 ∧ ((0.797885 : ℚ) : ℝ) = 0.797885 ∧ ((0.0356774 : ℚ) : ℝ) = 0.0356774 ∧ ((0.0535161 : ℚ) : ℝ) = 0.0535161 ∧ ((0.398942 : ℚ) : ℝ) = 0.398942 := by
    norm_num
  obtain ⟨l1, l2, l3, l4, l5, l6, l7, l8, l9⟩ := lits
  have key : @ActKind.fltD ℝ realFlt k = k.cd := by
    funext x
    cases k
    case identity => rfl
    case relu => rfl
    case elu => show (if x > 0 then 1 else ((0.2 : ℚ) : ℝ) * _) = _; rw [l1]; rfl
    case lrelu => show (if x > 0 then 1 else ((0.01 : ℚ) : ℝ)) = _; rw [l2]; rfl
    case selu => show (if x > 0 then ((1.050701 : ℚ) : ℝ) else ((1.758099 : ℚ) : ℝ) * _) = _; rw [l3, l4]; rfl
    case gelu =>
      show ((0.5 : ℚ) : ℝ) * Real.tanh (((0.797885 : ℚ) : ℝ) * (x * x * x) + ((0.0356774 : ℚ) : ℝ) * x) + (((0.0535161 : ℚ) : ℝ) * (x * x * x) + ((0.398942 : ℚ) : ℝ) * x) *
        (1 / Real.cosh (((0.797885 : ℚ) : ℝ) * (x * x * x) + ((0.0356774 : ℚ) : ℝ) * x)) * (1 / Real.cosh (((0.797885 : ℚ) : ℝ) * (x * x * x) + ((0.0356774 : ℚ) : ℝ) * x)) + ((0.5 : ℚ) : ℝ) = _
      rw [l5, l6, l7, l8, l9]; rfl
    case sigmoid => show ((0.5 : ℚ) : ℝ) / _ = _; rw [l5]; rfl
    case tanh => rfl
    case softsign => rfl
    case softplus => rfl
    case swish => rfl
    case modRelu => show (if x < 0 ∨ x > 1 then ((0.01 : ℚ) : ℝ) else 1) = _; rw [l2]; rfl
    case modTanh => show (if x < 0 then ((0.01 : ℚ) : ℝ) * _ else _) = _; rw [l2]; rfl
  rw [key, k.obj_eq]
  exact ⟨rfl, rfl⟩

/-! ### Predictions of dense networks -/

theorem dense_feedforward {α : Type} [Zero α] [One α] [Add α] [Mul α] [LT α] [DecidableLT α] {net : Net α} {ps : List (Dense α)} (h : net.IsDense ps) {n m : Nat} (hc : Chain n ps m)
    (hne : ps ≠ []) (hN : ps.length < W64) {x : Ten α} {v : Nat → α} (hx : VecIs x.data n v) : Ok (Net.feedforward x net) (fun r => VecIs r.2.data m (netOut ps v)) := by
  have hl : net.length = ps.length := List.Forall₂.length_eq h
  have hn : net ≠ [] := by intro e; rw [e] at hl; exact hne (List.length_eq_zero_iff.1 hl.symm)
  obtain ⟨sts, h1, h2⟩ := h.at
  subst h2
  rw [Net.feedforward_eq x net hn (by rw [hl]; exact hN)]
  refine (ff_dense h1 hc hx).bind (fun net' q => ?_)
  have hn' : net' ≠ [] := by
    intro e
    have := List.Forall₂.length_eq q.1
    rw [e, ← List.Forall₂.length_eq h1] at this
    exact hn (List.length_eq_zero_iff.1 this.symm)
  obtain ⟨l, e, hl⟩ := q.2.last hc hn'
  rw [e, bind_ok]
  exact Ok_ok.2 hl.2.2.2

/-! ### Steps on layers -/

section
variable {α : Type} [Flt α]

/-- One averaged gradient-descent step, on floating-point layers. -/
def fltStep (lr al : α) (k : LossKind) (vs : List ((Nat → α) × (Nat → α))) (ls : List (FltLayer α)) : List (FltLayer α) :=
  List.zipWith (FltLayer.gd lr al) ls (gradSum k.fltDL (ls.map FltLayer.dense) vs)

theorem fltStep_dense (lr al : α) (k : LossKind) (vs : List ((Nat → α) × (Nat → α))) (ls : List (FltLayer α)) :
    avgStep lr al k.fltDL vs (ls.map FltLayer.dense) = (fltStep lr al k vs ls).map FltLayer.dense := FltLayer.gdStep ..
end

/-- The same on exact layers. -/
noncomputable def exactStep (lr al : ℝ) (k : LossKind) (vs : List ((Nat → ℝ) × (Nat → ℝ))) (ls : List LibLayer) : List LibLayer :=
  List.zipWith (LibLayer.gd lr al) ls (gradSum k.dL (ls.map LibLayer.dense) vs)

theorem exactStep_dense (lr al : ℝ) (k : LossKind) (vs : List ((Nat → ℝ) × (Nat → ℝ))) (ls : List LibLayer) :
    avgStep lr al k.dL vs (ls.map LibLayer.dense) = (exactStep lr al k vs ls).map LibLayer.dense := LibLayer.gdStep ..

theorem zip_shape (lr al : ℝ) : ∀ (ls : List LibLayer) (gs : List (Grad ℝ)), gs.length = ls.length → sameShape (List.zipWith (LibLayer.gd lr al) ls gs) ls
  | [], _, _ => .nil
  | l :: ls, [], h => by simp at h
  | l :: ls, g :: gs, h => .cons ⟨rfl, rfl, rfl⟩ (zip_shape lr al ls gs (by simpa using h))

theorem exactStep_shape (lr al : ℝ) (k : LossKind) (vs : List ((Nat → ℝ) × (Nat → ℝ))) (ls : List LibLayer) : sameShape (exactStep lr al k vs ls) ls :=
  zip_shape lr al ls _ (by rw [gradSum_length]; simp)

theorem sameShape.refl : ∀ ls : List LibLayer, sameShape ls ls
  | [] => .nil
  | _ :: ls => .cons ⟨rfl, rfl, rfl⟩ (sameShape.refl ls)

theorem sameShape.trans {as bs cs : List LibLayer} (h1 : sameShape as bs) (h2 : sameShape bs cs) : sameShape as cs := by
  unfold sameShape at *
  induction h1 generalizing cs with
  | nil => exact h2
  | cons hab _ ih =>
    cases h2 with
    | cons hbc ht => exact .cons ⟨hab.1.trans hbc.1, hab.2.1.trans hbc.2.1, hab.2.2.trans hbc.2.2⟩ (ih ht)

theorem sameShape.pos {as ls : List LibLayer} (h : sameShape as ls) : (∀ l ∈ ls, 0 < l.m) → ∀ l ∈ as, 0 < l.m := by
  unfold sameShape at h
  induction h with
  | nil => exact fun h => h
  | cons hab _ ih =>
    intro hp l hl
    rcases List.mem_cons.1 hl with rfl | hl
    · rw [hab.2.1]; exact hp _ (List.mem_cons_self ..)
    · exact ih (fun x hx => hp x (List.mem_cons_of_mem _ hx)) l hl

variable {α : Nat → Type} [∀ p, Flt (α p)] [∀ p, NatCast (α p)] [∀ p, DecidableEq (α p)] {D : Digits α}

namespace Digits

theorem DataTend.length : ∀ {vs : List ((Nat → ℝ) × (Nat → ℝ))} {n m : Nat} {V : ∀ p, List ((Nat → α p) × (Nat → α p))}, D.DataTend n m V vs → ∀ p, (V p).length = vs.length
  | [], _, _, _, h, p => by rw [h p]; rfl
  | _ :: vs, _, _, _, h, p => by
    obtain ⟨a, V', e, _, _, h'⟩ := h
    rw [e p, List.length_cons, List.length_cons, DataTend.length h' p]

theorem DataTend.drop : ∀ (c : Nat) {vs : List ((Nat → ℝ) × (Nat → ℝ))} {n m : Nat} {V : ∀ p, List ((Nat → α p) × (Nat → α p))}, D.DataTend n m V vs →
    D.DataTend n m (fun p => (V p).drop c) (vs.drop c)
  | 0, _, _, _, _, h => by simpa using h
  | c + 1, [], _, _, _, h => fun p => by dsimp only; rw [h p]; rfl
  | c + 1, _ :: vs, _, _, _, h => by
    obtain ⟨a, V', e, _, _, h'⟩ := h
    have e := funext e
    subst e
    exact DataTend.drop c h'

theorem DataTend.take : ∀ (c : Nat) {vs : List ((Nat → ℝ) × (Nat → ℝ))} {n m : Nat} {V : ∀ p, List ((Nat → α p) × (Nat → α p))}, D.DataTend n m V vs →
    D.DataTend n m (fun p => (V p).take c) (vs.take c)
  | 0, _, _, _, _, h => fun p => by simp
  | c + 1, [], _, _, _, h => fun p => by dsimp only; rw [h p]; rfl
  | c + 1, _ :: vs, _, _, _, h => by
    obtain ⟨a, V', e, h1, h2, h'⟩ := h
    have e := funext e
    subst e
    exact ⟨_, _, fun _ => rfl, h1, h2, DataTend.take c h'⟩

theorem fltStep_tends (h : D.Refine) {k : LossKind} (hk : k ≠ .msle) {n m : Nat} {lr al : ∀ p, α p} {lr' al' : ℝ} (hlr : D.Tends lr lr') (hal : D.Tends al al')
    {vs : List ((Nat → ℝ) × (Nat → ℝ))} {V : ∀ p, List ((Nat → α p) × (Nat → α p))} (hV : D.DataTend n m V vs) {qs : List LibLayer} {L : ∀ p, List (FltLayer (α p))}
    (hL : D.LayersTend L qs) (hf : libFits n qs m) (hp : ∀ l ∈ qs, 0 < l.m) (ha : kinkFree k m vs qs) :
    D.LayersTend (fun p => fltStep (lr p) (al p) k (V p) (L p)) (exactStep lr' al' k vs qs) :=
  step_tends h hlr hal qs hL (gradSum_tends h k hk hL hf hp vs hV ha)

theorem recip_tends (h : D.Refine) (c : Nat) (hc : 1 ≤ c) : D.Tends (fun p => 1 / (c : α p)) (1 / (c : ℝ)) :=
  Tends.div h (Tends.one h) (Tends.nat h c) (Nat.cast_ne_zero.2 (by omega))

end Digits

/-- One exact step on a single sample. -/
noncomputable def exactSgd (lr : ℝ) (k : LossKind) (vw : (Nat → ℝ) × (Nat → ℝ)) (ls : List LibLayer) : List LibLayer :=
  List.zipWith (LibLayer.gd lr 1) ls (sampleGrads k.dL (ls.map LibLayer.dense) vw)
/-- The same on floating-point layers. -/
def fltSgd {α : Type} [Flt α] (lr : α) (k : LossKind) (vw : (Nat → α) × (Nat → α)) (ls : List (FltLayer α)) : List (FltLayer α) :=
  List.zipWith (FltLayer.gd lr 1) ls (sampleGrads k.fltDL (ls.map FltLayer.dense) vw)

theorem endsWith_of {n m : Nat} {run : Res (ℝ × Train ℝ)} {ls : List LibLayer} {dL : (Nat → ℝ) → (Nat → ℝ) → Nat → ℝ}
    (h : Ok run (fun r => r.2.Is (ls.map LibLayer.dense) n m dL)) : endsWith n m run ls := by
  refine h.mono (fun r hr => ⟨params_of hr.net, fun x v hx => ?_⟩)
  have := dense_feedforward hr.net hr.chain (by intro e; have := hr.two; rw [e] at this; simp at this) hr.word hx
  rw [libOut_eq] at this
  exact this

theorem runsTend_of (h : D.Refine) {n m : Nat} {run : ∀ p, Res (α p × Train (α p))} {ls : List LibLayer} {Q : ∀ p, List (FltLayer (α p))}
    {dL : ∀ p, (Nat → α p) → (Nat → α p) → Nat → α p} (hQ : D.LayersTend Q ls) (hf : libFits n ls m) (hp : ∀ l ∈ ls, 0 < l.m)
    (hr : ∀ p, Ok (run p) (fun r => r.2.Is ((Q p).map FltLayer.dense) n m (dL p))) : D.RunsTend n m run ls := by
  refine ⟨Q, fun p v => netOut ((Q p).map FltLayer.dense) v, hQ, fun p => (hr p).mono (fun r hr => ⟨fltParams_of hr.net, fun x v hx => ?_⟩), fun v w hv => ?_⟩
  · exact dense_feedforward hr.net hr.chain (by intro e; have := hr.two; rw [e] at this; simp at this) hr.word hx
  · have := Digits.netOut_tends h _ hQ hf hp hv
    rw [libOut_eq] at this
    exact this

/-- Blocks of an epoch, one after the other. -/
theorem blocks_part {β γ : Type} (f : β → γ) (step : Nat → γ → γ) (stepL : Nat → β → β) (hs : ∀ b x, step b (f x) = f (stepL b x)) (B : Nat) (U : Nat → β)
    (hU : ∀ i, U (i + 1) = stepL (i % B) (U i)) (E : Nat) : ∀ b, b ≤ B → (List.range b).foldl (fun g b => step b g) (f (U (E * B))) = f (U (E * B + b)) := by
  intro b
  induction b with
  | zero => exact fun _ => rfl
  | succ b ih =>
    intro hb
    rw [List.range_succ, List.foldl_append, ih (by omega)]
    show step b (f (U (E * B + b))) = f (U (E * B + b + 1))
    rw [hs, hU, Nat.mul_comm E B, Nat.mul_add_mod, Nat.mod_eq_of_lt (by omega)]

theorem blocks_run {β γ : Type} (f : β → γ) (step : Nat → γ → γ) (stepL : Nat → β → β) (hs : ∀ b x, step b (f x) = f (stepL b x)) (B : Nat) (U : Nat → β)
    (hU : ∀ i, U (i + 1) = stepL (i % B) (U i)) (E : Nat) : (fun g => (List.range B).foldl (fun g b => step b g) g)^[E] (f (U 0)) = f (U (E * B)) := by
  induction E with
  | zero => simp
  | succ E ih =>
    rw [Function.iterate_succ_apply', ih]
    rw [blocks_part f step stepL hs B U hU E B (Nat.le_refl _), Nat.succ_mul]

/-! ### C119 -/

/-- `batch()` with gradient descent. `P N` are the exact parameters after `N` epochs; provided the exact run has met no kink, the floating-point runs of `N` epochs tend to it. -/
theorem C119_batch (h : D.Refine) {k : LossKind} (hk : k ≠ .msle) {n m : Nat} {t : Train ℝ} {ls : List LibLayer} {lr : ℝ} {idata odata : List (Ten ℝ)}
    {vs : List ((Nat → ℝ) × (Nat → ℝ))} {T : ∀ p, Train (α p)} {L : ∀ p, List (FltLayer (α p))} {LR : ∀ p, α p} {I O : ∀ p, List (Ten (α p))}
    {V : ∀ p, List ((Nat → α p) × (Nat → α p))} (ht : D.Trains k n m t ls lr idata odata vs T L LR I O V) (hne : vs ≠ []) :
    ∃ P : Nat → List LibLayer, P 0 = ls ∧ (∀ N, sameShape (P N) ls) ∧ (∀ N, endsWith n m (Train.batch gdUpdate idata odata N (lr, t)) (P N)) ∧
      ∀ N, (∀ e, e < N → kinkFree k m vs (P e)) → D.RunsTend n m (fun p => Train.batch gdUpdate (I p) (O p) N (LR p, T p)) (P N) := by
  obtain ⟨Lv, hLv⟩ := k.obj_Is hk m
  have hI := IsLib.toIs ht.exact hLv
  have hlen : 1 ≤ vs.length := List.length_pos_iff.2 hne
  set S := exactStep lr (1 / (vs.length : ℝ)) k vs with hS
  have shape : ∀ N, sameShape (S^[N] ls) ls := by
    intro N
    induction N with
    | zero => exact sameShape.refl ls
    | succ N ih => rw [Function.iterate_succ_apply']; exact (exactStep_shape ..).trans ih
  refine ⟨fun N => S^[N] ls, rfl, shape, fun N => endsWith_of (dL := k.dL) ((C39_batch (fun a => mul_one a) lr t _ n m k.dL hI idata odata vs ht.data hne N).mono (fun r hr => ?_)), fun N hfree => ?_⟩
  · have hr := hr.2.1
    rw [← (Function.Semiconj.iterate_right (f := List.map LibLayer.dense) (ga := S) (gb := avgStep lr (1 / (vs.length : ℝ)) k.dL vs)
      (fun x => (exactStep_dense ..).symm) N) ls] at hr
    exact hr
  · have tend : ∀ N, (∀ e, e < N → kinkFree k m vs (S^[e] ls)) → D.LayersTend (fun p => (fltStep (LR p) (1 / (vs.length : α p)) k (V p))^[N] (L p)) (S^[N] ls) := by
      intro N
      induction N with
      | zero => exact fun _ => ht.layers
      | succ N ih =>
        intro hfree
        simp only [Function.iterate_succ_apply']
        exact Digits.fltStep_tends h hk ht.rate (Digits.recip_tends h _ hlen) ht.tend (ih (fun e he => hfree e (by omega))) (libFits_shape (shape N) ht.exact.fits)
          ((shape N).pos ht.exact.pos) (hfree N (by omega))
    refine runsTend_of h (tend N hfree) (libFits_shape (shape N) ht.exact.fits) ((shape N).pos ht.exact.pos) (dL := fun _ => k.fltDL) (fun p => ?_)
    have hJ := IsFlt.toIs (ht.flt p)
    have e : (V p).length = vs.length := Digits.DataTend.length ht.tend p
    refine (C39_batch (h.mul_one p) (LR p) (T p) _ n m k.fltDL hJ (I p) (O p) (V p) (ht.fdata p) (by intro e0; rw [e0] at e; simp at e; omega) N).mono (fun r hr => ?_)
    have hr := hr.2.1
    rw [e, ← (Function.Semiconj.iterate_right (f := List.map FltLayer.dense) (ga := fltStep (LR p) (1 / (vs.length : α p)) k (V p))
          (gb := avgStep (LR p) (1 / (vs.length : α p)) k.fltDL (V p)) (fun x => (fltStep_dense ..).symm) N) (L p)] at hr
    exact hr

/-- The samples of block `b`, of size `s`. -/
def blockOf {β : Type} (s : Nat) (vs : List β) (b : Nat) : List β := (vs.drop (b * s)).take s

/-- The exact parameters after `i` blocks of `mini_batch()`, blocks of size `s`, `B` per epoch. -/
noncomputable def exactBlocks (lr : ℝ) (k : LossKind) (s B : Nat) (vs : List ((Nat → ℝ) × (Nat → ℝ))) (ls : List LibLayer) : Nat → List LibLayer
  | 0 => ls
  | i + 1 => exactStep lr (1 / (s : ℝ)) k (blockOf s vs (i % B)) (exactBlocks lr k s B vs ls i)
/-- The same on floating-point layers. -/
def fltBlocks {α : Type} [Flt α] [NatCast α] (lr : α) (k : LossKind) (s B : Nat) (vs : List ((Nat → α) × (Nat → α))) (ls : List (FltLayer α)) : Nat → List (FltLayer α)
  | 0 => ls
  | i + 1 => fltStep lr (1 / (s : α)) k (blockOf s vs (i % B)) (fltBlocks lr k s B vs ls i)

theorem block_take {β : Type} (s b i : Nat) (hi : i < b) (vs : List β) : blockOf s (vs.take (b * s)) i = blockOf s vs i := by
  unfold blockOf
  rw [List.drop_take, List.take_take]
  congr 1
  have : (i + 1) * s ≤ b * s := Nat.mul_le_mul_right s hi
  rw [Nat.succ_mul] at this
  omega

/-- `mini_batch()` with gradient descent and blocks of `s` samples. `U i` are the exact parameters after `i` blocks: after `e` epochs and then the first `b` blocks of the next
one. Provided the exact run meets no kink, the floating-point runs tend to it. -/
theorem C119_mini_batch (h : D.Refine) {k : LossKind} (hk : k ≠ .msle) {n m : Nat} {t : Train ℝ} {ls : List LibLayer} {lr : ℝ} {idata odata : List (Ten ℝ)}
    {vs : List ((Nat → ℝ) × (Nat → ℝ))} {T : ∀ p, Train (α p)} {L : ∀ p, List (FltLayer (α p))} {LR : ∀ p, α p} {I O : ∀ p, List (Ten (α p))}
    {V : ∀ p, List ((Nat → α p) × (Nat → α p))} (ht : D.Trains k n m t ls lr idata odata vs T L LR I O V) (s : Nat) (hs : 1 ≤ s) :
    ∃ U : Nat → List LibLayer, U 0 = ls ∧ (∀ i, sameShape (U i) ls) ∧
      (∀ e b, b ≤ vs.length / s → endsWith n m (do
        let r ← Train.miniBatch gdUpdate idata odata e s (lr, t)
        Train.miniBatch gdUpdate (idata.take (b * s)) (odata.take (b * s)) 1 s r) (U (e * (vs.length / s) + b))) ∧
      (∀ e, endsWith n m (Train.miniBatch gdUpdate idata odata e s (lr, t)) (U (e * (vs.length / s)))) ∧
      ∀ e, (∀ i, i < e * (vs.length / s) → kinkFree k m (blockOf s vs (i % (vs.length / s))) (U i)) →
        D.RunsTend n m (fun p => Train.miniBatch gdUpdate (I p) (O p) e s (LR p, T p)) (U (e * (vs.length / s))) := by
  obtain ⟨Lv, hLv⟩ := k.obj_Is hk m
  have hI := IsLib.toIs ht.exact hLv
  generalize hB : vs.length / s = B
  set U := exactBlocks lr k s B vs ls with hUdef
  have hU : ∀ i, U (i + 1) = exactStep lr (1 / (s : ℝ)) k (blockOf s vs (i % B)) (U i) := fun i => rfl
  have shape : ∀ i, sameShape (U i) ls := by
    intro i
    induction i with
    | zero => exact sameShape.refl ls
    | succ i ih => rw [hU]; exact (exactStep_shape ..).trans ih
  have run : ∀ e, Ok (Train.miniBatch gdUpdate idata odata e s (lr, t)) (fun r => r.1 = lr ∧ r.2.Is ((U (e * B)).map LibLayer.dense) n m k.dL) := by
    intro e
    refine (C40_gd (fun a => mul_one a) lr t _ n m k.dL hI idata odata vs ht.data s hs e).mono (fun r hr => ⟨hr.1, ?_⟩)
    have := blocks_run (List.map LibLayer.dense) (fun b ps => avgStep lr (1 / (s : ℝ)) k.dL (blockOf s vs b) ps) (fun b ps => exactStep lr (1 / (s : ℝ)) k (blockOf s vs b) ps)
      (fun b x => exactStep_dense ..) B U hU e
    have hr := hr.2
    rw [hB] at hr
    rw [← this]
    exact hr
  refine ⟨U, rfl, shape, fun e b hb => endsWith_of (dL := k.dL) ?_, fun e => endsWith_of (dL := k.dL) ((run e).mono (fun r hr => hr.2)), fun e hfree => ?_⟩
  · refine (run e).bind (fun r hr => ?_)
    obtain ⟨lr1, t1⟩ := r
    obtain ⟨rfl, hr⟩ := hr
    have hd : DataIs (idata.take (b * s)) (odata.take (b * s)) n m (vs.take (b * s)) := ⟨List.forall₂_take _ ht.data.1, List.forall₂_take _ ht.data.2⟩
    refine (C40_gd (fun a => mul_one a) lr1 t1 _ n m k.dL hr _ _ _ hd s hs 1).mono (fun r hr => ?_)
    have hr := hr.2
    have hbs : b * s ≤ vs.length := (Nat.mul_le_mul_right s (hB ▸ hb)).trans (Nat.div_mul_le_self _ _)
    have el : (vs.take (b * s)).length / s = b := by
      rw [List.length_take, Nat.min_eq_left hbs, Nat.mul_div_cancel _ (by omega)]
    rw [el] at hr
    have := blocks_part (List.map LibLayer.dense) (fun b ps => avgStep lr1 (1 / (s : ℝ)) k.dL (blockOf s vs b) ps) (fun b ps => exactStep lr1 (1 / (s : ℝ)) k (blockOf s vs b) ps)
      (fun b x => exactStep_dense ..) B U hU e b hb
    rw [← this]
    rw [Function.iterate_one] at hr
    have e2 : (List.range b).foldl (fun ps i => avgStep lr1 (1 / (s : ℝ)) k.dL (((vs.take (b * s)).drop (i * s)).take s) ps) ((U (e * B)).map LibLayer.dense) =
        (List.range b).foldl (fun ps i => avgStep lr1 (1 / (s : ℝ)) k.dL (blockOf s vs i) ps) ((U (e * B)).map LibLayer.dense) :=
      List.foldl_ext _ _ _ (fun ps i hi => by
        have := block_take s b i (List.mem_range.1 hi) vs
        unfold blockOf at this ⊢
        rw [this])
    rw [e2] at hr
    exact hr
  · have tend : ∀ i, (∀ j, j < i → kinkFree k m (blockOf s vs (j % B)) (U j)) → D.LayersTend (fun p => fltBlocks (LR p) k s B (V p) (L p) i) (U i) := by
      intro i
      induction i with
      | zero => exact fun _ => ht.layers
      | succ i ih =>
        intro hfree
        have := Digits.fltStep_tends h hk ht.rate (Digits.recip_tends h s hs) ((ht.tend.drop ((i % B) * s)).take s) (ih (fun e he => hfree e (by omega)))
          (libFits_shape (shape i) ht.exact.fits) ((shape i).pos ht.exact.pos) (hfree i (by omega))
        exact this
    refine runsTend_of h (tend _ hfree) (libFits_shape (shape _) ht.exact.fits) ((shape _).pos ht.exact.pos) (dL := fun _ => k.fltDL) (fun p => ?_)
    have hJ := IsFlt.toIs (ht.flt p)
    have el : (V p).length = vs.length := Digits.DataTend.length ht.tend p
    refine (C40_gd (h.mul_one p) (LR p) (T p) _ n m k.fltDL hJ (I p) (O p) (V p) (ht.fdata p) s hs e).mono (fun r hr => ?_)
    have hr := hr.2
    rw [el, hB] at hr
    have := blocks_run (List.map FltLayer.dense) (fun b ps => avgStep (LR p) (1 / (s : α p)) k.fltDL (blockOf s (V p) b) ps)
      (fun b ps => fltStep (LR p) (1 / (s : α p)) k (blockOf s (V p) b) ps) (fun b x => fltStep_dense ..) B (fltBlocks (LR p) k s B (V p) (L p)) (fun i => rfl) e
    rw [← this]
    exact hr

theorem Digits.DataTend.get : ∀ {vs : List ((Nat → ℝ) × (Nat → ℝ))} {n m : Nat} {V : ∀ p, List ((Nat → α p) × (Nat → α p))}, D.DataTend n m V vs → ∀ (i : Nat) (vw : (Nat → ℝ) × (Nat → ℝ)),
    vs[i]? = some vw → ∃ a : ∀ p, (Nat → α p) × (Nat → α p), (∀ p, (V p)[i]? = some (a p)) ∧ D.VecTends n (fun p => (a p).1) vw.1 ∧ D.VecTends m (fun p => (a p).2) vw.2
  | [], _, _, _, _, i, vw, hi => by simp at hi
  | x :: vs, n, m, V, h, i, vw, hi => by
    obtain ⟨a, V', e, h1, h2, h'⟩ := h
    cases i with
    | zero =>
      have : x = vw := by simpa using hi
      subst this
      exact ⟨a, fun p => by rw [e p]; rfl, h1, h2⟩
    | succ i =>
      obtain ⟨a', e', g1, g2⟩ := Digits.DataTend.get h' i vw (by simpa using hi)
      exact ⟨a', fun p => by rw [e p]; simpa using e' p, g1, g2⟩

/-- The samples drawn in `N` rounds. -/
def roundSamples {β γ ρ : Type} (gen : Gen γ ρ Nat) (c : γ) (g : ρ) (vs : List β) (N : Nat) : List β := ((draws gen N c g).map (· % vs.length)).filterMap (vs[·]?)

theorem roundSamples_succ {β γ ρ : Type} (gen : Gen γ ρ Nat) (c : γ) (g : ρ) (vs : List β) (hne : vs ≠ []) (N : Nat) : ∃ (j : Nat) (v : β),
    draws gen (N + 1) c g = draws gen N c g ++ [j] ∧ vs[j % vs.length]? = some v ∧ roundSamples gen c g vs (N + 1) = roundSamples gen c g vs N ++ [v] := by
  have hpos : 0 < vs.length := List.length_pos_iff.2 hne
  have e := (draws_succ gen N c g).1
  generalize (gen (drawn gen N c g).1 (drawn gen N c g).2).1 = j at e
  have hv : vs[j % vs.length]? = some (vs[j % vs.length]'(Nat.mod_lt _ hpos)) := List.getElem?_eq_getElem _
  refine ⟨j, _, e, hv, ?_⟩
  unfold roundSamples
  rw [e, List.map_append, List.filterMap_append]
  congr 1
  simp only [List.map_cons, List.map_nil, List.filterMap_cons, hv, List.filterMap_nil]

/-- `stochastic()` with gradient descent, the same random number generator in every type, on networks that have not been trained in batches before (see C29). `U N` are the
exact parameters after `N` rounds. -/
theorem C119_stochastic (h : D.Refine) {k : LossKind} (hk : k ≠ .msle) {n m : Nat} {t : Train ℝ} {ls : List LibLayer} {lr : ℝ} {idata odata : List (Ten ℝ)}
    {vs : List ((Nat → ℝ) × (Nat → ℝ))} {T : ∀ p, Train (α p)} {L : ∀ p, List (FltLayer (α p))} {LR : ∀ p, α p} {I O : ∀ p, List (Ten (α p))}
    {V : ∀ p, List ((Nat → α p) × (Nat → α p))} (ht : D.Trains k n m t ls lr idata odata vs T L LR I O V) (hne : vs ≠ []) (hc : t.net.Clean) (hcp : ∀ p, (T p).net.Clean)
    {γ ρ : Type} (gen : Gen γ ρ Nat) (c : γ) (g : ρ) :
    ∃ U : Nat → List LibLayer, U 0 = ls ∧ (∀ i, sameShape (U i) ls) ∧ (∀ N, endsWith n m ((Train.stochastic gdUpdate idata odata N gen c g (lr, t)).map (·.1)) (U N)) ∧
      ∀ N, (∀ (i j : Nat) (vw : (Nat → ℝ) × (Nat → ℝ)), (draws gen N c g)[i]? = some j → vs[j % vs.length]? = some vw → kinkFree k m [vw] (U i)) →
        D.RunsTend n m (fun p => (Train.stochastic gdUpdate (I p) (O p) N gen c g (LR p, T p)).map (·.1)) (U N) := by
  obtain ⟨Lv, hLv⟩ := k.obj_Is hk m
  have hI := IsLib.toIs ht.exact hLv
  set U : Nat → List LibLayer := fun N => (roundSamples gen c g vs N).foldl (fun ls vw => exactSgd lr k vw ls) ls with hUdef
  have fold : ∀ (xs : List ((Nat → ℝ) × (Nat → ℝ))) (qs : List LibLayer), xs.foldl (sgdStep lr k.dL) (qs.map LibLayer.dense) =
      (xs.foldl (fun ls vw => exactSgd lr k vw ls) qs).map LibLayer.dense := by
    intro xs
    induction xs with
    | nil => exact fun _ => rfl
    | cons x xs ih =>
      intro qs
      rw [List.foldl_cons, List.foldl_cons, ← ih]
      exact congrArg (xs.foldl (sgdStep lr k.dL)) (LibLayer.gdStep lr 1 qs _)
  have shape : ∀ i, sameShape (U i) ls := by
    intro i
    induction i with
    | zero => exact sameShape.refl ls
    | succ i ih =>
      obtain ⟨j, v, _, _, e⟩ := roundSamples_succ gen c g vs hne i
      show sameShape ((roundSamples gen c g vs (i + 1)).foldl _ ls) ls
      rw [e, List.foldl_append]
      exact (zip_shape lr 1 _ _ (by rw [sampleGrads_length]; simp)).trans ih
  refine ⟨U, rfl, shape, fun N => endsWith_of (dL := k.dL) ?_, fun N hfree => ?_⟩
  · have hl : idata.length = vs.length := ht.data.1.length_eq
    obtain ⟨is, e1, _, e3, e4⟩ := C41_schedule gdUpdate idata odata (by intro e; rw [e] at hl; exact hne (List.length_eq_zero_iff.1 hl.symm)) gen N c g (lr, t)
    rw [e4]
    refine (C29_clean_partial (fun a => mul_one a) lr t _ n m k.dL hI hc idata odata vs ht.data is (fun i hi => hl ▸ e3 i hi)).mono (fun r hr => ?_)
    have hr := hr.2.2
    rw [fold, e1, hl] at hr
    exact hr
  · have tend : ∀ N, (∀ (i j : Nat) (vw : (Nat → ℝ) × (Nat → ℝ)), (draws gen N c g)[i]? = some j → vs[j % vs.length]? = some vw → kinkFree k m [vw] (U i)) →
        D.LayersTend (fun p => (roundSamples gen c g (V p) N).foldl (fun ls vw => fltSgd (LR p) k vw ls) (L p)) (U N) := by
      intro N
      induction N with
      | zero => exact fun _ => ht.layers
      | succ N ih =>
        intro hfree
        obtain ⟨j, v, hj, hv, e⟩ := roundSamples_succ gen c g vs hne N
        have hN : (draws gen N c g).length = N := draws_length gen N c g
        have hfreeN : kinkFree k m [v] (U N) := hfree N j v (by rw [hj, List.getElem?_append_right (by omega), hN, Nat.sub_self]; rfl) hv
        have hprev := ih (fun i j' vw hi hvw => hfree i j' vw (by
          have hlt : i < (draws gen N c g).length := by
            by_contra hge
            rw [List.getElem?_eq_none (by omega)] at hi
            exact nomatch hi
          rw [hj, List.getElem?_append_left hlt]; exact hi) hvw)
        obtain ⟨a, ea, h1, h2⟩ := ht.tend.get _ v hv
        have hlen := fun p => Digits.DataTend.length ht.tend p
        have hfa := (hfreeN v (List.mem_singleton.2 rfl))
        have hg := Digits.netGrads_tends h (U N) hprev (libFits_shape (shape N) ht.exact.fits) ((shape N).pos ht.exact.pos) h1 hfa.1
          (Digits.loss_tends h k hk h2 (Digits.netOut_tends h (U N) hprev (libFits_shape (shape N) ht.exact.fits) ((shape N).pos ht.exact.pos) h1) (by rw [libOut_eq]; exact hfa.2))
        have hstep := Digits.step_tends h ht.rate (Digits.Tends.one h) (U N) hprev hg
        have eU : U (N + 1) = exactSgd lr k v (U N) := by
          show (roundSamples gen c g vs (N + 1)).foldl _ ls = _
          rw [e, List.foldl_append]
          rfl
        have eF : (fun p => (roundSamples gen c g (V p) (N + 1)).foldl (fun ls vw => fltSgd (LR p) k vw ls) (L p)) =
            (fun p => fltSgd (LR p) k (a p) ((roundSamples gen c g (V p) N).foldl (fun ls vw => fltSgd (LR p) k vw ls) (L p))) := by
          funext p
          have : roundSamples gen c g (V p) (N + 1) = roundSamples gen c g (V p) N ++ [a p] := by
            unfold roundSamples
            rw [hj, List.map_append, List.filterMap_append]
            congr 1
            simp only [List.map_cons, List.map_nil, List.filterMap_cons, hlen p, ea p, List.filterMap_nil]
          rw [this, List.foldl_append]
          rfl
        rw [eU, eF]
        exact hstep
    refine runsTend_of h (tend N hfree) (libFits_shape (shape _) ht.exact.fits) ((shape _).pos ht.exact.pos) (dL := fun _ => k.fltDL) (fun p => ?_)
    have hJ := IsFlt.toIs (ht.flt p)
    have el : (V p).length = vs.length := Digits.DataTend.length ht.tend p
    have hl : (I p).length = (V p).length := (ht.fdata p).1.length_eq
    obtain ⟨is, e1, _, e3, e4⟩ := C41_schedule gdUpdate (I p) (O p) (by intro e; rw [e] at hl; exact hne (List.length_eq_zero_iff.1 (el ▸ hl.symm))) gen N c g (LR p, T p)
    rw [e4]
    refine (C29_clean_partial (h.mul_one p) (LR p) (T p) _ n m k.fltDL hJ (hcp p) (I p) (O p) (V p) (ht.fdata p) is (fun i hi => hl ▸ e3 i hi)).mono (fun r hr => ?_)
    have hr := hr.2.2
    have fold : ∀ (xs : List ((Nat → α p) × (Nat → α p))) (qs : List (FltLayer (α p))), xs.foldl (sgdStep (LR p) k.fltDL) (qs.map FltLayer.dense) =
        (xs.foldl (fun ls vw => fltSgd (LR p) k vw ls) qs).map FltLayer.dense := by
      intro xs
      induction xs with
      | nil => exact fun _ => rfl
      | cons x xs ih =>
        intro qs
        rw [List.foldl_cons, List.foldl_cons, ← ih]
        exact congrArg (xs.foldl (sgdStep (LR p) k.fltDL)) (FltLayer.gdStep (LR p) 1 qs _)
    rw [fold, e1, hl] at hr
    exact hr

/-! ### Classes -/

theorem guideMax_of {β : Type} [LT β] [DecidableLT β] {m c : Nat} {b : Buf β} {f : Nat → β} (hb : VecIs b m f) (hc : c < m) (h : ∀ j, j < m → j ≠ c → f j < f c ∧ ¬ f c < f j) :
    guideMax m b = .ok c := by
  unfold guideMax forLoop
  have : Ok (forN (m - 1) 0 (fun i x => do
      let a ← b.get x
      let d ← b.get (1 + i)
      return if a < d then 1 + i else x)) (fun x => x ≤ m - 1 ∧ (c ≤ m - 1 → x = c)) := by
    refine forN_spec (fun i x => x ≤ i ∧ (c ≤ i → x = c)) ⟨Nat.le_refl _, fun h => by omega⟩ (fun i hi x hx => ?_)
    rw [hb.get (show x < m by omega), bind_ok, hb.get (show 1 + i < m by omega), bind_ok]
    refine Ok_ok.2 ?_
    by_cases hci : c ≤ i
    · have := hx.2 hci
      subst this
      rw [if_neg (h (1 + i) (by omega) (by omega)).2]
      exact ⟨by omega, fun _ => rfl⟩
    · by_cases he : c = 1 + i
      · rw [← he, if_pos (h x (by omega) (by omega)).1]
        exact ⟨by omega, fun _ => rfl⟩
      · refine ⟨?_, fun h => by omega⟩
        split <;> omega
  obtain ⟨x, e, hx⟩ := this
  rw [hx.2 (by omega)] at e
  exact e

/-- `w c` is the only largest of the first `m` components. -/
theorem Digits.VecTends.top (h : D.Refine) {m c : Nat} {y : ∀ p, Nat → α p} {w : Nat → ℝ} (hy : D.VecTends m y w) (hc : c < m) (hw : ∀ j, j < m → j ≠ c → w j < w c) :
    ∀ᶠ p in atTop, ∀ j, j < m → j ≠ c → y p j < y p c ∧ ¬ y p c < y p j := by
  have : ∀ j, ∀ᶠ p in atTop, j < m → j ≠ c → y p j < y p c ∧ ¬ y p c < y p j := by
    intro j
    by_cases hj : j < m
    · by_cases hjc : j = c
      · exact Eventually.of_forall (fun p _ h => absurd hjc h)
      · filter_upwards [Tends.lt h (hy j hj) (hy c hc) (hw j hj hjc), Tends.not_lt h (hy c hc) (hy j hj) (hw j hj hjc)] with p h1 h2 _ _ using ⟨h1, h2⟩
    · exact Eventually.of_forall (fun p h => absurd h hj)
  have fin : ∀ M, ∀ᶠ p in atTop, ∀ j, j < M → j < m → j ≠ c → y p j < y p c ∧ ¬ y p c < y p j := by
    intro M
    induction M with
    | zero => exact Eventually.of_forall (fun p j hj => absurd hj (Nat.not_lt_zero j))
    | succ M ih =>
      filter_upwards [ih, this M] with p h1 h2 j hj
      rcases Nat.lt_succ_iff_lt_or_eq.1 hj with hj | rfl
      · exact h1 j hj
      · exact h2
  exact (fin m).mono (fun p hp j hj => hp j hj hj)

/-- Training runs that tend to the network `ls`: from some precision on, the accuracy check counts a test sample exactly as it is counted for `ls`: the class predicted is the one
`ls` predicts, provided `ls` has a single largest output (and the target a single largest component). -/
theorem C119_class (h : D.Refine) {n m : Nat} {run : ∀ p, Res (α p × Train (α p))} {ls : List LibLayer} (hr : D.RunsTend n m run ls) {X Z : ∀ p, Ten (α p)} {v z : ∀ p, Nat → α p}
    {w y : Nat → ℝ} (hX : ∀ p, VecIs (X p).data n (v p)) (hv : D.VecTends n v w) (hZ : ∀ p, VecIs (Z p).data m (z p)) (hz : D.VecTends m z y)
    {c c' : Nat} (hc : c < m) (hw : ∀ j, j < m → j ≠ c → libOut ls w j < libOut ls w c) (hc' : c' < m) (hy : ∀ j, j < m → j ≠ c' → y j < y c') :
    ∀ᶠ p in atTop, Ok (do
      let r ← run p
      let o ← Net.feedforward (X p) r.2.net
      Guide.normal (Z p).data o.2.data) (fun b => b = decide (c = c')) := by
  obtain ⟨Q, F, hQ, hrun, hF⟩ := hr
  filter_upwards [(hF v w hv).top h hc hw, hz.top h hc' hy] with p h1 h2
  refine (hrun p).bind (fun r hr => (hr.2 (X p) (v p) (hX p)).bind (fun o ho => ?_))
  unfold Guide.normal
  rw [(hZ p).length, guideMax_of (hZ p) hc' h2, bind_ok, guideMax_of ho hc h1, bind_ok]
  exact Ok_ok.2 (by rcases eq_or_ne c c' with rfl | hn <;> [simp; simp [hn, hn.symm]])

/-! ### The hypotheses can be met -/

/-- Fixed-point numbers with `p` binary digits after the point. -/
structure Fix (p : Nat) where
  n : Int
  deriving DecidableEq

/-- The number it stands for. -/
noncomputable def Fix.val {p : Nat} (a : Fix p) : ℝ := (a.n : ℝ) / 2 ^ p
/-- Rounding to the nearest. -/
noncomputable def Fix.rnd (p : Nat) (x : ℝ) : Fix p := ⟨round (x * 2 ^ p)⟩

/-- Every operation rounds the exact result. -/
noncomputable instance Fix.flt (p : Nat) : Flt (Fix p) where
  zero := ⟨0⟩
  one := ⟨2 ^ p⟩
  add a b := Fix.rnd p (a.val + b.val)
  sub a b := Fix.rnd p (a.val - b.val)
  mul a b := Fix.rnd p (a.val * b.val)
  div a b := Fix.rnd p (a.val / b.val)
  neg a := Fix.rnd p (-a.val)
  lt a b := a.n < b.n
  lit q := Fix.rnd p q
  exp a := Fix.rnd p (Real.exp a.val)
  expm1 a := Fix.rnd p (Real.exp a.val - 1)
  log a := Fix.rnd p (Real.log a.val)
  log1p a := Fix.rnd p (Real.log (1 + a.val))
  tanh a := Fix.rnd p (Real.tanh a.val)
  cosh a := Fix.rnd p (Real.cosh a.val)
  fabs a := Fix.rnd p |a.val|
  decLT a b := (inferInstance : Decidable (a.n < b.n))
noncomputable instance (p : Nat) : NatCast (Fix p) := ⟨fun n => Fix.rnd p n⟩

/-- These types as a sequence of growing precision. -/
noncomputable def fixDigits : Digits Fix := ⟨fun _ _ => True, fun _ a => a.val, fun _ => 0, fun p => (1 / 2) ^ p, fun p => p⟩

theorem Fix.rounds (p : Nat) (x : ℝ) : fixDigits.Rounds p (Fix.rnd p x) x := by
  intro _
  refine ⟨trivial, ?_⟩
  show |((round (x * 2 ^ p) : Int) : ℝ) / 2 ^ p - x| ≤ 0 * |x| + (1 / 2) ^ p
  have h2 : (0 : ℝ) < 2 ^ p := by positivity
  have := abs_sub_round (x * 2 ^ p)
  have e : ((round (x * 2 ^ p) : Int) : ℝ) / 2 ^ p - x = -((x * 2 ^ p - (round (x * 2 ^ p) : Int)) / 2 ^ p) := by field_simp; ring
  rw [e, abs_neg, abs_div, abs_of_pos h2, zero_mul, zero_add, div_le_iff₀ h2, ← mul_pow]
  norm_num at this ⊢
  linarith

theorem fix_refine : fixDigits.Refine where
  u := tendsto_const_nhds
  η := tendsto_pow_atTop_nhds_zero_of_lt_one (by norm_num) (by norm_num)
  M := tendsto_natCast_atTop_atTop
  zero p := ⟨trivial, by show ((0 : Int) : ℝ) / 2 ^ p = 0; simp⟩
  one p := ⟨trivial, by show ((2 ^ p : Int) : ℝ) / 2 ^ p = 1; push_cast; exact div_self (by positivity)⟩
  lit p q := Fix.rounds p _
  nat p n := Fix.rounds p _
  neg p a _ := Fix.rounds p _
  add p a b _ _ := Fix.rounds p _
  sub p a b _ _ := Fix.rounds p _
  mul p a b _ _ := Fix.rounds p _
  div p a b _ _ _ := Fix.rounds p _
  exp p a _ := Fix.rounds p _
  expm1 p a _ := Fix.rounds p _
  log p a _ _ := Fix.rounds p _
  log1p p a _ _ := Fix.rounds p _
  tanh p a _ := Fix.rounds p _
  cosh p a _ := Fix.rounds p _
  fabs p a _ := Fix.rounds p _
  lt p a b _ _ := by
    show a.n < b.n ↔ (a.n : ℝ) / 2 ^ p < (b.n : ℝ) / 2 ^ p
    rw [div_lt_div_iff_of_pos_right (by positivity)]
    exact Int.cast_lt.symm
  mul_one p a := by
    show (⟨round ((a.n : ℝ) / 2 ^ p * (((2 ^ p : Int) : ℝ) / 2 ^ p) * 2 ^ p)⟩ : Fix p) = a
    have h2 : (2 : ℝ) ^ p ≠ 0 := by positivity
    push_cast
    rw [div_self h2, mul_one, div_mul_cancel₀ _ h2, round_intCast]

/-- A network with a hidden `tanh` layer, in exact arithmetic and in every fixed-point type, trained to map 1 to 1/3. -/
noncomputable def pcTrain : Train ℝ := ⟨[.fc (FC.make 1 1 ActKind.tanh.obj 0 1), .fc (FC.make 1 1 ActKind.identity.obj 2 3)], ⟨1, 1, 1, [none]⟩, some Losses.MSE⟩
noncomputable def pcNet : List LibLayer := [⟨1, 1, fun _ => 0, fun _ _ => 0, .elem .tanh⟩, ⟨1, 1, fun _ => 0, fun _ _ => 0, .elem .identity⟩]
noncomputable def pcFix (p : Nat) : Train (Fix p) :=
  ⟨[.fc (FC.make 1 1 ActKind.tanh.fltObj 0 1), .fc (FC.make 1 1 ActKind.identity.fltObj 2 3)], ⟨1, 1, 1, [none]⟩, some LossKind.mse.fltObj⟩
noncomputable def pcFixNet (p : Nat) : List (FltLayer (Fix p)) := [⟨1, 1, fun _ => 0, fun _ _ => 0, .elem .tanh⟩, ⟨1, 1, fun _ => 0, fun _ _ => 0, .elem .identity⟩]

theorem pc_trains : fixDigits.Trains .mse 1 1 pcTrain pcNet (1 / 2) [⟨1, 1, 1, [some (1 : ℝ)]⟩] [⟨1, 1, 1, [some (1 / 3 : ℝ)]⟩] [(fun _ => 1, fun _ => 1 / 3)]
    pcFix pcFixNet (fun p => 1 / (1 + 1)) (fun p => [⟨1, 1, 1, [some (1 : Fix p)]⟩]) (fun p => [⟨1, 1, 1, [some (1 / (1 + (1 + 1)) : Fix p)]⟩])
    (fun p => [(fun _ => 1, fun _ => 1 / (1 + (1 + 1)))]) where
  exact := ⟨.cons ⟨_, rfl, FC.Wf_make 1 1 _ 0 1, rfl⟩ (.cons ⟨_, rfl, FC.Wf_make 1 1 _ 2 3, rfl⟩ .nil), by simp [pcNet], by show 2 < W64; decide, ⟨rfl, rfl, rfl⟩,
    by simp [pcNet], rfl, rfl⟩
  flt p := ⟨.cons ⟨_, rfl, FC.Wf_make 1 1 _ 0 1, rfl⟩ (.cons ⟨_, rfl, FC.Wf_make 1 1 _ 2 3, rfl⟩ .nil), by simp [pcFixNet], by show 2 < W64; decide, ⟨rfl, rfl, rfl⟩,
    by simp [pcFixNet], rfl, rfl⟩
  layers := ⟨_, _, fun _ => rfl, fun _ => ⟨rfl, rfl, rfl⟩, fun _ _ => Digits.Tends.zero fix_refine, fun _ _ _ _ => Digits.Tends.zero fix_refine,
    _, _, fun _ => rfl, fun _ => ⟨rfl, rfl, rfl⟩, fun _ _ => Digits.Tends.zero fix_refine, fun _ _ _ _ => Digits.Tends.zero fix_refine, fun _ => rfl⟩
  rate := by
    have h1 := Digits.Tends.one fix_refine
    have := Digits.Tends.div fix_refine h1 (Digits.Tends.add fix_refine h1 h1) (by norm_num)
    norm_num at this ⊢
    exact this
  data := ⟨.cons (VecIs_of [1] _ (by simp)) .nil, .cons (VecIs_of [1 / 3] _ (by simp)) .nil⟩
  fdata p := ⟨.cons (VecIs_of [1] _ (by simp)) .nil, .cons (VecIs_of [1 / (1 + (1 + 1))] _ (by simp)) .nil⟩
  tend := ⟨_, _, fun _ => rfl, fun i _ => Digits.Tends.one fix_refine, fun i _ => by
    have h1 := Digits.Tends.one fix_refine
    have := Digits.Tends.div fix_refine h1 (Digits.Tends.add fix_refine h1 (Digits.Tends.add fix_refine h1 h1)) (by norm_num)
    norm_num at this ⊢
    exact this, fun _ => rfl⟩

/-- No kinks in this network: all runs tend to the exact ones, for every number of epochs. -/
example (N : Nat) : ∃ ls, endsWith 1 1 (Train.batch gdUpdate [⟨1, 1, 1, [some (1 : ℝ)]⟩] [⟨1, 1, 1, [some (1 / 3 : ℝ)]⟩] N (1 / 2, pcTrain)) ls ∧
    fixDigits.RunsTend 1 1 (fun p => Train.batch gdUpdate [⟨1, 1, 1, [some (1 : Fix p)]⟩] [⟨1, 1, 1, [some (1 / (1 + (1 + 1)) : Fix p)]⟩] N (1 / (1 + 1), pcFix p)) ls := by
  obtain ⟨P, _, hs, h1, h2⟩ := C119_batch (k := .mse) fix_refine (fun h => nomatch h) pc_trains (by simp)
  refine ⟨P N, h1 N, h2 N (fun e _ vw _ => ⟨?_, fun h => nomatch h⟩)⟩
  have := hs e
  generalize P e = qs at this
  unfold sameShape pcNet at this
  obtain ⟨q1, qs1, rfl⟩ : ∃ a b, qs = a :: b := by cases this; exact ⟨_, _, rfl⟩
  cases this with
  | cons a1 t1 =>
    cases t1 with
    | cons a2 t2 =>
      cases t2
      exact ⟨fun k hk j _ => by rw [a1.2.2] at hk; cases hk; simp [ActKind.kinks], fun k hk j _ => by rw [a2.2.2] at hk; cases hk; simp [ActKind.kinks], trivial⟩

/-- These networks have not been trained in batches. -/
example : pcTrain.net.Clean ∧ ∀ p, (pcFix p).net.Clean := by
  refine ⟨fun l hl f e => ?_, fun p l hl f e => ?_⟩ <;> subst e
  · rcases List.mem_cons.1 hl with h | h
    · cases h; rfl
    · cases List.mem_singleton.1 h; rfl
  · rcases List.mem_cons.1 hl with h | h
    · cases h; rfl
    · cases List.mem_singleton.1 h; rfl

/-- Outputs tending to (1/2, 1/3): the class is 0 from some precision on. -/
example : ∀ᶠ p in atTop, ∀ j, j < 2 → j ≠ 0 → ((fun i => if i = 0 then 1 / (1 + 1) else 1 / (1 + (1 + 1)) : Nat → Fix p) j < (1 / (1 + 1) : Fix p)) := by
  have h1 := Digits.Tends.one fix_refine
  have h2 := Digits.Tends.add fix_refine h1 h1
  have hy : fixDigits.VecTends 2 (fun p i => if i = 0 then 1 / (1 + 1) else 1 / (1 + (1 + 1)) : ∀ p, Nat → Fix p) (fun i => if i = 0 then 1 / (1 + 1) else 1 / (1 + (1 + 1))) := by
    intro i _
    by_cases hi : i = 0
    · simp only [hi, if_true]
      exact Digits.Tends.div fix_refine h1 h2 (by norm_num)
    · simp only [hi, if_false]
      exact Digits.Tends.div fix_refine h1 (Digits.Tends.add fix_refine h1 h2) (by norm_num)
  refine (hy.top fix_refine (c := 0) (by decide) (fun j _ hj => ?_)).mono (fun p hp j hj hj0 => (hp j hj hj0).1)
  simp only [hj, if_false, if_true]
  norm_num

end Trixy
