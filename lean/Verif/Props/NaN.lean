import Verif.Spec.NaN
import Verif.Props.Checker
import Verif.Props.ConvExact
import Verif.Props.Pool
import Verif.Props.Descent
import Verif.Props.Optim
import Verif.Proof.NetDense
/- Property C89 (values that are not numbers). -/
set_option linter.unusedSectionVars false
namespace Trixy
open Finset NaNs

variable {α : Type}

/-! The functions of Model/Flt.lean on the real line are those of Model/Scalar.lean and Model/Loss.lean. -/

/-- The real line as a "floating-point type". -/
@[instance_reducible] noncomputable def realFlt : Flt ℝ :=
  { lit := fun q => (q : ℝ), exp := Real.exp, expm1 := Fn.expm1, log := Real.log, log1p := fun x => Real.log (1 + x),
    tanh := Real.tanh, cosh := Real.cosh, fabs := fun x => |x|, decLT := fun _ _ => inferInstance }

theorem C89_real_activations (k : ActKind) :
    k.obj.f = mapInto (@ActKind.flt ℝ realFlt k) ∧ k.obj.fSelf = mapSelf (@ActKind.flt ℝ realFlt k) := by
  have lits : ((0.2 : ℚ) : ℝ) = 0.2 ∧ ((0.01 : ℚ) : ℝ) = 0.01 ∧ ((1.050701 : ℚ) : ℝ) = 1.050701 ∧ ((1.758099 : ℚ) : ℝ) = 1.758099 ∧
      ((0.5 : ℚ) : ℝ) = 0.5 ∧ ((0.797885 : ℚ) : ℝ) = 0.797885 ∧ ((0.0356774 : ℚ) : ℝ) = 0.0356774 ∧ ((0.99 : ℚ) : ℝ) = 0.99 := by
    norm_num
  obtain ⟨l1, l2, l3, l4, l5, l6, l7, l8⟩ := lits
  have key : ∃ g, (∀ x, @ActKind.flt ℝ realFlt k x = g x) ∧ k.obj.f = mapInto g ∧ k.obj.fSelf = mapSelf g := by
    cases k
    · exact ⟨_, fun x => rfl, rfl, rfl⟩
    · exact ⟨_, fun x => rfl, rfl, rfl⟩
    · exact ⟨Fn.elu, fun x => by show (if x > 0 then x else ((0.2 : ℚ) : ℝ) * _) = _; rw [l1]; rfl, rfl, rfl⟩
    · exact ⟨Fn.lrelu, fun x => by show (if x > 0 then x else ((0.01 : ℚ) : ℝ) * _) = _; rw [l2]; rfl, rfl, rfl⟩
    · exact ⟨Fn.selu, fun x => by
        show (if x > 0 then ((1.050701 : ℚ) : ℝ) * x else ((1.758099 : ℚ) : ℝ) * _) = _; rw [l3, l4]; rfl, rfl, rfl⟩
    · exact ⟨Fn.gelu, fun x => by
        show ((0.5 : ℚ) : ℝ) * x * (Real.tanh (x * ((0.797885 : ℚ) : ℝ) + x * x * x * ((0.0356774 : ℚ) : ℝ)) + 1) = _
        rw [l5, l6, l7]; rfl, rfl, rfl⟩
    · exact ⟨_, fun x => rfl, rfl, rfl⟩
    · exact ⟨_, fun x => rfl, rfl, rfl⟩
    · exact ⟨_, fun x => rfl, rfl, rfl⟩
    · exact ⟨_, fun x => rfl, rfl, rfl⟩
    · exact ⟨_, fun x => rfl, rfl, rfl⟩
    · exact ⟨Fn.modRelu, fun x => by
        show (if x < 0 then ((0.01 : ℚ) : ℝ) * x else if x > 1 then ((0.99 : ℚ) : ℝ) + ((0.01 : ℚ) : ℝ) * x else x) = _
        rw [l2, l8]; rfl, rfl, rfl⟩
    · exact ⟨Fn.modTanh, fun x => by
        show (if x < 0 then ((0.01 : ℚ) : ℝ) * Real.tanh x else Real.tanh x) = _
        rw [l2]; rfl, rfl, rfl⟩
  obtain ⟨g, h1, h2, h3⟩ := key
  rw [funext h1]
  exact ⟨h2, h3⟩

/-- The same for the losses; for the log error, whenever the real model is defined (it reports a zero divisor). -/
theorem C89_real_losses (t p : Buf ℝ) :
    @FltLoss.mse ℝ realFlt t p = Losses.mse t p ∧ @FltLoss.mae ℝ realFlt t p = Losses.mae t p ∧
    @FltLoss.cce ℝ realFlt t p = Losses.cce t p ∧ @FltLoss.bce ℝ realFlt t p = Losses.bce t p ∧
    @FltLoss.nll ℝ realFlt t p = Losses.nll t p ∧ @FltLoss.logcosh ℝ realFlt t p = Losses.logcosh t p := by
  have l5 : ((0.5 : ℚ) : ℝ) = 0.5 := by norm_num
  have l9 : ((1e-9 : ℚ) : ℝ) = 1e-9 := by norm_num
  have le : @FltLoss.eps ℝ realFlt = Losses.eps := l9
  refine ⟨?_, rfl, ?_, ?_, rfl, rfl⟩
  · unfold Losses.mse
    rw [← l5]; rfl
  · unfold Losses.cce
    rw [← le]; rfl
  · unfold Losses.bce
    rw [← le]; rfl

/-- See `C89_real_losses`. -/
theorem C89_real_msle (t p : Buf ℝ) (v : ℝ) (h : Losses.msle t p = .ok v) : @FltLoss.msle ℝ realFlt t p = .ok v := by
  have l5 : ((0.5 : ℚ) : ℝ) = 0.5 := by norm_num
  unfold Losses.msle at h
  obtain ⟨s, hs, hv⟩ := res_bind_inv h
  unfold FltLoss.msle
  have key : ∀ n s, forN n (0 : ℝ) (fun i s => do
      let b ← p.get i
      let a ← t.get i
      let f ← fdiv (b + 1) (a + 1)
      let f := Real.log f
      return s + f * f) = .ok s → forN n (0 : ℝ) (fun i s => do
      let b ← p.get i
      let a ← t.get i
      let f := (b + 1) / (a + 1)
      let f := Real.log f
      return s + f * f) = .ok s := by
    intro n
    induction n with
    | zero => exact fun s h => h
    | succ n ih =>
      intro s h
      rw [forN_succ] at h ⊢
      obtain ⟨s1, h1, h⟩ := res_bind_inv h
      rw [ih s1 h1, bind_ok]
      obtain ⟨b, hb, h⟩ := res_bind_inv h
      obtain ⟨a, ha, h⟩ := res_bind_inv h
      obtain ⟨f, hf, h⟩ := res_bind_inv h
      rw [hb, bind_ok, ha, bind_ok]
      unfold fdiv at hf
      split at hf
      · cases hf
      · cases hf; exact h
  have e := key _ s hs
  rw [← l5] at hv
  exact (congrArg (fun r : Res ℝ => r >>= fun s => pure (s * ((0.5 : ℚ) : ℝ))) e).trans hv

variable [Flt α] [NaNs α]

/-! ## Activations -/

/-- Every element-wise activation except ReLU gives NaN for NaN. -/
theorem C89_activation (k : ActKind) (hk : k ≠ .relu) (x : α) (hx : nan x) : nan (k.flt x) := by
  have h0 : ¬ x > 0 := NaNs.lt _ _ (.inr hx)
  have h0' : ¬ x < 0 := NaNs.lt _ _ (.inl hx)
  have h1 : ¬ x > 1 := NaNs.lt _ _ (.inr hx)
  cases k
  · exact hx
  · exact absurd rfl hk
  · show nan (if x > 0 then _ else _); rw [if_neg h0]; exact mul _ _ (.inr (expm1 _ hx))
  · show nan (if x > 0 then _ else _); rw [if_neg h0]; exact mul _ _ (.inr hx)
  · show nan (if x > 0 then _ else _); rw [if_neg h0]; exact mul _ _ (.inr (expm1 _ hx))
  · exact mul _ _ (.inl (mul _ _ (.inr hx)))
  · exact div _ _ (.inr (add _ _ (.inl (exp _ (neg _ hx)))))
  · exact tanh _ hx
  · exact div _ _ (.inl hx)
  · exact log _ (add _ _ (.inl (exp _ hx)))
  · exact div _ _ (.inl hx)
  · show nan (if x < 0 then _ else if x > 1 then _ else _); rw [if_neg h0', if_neg h1]; exact hx
  · show nan (if x < 0 then _ else _); rw [if_neg h0']; exact tanh _ hx

/-- ReLU turns NaN into the number 0. -/
theorem C89_relu_violated (x : α) (hx : nan x) : ActKind.relu.flt x = 0 ∧ ¬ nan (ActKind.relu.flt x) := by
  have e : ActKind.relu.flt x = 0 := by
    show (if x > 0 then _ else _) = _
    rw [if_neg (NaNs.lt _ _ (.inr hx))]
  exact ⟨e, by rw [e]; exact NaNs.zero⟩

theorem foldSum_nan {z : α} {n : Nat} {t : Nat → α} (h : nan z ∨ ∃ i, i < n ∧ nan (t i)) : nan (foldSum z n t) := by
  induction n with
  | zero =>
    rcases h with h | ⟨i, hi, _⟩
    · exact h
    · omega
  | succ n ih =>
    rw [foldSum_succ]
    rcases h with h | ⟨i, hi, h⟩
    · exact add _ _ (.inl (ih (.inl h)))
    · by_cases e : i = n
      · subst e; exact add _ _ (.inr h)
      · exact add _ _ (.inl (ih (.inr ⟨i, by omega, h⟩)))

theorem rangeMax_defined {x : Buf α} {n : Nat} {v : Nat → α} (hx : VecIs x n v) (hn : 0 < n) :
    Ok (rangeMax x) (fun _ => True) := by
  unfold rangeMax
  rw [hx.get hn, bind_ok, hx.length]
  refine forLoop_spec (fun _ _ => True) (by omega) trivial (fun i _ hi m _ => ?_)
  rw [hx.get hi, bind_ok]
  exact Ok_ok.2 trivial

theorem normalise_nan {r : Buf α} {n : Nat} {e : Nat → α} (hr : VecIs r n e) (h : ∃ i, i < n ∧ nan (e i)) :
    Ok (normalise fltRecip r) (fun r' => ∃ o, VecIs r' n o ∧ ∀ i, i < n → nan (o i)) := by
  unfold normalise
  rw [hr.length]
  refine (forN_spec (fun i (s : α) => s = foldSum 0 i e) rfl (fun i hi s hs => ?_)).bind (fun s hs => ?_)
  · rw [hr.get hi, bind_ok, hs]; exact Ok_ok.2 rfl
  · unfold fltRecip
    rw [bind_ok]
    refine (scaleInto_spec hr _).mono (fun r' q => ⟨_, q, fun i _ => mul _ _ (.inr (div _ _ (.inr ?_)))⟩)
    rw [hs]; exact foldSum_nan (.inr h)

/-- Softmax: a NaN in one component makes all components NaN, whether or not result and input are the same object. -/
theorem C89_softmax (r x : Buf α) (n : Nat) (v : Nat → α) (hr : r.length = n) (hx : VecIs x n v) (h : ∃ i, i < n ∧ nan (v i)) :
    Ok (fltSoftMax.f r x) (fun r' => ∃ o, VecIs r' n o ∧ ∀ i, i < n → nan (o i)) ∧
    Ok (fltSoftMax.fSelf x) (fun r' => ∃ o, VecIs r' n o ∧ ∀ i, i < n → nan (o i)) := by
  obtain ⟨i, hi, hn⟩ := h
  constructor
  · show Ok (softmax fltExp fltRecip r x) _
    unfold softmax
    refine (rangeMax_defined hx (by omega)).bind (fun m _ => ?_)
    refine Ok.bind (P := fun b => VecIs b n (fun i => Flt.exp (v i - m))) ?_
      (fun b hb => normalise_nan hb ⟨i, hi, exp _ (sub _ _ (.inl hn))⟩)
    unfold expInto
    subst hr
    refine forN_vec (BufIs_self r) (fun j hj r g hg _ => ?_)
    rw [hx.get hj, bind_ok]
    unfold fltExp
    rw [bind_ok]
    exact hg.set hj _
  · show Ok (softmaxSelf fltExp fltRecip x) _
    unfold softmaxSelf
    refine (rangeMax_defined hx (by omega)).bind (fun m _ => ?_)
    refine Ok.bind (P := fun b => VecIs b n (fun i => Flt.exp (v i - m))) ?_
      (fun b hb => normalise_nan hb ⟨i, hi, exp _ (sub _ _ (.inl hn))⟩)
    unfold expSelf
    rw [hx.length]
    refine forN_vec hx (fun j hj r g hg he => ?_)
    rw [hg.get hj he, bind_ok]
    unfold fltExp
    rw [bind_ok]
    exact hg.set hj _

/-- What softmax computes over a floating-point type. -/
def fltMax (v : Nat → α) (n : Nat) : α := iter (n - 1) (v 0) (fun i m => if m < v (1 + i) then v (1 + i) else m)
def fltSm (n : Nat) (v : Nat → α) (j : Nat) : α :=
  Flt.exp (v j - fltMax v n) * (1 / foldSum 0 n (fun i => Flt.exp (v i - fltMax v n)))

omit [NaNs α] in
theorem iter_congr' {n : Nat} {s : α} {f g : Nat → α → α} (h : ∀ i, i < n → ∀ s, f i s = g i s) : iter n s f = iter n s g := by
  induction n with
  | zero => rfl
  | succ n ih => rw [iter_succ, iter_succ, ih (fun i hi => h i (by omega)), h n (by omega)]

omit [NaNs α] in
/-- Softmax of at least one component is an activation in the sense of the layer theorems. -/
theorem fltSoftMax_Is (n : Nat) (hn : 0 < n) : (fltSoftMax : Act α).Is n (fltSm n) (fun _ _ => 1) := by
  have mx : ∀ {x : Buf α} {v : Nat → α}, VecIs x n v → rangeMax x = .ok (fltMax v n) := by
    intro x v hx
    apply Ok.eq
    unfold rangeMax
    rw [hx.get hn, bind_ok, hx.length]
    unfold forLoop fltMax
    refine forN_spec (fun i m => m = iter i (v 0) (fun i m => if m < v (1 + i) then v (1 + i) else m)) rfl (fun i hi m hm => ?_)
    dsimp only
    rw [hx.get (show 1 + i < n by omega), bind_ok]
    exact Ok_ok.2 (by rw [iter_succ, ← hm])
  have norm : ∀ {r : Buf α} {e : Nat → α}, VecIs r n e → Ok (normalise fltRecip r) (fun r' => VecIs r' n (fun j => e j * (1 / foldSum 0 n e))) := by
    intro r e hr
    unfold normalise
    rw [hr.length]
    refine (forN_spec (fun i (s : α) => s = foldSum 0 i e) rfl (fun i hi s hs => ?_)).bind (fun s hs => ?_)
    · rw [hr.get hi, bind_ok, hs]; exact Ok_ok.2 rfl
    · unfold fltRecip
      rw [bind_ok, hs]
      exact scaleInto_spec hr _
  have mcongr : ∀ v v' : Nat → α, (∀ i, i < n → v i = v' i) → fltMax v n = fltMax v' n := by
    intro v v' h
    unfold fltMax
    rw [h 0 hn]
    exact iter_congr' (fun i hi s => by rw [h (1 + i) (by omega)])
  refine ⟨fun r x v hr hx => ?_, fun x v hx => ?_, fun r x v hr hx => ?_, fun x v hx => ?_, fun v v' h i hi => ?_, fun v v' h i hi => rfl⟩
  · show Ok (softmax fltExp fltRecip r x) _
    unfold softmax
    rw [mx hx, bind_ok]
    refine Ok.bind (P := fun b => VecIs b n (fun i => Flt.exp (v i - fltMax v n))) ?_ (fun b hb => norm hb)
    unfold expInto
    subst hr
    refine forN_vec (BufIs_self r) (fun j hj r g hg _ => ?_)
    rw [hx.get hj, bind_ok]
    unfold fltExp
    rw [bind_ok]
    exact hg.set hj _
  · show Ok (softmaxSelf fltExp fltRecip x) _
    unfold softmaxSelf
    rw [mx hx, bind_ok]
    refine Ok.bind (P := fun b => VecIs b n (fun i => Flt.exp (v i - fltMax v n))) ?_ (fun b hb => norm hb)
    unfold expSelf
    rw [hx.length]
    refine forN_vec hx (fun j hj r g hg he => ?_)
    rw [hg.get hj he, bind_ok]
    unfold fltExp
    rw [bind_ok]
    exact hg.set hj _
  · exact fillInto_spec hr 1
  · exact fillInto_spec hx.length 1
  · unfold fltSm
    rw [h i hi, mcongr v v' h]
    congr 2
    exact foldSum_congr 0 n (fun j hj => by rw [h j hj])

/-! ## Layers and networks -/

/-- The activation objects of the library that are not ReLU: element-wise classes (with any derivative) and softmax. -/
inductive NotReLU : Act α → Prop
  | elementwise (k : ActKind) (hk : k ≠ .relu) (g' : α → α) : NotReLU (Act.elementwise k.flt g')
  | softmax : NotReLU fltSoftMax

theorem NotReLU.all {act : Act α} (h : NotReLU act) {m : Nat} {F D : (Nat → α) → Nat → α} (hF : act.Is m F D) {v : Nat → α}
    (hv : ∀ j, j < m → nan (v j)) : ∀ j, j < m → nan (F v j) := by
  have hb : VecIs (Buf.of ((List.range m).map v)) m v := by
    have := VecIs_of ((List.range m).map v) v (fun i hi => by simp)
    simpa using this
  intro j hj
  obtain ⟨r, e, hr⟩ := hF.fSelf _ v hb
  cases h with
  | elementwise k hk g' =>
    obtain ⟨r', e', hr'⟩ := mapSelf_spec (g := k.flt) hb
    cases e.symm.trans e'
    rw [(hr.unique hr').2 j hj]
    exact C89_activation k hk _ (hv j hj)
  | softmax =>
    obtain ⟨r', e', o, hr', ho⟩ := (C89_softmax (Buf.of ((List.range m).map v)) _ m v hb.1 hb ⟨j, hj, hv j hj⟩).2
    cases e.symm.trans e'
    rw [(hr.unique hr').2 j hj]
    exact ho j hj

/-- A dense layer: a NaN in the input, in column `j` of the weights or in the bias makes the pre-activation NaN; a NaN in the
input makes the whole output NaN, unless the activation is ReLU. -/
theorem C89_dense (l : FC α) (n m : Nat) (b : Nat → α) (W : Nat → Nat → α) (h : l.Wf n m b W) (F D : (Nat → α) → Nat → α)
    (hact : l.act.Is m F D) (hs : NotReLU l.act) (x : Ten α) (v : Nat → α) (hx : VecIs x.data n v) (hnan : ∃ i, i < n ∧ nan (v i)) :
    Ok (l.forward x) (fun l' => ∃ o, RowIs l'.value m o ∧ ∀ j, j < m → nan (o j)) := by
  refine (C26_forward l n m b W h F D hact x v hx).mono (fun l' q => ⟨_, q.1, hs.all hact (fun j _ => ?_)⟩)
  obtain ⟨i, hi, hn⟩ := hnan
  exact add _ _ (.inl (foldSum_nan (.inr ⟨i, hi, mul _ _ (.inl hn)⟩)))

/-- NaN parameters: with an element-wise activation other than ReLU, output `j` is NaN as soon as bias `j` or a weight of
column `j` is. -/
theorem C89_dense_parameters (l : FC α) (n m : Nat) (b : Nat → α) (W : Nat → Nat → α) (h : l.Wf n m b W) (k : ActKind) (hk : k ≠ .relu)
    (g' : α → α) (hact : l.act = Act.elementwise k.flt g') (x : Ten α) (v : Nat → α) (hx : VecIs x.data n v) :
    Ok (l.forward x) (fun l' => ∃ o, RowIs l'.value m o ∧
      ∀ j, j < m → (nan (b j) ∨ ∃ i, i < n ∧ nan (W i j)) → nan (o j)) := by
  refine (C26_forward l n m b W h _ _ (by rw [hact]; exact Act.Is.elementwise k.flt g' m) x v hx).mono (fun l' q =>
    ⟨_, q.1, fun j _ hn => C89_activation k hk _ ?_⟩)
  rcases hn with hn | ⟨i, hi, hn⟩
  · exact add _ _ (.inr hn)
  · exact add _ _ (.inl (foldSum_nan (.inr ⟨i, hi, mul _ _ (.inr hn)⟩)))

theorem netOut_nan {net : Net α} : ∀ {ps : List (Dense α)} {n m : Nat} {v : Nat → α}, net.IsDense ps → Chain n ps m →
    (∀ l ∈ net, ∀ f, l = .fc f → NotReLU f.act) → (∀ p ∈ ps, 1 ≤ p.m) → (ps ≠ []) → (∃ i, i < n ∧ nan (v i)) →
    ∀ j, j < m → nan (netOut ps v j) := by
  induction net with
  | nil => intro ps n m v h _ _ _ hne; cases h; exact absurd rfl hne
  | cons l ls ih =>
    intro ps n m v h hc hs hp _ hn
    cases h with
    | @cons _ p _ ps h hps =>
      obtain ⟨f, rfl, hwf, hact⟩ := h
      obtain ⟨e, hc⟩ := hc
      have out : ∀ j, j < p.m → nan (p.out v j) := by
        refine (hs _ List.mem_cons_self f rfl).all hact (fun j _ => ?_)
        obtain ⟨i, hi, hn⟩ := hn
        exact add _ _ (.inl (foldSum_nan (.inr ⟨i, by omega, mul _ _ (.inl hn)⟩)))
      intro j hj
      show nan (netOut ps (p.out v) j)
      by_cases hne : ps = []
      · subst hne
        cases hc
        exact out j hj
      · exact ih hps hc (fun l hl => hs l (List.mem_cons_of_mem _ hl)) (fun p hp' => hp p (List.mem_cons_of_mem _ hp')) hne
          ⟨0, hp p List.mem_cons_self, out 0 (hp p List.mem_cons_self)⟩ j hj

/-- A network of dense layers without ReLU: a NaN anywhere in the input makes every output NaN. -/
theorem C89_network (net : Net α) (ps : List (Dense α)) (h : net.IsDense ps) (n m : Nat) (hc : Chain n ps m) (hne : net ≠ [])
    (hN : net.length < W64) (hs : ∀ l ∈ net, ∀ f, l = .fc f → NotReLU f.act) (hp : ∀ p ∈ ps, 1 ≤ p.m)
    (x : Ten α) (v : Nat → α) (hx : VecIs x.data n v) (hnan : ∃ i, i < n ∧ nan (v i)) :
    Ok (net.feedforward x) (fun r => ∃ o, RowIs r.2 m o ∧ ∀ j, j < m → nan (o j)) := by
  rw [Net.feedforward_eq x net hne hN]
  obtain ⟨sts, hsts, e⟩ := h.at
  refine (ff_dense hsts (by rw [e]; exact hc) hx).bind (fun net' q => ?_)
  obtain ⟨h1, h2⟩ := q
  rw [e] at h2
  have hne' : net' ≠ [] := fun e' => hne (by
    have := h1.length; rw [e', ← hsts.length] at this; exact List.length_eq_zero_iff.1 this.symm)
  obtain ⟨l, el, hl⟩ := h2.last hc hne'
  rw [el, bind_ok]
  refine Ok_ok.2 ⟨_, hl, netOut_nan h hc hs hp ?_ hnan⟩
  intro e'
  subst e'
  cases h
  exact hne rfl

theorem netOut_congr : ∀ {ps : List (Dense α)} {n m : Nat} {v v' : Nat → α}, Chain n ps m → (∀ i, i < n → v i = v' i) →
    ∀ j, j < m → netOut ps v j = netOut ps v' j := by
  intro ps n m v v' hc hv j hj
  cases ps with
  | nil => cases hc; exact hv j hj
  | cons p ps =>
    have : p.out v = p.out v' := by
      unfold Dense.out
      congr 1
      funext k
      unfold affine
      rw [foldSum_congr 0 p.n (fun i hi => by rw [hv i (by have := hc.1; omega)])]
    show netOut ps (p.out v) j = netOut ps (p.out v') j
    rw [this]

/-- A network whose first layer is a ReLU layer: an input with a NaN gives the numbers the rest of the network computes from the
all-zero vector, whatever the other inputs and the parameters of the first layer are. -/
theorem C89_relu_network_violated (f : FC α) (net : Net α) (p : Dense α) (ps : List (Dense α)) (h : Net.IsDense (.fc f :: net) (p :: ps))
    (g' : α → α) (hr : f.act = Act.elementwise ActKind.relu.flt g') (n m : Nat) (hc : Chain n (p :: ps) m) (hN : net.length + 1 < W64)
    (x : Ten α) (v : Nat → α) (hx : VecIs x.data n v) (hnan : ∃ i, i < n ∧ nan (v i)) :
    Ok (Net.feedforward x (.fc f :: net)) (fun r => RowIs r.2 m (netOut ps (fun _ => 0))) := by
  rw [Net.feedforward_eq x _ (by simp) (by simpa using hN)]
  obtain ⟨sts, hsts, e⟩ := h.at
  refine (ff_dense hsts (by rw [e]; exact hc) hx).bind (fun net' q => ?_)
  obtain ⟨h1, h2⟩ := q
  rw [e] at h2
  have hne' : net' ≠ [] := fun e' => by
    have := h1.length; rw [e', ← hsts.length] at this; simp at this
  obtain ⟨l, el, hl⟩ := h2.last hc hne'
  rw [el, bind_ok]
  refine Ok_ok.2 ⟨hl.1, hl.2.1, hl.2.2.1, hl.2.2.2.congr (fun j hj => ?_)⟩
  show netOut ps (p.out v) j = _
  refine netOut_congr hc.2 (fun k hk => ?_) j hj
  cases h with
  | cons h _ =>
    obtain ⟨f', ef, hwf, hact⟩ := h
    cases ef
    obtain ⟨i, hi, hn⟩ := hnan
    have e0 : ∀ k, nan (affine p.n p.W p.b v k) := fun k =>
      add _ _ (.inl (foldSum_nan (.inr ⟨i, by have := hc.1; omega, mul _ _ (.inl hn)⟩)))
    have hb : VecIs (Buf.of ((List.range p.m).map (affine p.n p.W p.b v))) p.m (affine p.n p.W p.b v) := by
      have := VecIs_of ((List.range p.m).map (affine p.n p.W p.b v)) (affine p.n p.W p.b v) (fun i hi => by simp)
      simpa using this
    obtain ⟨r, er, hr1⟩ := hact.fSelf _ _ hb
    rw [hr] at er
    obtain ⟨r', er', hr'⟩ := mapSelf_spec (g := ActKind.relu.flt) hb
    cases er.symm.trans er'
    show p.F (affine p.n p.W p.b v) k = 0
    rw [(hr1.unique hr').2 k hk]
    exact (C89_relu_violated _ (e0 k)).1

/-! ## Convolution -/

theorem iter_nan {n : Nat} {s : α} {f : Nat → α → α} (hf : ∀ i, i < n → ∀ s, nan s → nan (f i s))
    (h : nan s ∨ ∃ i, i < n ∧ ∀ s, nan (f i s)) : nan (iter n s f) := by
  induction n with
  | zero =>
    rcases h with h | ⟨i, hi, _⟩
    · exact h
    · omega
  | succ n ih =>
    rw [iter_succ]
    rcases h with h | ⟨i, hi, h⟩
    · exact hf n (by omega) _ (ih (fun i hi => hf i (by omega)) (.inl h))
    · by_cases e : i = n
      · subst e; exact h _
      · exact hf n (by omega) _ (ih (fun i hi => hf i (by omega)) (.inr ⟨i, by omega, h⟩))

/-- A convolution (no activation): output (f,y,z) is NaN as soon as the bias, an input cell under the filter, or the weight over
such a cell is NaN. -/
theorem C89_convolution (l : Conv α) (d h w fc fh fw pad sv sh : Nat) (b : Nat → α)
    (W : Nat → Nat → Nat → Nat → α) (gb : Nat → α) (gW : Nat → Nat → Nat → Nat → α)
    (hl : l.Wf d h w fc fh fw pad sv sh b W gb gW) (x : Ten α) (v : Nat → Nat → Nat → α) (hx : TenIs x d h w v) :
    Ok (l.forward x) (fun l' => ∃ o, TenIs l'.value fc (extent h fh pad sv) (extent w fw pad sh) o ∧
      ∀ f y z, (nan (b f) ∨ ∃ c i j r s, c < d ∧ i < fh ∧ j < fw ∧ r < h ∧ s < w ∧ sv * y + i = r + pad ∧ sh * z + j = s + pad ∧
          (nan (v c r s) ∨ nan (W f c i j))) →
        nan (o f y z)) := by
  refine (C70_forward l d h w fc fh fw pad sv sh b W gb gW hl x v hx).mono (fun l' q => ⟨_, q.1, fun f y z hn => ?_⟩)
  unfold corrExact
  have inner : ∀ i j s, nan s → nan (iter d s (fun c s => s + v c (sv * y + i - pad) (sh * z + j - pad) * W f c i j)) :=
    fun i j s hs => iter_nan (fun c _ s hs => add _ _ (.inl hs)) (.inl hs)
  have cell : ∀ i j s, nan s → nan (if Inside pad h (sv * y + i) ∧ Inside pad w (sh * z + j)
      then iter d s (fun c s => s + v c (sv * y + i - pad) (sh * z + j - pad) * W f c i j) else s) := fun i j s hs => by
    split
    · exact inner i j s hs
    · exact hs
  refine iter_nan (fun i _ s hs => iter_nan (fun j _ s hs => cell i j s hs) (.inl hs)) ?_
  rcases hn with hn | ⟨c, i, j, r, s, hc, hi, hj, hr, hs, er, es, hn⟩
  · exact .inl hn
  · refine .inr ⟨i, hi, fun t => iter_nan (fun j _ s hs => cell i j s hs) (.inr ⟨j, hj, fun t => ?_⟩)⟩
    have e1 : sv * y + i - pad = r := by omega
    have e2 : sh * z + j - pad = s := by omega
    rw [if_pos (show Inside pad h (sv * y + i) ∧ Inside pad w (sh * z + j) from
      ⟨⟨by omega, by rw [e1]; exact hr⟩, ⟨by omega, by rw [e2]; exact hs⟩⟩), e1, e2]
    exact iter_nan (fun c _ s hs => add _ _ (.inl hs)) (.inr ⟨c, hc, fun t => add _ _ (.inr (mul _ _ hn))⟩)

/-! ## Max-pooling -/

/-- What the scan of a window finds: NaN exactly if the first cell is NaN; otherwise a cell that is a number and that no
number of the window exceeds. -/
def WindowNaN (x : Nat → Nat → Nat → α) (sv sh c p q : Nat) (m : α) : Prop :=
  (nan (x c (p * sv) (q * sh)) → m = x c (p * sv) (q * sh)) ∧
  (¬ nan (x c (p * sv) (q * sh)) → ¬ nan m ∧ (∃ a b, a < sv ∧ b < sh ∧ m = x c (p * sv + a) (q * sh + b)) ∧
    ∀ a b, a < sv → b < sh → ¬ m < x c (p * sv + a) (q * sh + b))

theorem poolScan_nan {input : Ten α} {x : Nat → Nat → Nat → α} {d oh ow sv sh c p q : Nat} (hsv : 1 ≤ sv) (hsh : 1 ≤ sh)
    (hx : TenIs input d (oh * sv) (ow * sh) x) (hc : c < d) (hp : p < oh) (hq : q < ow) :
    Ok (poolScan input sv sh c (p * sv) (q * sh)) (WindowNaN x sv sh c p q) := by
  unfold poolScan
  have hin : ∀ a, a < sv → p * sv + a < oh * sv := fun a ha => idx2_lt hp ha
  have hin' : ∀ b, b < sh → q * sh + b < ow * sh := fun b hb => idx2_lt hq hb
  have h00 := hx.get hc (hin 0 (by omega)) (hin' 0 (by omega))
  rw [Nat.add_zero, Nat.add_zero] at h00
  rw [h00, bind_ok]
  let P : Nat → Nat → α → Prop := fun a b m =>
    (nan (x c (p * sv) (q * sh)) → m = x c (p * sv) (q * sh)) ∧
    (¬ nan (x c (p * sv) (q * sh)) → ¬ nan m ∧ (∃ a b, a < sv ∧ b < sh ∧ m = x c (p * sv + a) (q * sh + b)) ∧
      ∀ a' b', b' < sh → Before a b a' b' → ¬ m < x c (p * sv + a') (q * sh + b'))
  refine (forN_spec (fun a m => P a 0 m) ⟨fun _ => rfl, fun h => ⟨h, ⟨0, 0, hsv, hsh, rfl⟩, fun a' b' _ h => by unfold Before at h; omega⟩⟩
    (fun a ha m hm => ?_)).mono (fun m hm => ⟨hm.1, fun h => ⟨(hm.2 h).1, (hm.2 h).2.1, fun a b ha hb => (hm.2 h).2.2 a b hb (Or.inl ha)⟩⟩)
  refine (forN_spec (fun b m => P a b m) hm (fun b hb m hm => ?_)).mono (fun m hm => ⟨hm.1, fun h =>
    ⟨(hm.2 h).1, (hm.2 h).2.1, fun a' b' hb' hbe => (hm.2 h).2.2 a' b' hb' (by unfold Before at *; omega)⟩⟩)
  rw [hx.get hc (hin a ha) (hin' b hb), bind_ok]
  obtain ⟨h1, h2⟩ := hm
  by_cases hlt : m < x c (p * sv + a) (q * sh + b)
  · rw [if_pos hlt]
    refine Ok_ok.2 ⟨fun h => ?_, fun h => ⟨fun hn => NaNs.lt _ _ (.inr hn) hlt, ⟨a, b, ha, hb, rfl⟩, fun a' b' hb' hbe hl => ?_⟩⟩
    · rw [h1 h] at hlt
      exact absurd hlt (NaNs.lt _ _ (.inl h))
    · by_cases e : a' = a ∧ b' = b
      · rw [e.1, e.2] at hl; exact NaNs.irrefl _ hl
      · exact (h2 h).2.2 a' b' hb' (by unfold Before at *; omega) (NaNs.trans _ _ _ hlt hl)
  · rw [if_neg hlt]
    refine Ok_ok.2 ⟨h1, fun h => ⟨(h2 h).1, (h2 h).2.1, fun a' b' hb' hbe => ?_⟩⟩
    by_cases e : a' = a ∧ b' = b
    · rw [e.1, e.2]; exact hlt
    · exact (h2 h).2.2 a' b' hb' (by unfold Before at *; omega)

/-- Inference max-pooling on data with NaN. -/
theorem C89_pool_violated (l : Pool α) (d oh ow sv sh : Nat) (hl : l.Wf d oh ow sv sh) (k : ActKind) (g' : α → α)
    (ha : l.act = Act.elementwise k.flt g') (input : Ten α) (x : Nat → Nat → Nat → α) (hx : TenIs input d (oh * sv) (ow * sh) x) :
    Ok (l.forwardRaw input) (fun l' => ∃ mx : Nat → Nat → Nat → α,
      (∀ c p q, c < d → p < oh → q < ow → WindowNaN x sv sh c p q (mx c p q)) ∧
      TenIs l'.value d oh ow (fun c p q => k.flt (mx c p q))) := by
  unfold Pool.forwardRaw
  have hsv := hl.hsv
  have hsh := hl.hsh
  obtain ⟨v0, hv0⟩ := hl.value
  have hex : ∀ c p q, ∃ m, (c < d ∧ p < oh ∧ q < ow) → poolScan input sv sh c (p * sv) (q * sh) = .ok m ∧ WindowNaN x sv sh c p q m := by
    intro c p q
    by_cases h : c < d ∧ p < oh ∧ q < ow
    · obtain ⟨m, e, hm⟩ := poolScan_nan hsv hsh hx h.1 h.2.1 h.2.2
      exact ⟨m, fun _ => ⟨e, hm⟩⟩
    · exact ⟨v0 0 0 0, fun h' => absurd h' h⟩
  choose mx hmx using hex
  refine Ok.bind (P := fun t => TenIs t d oh ow mx) ?_ (fun t ht => ?_)
  · rw [hl.isz.1, hl.isz.2.1, hl.isz.2.2, hl.str.1, hl.str.2, rounds_mul hsv, rounds_mul hsh]
    refine forN_ten (new := mx) hv0 (fun c p q hc hp hq r g hr _ => ?_)
    rw [(hmx c p q ⟨hc, hp, hq⟩).1, bind_ok, Nat.mul_div_cancel _ (by omega), Nat.mul_div_cancel _ (by omega)]
    exact hr.set hc hp hq _
  · rw [ha]
    refine (mapSelf_spec (g := k.flt) ht.flat).bind (fun r hr => Ok_ok.2 ⟨mx, fun c p q hc hp hq => (hmx c p q ⟨hc, hp, hq⟩).2, ?_⟩)
    have h3 : TenIs { t with data := r } d oh ow _ := TenIs.of_flat (t := { t with data := r }) ht.1 ht.2.1 ht.2.2.1 hr
    exact h3.congr (fun c p q _ hp hq => by
      obtain ⟨e1, e2, e3⟩ := idx3_split (i := c) hp hq
      rw [e1, e2, e3])

/-- In particular, with the identity activation: unless the first cell of a window is NaN, the output cell is a number, so a NaN
elsewhere in the window is dropped; and if the first cell is NaN, the output is NaN whatever the rest of the window is. -/
theorem C89_pool_drops_violated (l : Pool α) (d oh ow sv sh : Nat) (hl : l.Wf d oh ow sv sh) (g' : α → α)
    (ha : l.act = Act.elementwise ActKind.identity.flt g') (input : Ten α) (x : Nat → Nat → Nat → α)
    (hx : TenIs input d (oh * sv) (ow * sh) x) :
    Ok (l.forwardRaw input) (fun l' => ∃ o, TenIs l'.value d oh ow o ∧ ∀ c p q, c < d → p < oh → q < ow →
      (nan (o c p q) ↔ nan (x c (p * sv) (q * sh)))) := by
  refine (C89_pool_violated l d oh ow sv sh hl .identity g' ha input x hx).mono (fun l' ⟨mx, h1, h2⟩ => ⟨_, h2, fun c p q hc hp hq => ?_⟩)
  obtain ⟨w1, w2⟩ := h1 c p q hc hp hq
  show nan (mx c p q) ↔ _
  constructor
  · intro h
    by_contra h'
    exact (w2 h').1 h
  · intro h
    rw [w1 h]; exact h

/-! ## Losses -/

theorem lossSum_nan {m : Nat} {a b : Nat → α}
    {body : Nat → α → Res α} {g : Nat → α → α} (hb : ∀ i, i < m → ∀ s, body i s = .ok (g i s))
    (h1 : ∀ i s, nan s → nan (g i s)) (h2 : ∀ i s, nan (a i) ∨ nan (b i) → nan (g i s))
    (hn : ∃ i, i < m ∧ (nan (a i) ∨ nan (b i))) : Ok (forN m (0 : α) body) nan := by
  obtain ⟨i, hi, hn⟩ := hn
  refine (forN_spec (fun k s => i < k → nan s) (fun h => by omega) (fun k hk s hs => ?_)).mono (fun s hs => hs hi)
  rw [hb k hk s]
  refine Ok_ok.2 (fun hlt => ?_)
  by_cases e : k = i
  · subst e; exact h2 k s hn
  · exact h1 k s (hs (by omega))

/-- Every loss of the library: a NaN in the target or in the prediction makes the loss NaN. -/
theorem C89_loss (k : LossKind) (t p : Buf α) (m : Nat) (a b : Nat → α) (ht : VecIs t m a) (hp : VecIs p m b)
    (hn : ∃ i, i < m ∧ (nan (a i) ∨ nan (b i))) : Ok (FltLoss.ofKind k t p) nan := by
  have hs : ∀ x y : α, nan x ∨ nan y → nan (y - x) := fun x y h => sub _ _ h.symm
  cases k
  · show Ok (FltLoss.mse t p) nan
    unfold FltLoss.mse
    rw [ht.length]
    refine (lossSum_nan (g := fun i s => s + (a i - b i) * (a i - b i)) (fun i hi s => ?_) (fun i s h => add _ _ (.inl h))
      (fun i s h => add _ _ (.inr (mul _ _ (.inl (sub _ _ h))))) hn).bind (fun s h => Ok_ok.2 (mul _ _ (.inl h)))
    rw [ht.get hi, bind_ok, hp.get hi, bind_ok]; rfl
  · show Ok (FltLoss.mae t p) nan
    unfold FltLoss.mae
    rw [ht.length]
    refine lossSum_nan (g := fun i s => s + Flt.fabs (b i - a i)) (fun i hi s => ?_) (fun i s h => add _ _ (.inl h))
      (fun i s h => add _ _ (.inr (fabs _ (hs _ _ h)))) hn
    rw [hp.get hi, bind_ok, ht.get hi, bind_ok]; rfl
  · show Ok (FltLoss.cce t p) nan
    unfold FltLoss.cce
    rw [ht.length]
    refine lossSum_nan (g := fun i s => s - a i * Flt.log (b i + FltLoss.eps)) (fun i hi s => ?_) (fun i s h => sub _ _ (.inl h))
      (fun i s h => sub _ _ (.inr (mul _ _ (h.imp id (fun h => log _ (add _ _ (.inl h))))))) hn
    rw [ht.get hi, bind_ok, hp.get hi, bind_ok]; rfl
  · show Ok (FltLoss.bce t p) nan
    unfold FltLoss.bce
    rw [ht.length]
    refine lossSum_nan (g := fun i s => s - (a i * Flt.log (b i + FltLoss.eps) + (1 - a i) * Flt.log1p (FltLoss.eps - b i)))
      (fun i hi s => ?_) (fun i s h => sub _ _ (.inl h))
      (fun i s h => sub _ _ (.inr (add _ _ (.inl (mul _ _ (h.imp id (fun h => log _ (add _ _ (.inl h))))))))) hn
    rw [ht.get hi, bind_ok, hp.get hi, bind_ok]; rfl
  · show Ok (FltLoss.msle t p) nan
    unfold FltLoss.msle
    rw [ht.length]
    refine (lossSum_nan (g := fun i s => s + Flt.log ((b i + 1) / (a i + 1)) * Flt.log ((b i + 1) / (a i + 1)))
      (fun i hi s => ?_) (fun i s h => add _ _ (.inl h))
      (fun i s h => add _ _ (.inr (mul _ _ (.inl (log _ (div _ _ (h.symm.imp (fun h => add _ _ (.inl h)) (fun h => add _ _ (.inl h)))))))))
      hn).bind (fun s h => Ok_ok.2 (mul _ _ (.inl h)))
    rw [hp.get hi, bind_ok, ht.get hi, bind_ok]; rfl
  · show Ok (FltLoss.nll t p) nan
    unfold FltLoss.nll
    rw [ht.length]
    refine (lossSum_nan (g := fun i s => s + a i * b i) (fun i hi s => ?_) (fun i s h => add _ _ (.inl h))
      (fun i s h => add _ _ (.inr (mul _ _ h))) hn).bind (fun s h => Ok_ok.2 (neg _ (log _ h)))
    rw [ht.get hi, bind_ok, hp.get hi, bind_ok]; rfl
  · show Ok (FltLoss.logcosh t p) nan
    unfold FltLoss.logcosh
    rw [ht.length]
    refine lossSum_nan (g := fun i s => s + Flt.log (Flt.cosh (b i - a i))) (fun i hi s => ?_) (fun i s h => add _ _ (.inl h))
      (fun i s h => add _ _ (.inr (log _ (cosh _ (hs _ _ h))))) hn
    rw [hp.get hi, bind_ok, ht.get hi, bind_ok]; rfl

/-- The derivative of the mean absolute error is 0 – "nothing to learn" – at every component where the target or the
prediction is NaN. -/
theorem C89_mae_derivative_violated (r t p : Buf α) (m : Nat) (a b : Nat → α) (hr : r.length = m) (ht : VecIs t m a) (hp : VecIs p m b) :
    Ok (FltLoss.maeD r t p) (fun r' => ∃ g, VecIs r' m g ∧ ∀ i, i < m → nan (a i) ∨ nan (b i) → g i = 0) := by
  unfold FltLoss.maeD
  subst hr
  refine (forN_vec (new := fun i => if a i - b i < 0 then (-1 : α) else if a i - b i > 0 then 1 else 0) (BufIs_self r)
    (fun i hi s g hg _ => ?_)).mono (fun r' h => ⟨_, h, fun i _ hn => ?_⟩)
  · rw [ht.get hi, bind_ok, hp.get hi, bind_ok]
    obtain ⟨s1, e1, h1⟩ := hg.set hi (a i - b i)
    have e2 : s1.get i = .ok (a i - b i) := h1.get hi (if_pos rfl)
    rw [e1, bind_ok, e2, bind_ok]
    exact (h1.set hi _).mono (fun s' h' => h'.congr (fun j _ => by by_cases e : j = i <;> simp [e]))
  · have hn := sub _ _ hn
    rw [if_neg (NaNs.lt _ _ (.inl hn)), if_neg (NaNs.lt _ _ (.inr hn))]

/-! ## Optimizers -/

/-- After any sequence of updates of a tensor: a component that was NaN before, or got a NaN gradient at least once, is NaN. -/
def KeepsNaN {σ : Type} (upd : Upd σ α) (fresh : σ) : Prop :=
  ∀ (k n : Nat) (P : Nat → Buf α) (p : Nat → α) (gs : List (Buf α)) (g : Nat → Nat → α), VecIs (P k) n p → Grads gs n g →
    Ok (runUpd upd fresh P (gs.map (fun G => (k, G)))) (fun r => ∃ p', VecIs (r.2 k) n p' ∧
      ∀ i, i < n → (nan (p i) ∨ ∃ t, t < gs.length ∧ nan (g t i)) → nan (p' i))

theorem keepsNaN_of {σ : Type} {upd : Upd σ α} {fresh : σ} (Inv : Nat → Nat → σ → Prop) (h0 : ∀ k n, Inv k n fresh)
    (hs : ∀ k n s P G p g, Inv k n s → VecIs P n p → VecIs G n g → Ok (upd s k P G) (fun r => Inv k n r.1 ∧
      ∃ p', VecIs r.2.1 n p' ∧ ∀ i, i < n → nan (p i) ∨ nan (g i) → nan (p' i))) : KeepsNaN upd fresh := by
  intro k n P p gs g hp hg
  refine (runUpd_single gs (fun t s b => Inv k n s ∧ ∃ p', VecIs b n p' ∧
    ∀ i, i < n → (nan (p i) ∨ ∃ τ, τ < t ∧ nan (g τ i)) → nan (p' i)) ⟨h0 k n, p, hp, fun i _ h => ?_⟩ (fun t ht s b ⟨hi, p', hb, hn⟩ => ?_)).mono
    (fun r h => h.2)
  · rcases h with h | ⟨τ, h, _⟩
    · exact h
    · omega
  · refine (hs k n s b _ p' _ hi hb (hg t ht)).mono (fun r ⟨h1, q, h2, h3⟩ => ⟨h1, q, h2, fun i hi h => h3 i hi ?_⟩)
    rcases h with h | ⟨τ, hτ, h⟩
    · exact .inl (hn i hi (.inl h))
    · by_cases e : τ = t
      · subst e; exact .inr h
      · exact .inl (hn i hi (.inr ⟨τ, by omega, h⟩))

/-- Training does not repair NaN: whatever gradients follow, a parameter that is NaN, or was given a NaN gradient once, stays
NaN, with each of these optimizers (Adam: `C89_adam` in Props/AdamFlt.lean; `isq` is `1 / sqrt(1e-9 + x)`, of which nothing is
used). -/
theorem C89_optimizers (lr mu beta : α) (isq : α → α) :
    KeepsNaN gdUpdate lr ∧ KeepsNaN sgdUpdate (Sgd.make lr mu) ∧ KeepsNaN momUpdate (Mom.make lr mu) ∧
    KeepsNaN nesUpdate (Mom.make lr mu) ∧ KeepsNaN (adagradUpdate isq) (Ada.make lr beta) ∧
    KeepsNaN (rmspropUpdate isq) (Ada.make lr beta) := by
  have emp : ∀ k n, VecIs (Table.get (fun _ => none : Table α) k n) n (fun _ => 0) := Table.get_empty
  refine ⟨?_, ?_, ?_, ?_, ?_, ?_⟩
  · exact keepsNaN_of (fun _ _ _ => True) (fun _ _ => trivial) (fun k n s P G p g _ hp hg => (gd_spec hp hg).mono (fun r q =>
      ⟨trivial, _, q.2.1, fun i _ h => sub _ _ (h.imp id (fun h => mul _ _ (.inl h)))⟩))
  · exact keepsNaN_of (fun _ _ _ => True) (fun _ _ => trivial) (fun k n s P G p g _ hp hg => (sgd_spec hp hg).mono (fun r q =>
      ⟨trivial, _, q.2.1, fun i _ h => sub _ _ (h.imp (fun h => mul _ _ (.inl h)) (fun h => mul _ _ (.inl h)))⟩))
  · exact keepsNaN_of (fun k n s => (s.buff.get k n).length = n ∧ ∃ v, VecIs (s.opt.get k n) n v)
      (fun k n => ⟨(emp k n).length, _, emp k n⟩)
      (fun k n s P G p g ⟨h1, v, h2⟩ hp hg => (mom_spec hp hg h1 h2).mono (fun r q =>
        ⟨⟨q.2.2.1, _, q.2.2.2.1⟩, _, q.2.2.2.2.1, fun i _ h => add _ _ (h.imp id (fun h => sub _ _ (.inr (mul _ _ (.inr h)))))⟩))
  · exact keepsNaN_of (fun k n s => (s.buff.get k n).length = n ∧ ∃ v, VecIs (s.opt.get k n) n v)
      (fun k n => ⟨(emp k n).length, _, emp k n⟩)
      (fun k n s P G p g ⟨h1, v, h2⟩ hp hg => (nes_spec hp hg h1 h2).mono (fun r q =>
        ⟨⟨q.2.2.1, _, q.2.2.2.1⟩, _, q.2.2.2.2.1, fun i _ h => add _ _ (.inl (sub _ _ (h.imp id (fun h => mul _ _ (.inr h)))))⟩))
  · exact keepsNaN_of (fun k n s => (s.buff.get k n).length = n ∧ ∃ v, VecIs (s.opt.get k n) n v)
      (fun k n => ⟨(emp k n).length, _, emp k n⟩)
      (fun k n s P G p g ⟨h1, v, h2⟩ hp hg => (adagrad_spec hp hg h1 h2).mono (fun r q =>
        ⟨⟨q.2.1, _, q.2.2.1⟩, _, q.2.2.2.1, fun i _ h => sub _ _ (h.imp id (fun h => mul _ _ (.inl (mul _ _ (.inr h)))))⟩))
  · exact keepsNaN_of (fun k n s => (s.buff.get k n).length = n ∧ ∃ v, VecIs (s.opt.get k n) n v)
      (fun k n => ⟨(emp k n).length, _, emp k n⟩)
      (fun k n s P G p g ⟨h1, v, h2⟩ hp hg => (rmsprop_spec hp hg h1 h2).mono (fun r q =>
        ⟨⟨q.2.2.2.1, _, q.2.2.2.2.1⟩, _, q.2.2.2.2.2.1, fun i _ h => sub _ _ (h.imp id (fun h => mul _ _ (.inl (mul _ _ (.inr h)))))⟩))

/-! ## Accuracy -/

theorem cabs_nan {x : α} (h : nan x) : nan (cabs x) := by
  unfold cabs
  rw [if_neg (NaNs.lt _ _ (.inl h))]
  exact h

variable {ν ι : Type} {ff : ι → ν → Res (ν × Buf α)} {Inv : ν → Prop} {D : ι → Prop} {N m : Nat} {F : ι → Nat → α} {idata : List ι}
  {odata : List (Buf α)} {x : Nat → ι} {y : Nat → Nat → α} {net : ν}

/-- `Accuracy.full` counts a prediction that is NaN in every component as correct: a network that has diverged to NaN gets
the perfect score, whatever the targets and the tolerance are. -/
theorem C89_full_violated (hff : Predicts ff Inv D m F) (hd : SetIs idata odata D N m x y) (hnet : Inv net) (hN : 0 < N) (r : α)
    (hnan : ∀ i j, i < N → j < m → nan (F (x i) j)) : Ok (Accuracy.full ff r idata odata net) (fun q => Inv q.2 ∧ q.1 = 1) := by
  have guide : ∀ {t p : Buf α} {a b : Nat → α}, VecIs t m a → VecIs p m b → (∀ j, j < m → nan (b j)) →
      ∀ k j, j + k = m → guideFull t p r k j = .ok true := by
    intro t p a b ht hp hb k
    induction k with
    | zero => intro j _; rfl
    | succ k ih =>
      intro j hj
      unfold guideFull
      rw [ht.get (show j < m by omega), bind_ok, hp.get (show j < m by omega), bind_ok,
        if_neg (NaNs.lt _ _ (.inr (cabs_nan (sub _ _ (.inr (hb j (by omega)))))))]
      exact ih (j + 1) (by omega)
  unfold Accuracy.full
  refine (countAll_spec (c := fun _ => 1) hff hd hnet (fun i hi t p ht hp => ?_)).bind (fun ⟨n1, c⟩ hr => ?_)
  · unfold Guide.full asCount
    rw [ht.length, guide ht hp (fun j hj => hnan i j hi hj) m 0 (by omega)]
    rfl
  · dsimp only at hr ⊢
    rw [hd.osize, ratio_ok hN]
    refine Ok_ok.2 ⟨hr.1, ?_⟩
    rw [hr.2]
    have : (N : Rat) ≠ 0 := by exact_mod_cast hN.ne'
    simp [div_self this]

/-- `Accuracy.global` does not: predictions that are NaN score 0. -/
theorem C89_global (hff : Predicts ff Inv D m F) (hd : SetIs idata odata D N m x y) (hnet : Inv net) (hN : 0 < N) (hm : 0 < m)
    (hw : N * m < W64) (r : α) (hnan : ∀ i j, i < N → j < m → nan (F (x i) j)) :
    Ok (Accuracy.global ff r idata odata net) (fun q => Inv q.2 ∧ q.1 = 0) := by
  unfold Accuracy.global
  refine (countAll_spec (c := fun _ => 0) hff hd hnet (fun i hi t p ht hp => ?_)).bind (fun ⟨n1, c⟩ hr => ?_)
  · unfold Guide.global
    rw [ht.length]
    apply Ok.eq
    refine forN_spec (fun i c => c = 0) rfl (fun j hj c hc => ?_)
    rw [ht.get hj, bind_ok, hp.get hj, bind_ok, if_neg (NaNs.lt _ _ (.inl (cabs_nan (sub _ _ (.inr (hnan i j hi hj))))))]
    exact Ok_ok.2 hc
  · dsimp only at hr ⊢
    obtain ⟨y0, e0, h0⟩ := hd.target 0 hN
    rw [e0, bind_ok, hd.osize, h0.length, wmul_eq hw, ratio_ok (Nat.mul_pos hN hm)]
    refine Ok_ok.2 ⟨hr.1, ?_⟩
    rw [hr.2]; simp

/-- The search of `Accuracy.normal`: with NaN in position 0 it answers 0; otherwise the first greatest number. -/
def NumMax (f : Nat → α) (n k : Nat) : Prop :=
  k < n ∧ (nan (f 0) → k = 0) ∧ (¬ nan (f 0) → ¬ nan (f k) ∧ (∀ j, j < n → ¬ f k < f j) ∧ ∀ j, j < k → ¬ nan (f j) → f j < f k)

theorem numMax_step {f : Nat → α} {n k : Nat} (h : NumMax f n k) : NumMax f (n + 1) (if f k < f n then n else k) := by
  obtain ⟨h0, h1, h2⟩ := h
  by_cases hlt : f k < f n
  · rw [if_pos hlt]
    refine ⟨by omega, fun hn => ?_, fun hn => ?_⟩
    · rw [h1 hn] at hlt; exact absurd hlt (NaNs.lt _ _ (.inl hn))
    · obtain ⟨a1, a2, a3⟩ := h2 hn
      have hnn : ¬ nan (f n) := fun h => NaNs.lt _ _ (.inr h) hlt
      refine ⟨hnn, fun j hj hl => ?_, fun j hj hjn => ?_⟩
      · by_cases e : j = n
        · subst e; exact NaNs.irrefl _ hl
        · exact a2 j (by omega) (NaNs.trans _ _ _ hlt hl)
      · by_contra hc
        exact NaNs.incomp _ _ _ a1 hjn hnn (a2 j hj) hc hlt
  · rw [if_neg hlt]
    refine ⟨by omega, h1, fun hn => ?_⟩
    obtain ⟨a1, a2, a3⟩ := h2 hn
    refine ⟨a1, fun j hj => ?_, a3⟩
    by_cases e : j = n
    · subst e; exact hlt
    · exact a2 j (by omega)

theorem NumMax.unique {f : Nat → α} {n k k' : Nat} (h : NumMax f n k) (h' : NumMax f n k') : k = k' := by
  by_cases hn : nan (f 0)
  · rw [h.2.1 hn, h'.2.1 hn]
  · obtain ⟨a1, a2, a3⟩ := h.2.2 hn
    obtain ⟨b1, b2, b3⟩ := h'.2.2 hn
    rcases Nat.lt_trichotomy k k' with hl | hl | hl
    · exact absurd (b3 k hl a1) (a2 k' h'.1)
    · exact hl
    · exact absurd (a3 k' hl b1) (b2 k h.1)

/-- `argmax` on data with NaN: defined, in range; the answer is 0 if the first element is NaN (whatever the others are) and
otherwise the first greatest of the elements that are numbers. -/
theorem C89_argmax_violated (b : Buf α) (n : Nat) (f : Nat → α) (hb : VecIs b n f) (hn : 0 < n) :
    Ok (argmax (fun x y => decide (x < y)) b) (NumMax f n) := by
  unfold argmax search
  rw [hb.length, if_neg (by omega)]
  refine forLoop_spec (fun it hold => NumMax f it hold) (by omega) ⟨by omega, fun _ => rfl, fun h => ⟨h, fun j hj => ?_, fun j hj => by omega⟩⟩
    (fun it h1 h2 hold hi => ?_)
  · have : j = 0 := by omega
    subst this; exact NaNs.irrefl _
  · rw [hb.get (show hold < n by have := hi.1; omega), bind_ok, hb.get h2, bind_ok]
    simp only [decide_eq_true_eq]
    exact Ok_ok.2 (numMax_step hi)

theorem guideMax_nan {n m : Nat} {v : Buf α} {f : Nat → α} (hv : VecIs v m f) (hn : 0 < n) (hm : n ≤ m) : Ok (guideMax n v) (NumMax f n) := by
  unfold guideMax
  refine forLoop_spec (fun it hold => NumMax f it hold) (by omega) ⟨by omega, fun _ => rfl, fun h => ⟨h, fun j hj => ?_, fun j hj => by omega⟩⟩
    (fun it h1 h2 hold hi => ?_)
  · have : j = 0 := by omega
    subst this; exact NaNs.irrefl _
  · rw [hv.get (show hold < m by have := hi.1; omega), bind_ok, hv.get (show it < m by omega), bind_ok]
    exact Ok_ok.2 (numMax_step hi)

open Classical in
/-- `Accuracy.normal` reads a prediction that is NaN in every component as "class 0": the score of a network that has diverged
to NaN is the fraction of targets in class 0. -/
theorem C89_normal_violated (hff : Predicts ff Inv D m F) (hd : SetIs idata odata D N m x y) (hnet : Inv net) (hN : 0 < N) (hm : 0 < m)
    (hnan : ∀ i j, i < N → j < m → nan (F (x i) j)) :
    Ok (Accuracy.normal ff idata odata net) (fun q => Inv q.2 ∧ q.1 = fractionOf N (fun i => NumMax (y i) m 0)) := by
  unfold Accuracy.normal
  refine (countAll_spec (c := fun i => if NumMax (y i) m 0 then 1 else 0) hff hd hnet (fun i hi t p ht hp => ?_)).bind (fun ⟨n1, c⟩ hr => ?_)
  · unfold Guide.normal
    obtain ⟨k, ek, hk⟩ := guideMax_nan ht hm (Nat.le_refl m)
    obtain ⟨k', ek', hk'⟩ := guideMax_nan hp hm (Nat.le_refl m)
    rw [ht.length, ek, bind_ok, ek', bind_ok, hk'.2.1 (hnan i 0 hi hm)]
    show Except.ok (if (k == 0) = true then 1 else 0) = _
    congr 1
    by_cases e : k = 0
    · subst e; rw [if_pos hk]; simp
    · rw [if_neg (c := NumMax (y i) m 0) (fun h => e (hk.unique h))]; simp [e]
  · dsimp only at hr ⊢
    rw [hd.osize, ratio_ok hN]
    refine Ok_ok.2 ⟨hr.1, ?_⟩
    rw [hr.2, sum_ite_card]
    rfl

/-! ## The hypotheses can be met -/

section
open RatNaN

def nanRow : Buf RatNaN := Buf.of [num 1, nan, num 3]
def nanVec : Nat → RatNaN := fun i => if i = 0 then num 1 else if i = 1 then nan else num 3

theorem nanRow_is : VecIs nanRow 3 nanVec :=
  VecIs_of [num 1, nan, num 3] nanVec (fun i hi => by
    match i, hi with
    | 0, _ => rfl
    | 1, _ => rfl
    | 2, _ => rfl)

/-- A loss with a NaN in the prediction, a softmax of a vector with a NaN, and the position of its "maximum". -/
example : Ok (FltLoss.ofKind .bce (Buf.of [num 0, num 1, num 0]) nanRow) (NaNs.nan (α := RatNaN)) :=
  C89_loss .bce _ _ 3 (fun i => if i = 1 then num 1 else num 0) nanVec
    (VecIs_of [num 0, num 1, num 0] _ (fun i hi => by
      match i, hi with
      | 0, _ => rfl
      | 1, _ => rfl
      | 2, _ => rfl)) nanRow_is ⟨1, by decide, .inr rfl⟩
example : NaNs.nan (ActKind.sigmoid.flt (nan : RatNaN)) := C89_activation .sigmoid (by decide) _ rfl
example : argmax (fun x y : RatNaN => decide (x < y)) nanRow = .ok 2 := by decide +kernel
example : argmax (fun x y : RatNaN => decide (x < y)) (Buf.of [nan, num 1, num 3]) = .ok 0 := by decide +kernel
/-- A dense network with a GELU and a softmax layer, and an input with a NaN. -/
example : Ok (Net.feedforward ⟨1, 1, 3, nanRow⟩ [.fc (FC.make 3 2 (Act.elementwise ActKind.gelu.flt id) 0 1), .fc (FC.make 2 2 fltSoftMax 2 3)])
    (fun r => ∃ o, RowIs r.2 2 o ∧ ∀ j, j < 2 → NaNs.nan (o j)) :=
  C89_network _ [⟨3, 2, fun _ => 0, fun _ _ => 0, fun v i => ActKind.gelu.flt (v i), fun v i => v i⟩, ⟨2, 2, fun _ => 0, fun _ _ => 0, fltSm 2, fun _ _ => 1⟩]
    (.cons ⟨_, rfl, FC.Wf_make 3 2 (Act.elementwise ActKind.gelu.flt id) 0 1, Act.Is.elementwise _ _ _⟩ (.cons ⟨_, rfl, FC.Wf_make 2 2 fltSoftMax 2 3, fltSoftMax_Is 2 (by decide)⟩ .nil))
    3 2 ⟨rfl, rfl, rfl⟩ (by simp) (by decide)
    (fun l hl f e => by
      rcases List.mem_cons.1 hl with h | h
      · cases h; cases e; exact .elementwise .gelu (by decide) id
      · cases List.mem_singleton.1 h; cases e; exact .softmax)
    (fun p hp => by
      rcases List.mem_cons.1 hp with h | h
      · cases h; decide
      · cases List.mem_singleton.1 h; decide)
    _ nanVec nanRow_is ⟨1, by decide, rfl⟩
/-- A diverged "network" (it answers NaN to everything) has the perfect `full` score and is in class 0 for `normal`. -/
example : Accuracy.full (fun (_ : Unit) (n : Unit) => .ok (n, Buf.of [nan, nan])) (num 0)
    [(), ()] [Buf.of [num 0, num 1], Buf.of [num 5, num 6]] () = .ok (1, ()) := by decide +kernel
example : Predicts (fun (_ : Unit) (n : Unit) => (.ok (n, Buf.of [nan, nan]) : Res (Unit × Buf RatNaN))) (fun _ => True) (fun _ => True) 2 (fun _ _ => nan) :=
  fun _ _ _ _ => Ok_ok.2 ⟨trivial, VecIs_of [nan, nan] _ (fun i hi => by
    match i, hi with
    | 0, _ => rfl
    | 1, _ => rfl)⟩
end

end Trixy
