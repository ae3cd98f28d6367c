import Verif.Proof.StackDeriv
import Verif.Props.Library
/- Property C83 (back-propagation through stacks of convolution and dense layers). -/
namespace Trixy
open Finset

variable {α : Type}

/-- `feedforward(x)` then `backprop(x, y)`: every parameter keeps its value, the gradient members of a dense layer become
`stackGrads` for the delta `dL target output`, those of a convolution grow by it (Spec/Stack.lean). -/
theorem C83_backprop [CommSemiring α] [LT α] [DecidableLT α] (t : Train α) (sts : List (SSt α)) (a b : Nat × Nat × Nat)
    (dL : (Nat → α) → (Nat → α) → Nat → α) (h : t.Holds sts a b dL) (x y : Ten α) (v w : Nat → α)
    (hx : StackInput (sts.map (·.s)) x v) (hy : VecIs y.data (cells b) w) :
    Ok (do let t ← t.feedforward x; t.backprop x y) (fun t' => ∃ sts' : List (SSt α), t'.Holds sts' a b dL ∧ sts'.map (·.s) = sts.map (·.s) ∧
      ∀ (i : Nat) (st : SSt α), sts[i]? = some st → ∃ (st' : SSt α) (G : PRef → α), sts'[i]? = some st' ∧
        (stackGrads (sts.map (·.s)) v (dL w (stackOut (sts.map (·.s)) v)))[i]? = some G ∧
        st'.g = st.s.newGrad st.g G ∧ st'.a = st.a ∧ st'.acc = st.acc) := by
  have hg : (stackSample dL (sts.map (·.s)) (v, w)).length = sts.length := by rw [stackSample_length]; simp
  refine (h.step hx hy).mono (fun t' q => ⟨_, q.1, addG_s _ _ hg, fun i st hi => ?_⟩)
  have hlt : i < sts.length := (List.getElem?_eq_some_iff.1 hi).1
  have e : (stackSample dL (sts.map (·.s)) (v, w))[i]? = some ((stackSample dL (sts.map (·.s)) (v, w))[i]'(by omega)) :=
    List.getElem?_eq_getElem _
  refine ⟨{ st with g := st.s.newGrad st.g _ }, _, ?_, e, rfl, rfl, rfl⟩
  unfold addG
  rw [List.getElem?_zipWith, hi, e]

/-- Over the reals: what the pass contributed to the gradient member of any parameter of any layer — dense or convolution, at
any depth, whatever the layers' gradient members held before — is the partial derivative of the loss of the network's output with
respect to that parameter. -/
theorem C83_partials (t : Train ℝ) (sts : List (SSt ℝ)) (a b : Nat × Nat × Nat)
    (L : (Nat → ℝ) → (Nat → ℝ) → ℝ) (dL : (Nat → ℝ) → (Nat → ℝ) → Nat → ℝ) (h : t.Holds sts a b dL) (x y : Ten ℝ) (v w : Nat → ℝ)
    (hx : StackInput (sts.map (·.s)) x v) (hy : VecIs y.data (cells b) w)
    (hd : StackDiff (sts.map (·.s)) v) (hL : LossDiffAt L dL (cells b) w (stackOut (sts.map (·.s)) v)) :
    Ok (do let t ← t.feedforward x; t.backprop x y) (fun t' => ∃ sts' : List (SSt ℝ), t'.Holds sts' a b dL ∧ sts'.map (·.s) = sts.map (·.s) ∧
      ∀ (i : Nat) (st : SSt ℝ) (r : PRef), sts[i]? = some st → st.s.Has r → ∃ st' : SSt ℝ, sts'[i]? = some st' ∧
        HasDerivAt (fun z => L w (stackOut ((sts.map (·.s)).set i (st.s.set r z)) v)) (st.s.fresh st.g st'.g r) (st.s.get r)) := by
  refine (C83_backprop t sts a b dL h x y v w hx hy).mono (fun t' q => ?_)
  obtain ⟨sts', h1, h2, h3⟩ := q
  refine ⟨sts', h1, h2, fun i st r hi hr => ?_⟩
  obtain ⟨st', G, e1, e2, e3, _⟩ := h3 i st hi
  refine ⟨st', e1, ?_⟩
  have hsi : (sts.map (·.s))[i]? = some st.s := by simp [hi]
  obtain ⟨y', hy', hu⟩ := stack_param (sts.map (·.s)) h.fits hd hsi hr
  obtain ⟨G', e4, hG⟩ := hu (dL w (stackOut (sts.map (·.s)) v))
  rw [e2] at e4
  cases e4
  have hset : (sts.map (·.s)).set i (st.s.set r (st.s.get r)) = sts.map (·.s) := by
    rw [Stage.set_get]
    obtain ⟨hlt, he⟩ := List.getElem?_eq_some_iff.1 hsi
    rw [← he]; exact List.set_getElem_self hlt
  have := hL (fun z => stackOut ((sts.map (·.s)).set i (st.s.set r z)) v) y' (st.s.get r) (fun k _ => by rw [hset]) hy'
  refine this.congr_deriv (hG.trans ?_)
  rw [e3]
  cases st.s with
  | dense p => rfl
  | conv p => show G r = (st.g r + G r) - st.g r; ring

/-! ### Library classes -/

/-- What the gradient contribution of one pass is, read off the layer objects before (`g`) and after (`g'`). -/
noncomputable def LibStage.fresh (s : LibStage) (g g' : PRef → ℝ) (r : PRef) : ℝ := (s.stage LibAct.D).fresh g g' r

theorem smooth_diff (ss : List LibStage) (v : Nat → ℝ) (h : LibStage.smooth LibAct.D ss v) : StackDiff (ss.map (·.stage LibAct.D)) v := by
  induction ss generalizing v with
  | nil => trivial
  | cons s ss ih =>
    refine ⟨fun p hp => ?_, ih _ h.2⟩
    cases s with
    | conv q => cases hp
    | dense l =>
      obtain ⟨_, k, hk, hg, hq⟩ := h.1 l rfl
      cases hp
      refine ⟨k.fn, k.cd, ?_, ?_, fun j hj => ?_⟩
      · show l.act.fn l.m = _; rw [hk]; rfl
      · show l.act.D = _; rw [hk]; rfl
      · rw [← k.cf_fun]; exact k.hasDerivAt hg _ (hq j hj)

theorem lib_pos (ss : List LibStage) (v : Nat → ℝ) (h : LibStage.smooth LibAct.D ss v) : ∀ l, LibStage.dense l ∈ ss → 0 < l.m := by
  induction ss generalizing v with
  | nil => intro l hl; simp at hl
  | cons s ss ih =>
    intro l hl
    rcases List.mem_cons.1 hl with e | hl
    · exact (h.1 l e.symm).1
    · exact ih _ h.2 l hl

theorem lib_holds {net : Net ℝ} {sg : List (LibStage × (PRef → ℝ))} (h : List.Forall₂ (fun l (p : LibStage × (PRef → ℝ)) => l.IsLib p.1 p.2) net sg)
    (hp : ∀ l, LibStage.dense l ∈ sg.map (·.1) → 0 < l.m) :
    ∃ sts : List (SSt ℝ), net.Holds sts ∧ sts.map (·.s) = sg.map (fun p => p.1.stage LibAct.D) ∧ sts.map (·.g) = sg.map (·.2) := by
  induction h with
  | nil => exact ⟨[], .nil, rfl, rfl⟩
  | @cons l p ls sg h _ ih =>
    obtain ⟨sts, h1, h2, h3⟩ := ih (fun l hl => hp l (by rw [List.map_cons]; exact List.mem_cons_of_mem _ hl))
    obtain ⟨s, g⟩ := p
    cases s with
    | conv q =>
      refine ⟨⟨.conv q, g, fun _ => 0, false⟩ :: sts, .cons ((Holds_conv rfl).2 h) h1, ?_, ?_⟩
      · simp only [List.map_cons, h2]; rfl
      · simp only [List.map_cons, h3]
    | dense a =>
      obtain ⟨f, e, hw, ha, hB, hW⟩ := h
      obtain ⟨aB, haB⟩ := hw.gradBs
      obtain ⟨aW, haW⟩ := hw.gradWs
      have hpos := hp a (by simp)
      refine ⟨⟨(LibStage.dense a).stage LibAct.D, g,
        fun | .bias k => aB k | .weight i j => aW i j | .filter _ _ _ _ => 0, f.accumulated⟩ :: sts, .cons ⟨fun p hp => ?_, fun p hp => ?_⟩ h1, ?_, ?_⟩
      · cases hp
        exact ⟨f, e, hw, by rw [ha]; exact a.act.obj_Is a.m hpos, hB, hW, haB, haW, rfl⟩
      · cases hp
      · simp only [List.map_cons, h2]
      · simp only [List.map_cons, h3]

theorem holds_lib {net' : Net ℝ} {sts' : List (SSt ℝ)} (h' : net'.Holds sts') :
    ∀ {sg : List (LibStage × (PRef → ℝ))}, sts'.map (·.s) = sg.map (fun p => p.1.stage LibAct.D) →
    ∀ (i : Nat) (s : LibStage), (sg.map (·.1))[i]? = some s → ∀ st' : SSt ℝ, sts'[i]? = some st' → ∃ l', lget net' i = .ok l' ∧
      (∀ a, s = .dense a → ∃ f : FC ℝ, l' = .fc f ∧ VecIs f.gradB a.m (fun k => st'.g (.bias k)) ∧ MatIs f.gradW a.n a.m (fun i j => st'.g (.weight i j))) ∧
      (∀ p, s = .conv p → ∃ c : Conv ℝ, l' = .conv c ∧ VecIs c.gradB p.fc (fun f => st'.g (.bias f)) ∧
        WsIs c.gradWs p.fc p.d p.fh p.fw (fun f c i j => st'.g (.filter f c i j))) := by
  intro sg he i s hs st' hst
  obtain ⟨l', e, hl⟩ := forall₂_get h' hst
  have e2 : st'.s = s.stage LibAct.D := by
    have := congrArg (fun l => l[i]?) he
    simp only [List.getElem?_map] at this hs
    rw [hst] at this
    cases hsg : sg[i]? with
    | none => rw [hsg] at hs; cases hs
    | some p => rw [hsg] at hs this; cases hs; simpa using this
  refine ⟨l', e, fun a ha => ?_, fun p hp => ?_⟩
  · subst ha
    obtain ⟨f, e3, _, _, h3, h4, _⟩ := hl.1 _ e2
    exact ⟨f, e3, h3, h4⟩
  · subst hp
    obtain ⟨c, e3, hw⟩ := hl.2 _ e2
    exact ⟨c, e3, hw.gradB, hw.gradWs⟩

/-- The gradient members of layer `i`. -/
def NetGradsAt (net : Net ℝ) (i : Nat) (s : LibStage) (g : PRef → ℝ) : Prop :=
  ∃ l, lget net i = .ok l ∧
    (∀ a, s = .dense a → ∃ f : FC ℝ, l = .fc f ∧ VecIs f.gradB a.m (fun k => g (.bias k)) ∧ MatIs f.gradW a.n a.m (fun i j => g (.weight i j))) ∧
    (∀ p, s = .conv p → ∃ c : Conv ℝ, l = .conv c ∧ VecIs c.gradB p.fc (fun f => g (.bias f)) ∧
      WsIs c.gradWs p.fc p.d p.fh p.fw (fun f c i j => g (.filter f c i j)))

/-- The same for the classes of the library: convolution layers, fully connected layers with any element-wise activation class
other than `GELU`, `MSE` or `LC`; no hypothesis speaks about what activations or losses compute. -/
theorem C83_library (t : Train ℝ) (sg : List (LibStage × (PRef → ℝ))) (a b : Nat × Nat × Nat) (k : LibLoss)
    (hnet : List.Forall₂ (fun l (p : LibStage × (PRef → ℝ)) => l.IsLib p.1 p.2) t.net sg) (h2 : 2 ≤ sg.length) (hN : sg.length < W64)
    (hfit : StackFits a (sg.map (fun p => p.1.stage LibAct.D)) b)
    (hdel : t.delta.d = b.1 ∧ t.delta.h = b.2.1 ∧ t.delta.w = b.2.2 ∧ t.delta.data.length = cells b) (hloss : t.loss = some k.obj)
    (x y : Ten ℝ) (v w : Nat → ℝ) (hx : StackInput (sg.map (fun p => p.1.stage LibAct.D)) x v) (hy : VecIs y.data (cells b) w)
    (hd : LibStage.smooth LibAct.D (sg.map (·.1)) v) :
    Ok (do let t ← t.feedforward x; t.backprop x y) (fun t' => ∀ (i : Nat) (s : LibStage) (g : PRef → ℝ), sg[i]? = some (s, g) → ∃ g' : PRef → ℝ, NetGradsAt t'.net i s g' ∧
      ∀ r, (s.stage LibAct.D).Has r →
        HasDerivAt (fun z => k.fn (cells b) w (stackOut ((sg.map (fun p => p.1.stage LibAct.D)).set i ((s.stage LibAct.D).set r z)) v))
          (s.fresh g g' r) ((s.stage LibAct.D).get r)) := by
  obtain ⟨sts, hh, e1, e2⟩ := lib_holds hnet (lib_pos _ v hd)
  have hlen : sts.length = sg.length := by have := congrArg List.length e1; simpa using this
  have hH : t.Holds sts a b k.dL := ⟨hh, hlen ▸ h2, hlen ▸ hN, by rw [e1]; exact hfit, hdel, ⟨_, _, hloss, k.obj_Is (cells b)⟩⟩
  have hdiff := smooth_diff _ v hd
  rw [List.map_map] at hdiff
  refine (C83_partials t sts a b (k.fn (cells b)) k.dL hH x y v w (by rw [e1]; exact hx) hy (by rw [e1]; exact hdiff) (k.diff _ _ _)).mono
    (fun t' q => ?_)
  obtain ⟨sts', h1, h2, h3⟩ := q
  intro i s g hi
  have hlt : i < sts.length := by rw [hlen]; exact (List.getElem?_eq_some_iff.1 hi).1
  have hsti : sts[i]? = some sts[i] := List.getElem?_eq_getElem hlt
  have hs : (sts[i]).s = s.stage LibAct.D := by
    have := congrArg (fun l => l[i]?) e1
    simp only [List.getElem?_map, hi, hsti] at this
    simpa using this
  have hg : (sts[i]).g = g := by
    have := congrArg (fun l => l[i]?) e2
    simp only [List.getElem?_map, hi, hsti] at this
    simpa using this
  have hlen' : sts'.length = sts.length := by have := congrArg List.length h2; simpa using this
  have hst' : sts'[i]? = some (sts'[i]'(by omega)) := List.getElem?_eq_getElem _
  refine ⟨(sts'[i]'(by omega)).g, holds_lib h1.net (h2.trans e1) i s (by simp [hi]) _ hst', fun r hr => ?_⟩
  obtain ⟨st', es, hder⟩ := h3 i _ r hsti (by rw [hs]; exact hr)
  rw [hst'] at es
  cases es
  rw [hs, hg, e1] at hder
  exact hder

/-! ### Concrete cases -/

/-- A convolution 1×1×3 → 1×1×2 (one 1×2 filter `(2, -1)`, bias 5) followed by a fully connected layer 2 → 1 (weights 3, 4, bias
1, identity). -/
def exMixed : Res (Train Int) := do
  let c ← Conv.make 1 1 3 1 1 2 0 1 1 0 (fun f => f + 1)
  let c := { c with B := Buf.of [5], Ws := [⟨1, 1, 2, Buf.of [2, -1]⟩] }
  let f := { FC.make 2 1 (Act.elementwise (fun x : Int => x) (fun _ => 1)) 7 8 with B := Buf.of [1], W := ⟨2, 1, Buf.of [3, 4]⟩ }
  return ⟨[.conv c, .fc f], ⟨1, 1, 1, [none]⟩, some (sqLoss 1 1)⟩

/-- Input (1, 2, 3): hidden (5, 6), output 40, error 40 - 38 = 2, delta 4; bias gradient of the filter 4·(3+4), filter gradients
4·(3·1+4·2) and 4·(3·2+4·3). -/
example : (do
    let t ← exMixed
    let t ← t.feedforward ⟨1, 1, 3, Buf.of [1, 2, 3]⟩
    let t ← t.backprop ⟨1, 1, 3, Buf.of [1, 2, 3]⟩ ⟨1, 1, 1, Buf.of [38]⟩
    match t.net with
    | [.conv c, .fc f] => return (c.gradB, c.gradWs.map (·.data), f.gradB, f.gradW.data)
    | _ => .error .oob : Res _) =
    .ok (Buf.of [28], [Buf.of [44, 72]], Buf.of [4], Buf.of [20, 24]) := by decide +kernel

/-- The hypotheses of `C83_library` are met by a convolution followed by a fully connected sigmoid layer. -/
theorem exLib_mixed : ∃ (t : Train ℝ) (sg : List (LibStage × (PRef → ℝ))) (a b : Nat × Nat × Nat) (x y : Ten ℝ) (v w : Nat → ℝ),
    List.Forall₂ (fun l (p : LibStage × (PRef → ℝ)) => l.IsLib p.1 p.2) t.net sg ∧ 2 ≤ sg.length ∧ sg.length < W64 ∧
    StackFits a (sg.map (fun p => p.1.stage LibAct.D)) b ∧
    (t.delta.d = b.1 ∧ t.delta.h = b.2.1 ∧ t.delta.w = b.2.2 ∧ t.delta.data.length = cells b) ∧ t.loss = some LibLoss.mse.obj ∧
    StackInput (sg.map (fun p => p.1.stage LibAct.D)) x v ∧ VecIs y.data (cells b) w ∧ LibStage.smooth LibAct.D (sg.map (·.1)) v ∧
    ∀ p ∈ sg, ∀ r, p.2 r = 0 := by
  obtain ⟨c, _, hc, _⟩ := Conv.make_Wf (α := ℝ) (d := 1) (h := 1) (w := 3) (fc := 1) (fh := 1) (fw := 2) (pad := 0) (sv := 1) (sh := 1)
    ⟨by decide, by decide, by decide, by decide, by decide, by decide⟩ (by decide) 0 (fun f => f + 1)
  refine ⟨⟨[.conv c, .fc (FC.make 2 1 (LibAct.elem .sigmoid).obj 7 8)], ⟨1, 1, 1, [none]⟩, some LibLoss.mse.obj⟩,
    [(.conv ⟨1, 1, 3, 1, 1, 2, 0, 1, 1, fun _ => 0, fun _ _ _ _ => 0⟩, fun _ => 0),
     (.dense ⟨2, 1, fun _ => 0, fun _ _ => 0, .elem .sigmoid⟩, fun _ => 0)], (1, 1, 3), (1, 1, 1),
    ⟨1, 1, 3, Buf.of [1, 2, 3]⟩, ⟨1, 1, 1, Buf.of [5]⟩, fun i => ([1, 2, 3] : List ℝ).getD i 0, fun _ => 5, ?_, by simp, ?_, ?_, ?_, rfl, ?_, ?_, ?_, ?_⟩
  · exact .cons ⟨c, rfl, hc⟩ (.cons ⟨_, rfl, FC.Wf_make 2 1 _ 7 8, rfl, VecIs_filled 1 0, MatIs_fill 2 1 0⟩ .nil)
  · show 2 < W64; decide
  · exact ⟨rfl, rfl, rfl⟩
  · exact ⟨rfl, rfl, rfl, rfl⟩
  · intro s hs
    simp only [List.map_cons, List.getElem?_cons_zero, Option.some.injEq] at hs
    subst hs
    refine ⟨(fun p e => by cases e), fun p e => ?_⟩
    cases e
    exact ⟨rfl, rfl, rfl, VecIs_of [1, 2, 3] _ (fun i hi => by
      match i, hi with
      | 0, _ => rfl
      | 1, _ => rfl
      | 2, _ => rfl)⟩
  · exact VecIs_of [5] _ (fun i hi => by
      match i, hi with
      | 0, _ => rfl)
  · refine ⟨(fun l e => by cases e), fun l e => ?_, trivial⟩
    cases e
    exact ⟨by decide, .sigmoid, rfl, by simp, fun j _ => by simp [ActKind.kinks]⟩
  · intro p hp r
    simp only [List.mem_cons, List.not_mem_nil, or_false] at hp
    rcases hp with rfl | rfl <;> rfl

/-! ### C65 for whole networks -/

theorem ffRec_append [Zero α] [One α] [Add α] [Mul α] [LT α] [DecidableLT α] (n1 n2 : Net α) : ∀ (x : Ten α) (r1 : Net α) (l : Layer α),
    ffRec x n1 = .ok r1 → lget r1 (r1.length - 1) = .ok l →
    ffRec x (n1 ++ n2) = (do let r2 ← ffRec l.value n2; return r1 ++ r2) := by
  induction n1 with
  | nil => intro x r1 l h hl; cases h; cases hl
  | cons l0 ls ih =>
    intro x r1 l h hl
    unfold ffRec at h
    cases e : l0.forward x with
    | error _ => rw [e] at h; cases h
    | ok l' =>
      rw [e, bind_ok] at h
      cases e2 : ffRec l'.value ls with
      | error _ => rw [e2] at h; cases h
      | ok ls' =>
        rw [e2, bind_ok] at h
        cases h
        rw [List.cons_append]
        show (l0.forward x >>= fun l => ffRec l.value (ls ++ n2) >>= fun ls => pure (l :: ls)) = _
        rw [e, bind_ok]
        cases ls' with
        | nil =>
          have : ls = [] := by have := ffRec_length _ _ _ e2; simpa using this.symm
          subst this
          cases hl
          rfl
        | cons l2 ls' =>
          have hl2 : lget (l2 :: ls') ((l2 :: ls').length - 1) = .ok l := by rw [← hl]; rfl
          rw [ih _ _ _ e2 hl2]
          cases ffRec l.value n2 <;> rfl

theorem bpRec_err [Zero α] [Add α] [Mul α] (l : Layer α) (e : UB) (rest : Net α) (d : Ten α)
    (h : ∀ (x : Ten α) (full : Bool), bpRec full x d (l :: rest) = .error e) : ∀ (pre : Net α) (x : Ten α) (full : Bool),
    bpRec full x d (pre ++ l :: rest) = .error e := by
  intro pre
  induction pre with
  | nil => exact h
  | cons p pre ih =>
    intro x full
    cases pre with
    | nil => rw [List.cons_append, List.nil_append, bpRec_cons, h]; rfl
    | cons q pre => rw [List.cons_append, List.cons_append, bpRec_cons, ← List.cons_append, ih]; rfl

/-- VIOLATED at the level of networks: a stack `pre`, a convolution with more than one output channel or row, a fully connected
layer of matching width and any further layers. `feedforward` works, `backprop` then reads outside the fully connected layer's
delta — for all parameters, inputs, targets and gradients. -/
theorem C65_network_violated [CommSemiring α] [LT α] [DecidableLT α] (t : Train α) (net1 net2 : Net α) (st1 st2 : List (SSt α)) (q : ConvP α) (p : Dense α)
    (stq stp : SSt α) (hq : stq.s = .conv q) (hp : stp.s = .dense p)
    (hnet : t.net = net1 ++ net2) (h1 : net1.Holds (st1 ++ [stq])) (h2 : net2.Holds (stp :: st2))
    (a b : Nat × Nat × Nat) (f1 : StackFits a ((st1 ++ [stq]).map (·.s)) (q.fc, q.oh, q.ow)) (f2 : StackFits (1, 1, q.fc * q.oh * q.ow) ((stp :: st2).map (·.s)) b)
    (hfc : 1 ≤ q.fc) (hbig : 1 < q.fc ∨ 1 < q.oh) (hN : t.net.length < W64)
    (dL : (Nat → α) → (Nat → α) → Nat → α) (hloss : ∃ l L, t.loss = some l ∧ l.Is (cells b) L dL)
    (hdel : t.delta.d = b.1 ∧ t.delta.h = b.2.1 ∧ t.delta.w = b.2.2 ∧ t.delta.data.length = cells b)
    (x y : Ten α) (v w : Nat → α) (hx : StackInput ((st1 ++ [stq]).map (·.s)) x v) (hy : VecIs y.data (cells b) w) :
    Ok (t.feedforward x) (fun _ => True) ∧ (do let t ← t.feedforward x; t.backprop x y) = .error .oob := by
  obtain ⟨r1, e1, hr1, hf1⟩ := ff_stack h1 f1 hx
  have hl1 : r1.length = st1.length + 1 := by have := hr1.length_eq; simpa using this
  obtain ⟨l, el, hl⟩ := hf1.last f1 (by intro e; rw [e] at hl1; simp at hl1)
  have hin : StackInput ((stp :: st2).map (·.s)) l.value (stackOut ((st1 ++ [stq]).map (·.s)) v) := by
    intro s hs
    have : stp.s = s := by simpa using hs
    subst this
    refine ⟨fun p' hp' => ?_, fun q' hq' => ?_⟩
    · have hn : p'.n = q.fc * q.oh * q.ow := by
        have this : stp.s.sin = (1, 1, q.fc * q.oh * q.ow) := f2.1
        rw [hp'] at this; simpa [Stage.sin] using this
      rw [hn]; exact hl.2.2.2
    · rw [hp] at hq'; cases hq'
  obtain ⟨r2, e2, hr2, hf2⟩ := ff_stack h2 f2 hin
  have hl2 : r2.length = st2.length + 1 := by have := hr2.length_eq; simpa using this
  obtain ⟨m, em, hm⟩ := hf2.last f2 (by intro e; rw [e] at hl2; simp at hl2)
  have eff : ffRec x t.net = .ok (r1 ++ r2) := by
    rw [hnet, ffRec_append net1 net2 x r1 l e1 el, e2]; rfl
  have hlen : t.net.length = (r1 ++ r2).length := by rw [← ffRec_length _ _ _ eff]
  have hne : t.net ≠ [] := by
    intro e
    rw [e, List.length_append] at hlen
    simp at hlen
    omega
  have elast : lget (r1 ++ r2) ((r1 ++ r2).length - 1) = .ok m := by
    unfold lget at em ⊢
    rw [show (r1 ++ r2).length - 1 = r1.length + (r2.length - 1) by rw [List.length_append]; omega, List.getElem?_append_right (by omega)]
    rw [show r1.length + (r2.length - 1) - r1.length = r2.length - 1 by omega]
    exact em
  have hff : t.feedforward x = .ok { t with net := r1 ++ r2 } := by
    unfold Train.feedforward
    rw [Net.feedforward_eq _ _ hne hN, eff, bind_ok, elast]; rfl
  refine ⟨⟨_, hff, trivial⟩, ?_⟩
  rw [hff, bind_ok]
  obtain ⟨loss, L, hloss, hL⟩ := hloss
  obtain ⟨k1, k2, k3, k4⟩ := hdel
  unfold Train.backprop
  have hw : wsub (r1 ++ r2).length 1 = (r1 ++ r2).length - 1 := wsub_eq (by simp; omega) (by rw [← hlen]; exact hN)
  dsimp only
  rw [hw, elast, bind_ok, hloss]
  show (Ten.onData t.delta _ >>= _) = _
  obtain ⟨d', e4, hd'⟩ := hL.df t.delta.data y.data m.value.data _ _ k4 hy hm.2.2.2
  have e3 : t.delta.onData (fun d => loss.df d y.data m.value.data) = .ok { t.delta with data := d' } := by
    unfold Ten.onData; dsimp only; rw [e4]; rfl
  rw [e3, bind_ok, Net.backprop_eq _ _ _ (by simp; omega) (by rw [← hlen]; exact hN)]
  have hfd : FlatIs ({ t.delta with data := d' } : Ten α) b (dL w (stackOut ((stp :: st2).map (·.s)) _)) := ⟨k1, k2, k3, hd'⟩
  -- the last layer of the first part is the convolution
  obtain ⟨pre, lc, rfl⟩ : ∃ pre lc, r1 = pre ++ [lc] := ⟨r1.dropLast, r1.getLast (by intro e; rw [e] at hl1; simp at hl1), (List.dropLast_append_getLast _).symm⟩
  have hlc : lc.Holds stq := by
    obtain ⟨l0, e0, h0⟩ := forall₂_get hr1 (i := st1.length) (b := stq) (by simp)
    have : pre.length = st1.length := by simpa using hl1
    unfold lget at e0
    rw [← this] at e0
    simp at e0
    rw [e0]; exact h0
  obtain ⟨c, rfl, hc⟩ := (Holds_conv hq).1 hlc
  have hcl : l = .conv c := by
    unfold lget at el
    simp at el
    exact el.symm
  subst hcl
  suffices h : ∀ (x : Ten α) (full : Bool), bpRec full x { t.delta with data := d' } (.conv c :: r2) = .error .oob by
    rw [List.append_assoc, List.singleton_append, bpRec_err _ _ _ _ h]; rfl
  intro x' full
  cases r2 with
  | nil => simp at hl2
  | cons n r2 =>
    rw [bpRec_cons]
    obtain ⟨r3, e5, q1, q2, q3⟩ := bp_stack hr2 true hf2 f2 hin hfd
    obtain ⟨n0, dl, e6, e7, hdl⟩ := q3 rfl (by simp)
    have e5' : bpRec true (Layer.conv c).value { t.delta with data := d' } (n :: r2) = .ok r3 := e5
    rw [e5', bind_ok, e6, bind_ok, e7, bind_ok]
    have eg : addG (stp :: st2) (stackGrads ((stp :: st2).map (·.s)) (stackOut ((st1 ++ [stq]).map (·.s)) v)
        (dL w (stackOut ((stp :: st2).map (·.s)) (stackOut ((st1 ++ [stq]).map (·.s)) v)))) = { stp with g := stp.s.newGrad stp.g _ } :: addG st2 _ := rfl
    rw [eg] at q1
    cases q1 with
    | cons hn0 _ =>
      cases e6
      obtain ⟨f, rfl, hf⟩ := (Holds_dense (p := p) (by exact hp)).1 hn0
      cases e7
      have := C65_violated c _ _ _ _ _ _ _ _ _ _ _ _ _ hc hfc hbig f _ _ _ _ hf.wf x' full
      show (c.backward x' f.delta full >>= _ >>= _) = _
      rw [this]; rfl

/-- A convolution with two output rows (3×2 input, 2×2 filter) followed by a fully connected layer 2 → 1: `feedforward` answers,
`backprop` is undefined. -/
def exTall : Res (Train Int) := do
  let c ← Conv.make 1 3 2 1 2 2 0 1 1 0 (fun f => f + 1)
  let f := FC.make 2 1 (Act.elementwise (fun x : Int => x) (fun _ => 1)) 7 8
  return ⟨[.conv c, .fc f], ⟨1, 1, 1, [none]⟩, some (sqLoss 1 1)⟩

example : (do
    let t ← exTall
    let t ← t.feedforward ⟨1, 3, 2, Buf.of [1, 2, 3, 4, 5, 6]⟩
    return t.net.length : Res _) = .ok 2 := by decide +kernel

example : (do
    let t ← exTall
    let t ← t.feedforward ⟨1, 3, 2, Buf.of [1, 2, 3, 4, 5, 6]⟩
    let t ← t.backprop ⟨1, 3, 2, Buf.of [1, 2, 3, 4, 5, 6]⟩ ⟨1, 1, 1, Buf.of [38]⟩
    return t.net.length : Res _) = .error .oob := by decide +kernel

end Trixy
