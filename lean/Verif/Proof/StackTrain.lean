import Verif.Spec.StackTrain
import Verif.Proof.Stack
import Verif.Proof.Trace
/- Mixed stacks: reset, accumulation and gradient descent on the abstract state. -/
namespace Trixy
set_option linter.unusedSectionVars false

variable {α : Type}

/-- reset: the accumulators are zeroed (convolutions have none). -/
def SSt.reset [Zero α] (st : SSt α) : SSt α := { st with a := fun _ => 0, acc := false }
def SSt.accum [Add α] (st : SSt α) : SSt α := { st with a := fun r => st.a r + st.g r, acc := true }
/-- Does `update` use the accumulators? -/
def Stage.useA : Stage α → Bool → Bool
  | .dense _, b => b
  | .conv _, _ => false

section
variable [CommRing α]

def SSt.used (st : SSt α) : PRef → α := if st.s.useA st.acc then st.a else st.g
def SSt.gd (lr alpha : α) (st : SSt α) : SSt α :=
  { s := st.s.descend lr alpha st.used
    g := if st.s.useA st.acc then st.g else fun r => st.g r * alpha * lr
    a := if st.s.useA st.acc then fun r => st.a r * alpha * lr else st.a
    acc := st.acc }

theorem Layer.Holds.reset {l : Layer α} {st : SSt α} (h : l.Holds st) : Ok l.reset (fun l' => l'.Holds st.reset) := by
  cases hs : st.s with
  | dense p =>
    obtain ⟨f, rfl, hat⟩ := (Holds_dense hs).1 h
    refine hat.reset.bind (fun f' h' => Ok_ok.2 ((Holds_dense (st := st.reset) hs).2 ⟨f', rfl, ?_⟩))
    exact ⟨h'.wf, h'.act, h'.gB, h'.gW, h'.aB, h'.aW, h'.acc, rfl, rfl⟩
  | conv p =>
    obtain ⟨c, rfl, hat⟩ := (Holds_conv hs).1 h
    exact Ok_ok.2 ((Holds_conv (st := st.reset) hs).2 ⟨c, rfl, hat⟩)

theorem Layer.Holds.accum {l : Layer α} {st : SSt α} (h : l.Holds st) : Ok l.accumulate (fun l' => l'.Holds st.accum) := by
  cases hs : st.s with
  | dense p =>
    obtain ⟨f, rfl, hat⟩ := (Holds_dense hs).1 h
    refine hat.accum.bind (fun f' h' => Ok_ok.2 ((Holds_dense (st := st.accum) hs).2 ⟨f', rfl, ?_⟩))
    exact ⟨h'.wf, h'.act, h'.gB, h'.gW, h'.aB, h'.aW, h'.acc, rfl, rfl⟩
  | conv p =>
    obtain ⟨c, rfl, hat⟩ := (Holds_conv hs).1 h
    exact Ok_ok.2 ((Holds_conv (st := st.accum) hs).2 ⟨c, rfl, hat⟩)

theorem Layer.Holds.gd [DecidableEq α] {lr alpha : α} {l : Layer α} {st : SSt α} (h : l.Holds st) :
    Ok (l.update gdUpdate lr alpha) (fun r => r.1 = lr ∧ r.2.Holds (st.gd lr alpha)) := by
  obtain ⟨s, g, a, acc⟩ := st
  cases s with
  | dense p =>
    obtain ⟨f, rfl, hat⟩ := (Holds_dense rfl).1 h
    refine (hat.gd (fun a => mul_one a) (lr := lr) (alpha := alpha)).bind (fun r q => Ok_ok.2 ⟨q.1, (Holds_dense rfl).2 ⟨r.2, rfl, ?_⟩⟩)
    have h' := q.2
    unfold DSt.gd at h'
    cases acc
    · exact ⟨h'.wf, h'.act, h'.gB, h'.gW, h'.aB, h'.aW, h'.acc, rfl, rfl⟩
    · exact ⟨h'.wf, h'.act, h'.gB, h'.gW, h'.aB, h'.aW, h'.acc, rfl, rfl⟩
  | conv p =>
    obtain ⟨c, rfl, hat⟩ := (Holds_conv rfl).1 h
    exact (Conv.update_gd hat lr alpha).bind (fun r q => Ok_ok.2 ⟨q.1, (Holds_conv rfl).2 ⟨r.2, rfl, q.2.1⟩⟩)

theorem Net.Holds.gd [DecidableEq α] {lr alpha : α} {net : Net α} {sts : List (SSt α)} (h : net.Holds sts) :
    Ok (Net.updating gdUpdate alpha lr net) (fun r => r.1 = lr ∧ r.2.Holds (sts.map (SSt.gd lr alpha))) := by
  rw [Net.updating_eq]
  induction h with
  | nil => exact Ok_ok.2 ⟨rfl, .nil⟩
  | @cons l st ls sts h _ ih =>
    unfold eachM
    refine Ok.bind (P := fun r : α × Layer α => r.1 = lr ∧ r.2.Holds (st.gd lr alpha)) h.gd (fun r hr => ?_)
    obtain ⟨s, l'⟩ := r
    obtain ⟨rfl, hl'⟩ := hr
    exact ih.bind (fun r q => Ok_ok.2 ⟨q.1, .cons hl' q.2⟩)

theorem StackFits.congr {a b : Nat × Nat × Nat} {ss ts : List (Stage α)} (h : ss.map (fun p => (p.sin, p.sout)) = ts.map (fun p => (p.sin, p.sout))) :
    StackFits a ss b → StackFits a ts b := by
  induction ss generalizing a ts with
  | nil => intro hc; cases ts with
    | nil => exact hc
    | cons => simp at h
  | cons p ps ih =>
    intro hc
    cases ts with
    | nil => simp at h
    | cons q qs =>
      simp only [List.map_cons, List.cons.injEq, Prod.mk.injEq] at h
      exact ⟨h.1.1 ▸ hc.1, h.1.2 ▸ ih h.2 hc.2⟩

theorem Stage.descend_shape (lr alpha : α) (s : Stage α) (G : PRef → α) : (s.descend lr alpha G).sin = s.sin ∧ (s.descend lr alpha G).sout = s.sout := by
  cases s <;> exact ⟨rfl, rfl⟩

section
variable [LT α] [DecidableLT α]
variable {t : Train α} {sts : List (SSt α)} {a b : Nat × Nat × Nat} {dL : (Nat → α) → (Nat → α) → Nat → α}

theorem Train.Holds.reseting (h : t.Holds sts a b dL) : Ok t.reseting (fun t' => t'.Holds (sts.map SSt.reset) a b dL) := by
  unfold Train.reseting
  rw [Net.reseting_eq]
  refine (mapL_spec (fun l st hl => hl.reset) h.net).bind (fun net' q => Ok_ok.2 ?_)
  have e : (sts.map SSt.reset).map (·.s) = sts.map (·.s) := by simp [Function.comp_def, SSt.reset]
  exact ⟨q, by simpa using h.two, by simpa using h.word, by rw [e]; exact h.fits, h.delta, h.loss⟩

theorem Train.Holds.accumulating (h : t.Holds sts a b dL) : Ok t.accumulating (fun t' => t'.Holds (sts.map SSt.accum) a b dL) := by
  unfold Train.accumulating
  rw [Net.accumulating_eq]
  refine (mapL_spec (fun l st hl => hl.accum) h.net).bind (fun net' q => Ok_ok.2 ?_)
  have e : (sts.map SSt.accum).map (·.s) = sts.map (·.s) := by simp [Function.comp_def, SSt.accum]
  exact ⟨q, by simpa using h.two, by simpa using h.word, by rw [e]; exact h.fits, h.delta, h.loss⟩

theorem Train.Holds.updating [DecidableEq α] {lr alpha : α} (h : t.Holds sts a b dL) :
    Ok (Train.updating gdUpdate alpha (lr, t)) (fun r => r.1 = lr ∧ r.2.Holds (sts.map (SSt.gd lr alpha)) a b dL) := by
  unfold Train.updating
  refine (h.net.gd (lr := lr) (alpha := alpha)).bind (fun r q => Ok_ok.2 ?_)
  refine ⟨q.1, q.2, by simpa using h.two, by simpa using h.word, StackFits.congr ?_ h.fits, h.delta, h.loss⟩
  simp only [List.map_map]
  refine List.map_congr_left (fun st _ => ?_)
  simp only [Function.comp]
  exact Prod.ext (Stage.descend_shape _ _ _ _).1.symm (Stage.descend_shape _ _ _ _).2.symm

theorem Train.Holds.sample {idata odata : List (Ten α)} {vs : List ((Nat → α) × (Nat → α))} (h : t.Holds sts a b dL)
    (hd : StackData (sts.map (·.s)) b idata odata vs) {i : Nat} {vw : (Nat → α) × (Nat → α)} (hi : vs[i]? = some vw) :
    Ok (t.sample idata odata i) (fun t' => t'.Holds (addG sts (stackSample dL (sts.map (·.s)) vw)) a b dL) := by
  obtain ⟨x, ex, hx⟩ := forall₂_get hd.1 hi
  obtain ⟨y, ey, hy⟩ := forall₂_get hd.2 hi
  unfold Train.sample
  rw [ex, bind_ok, ey]
  exact (h.step hx hy).mono (fun t' q => q.1)

end

/-! ### Runs of samples -/

/-- What `update` will use after accumulation. -/
def SSt.total (st : SSt α) : PRef → α := if st.s.useA true then st.a else st.g

theorem stackSum_length (dL : (Nat → α) → (Nat → α) → Nat → α) (ss : List (Stage α)) (vs : List ((Nat → α) × (Nat → α))) :
    (stackSum dL ss vs).length = ss.length := by
  unfold stackSum
  have : ∀ acc : List (PRef → α), acc.length = ss.length →
      (vs.foldl (fun acc vw => List.zipWith (fun a g r => a r + g r) acc (stackSample dL ss vw)) acc).length = ss.length := by
    induction vs with
    | nil => intro acc h; exact h
    | cons vw vs ih => intro acc h; exact ih _ (by simp [h, stackSample_length])
  exact this _ (by simp)

theorem stackSum_take_succ (dL : (Nat → α) → (Nat → α) → Nat → α) (ss : List (Stage α)) (vs : List ((Nat → α) × (Nat → α))) {i : Nat}
    {vw : (Nat → α) × (Nat → α)} (h : vs[i]? = some vw) :
    stackSum dL ss (vs.take (i + 1)) = List.zipWith (fun a g r => a r + g r) (stackSum dL ss (vs.take i)) (stackSample dL ss vw) := by
  unfold stackSum
  rw [List.take_add_one, h, List.foldl_append]
  rfl

theorem stackSum_one (dL : (Nat → α) → (Nat → α) → Nat → α) (ss : List (Stage α)) (vw : (Nat → α) × (Nat → α)) :
    stackSum dL ss [vw] = stackSample dL ss vw := by
  unfold stackSum
  show List.zipWith _ (ss.map _) _ = _
  have : ∀ (ss : List (Stage α)) (gs : List (PRef → α)), gs.length = ss.length →
      List.zipWith (fun (a g : PRef → α) r => a r + g r) (ss.map (fun _ _ => 0)) gs = gs := by
    intro ss
    induction ss with
    | nil => intro gs h; simp at h; simp [h]
    | cons s ss ih =>
      intro gs h
      cases gs with
      | nil => simp at h
      | cons g gs => simp only [List.map_cons, List.zipWith_cons_cons, ih gs (by simpa using h), zero_add]
  exact this ss _ (stackSample_length _ _ _)

/-- Carried value plus gradients. -/
def totals (cs : List (Carried α)) (Gs : List (PRef → α)) : List (PRef → α) := List.zipWith (fun c G => c.1.newGrad c.2 G) cs Gs

theorem totals_step (sts : List (SSt α)) : ∀ (cs : List (Carried α)) (S G : List (PRef → α)), sts.map (·.s) = cs.map (·.1) →
    sts.map SSt.total = totals cs S → S.length = sts.length → G.length = sts.length →
    ((addG sts G).map SSt.accum).map SSt.total = totals cs (List.zipWith (fun a g r => a r + g r) S G) := by
  induction sts with
  | nil =>
    intro cs S G hs _ _ _
    have : cs = [] := by simpa using hs.symm
    subst this; simp [addG, totals]
  | cons st sts ih =>
    intro cs S G hs ht h1 h2
    cases cs with
    | nil => simp at hs
    | cons c cs =>
    cases S with
    | nil => simp at h1
    | cons S0 S =>
    cases G with
    | nil => simp at h2
    | cons G0 G =>
      simp only [List.map_cons, List.cons.injEq] at hs
      simp only [List.map_cons, totals, List.zipWith_cons_cons, List.cons.injEq] at ht
      have := ih cs S G hs.2 ht.2 (by simpa using h1) (by simpa using h2)
      simp only [addG, totals, List.zipWith_cons_cons, List.map_cons, List.cons.injEq] at this ⊢
      refine ⟨?_, this⟩
      obtain ⟨c1, c2⟩ := c
      obtain ⟨s, g, a, acc⟩ := st
      obtain rfl : s = c1 := hs.1
      cases s with
      | dense p =>
        have e : a = S0 := ht.1
        subst e; rfl
      | conv p =>
        have e : g = fun r => c2 r + S0 r := ht.1
        subst e
        funext r
        show (c2 r + S0 r) + G0 r = c2 r + (S0 r + G0 r)
        ring

theorem totals_zero (sts : List (SSt α)) : (sts.map SSt.reset).map SSt.total = totals (sts.map SSt.carry) ((sts.map (·.s)).map (fun _ _ => 0)) := by
  induction sts with
  | nil => rfl
  | cons st sts ih =>
    simp only [totals, List.map_cons, List.zipWith_cons_cons, List.cons.injEq] at ih ⊢
    refine ⟨?_, ih⟩
    obtain ⟨s, g, a, acc⟩ := st
    cases s with
    | dense p => rfl
    | conv p => funext r; show g r = g r + 0; ring

/-- Gradient descent on a state whose gradients in use are `totals`. -/
theorem gd_carry {lr alpha : α} (sts : List (SSt α)) : ∀ (cs : List (Carried α)) (S : List (PRef → α)), sts.map (·.s) = cs.map (·.1) →
    sts.map SSt.used = totals cs S → S.length = sts.length → (sts.map (SSt.gd lr alpha)).map SSt.carry =
      List.zipWith (fun c G => (c.1.descend lr alpha (c.1.newGrad c.2 G), c.1.kept lr alpha (c.1.newGrad c.2 G))) cs S := by
  induction sts with
  | nil =>
    intro cs S hs _ _
    have : cs = [] := by simpa using hs.symm
    subst this; simp
  | cons st sts ih =>
    intro cs S hs ht h1
    cases cs with
    | nil => simp at hs
    | cons c cs =>
    cases S with
    | nil => simp at h1
    | cons S0 S =>
      simp only [List.map_cons, List.cons.injEq] at hs
      simp only [List.map_cons, totals, List.zipWith_cons_cons, List.cons.injEq] at ht
      have := ih cs S hs.2 ht.2 (by simpa using h1)
      simp only [List.zipWith_cons_cons, List.map_cons, List.cons.injEq] at this ⊢
      refine ⟨?_, this⟩
      obtain ⟨c1, c2⟩ := c
      obtain ⟨s, g, a, acc⟩ := st
      obtain rfl : s = c1 := hs.1
      have e := ht.1
      dsimp only at e ⊢
      rw [← e]
      cases s <;> rfl

theorem carry_fst (sts : List (SSt α)) : (sts.map SSt.carry).map (·.1) = sts.map (·.s) := by simp [Function.comp_def, SSt.carry]

theorem totals_used {sts : List (SSt α)} (h : ∀ st ∈ sts, st.acc = true) : sts.map SSt.used = sts.map SSt.total := by
  refine List.map_congr_left (fun st hst => ?_)
  unfold SSt.used SSt.total
  rw [h st hst]

theorem addG_length (sts : List (SSt α)) (G : List (PRef → α)) (h : G.length = sts.length) : (addG sts G).length = sts.length := by
  simp [addG, h]

theorem StackInput.congr {ss ts : List (Stage α)} (h : ss.map (·.sin) = ts.map (·.sin)) (hk : ss.map (fun s => s.useA true) = ts.map (fun s => s.useA true))
    {x : Ten α} {v : Nat → α} (hx : StackInput ss x v) : StackInput ts x v := by
  cases ss with
  | nil =>
    cases ts with
    | nil => exact hx
    | cons => simp at h
  | cons s ss =>
    cases ts with
    | nil => simp at h
    | cons t ts =>
      simp only [List.map_cons, List.cons.injEq] at h hk
      intro t' ht'
      have e : t = t' := by simpa using ht'
      subst e
      obtain ⟨h1, h2⟩ := hx s rfl
      cases s with
      | dense p =>
        cases t with
        | conv q => exact absurd hk.1 (by simp [Stage.useA])
        | dense q =>
          have e : p.n = q.n := by simpa [Stage.sin] using h.1
          refine ⟨fun q' e' => ?_, (fun q' e' => by cases e')⟩
          cases e'
          exact e ▸ h1 p rfl
      | conv p =>
        cases t with
        | dense q => exact absurd hk.1 (by simp [Stage.useA])
        | conv q =>
          have e : (p.d, p.h, p.w) = (q.d, q.h, q.w) := h.1
          refine ⟨(fun q' e' => by cases e'), fun q' e' => ?_⟩
          cases e'
          exact e ▸ h2 p rfl

/-- Stages with the same shapes and kinds. -/
def SameShape (ss ts : List (Stage α)) : Prop := ss.map (·.sin) = ts.map (·.sin) ∧ ss.map (fun s => s.useA true) = ts.map (fun s => s.useA true)

theorem StackData.congr {ss ts : List (Stage α)} (h : SameShape ss ts) {b : Nat × Nat × Nat} {idata odata : List (Ten α)}
    {vs : List ((Nat → α) × (Nat → α))} (hd : StackData ss b idata odata vs) : StackData ts b idata odata vs :=
  ⟨hd.1.imp (fun _ _ hx => hx.congr h.1 h.2), hd.2⟩

theorem carryStep_same {lr alpha : α} {dL : (Nat → α) → (Nat → α) → Nat → α} {vs : List ((Nat → α) × (Nat → α))} (cs : List (Carried α)) :
    SameShape (cs.map (·.1)) ((carryStep lr alpha dL vs cs).map (·.1)) := by
  have : ∀ (cs : List (Carried α)) (S : List (PRef → α)), S.length = cs.length → SameShape (cs.map (·.1))
      ((List.zipWith (fun c G => (c.1.descend lr alpha (c.1.newGrad c.2 G), c.1.kept lr alpha (c.1.newGrad c.2 G))) cs S).map (·.1)) := by
    intro cs
    induction cs with
    | nil => intro S _; exact ⟨by simp, by simp⟩
    | cons c cs ih =>
      intro S h
      cases S with
      | nil => simp at h
      | cons S0 S =>
        obtain ⟨h1, h2⟩ := ih S (by simpa using h)
        simp only [SameShape, List.zipWith_cons_cons, List.map_cons, List.cons.injEq] at h1 h2 ⊢
        refine ⟨⟨(Stage.descend_shape _ _ _ _).1.symm, h1⟩, ?_, h2⟩
        obtain ⟨s, _⟩ := c
        cases s <;> rfl
  exact this cs _ (by rw [stackSum_length]; simp)

section
variable [LT α] [DecidableLT α]
variable {t : Train α} {sts : List (SSt α)} {a b : Nat × Nat × Nat} {dL : (Nat → α) → (Nat → α) → Nat → α}

/-- Accumulating samples `lo, …, lo+k-1` after a reset. -/
theorem Train.Holds.accRun {idata odata : List (Ten α)} {vs : List ((Nat → α) × (Nat → α))} (h : t.Holds sts a b dL)
    (hd : StackData (sts.map (·.s)) b idata odata vs) {lo k : Nat} (hk : lo + k ≤ vs.length) :
    Ok (do let t ← t.reseting; forN k t (fun i t => t.sampleAcc idata odata (lo + i)))
      (fun t' => ∃ sts', t'.Holds sts' a b dL ∧ sts'.map (·.s) = sts.map (·.s) ∧ (∀ st ∈ sts', st.acc = decide (0 < k)) ∧
        sts'.map SSt.total = totals (sts.map SSt.carry) (stackSum dL (sts.map (·.s)) ((vs.drop lo).take k))) := by
  refine h.reseting.bind (fun t1 h1 => ?_)
  refine forN_spec (fun i (t' : Train α) => ∃ sts', t'.Holds sts' a b dL ∧ sts'.map (·.s) = sts.map (·.s) ∧ (∀ st ∈ sts', st.acc = decide (0 < i)) ∧
        sts'.map SSt.total = totals (sts.map SSt.carry) (stackSum dL (sts.map (·.s)) ((vs.drop lo).take i))) ?_ ?_
  · refine ⟨_, h1, by simp [Function.comp_def, SSt.reset], ?_, ?_⟩
    · intro st hst; obtain ⟨st', _, rfl⟩ := List.mem_map.1 hst; simp [SSt.reset]
    · exact totals_zero sts
  · rintro i hi t' ⟨sts', hat, hs, hacc, htot⟩
    have hlt : lo + i < vs.length := by omega
    have e : vs[lo + i]? = some vs[lo + i] := List.getElem?_eq_getElem hlt
    have e' : (vs.drop lo)[i]? = some vs[lo + i] := by rw [List.getElem?_drop, e]
    have hl : sts'.length = sts.length := by have := congrArg List.length hs; simpa using this
    unfold Train.sampleAcc
    refine (hat.sample (hs ▸ hd) e).bind (fun t2 h2 => ?_)
    rw [hs] at h2
    have hg : (stackSample dL (sts.map (·.s)) vs[lo + i]).length = sts'.length := by rw [stackSample_length]; simp [hl]
    refine h2.accumulating.mono (fun t3 h3 => ⟨_, h3, ?_, ?_, ?_⟩)
    · rw [List.map_map]; exact (addG_s sts' _ hg).trans hs
    · intro st hst; obtain ⟨st', _, rfl⟩ := List.mem_map.1 hst; simp [SSt.accum]
    · rw [stackSum_take_succ _ _ _ e']
      exact totals_step sts' _ _ _ (hs.trans (carry_fst sts).symm) htot (by rw [stackSum_length]; simp [hl]) hg

/-- One averaged step on samples `lo, …, lo+k-1` (`k ≥ 1`). -/
theorem Train.Holds.gdRun [DecidableEq α] {lr alpha : α} {idata odata : List (Ten α)} {vs : List ((Nat → α) × (Nat → α))} (h : t.Holds sts a b dL)
    (hd : StackData (sts.map (·.s)) b idata odata vs) {lo k : Nat} (hk : lo + k ≤ vs.length) (hk1 : 1 ≤ k) :
    Ok (TEv.run gdUpdate idata odata (lr, t) (stepTrace alpha lo k)) (fun r => r.1 = lr ∧ ∃ sts', r.2.Holds sts' a b dL ∧
      sts'.map SSt.carry = carryStep lr alpha dL ((vs.drop lo).take k) (sts.map SSt.carry)) := by
  rw [run_step, ← bind_assoc]
  refine (h.accRun hd hk).bind (fun t' q => ?_)
  obtain ⟨sts', hat, hs, hacc, htot⟩ := q
  have hl : sts'.length = sts.length := by have := congrArg List.length hs; simpa using this
  refine hat.updating.mono (fun r q => ⟨q.1, _, q.2, ?_⟩)
  have hu := totals_used (fun st hst => by rw [hacc st hst]; exact decide_eq_true (by omega))
  unfold carryStep
  rw [carry_fst]
  exact gd_carry sts' _ _ (hs.trans (carry_fst sts).symm) (hu.trans htot) (by rw [stackSum_length]; simp [hl])

/-- One step of `stochastic` with clean accumulators. -/
theorem Train.Holds.sgd [DecidableEq α] {lr : α} {idata odata : List (Ten α)} {vs : List ((Nat → α) × (Nat → α))} (h : t.Holds sts a b dL)
    (hc : ∀ st ∈ sts, st.acc = false)
    (hd : StackData (sts.map (·.s)) b idata odata vs) {i : Nat} {vw : (Nat → α) × (Nat → α)} (hi : vs[i]? = some vw) :
    Ok (TEv.run gdUpdate idata odata (lr, t) [.sample i, .update 1]) (fun r => r.1 = lr ∧ ∃ sts', r.2.Holds sts' a b dL ∧
      (∀ st ∈ sts', st.acc = false) ∧ sts'.map SSt.carry = carryStep lr 1 dL [vw] (sts.map SSt.carry)) := by
  have e : TEv.run gdUpdate idata odata (lr, t) [.sample i, .update 1] = (t.sample idata odata i >>= fun t => Train.updating gdUpdate 1 (lr, t)) := by
    show ((t.sample idata odata i >>= fun t => Except.ok (lr, t)) >>= fun st => (Train.updating gdUpdate 1 st >>= fun st => .ok st)) = _
    cases t.sample idata odata i with
    | error e => rfl
    | ok t => simp only [bind_ok]; cases Train.updating gdUpdate 1 (lr, t) <;> rfl
  rw [e]
  refine (h.sample hd hi).bind (fun t' q => ?_)
  have hg : (stackSample dL (sts.map (·.s)) vw).length = sts.length := by rw [stackSample_length]; simp
  have hcl : ∀ st ∈ addG sts (stackSample dL (sts.map (·.s)) vw), st.acc = false := by
    intro st hst
    unfold addG at hst
    obtain ⟨j, hj, e⟩ := List.getElem_of_mem hst
    rw [List.getElem_zipWith] at e
    rw [← e]
    exact hc (sts[j]'(by have := hj; simp at this; omega)) (List.getElem_mem _)
  refine q.updating.mono (fun r q => ⟨q.1, _, q.2, ?_, ?_⟩)
  · intro st hst; obtain ⟨st', h', rfl⟩ := List.mem_map.1 hst; exact hcl st' h'
  · unfold carryStep
    rw [carry_fst, stackSum_one]
    refine gd_carry _ _ _ ((addG_s sts _ hg).trans (carry_fst sts).symm) ?_ (by rw [addG_length _ _ hg, hg])
    have : ∀ (sts : List (SSt α)) (G : List (PRef → α)), (∀ st ∈ sts, st.acc = false) → G.length = sts.length →
        (addG sts G).map SSt.used = totals (sts.map SSt.carry) G := by
      intro sts
      induction sts with
      | nil => intro G _ _; simp [addG, totals]
      | cons st sts ih =>
        intro G hc hl
        cases G with
        | nil => simp at hl
        | cons G0 G =>
          have := ih G (fun st hst => hc st (by simp [hst])) (by simpa using hl)
          have h0 := hc st (by simp)
          simp only [addG, totals, List.zipWith_cons_cons, List.map_cons, List.cons.injEq] at this ⊢
          refine ⟨?_, this⟩
          obtain ⟨s, g, a, acc⟩ := st
          obtain rfl : acc = false := h0
          cases s <;> rfl
    exact this sts _ hc hg

end

end

end Trixy
