import Verif.Proof.StackTrain
import Verif.Props.Stack
/- Property C84 (training stacks of convolution and dense layers with GradDescent). -/
namespace Trixy
set_option linter.unusedSectionVars false
open Finset

variable {α γ ρ : Type}

section
variable [CommRing α] [LT α] [DecidableLT α] [DecidableEq α]

theorem Train.Holds.steps {lr alpha : α} {t : Train α} {sts : List (SSt α)} {a b : Nat × Nat × Nat} {dL : (Nat → α) → (Nat → α) → Nat → α}
    {idata odata : List (Ten α)} {vs : List ((Nat → α) × (Nat → α))} (h : t.Holds sts a b dL)
    (hd : StackData (sts.map (·.s)) b idata odata vs) {lo k : Nat} (hk : lo + k ≤ vs.length) (hk1 : 1 ≤ k) :
    Ok (TEv.run gdUpdate idata odata (lr, t) (stepTrace alpha lo k)) (fun r => r.1 = lr ∧ ∃ sts', r.2.Holds sts' a b dL ∧
      StackData (sts'.map (·.s)) b idata odata vs ∧
      sts'.map SSt.carry = carryStep lr alpha dL ((vs.drop lo).take k) (sts.map SSt.carry)) := by
  refine (h.gdRun hd hk hk1).mono (fun r q => ?_)
  obtain ⟨e, sts', h1, h2⟩ := q
  refine ⟨e, sts', h1, hd.congr ?_, h2⟩
  rw [← carry_fst, ← carry_fst, h2]
  exact carryStep_same _

/-- What `batch` with GradDescent does on a stack of convolution and dense layers, for any number of epochs: `carryStep`
(Spec/StackTrain.lean) per epoch. -/
theorem C84_batch [Div α] (lr : α) (t : Train α) (sts : List (SSt α)) (a b : Nat × Nat × Nat) (dL : (Nat → α) → (Nat → α) → Nat → α)
    (h : t.Holds sts a b dL) (idata odata : List (Ten α)) (vs : List ((Nat → α) × (Nat → α)))
    (hd : StackData (sts.map (·.s)) b idata odata vs) (hne : vs ≠ []) (epochs : Nat) :
    Ok (Train.batch gdUpdate idata odata epochs (lr, t)) (fun r => r.1 = lr ∧ ∃ sts', r.2.Holds sts' a b dL ∧
      sts'.map SSt.carry = (carryStep lr (1 / (vs.length : α)) dL vs)^[epochs] (sts.map SSt.carry)) := by
  have hlen : idata.length = vs.length := hd.1.length_eq
  have hpos : 1 ≤ vs.length := List.length_pos_iff.2 hne
  rw [batch_run _ _ _ _ _ (by omega), hlen]
  unfold batchTrace
  rw [← forN_replicate]
  have := forN_spec (n := epochs) (s := (lr, t)) (body := fun _ st => TEv.run gdUpdate idata odata st (stepTrace (1 / (vs.length : α)) 0 vs.length))
    (fun k (r : α × Train α) => r.1 = lr ∧ ∃ sts', r.2.Holds sts' a b dL ∧ StackData (sts'.map (·.s)) b idata odata vs ∧
      sts'.map SSt.carry = (carryStep lr (1 / (vs.length : α)) dL vs)^[k] (sts.map SSt.carry))
    ⟨rfl, sts, h, hd, rfl⟩ (fun k _ r hr => by
      obtain ⟨s, t'⟩ := r
      obtain ⟨rfl, sts', h1, h2, h3⟩ := hr
      refine (h1.steps h2 (lo := 0) (k := vs.length) (by omega) hpos).mono (fun r q => ?_)
      obtain ⟨e, sts2, q1, q2, q3⟩ := q
      refine ⟨e, sts2, q1, q2, ?_⟩
      rw [List.drop_zero, List.take_length, h3] at q3
      rw [Function.iterate_succ_apply']
      exact q3)
  refine this.mono (fun r q => ?_)
  obtain ⟨e, sts', q1, _, q3⟩ := q
  exact ⟨e, sts', q1, q3⟩

/-- `mini_batch`: one `carryStep` per block of `m` samples. -/
theorem C84_mini_batch [Div α] (lr : α) (t : Train α) (sts : List (SSt α)) (a b : Nat × Nat × Nat) (dL : (Nat → α) → (Nat → α) → Nat → α)
    (h : t.Holds sts a b dL) (idata odata : List (Ten α)) (vs : List ((Nat → α) × (Nat → α)))
    (hd : StackData (sts.map (·.s)) b idata odata vs) (m : Nat) (hm : 1 ≤ m) (epochs : Nat) :
    Ok (Train.miniBatch gdUpdate idata odata epochs m (lr, t)) (fun r => r.1 = lr ∧ ∃ sts', r.2.Holds sts' a b dL ∧
      sts'.map SSt.carry = (fun cs => (List.range (vs.length / m)).foldl (fun cs k => carryStep lr (1 / (m : α)) dL ((vs.drop (k * m)).take m) cs) cs)^[epochs]
        (sts.map SSt.carry)) := by
  have hlen : idata.length = vs.length := hd.1.length_eq
  rw [miniBatch_run _ _ _ _ _ _ (by omega), hlen]
  unfold miniTrace miniEpochTrace
  rw [← forN_replicate]
  have := forN_spec (n := epochs) (s := (lr, t)) (body := fun _ st => TEv.run gdUpdate idata odata st
      ((List.range (vs.length / m)).flatMap (fun k => stepTrace (1 / (m : α)) (k * m) m)))
    (fun e (r : α × Train α) => r.1 = lr ∧ ∃ sts', r.2.Holds sts' a b dL ∧ StackData (sts'.map (·.s)) b idata odata vs ∧
      sts'.map SSt.carry = (fun cs => (List.range (vs.length / m)).foldl (fun cs k => carryStep lr (1 / (m : α)) dL ((vs.drop (k * m)).take m) cs) cs)^[e]
        (sts.map SSt.carry))
    ⟨rfl, sts, h, hd, rfl⟩ (fun e _ r hr => by
      obtain ⟨s, t'⟩ := r
      obtain ⟨rfl, st1, h1, h2, h3⟩ := hr
      rw [← run_forN, Function.iterate_succ_apply', ← h3]
      dsimp only at h1 h2 h3
      have := forN_spec (n := vs.length / m) (s := (s, t')) (body := fun k st => TEv.run gdUpdate idata odata st (stepTrace (1 / (m : α)) (k * m) m))
        (fun B (r : α × Train α) => r.1 = s ∧ ∃ sts', r.2.Holds sts' a b dL ∧ StackData (sts'.map (·.s)) b idata odata vs ∧
          sts'.map SSt.carry = (List.range B).foldl (fun cs k => carryStep s (1 / (m : α)) dL ((vs.drop (k * m)).take m) cs) (st1.map SSt.carry))
        ⟨rfl, st1, h1, h2, rfl⟩ (fun B hB r hr => by
          obtain ⟨s', t''⟩ := r
          obtain ⟨rfl, st2, k1, k2, k3⟩ := hr
          have hfit : B * m + m ≤ vs.length := by
            have h1 : (B + 1) * m ≤ vs.length / m * m := Nat.mul_le_mul_right m hB
            have h2 := Nat.div_mul_le_self vs.length m
            rw [Nat.add_mul, Nat.one_mul] at h1
            omega
          refine (k1.steps k2 hfit hm).mono (fun r q => ?_)
          obtain ⟨e, st3, q1, q2, q3⟩ := q
          refine ⟨e, st3, q1, q2, ?_⟩
          rw [List.range_succ, List.foldl_append, ← k3]
          exact q3)
      exact this)
  refine this.mono (fun r q => ?_)
  obtain ⟨e, sts', q1, _, q3⟩ := q
  exact ⟨e, sts', q1, q3⟩

/-- `stochastic` on layers whose accumulators are not in use: one `carryStep` per drawn sample. -/
theorem C84_stochastic (lr : α) (t : Train α) (sts : List (SSt α)) (a b : Nat × Nat × Nat) (dL : (Nat → α) → (Nat → α) → Nat → α)
    (h : t.Holds sts a b dL) (hclean : ∀ st ∈ sts, st.acc = false) (idata odata : List (Ten α)) (vs : List ((Nat → α) × (Nat → α)))
    (hd : StackData (sts.map (·.s)) b idata odata vs) (hne : vs ≠ []) (gen : Gen γ ρ Nat) (k : Nat) (c : γ) (g : ρ) :
    Ok (Train.stochastic gdUpdate idata odata k gen c g (lr, t)) (fun r => r.1.1 = lr ∧ ∃ sts', r.1.2.Holds sts' a b dL ∧
      sts'.map SSt.carry = (((draws gen k c g).map (· % vs.length)).filterMap (vs[·]?)).foldl (fun cs vw => carryStep lr 1 dL [vw] cs) (sts.map SSt.carry)) := by
  have hlen : idata.length = vs.length := hd.1.length_eq
  have hpos : 1 ≤ vs.length := List.length_pos_iff.2 hne
  rw [stochastic_run _ _ _ _ (by omega), hlen]
  have hi : ∀ i ∈ (draws gen k c g).map (· % vs.length), i < vs.length := by
    intro i hi
    obtain ⟨j, _, rfl⟩ := List.mem_map.1 hi
    exact Nat.mod_lt _ (by omega)
  generalize (draws gen k c g).map (· % vs.length) = is at hi ⊢
  refine Ok.bind (P := fun r : α × Train α => r.1 = lr ∧ ∃ sts', r.2.Holds sts' a b dL ∧
      sts'.map SSt.carry = (is.filterMap (vs[·]?)).foldl (fun cs vw => carryStep lr 1 dL [vw] cs) (sts.map SSt.carry)) ?_ (fun r q => Ok_ok.2 q)
  unfold stoTrace
  induction is generalizing t sts with
  | nil => exact Ok_ok.2 ⟨rfl, sts, h, rfl⟩
  | cons i is ih =>
    have hlt := hi i (by simp)
    have hv : vs[i]? = some vs[i] := List.getElem?_eq_getElem hlt
    rw [List.flatMap_cons, TEv.run_append]
    refine (h.sgd hclean hd hv).bind (fun r q => ?_)
    obtain ⟨s, t1⟩ := r
    obtain ⟨rfl, st1, q1, q2, q3⟩ := q
    have hsame : StackData (st1.map (·.s)) b idata odata vs := by
      refine hd.congr ?_
      rw [← carry_fst, ← carry_fst, q3]
      exact carryStep_same _
    refine (ih t1 st1 q1 q2 hsame (fun j hj => hi j (by simp [hj]))).mono (fun r q => ?_)
    obtain ⟨e, st2, k1, k2⟩ := q
    refine ⟨e, st2, k1, ?_⟩
    rw [k2, q3]
    simp [hv]

end

/-! ### What `carryStep` is -/

section
variable [CommRing α]

theorem carryStep_get {lr alpha : α} {dL : (Nat → α) → (Nat → α) → Nat → α} {vs : List ((Nat → α) × (Nat → α))} {cs : List (Carried α)} {i : Nat}
    {c : Carried α} (hi : cs[i]? = some c) : ∃ G, (stackSum dL (cs.map (·.1)) vs)[i]? = some G ∧
      (carryStep lr alpha dL vs cs)[i]? = some (c.1.descend lr alpha (c.1.newGrad c.2 G), c.1.kept lr alpha (c.1.newGrad c.2 G)) := by
  have hl : i < (stackSum dL (cs.map (·.1)) vs).length := by
    rw [stackSum_length]; simpa using (List.getElem?_eq_some_iff.1 hi).1
  refine ⟨_, List.getElem?_eq_getElem hl, ?_⟩
  unfold carryStep
  rw [List.getElem?_zipWith, hi, List.getElem?_eq_getElem hl]

theorem stackStep_get {lr alpha : α} {dL : (Nat → α) → (Nat → α) → Nat → α} {vs : List ((Nat → α) × (Nat → α))} {ss : List (Stage α)} {i : Nat}
    {s : Stage α} {G : PRef → α} (h1 : ss[i]? = some s) (h2 : (stackSum dL ss vs)[i]? = some G) :
    (stackStep lr alpha dL vs ss)[i]? = some (s.descend lr alpha G) := by
  unfold stackStep
  rw [List.getElem?_zipWith, h1, h2]

theorem Stage.get_descend (lr alpha : α) (s : Stage α) (G : PRef → α) {r : PRef} (hr : s.Has r) :
    (s.descend lr alpha G).get r = s.get r - G r * alpha * lr := by
  cases s <;> cases r <;> first | rfl | exact absurd hr id

/-- With nothing carried over the step is gradient descent. -/
theorem carryStep_clean {lr alpha : α} {dL : (Nat → α) → (Nat → α) → Nat → α} {vs : List ((Nat → α) × (Nat → α))} (cs : List (Carried α))
    (h : ∀ c ∈ cs, ∀ q, c.1 = .conv q → ∀ r, c.2 r = 0) : (carryStep lr alpha dL vs cs).map (·.1) = stackStep lr alpha dL vs (cs.map (·.1)) := by
  unfold carryStep stackStep
  have hl : (stackSum dL (cs.map (·.1)) vs).length = cs.length := by rw [stackSum_length]; simp
  generalize stackSum dL (cs.map (·.1)) vs = S at hl
  induction cs generalizing S with
  | nil => simp
  | cons c cs ih =>
    cases S with
    | nil => simp at hl
    | cons S0 S =>
      have := ih (fun c hc => h c (by simp [hc])) S (by simpa using hl)
      simp only [List.zipWith_cons_cons, List.map_cons, this, List.cons.injEq, and_true]
      congr 1
      obtain ⟨s, c2⟩ := c
      cases s with
      | dense p => rfl
      | conv p =>
        funext r
        show c2 r + S0 r = S0 r
        have e : c2 r = 0 := h (.conv p, c2) (by simp) p rfl r
        rw [e, zero_add]

end

/-- PARTIAL (first epoch only; the full property, every epoch, is false by `C84_violated`): the first epoch of `batch` on
convolution layers with zero gradient members is gradient descent with the gradients summed over the data set. -/
theorem C84_first_epoch_partial [CommRing α] [LT α] [DecidableLT α] [DecidableEq α] [Div α] (lr : α) (t : Train α) (sts : List (SSt α)) (a b : Nat × Nat × Nat)
    (dL : (Nat → α) → (Nat → α) → Nat → α) (h : t.Holds sts a b dL) (hz : ∀ st ∈ sts, ∀ q, st.s = .conv q → ∀ r, st.g r = 0)
    (idata odata : List (Ten α)) (vs : List ((Nat → α) × (Nat → α))) (hd : StackData (sts.map (·.s)) b idata odata vs) (hne : vs ≠ []) :
    Ok (Train.batch gdUpdate idata odata 1 (lr, t)) (fun r => r.1 = lr ∧ ∃ sts', r.2.Holds sts' a b dL ∧
      sts'.map (·.s) = stackStep lr (1 / (vs.length : α)) dL vs (sts.map (·.s))) := by
  refine (C84_batch lr t sts a b dL h idata odata vs hd hne 1).mono (fun r q => ?_)
  obtain ⟨e, sts', q1, q2⟩ := q
  refine ⟨e, sts', q1, ?_⟩
  rw [← carry_fst, q2, ← carry_fst sts]
  refine carryStep_clean _ (fun c hc q hq r => ?_)
  obtain ⟨st, hst, rfl⟩ := List.mem_map.1 hc
  have hs : st.s = .conv q := hq
  show (match st.s with | .dense _ => fun _ => 0 | .conv _ => st.g) r = 0
  rw [hs]; exact hz st hst q hs r

theorem stackSum_get [CommRing α] (dL : (Nat → α) → (Nat → α) → Nat → α) {ss : List (Stage α)} {i : Nat} (hi : i < ss.length)
    (vs : List ((Nat → α) × (Nat → α))) : ∃ G, (stackSum dL ss vs)[i]? = some G ∧
      ∀ r, G r = (vs.map (fun vw => ((stackSample dL ss vw)[i]?.getD (fun _ => 0)) r)).sum := by
  have hl : i < (stackSum dL ss vs).length := by rw [stackSum_length]; exact hi
  have key : ∀ (vs : List ((Nat → α) × (Nat → α))) (acc : List (PRef → α)) (A : PRef → α), acc[i]? = some A →
      ∃ G, (vs.foldl (fun acc vw => List.zipWith (fun a g r => a r + g r) acc (stackSample dL ss vw)) acc)[i]? = some G ∧
        ∀ r, G r = A r + (vs.map (fun vw => ((stackSample dL ss vw)[i]?.getD (fun _ => 0)) r)).sum := by
    intro vs
    induction vs with
    | nil => intro acc A h; exact ⟨A, h, fun r => by simp⟩
    | cons vw vs ih =>
      intro acc A h
      have hg : i < (stackSample dL ss vw).length := by rw [stackSample_length]; exact hi
      obtain ⟨G, e1, e2⟩ := ih (List.zipWith (fun a g r => a r + g r) acc (stackSample dL ss vw)) (fun r => A r + (stackSample dL ss vw)[i] r)
        (by rw [List.getElem?_zipWith, h, List.getElem?_eq_getElem hg])
      refine ⟨G, e1, fun r => ?_⟩
      rw [e2, List.map_cons, List.sum_cons, List.getElem?_eq_getElem hg]
      simp only [Option.getD_some]
      ring
  obtain ⟨G, e1, e2⟩ := key vs (ss.map (fun _ _ => 0)) (fun _ => 0) (by simp [hi])
  exact ⟨G, e1, fun r => by rw [e2]; simp⟩

/-- One `stackStep` over the reals is gradient descent on the mean loss. -/
theorem stackStep_descent (ss : List (Stage ℝ)) (a b : Nat × Nat × Nat) (lr : ℝ) (L : (Nat → ℝ) → (Nat → ℝ) → ℝ)
    (dL : (Nat → ℝ) → (Nat → ℝ) → Nat → ℝ) (hf : StackFits a ss b) (vs : List ((Nat → ℝ) × (Nat → ℝ)))
    (hd : ∀ vw ∈ vs, StackDiff ss vw.1) (hL : ∀ vw ∈ vs, LossDiffAt L dL (cells b) vw.2 (stackOut ss vw.1))
    {i : Nat} {s : Stage ℝ} (hi : ss[i]? = some s) :
    ∃ s', (stackStep lr (1 / (vs.length : ℝ)) dL vs ss)[i]? = some s' ∧ (∃ G, s' = s.descend lr (1 / (vs.length : ℝ)) G) ∧ ∀ r, s.Has r →
      ∃ D, HasDerivAt (fun z => stackMean L vs (ss.set i (s.set r z))) D (s.get r) ∧ s'.get r = s.get r - lr * D := by
  have hlt : i < ss.length := (List.getElem?_eq_some_iff.1 hi).1
  obtain ⟨G, e1, e2⟩ := stackSum_get dL hlt vs
  refine ⟨s.descend lr (1 / (vs.length : ℝ)) G, ?_, ⟨_, rfl⟩, fun r hr => ?_⟩
  · unfold stackStep; rw [List.getElem?_zipWith, hi, e1]
  · refine ⟨(1 / (vs.length : ℝ)) * (vs.map (fun vw => ((stackSample dL ss vw)[i]?.getD (fun _ => 0)) r)).sum, ?_, ?_⟩
    · unfold stackMean
      refine (hasDerivAt_listSum vs (fun vw z => L vw.2 (stackOut (ss.set i (s.set r z)) vw.1)) _ (s.get r) (fun vw hvw => ?_)).const_mul _
      obtain ⟨y', hy', hu⟩ := stack_param ss hf (hd vw hvw) hi hr
      obtain ⟨G', e4, hG⟩ := hu (dL vw.2 (stackOut ss vw.1))
      have hset : ss.set i (s.set r (s.get r)) = ss := by
        rw [Stage.set_get]
        obtain ⟨hlt, he⟩ := List.getElem?_eq_some_iff.1 hi
        rw [← he]; exact List.set_getElem_self hlt
      have := hL vw hvw (fun z => stackOut (ss.set i (s.set r z)) vw.1) y' (s.get r) (fun k _ => by rw [hset]) hy'
      refine this.congr_deriv (hG.trans ?_)
      have e5 : (stackSample dL ss vw)[i]? = some G' := e4
      rw [e5]; rfl
    · rw [Stage.get_descend _ _ _ _ hr, e2]; ring

/-- PARTIAL (first epoch only, see `C84_violated`): over the reals the first epoch of `batch` moves every parameter of every
convolution and dense layer by `-lr` times the partial derivative of the mean loss of the network over the data set. -/
theorem C84_descent_partial [DecidableEq ℝ] (lr : ℝ) (t : Train ℝ) (sts : List (SSt ℝ)) (a b : Nat × Nat × Nat)
    (L : (Nat → ℝ) → (Nat → ℝ) → ℝ) (dL : (Nat → ℝ) → (Nat → ℝ) → Nat → ℝ) (h : t.Holds sts a b dL)
    (hz : ∀ st ∈ sts, ∀ q, st.s = .conv q → ∀ r, st.g r = 0)
    (idata odata : List (Ten ℝ)) (vs : List ((Nat → ℝ) × (Nat → ℝ))) (hd : StackData (sts.map (·.s)) b idata odata vs) (hne : vs ≠ [])
    (hdiff : ∀ vw ∈ vs, StackDiff (sts.map (·.s)) vw.1) (hL : ∀ vw ∈ vs, LossDiffAt L dL (cells b) vw.2 (stackOut (sts.map (·.s)) vw.1)) :
    Ok (Train.batch gdUpdate idata odata 1 (lr, t)) (fun r => ∃ sts', r.2.Holds sts' a b dL ∧ ∀ (i : Nat) (st : SSt ℝ), sts[i]? = some st →
      ∃ st' : SSt ℝ, sts'[i]? = some st' ∧ st'.s.sin = st.s.sin ∧ st'.s.sout = st.s.sout ∧ ∀ r, st.s.Has r →
        ∃ D, HasDerivAt (fun z => stackMean L vs ((sts.map (·.s)).set i (st.s.set r z))) D (st.s.get r) ∧
          st'.s.get r = st.s.get r - lr * D) := by
  refine (C84_first_epoch_partial lr t sts a b dL h hz idata odata vs hd hne).mono (fun r q => ?_)
  obtain ⟨_, sts', q1, q2⟩ := q
  refine ⟨sts', q1, fun i st hi => ?_⟩
  obtain ⟨s', e1, ⟨G, rfl⟩, e2⟩ := stackStep_descent (sts.map (·.s)) a b lr L dL h.fits vs hdiff hL (i := i) (s := st.s) (by simp [hi])
  have sh := Stage.descend_shape lr (1 / (vs.length : ℝ)) st.s G
  rw [← q2, List.getElem?_map] at e1
  cases hst : sts'[i]? with
  | none => rw [hst] at e1; cases e1
  | some st' => 
    rw [hst] at e1
    have e3 : st'.s = _ := Option.some.inj e1
    exact ⟨st', rfl, e3 ▸ sh.1, e3 ▸ sh.2, e3 ▸ e2⟩

/-- From the second epoch on a convolution does not follow the gradient: it runs the heavy-ball recurrence
`θ'' = θ' - g(θ')·alpha·lr + (θ' - θ)·alpha·lr`, where `g` is the summed gradient — for all stacks and starting states, at every step. -/
theorem C84_heavy_ball [CommRing α] (lr alpha : α) (dL : (Nat → α) → (Nat → α) → Nat → α) (vs : List ((Nat → α) × (Nat → α)))
    (cs : List (Carried α)) (i : Nat) (q : ConvP α) (c0 : PRef → α) (hi : cs[i]? = some (.conv q, c0)) :
    ∃ (s1 s2 : Stage α) (G : PRef → α), ((carryStep lr alpha dL vs cs).map (·.1))[i]? = some s1 ∧
      ((carryStep lr alpha dL vs (carryStep lr alpha dL vs cs)).map (·.1))[i]? = some s2 ∧
      (stackSum dL ((carryStep lr alpha dL vs cs).map (·.1)) vs)[i]? = some G ∧
      ∀ r, (Stage.conv q).Has r → s2.get r = s1.get r - G r * alpha * lr + (s1.get r - (Stage.conv q).get r) * alpha * lr := by
  obtain ⟨G1, _, e1⟩ := carryStep_get (lr := lr) (alpha := alpha) (dL := dL) (vs := vs) hi
  obtain ⟨G2, e2, e3⟩ := carryStep_get (lr := lr) (alpha := alpha) (dL := dL) (vs := vs) e1
  refine ⟨_, _, G2, by rw [List.getElem?_map, e1]; rfl, by rw [List.getElem?_map, e3]; rfl, e2, fun r hr => ?_⟩
  have k1 := Stage.get_descend lr alpha (.conv q) ((Stage.conv q).newGrad c0 G1) hr
  have hr' : ((Stage.conv q).descend lr alpha ((Stage.conv q).newGrad c0 G1)).Has r := by cases r <;> exact hr
  have k2 := Stage.get_descend lr alpha ((Stage.conv q).descend lr alpha ((Stage.conv q).newGrad c0 G1))
    (((Stage.conv q).descend lr alpha ((Stage.conv q).newGrad c0 G1)).newGrad ((Stage.conv q).kept lr alpha ((Stage.conv q).newGrad c0 G1)) G2) hr'
  dsimp only at k2 ⊢
  rw [k2, k1]
  show _ - (((Stage.conv q).newGrad c0 G1) r * alpha * lr + G2 r) * alpha * lr = _
  ring

/-- VIOLATED: two epochs of `batch` are not two gradient-descent steps. For every stack with a convolution whose summed gradient
at the start is nonzero in some parameter `r`, that parameter ends elsewhere than after two steps. -/
theorem C84_violated [Field α] [LT α] [DecidableLT α] [DecidableEq α] (lr : α) (hlr : lr ≠ 0) (t : Train α) (sts : List (SSt α)) (a b : Nat × Nat × Nat)
    (dL : (Nat → α) → (Nat → α) → Nat → α) (h : t.Holds sts a b dL) (hz : ∀ st ∈ sts, ∀ q, st.s = .conv q → ∀ r, st.g r = 0)
    (idata odata : List (Ten α)) (vs : List ((Nat → α) × (Nat → α))) (hd : StackData (sts.map (·.s)) b idata odata vs) (hn : (vs.length : α) ≠ 0)
    (i : Nat) (st : SSt α) (q : ConvP α) (hi : sts[i]? = some st) (hq : st.s = .conv q) (r : PRef) (hr : st.s.Has r)
    (G : PRef → α) (hG : (stackSum dL (sts.map (·.s)) vs)[i]? = some G) (hG0 : G r ≠ 0) :
    Ok (Train.batch gdUpdate idata odata 2 (lr, t)) (fun p => ∃ (sts' : List (SSt α)) (s1 s2 : Stage α), p.2.Holds sts' a b dL ∧
      (sts'.map (·.s))[i]? = some s1 ∧
      (stackStep lr (1 / (vs.length : α)) dL vs (stackStep lr (1 / (vs.length : α)) dL vs (sts.map (·.s))))[i]? = some s2 ∧
      s1.get r ≠ s2.get r) := by
  have hne : vs ≠ [] := by intro e; rw [e] at hn; simp at hn
  refine (C84_batch lr t sts a b dL h idata odata vs hd hne 2).mono (fun p w => ?_)
  obtain ⟨_, sts', w1, w2⟩ := w
  generalize hal : 1 / (vs.length : α) = alpha at w2 ⊢
  have hal0 : alpha ≠ 0 := by rw [← hal]; exact one_div_ne_zero hn
  have hclean : ∀ c ∈ sts.map SSt.carry, ∀ q, c.1 = .conv q → ∀ r, c.2 r = 0 := by
    intro c hc q hq r
    obtain ⟨st, hst, rfl⟩ := List.mem_map.1 hc
    have hs : st.s = .conv q := hq
    show (match st.s with | .dense _ => fun _ => 0 | .conv _ => st.g) r = 0
    rw [hs]; exact hz st hst q hs r
  have hci : (sts.map SSt.carry)[i]? = some (.conv q, st.g) := by
    rw [List.getElem?_map, hi]
    show some (st.s, _) = _
    rw [hq]
  have hg0 := hz st (List.mem_of_getElem? hi) q hq
  obtain ⟨G1, e0, e1⟩ := carryStep_get (lr := lr) (alpha := alpha) (dL := dL) (vs := vs) hci
  rw [carry_fst, hG] at e0
  cases e0
  obtain ⟨G2, e2, e3⟩ := carryStep_get (lr := lr) (alpha := alpha) (dL := dL) (vs := vs) e1
  rw [carryStep_clean _ hclean, carry_fst] at e2
  have e4 : (stackStep lr alpha dL vs (sts.map (·.s)))[i]? = some ((Stage.conv q).descend lr alpha ((Stage.conv q).newGrad st.g G)) := by
    rw [← carry_fst sts, ← carryStep_clean _ hclean, List.getElem?_map, e1]; rfl
  refine ⟨sts', ((Stage.conv q).descend lr alpha ((Stage.conv q).newGrad st.g G)).descend lr alpha
      (((Stage.conv q).descend lr alpha ((Stage.conv q).newGrad st.g G)).newGrad ((Stage.conv q).kept lr alpha ((Stage.conv q).newGrad st.g G)) G2),
    ((Stage.conv q).descend lr alpha ((Stage.conv q).newGrad st.g G)).descend lr alpha G2, w1, ?_, ?_, ?_⟩
  · rw [← carry_fst, w2, List.getElem?_map]
    show Option.map _ (carryStep lr alpha dL vs (carryStep lr alpha dL vs (sts.map SSt.carry)))[i]? = _
    rw [e3]; rfl
  · show (stackStep lr alpha dL vs (stackStep lr alpha dL vs (sts.map (·.s))))[i]? = _
    exact stackStep_get e4 e2
  · rw [hq] at hr
    have hr' : ((Stage.conv q).descend lr alpha ((Stage.conv q).newGrad st.g G)).Has r := by cases r <;> exact hr
    rw [Stage.get_descend _ _ _ _ hr', Stage.get_descend _ _ _ _ hr']
    show _ - ((st.g r + G r) * alpha * lr + G2 r) * alpha * lr ≠ _
    rw [hg0 r]
    intro hc
    have : G r * (alpha * lr * (alpha * lr)) = 0 := by linear_combination -hc
    rcases mul_eq_zero.1 this with h' | h'
    · exact hG0 h'
    · simp [hal0, hlr] at h'

/-! ### Library classes -/

/-- The parameters of layer `i` of the network. -/
def NetParamsAt (net : Net ℝ) (i : Nat) (s : LibStage) (θ : PRef → ℝ) : Prop :=
  ∃ l, lget net i = .ok l ∧
    (∀ a, s = .dense a → ∃ f : FC ℝ, l = .fc f ∧ VecIs f.B a.m (fun k => θ (.bias k)) ∧ MatIs f.W a.n a.m (fun i j => θ (.weight i j))) ∧
    (∀ p, s = .conv p → ∃ c : Conv ℝ, l = .conv c ∧ VecIs c.B p.fc (fun f => θ (.bias f)) ∧
      WsIs c.Ws p.fc p.d p.fh p.fw (fun f c i j => θ (.filter f c i j)))

/-- PARTIAL (first epoch only, see `C84_violated`): the same for networks of the library classes (convolutions, fully connected
layers with an element-wise activation other than `GELU`, `MSE` or `LC`). -/
theorem C84_library_partial [DecidableEq ℝ] (lr : ℝ) (t : Train ℝ) (sg : List (LibStage × (PRef → ℝ))) (a b : Nat × Nat × Nat) (k : LibLoss)
    (hnet : List.Forall₂ (fun l (p : LibStage × (PRef → ℝ)) => l.IsLib p.1 p.2) t.net sg) (h2 : 2 ≤ sg.length) (hN : sg.length < W64)
    (hz : ∀ p ∈ sg, ∀ q, p.1 = .conv q → ∀ r, p.2 r = 0)
    (hfit : StackFits a (sg.map (fun p => p.1.stage LibAct.D)) b)
    (hdel : t.delta.d = b.1 ∧ t.delta.h = b.2.1 ∧ t.delta.w = b.2.2 ∧ t.delta.data.length = cells b) (hloss : t.loss = some k.obj)
    (idata odata : List (Ten ℝ)) (vs : List ((Nat → ℝ) × (Nat → ℝ))) (hdata : StackData (sg.map (fun p => p.1.stage LibAct.D)) b idata odata vs)
    (hne : vs ≠ []) (hd : ∀ vw ∈ vs, LibStage.smooth LibAct.D (sg.map (·.1)) vw.1) :
    Ok (Train.batch gdUpdate idata odata 1 (lr, t)) (fun p => ∀ (i : Nat) (s : LibStage) (g : PRef → ℝ), sg[i]? = some (s, g) →
      ∃ θ : PRef → ℝ, NetParamsAt p.2.net i s θ ∧ ∀ r, (s.stage LibAct.D).Has r →
        ∃ D, HasDerivAt (fun z => stackMean (k.fn (cells b)) vs ((sg.map (fun p => p.1.stage LibAct.D)).set i ((s.stage LibAct.D).set r z))) D
            ((s.stage LibAct.D).get r) ∧ θ r = (s.stage LibAct.D).get r - lr * D) := by
  obtain ⟨vw0, hvw0⟩ := List.exists_mem_of_ne_nil _ hne
  obtain ⟨sts, hh, e1, e2⟩ := lib_holds hnet (lib_pos _ vw0.1 (hd vw0 hvw0))
  have hlen : sts.length = sg.length := by have := congrArg List.length e1; simpa using this
  have hH : t.Holds sts a b k.dL := ⟨hh, hlen ▸ h2, hlen ▸ hN, by rw [e1]; exact hfit, hdel, ⟨_, _, hloss, k.obj_Is (cells b)⟩⟩
  have hdiff : ∀ vw ∈ vs, StackDiff (sts.map (·.s)) vw.1 := by
    intro vw hvw
    have := smooth_diff _ vw.1 (hd vw hvw)
    rw [List.map_map] at this
    rw [e1]; exact this
  have hz' : ∀ st ∈ sts, ∀ q, st.s = .conv q → ∀ r, st.g r = 0 := by
    intro st hst q hq r
    obtain ⟨j, hj, e⟩ := List.getElem_of_mem hst
    have k1 := congrArg (fun l => l[j]?) e1
    have k2 := congrArg (fun l => l[j]?) e2
    have hj' : j < sg.length := by omega
    simp only [List.getElem?_map, List.getElem?_eq_getElem hj, List.getElem?_eq_getElem hj', Option.map_some, Option.some.injEq, e] at k1 k2
    rw [k2]
    rw [hq] at k1
    refine hz _ (List.getElem_mem hj') q ?_ r
    cases hs : (sg[j]).1 with
    | dense l => rw [hs] at k1; cases k1
    | conv p => rw [hs] at k1; cases k1; rfl
  refine (C84_first_epoch_partial lr t sts a b k.dL hH hz' idata odata vs (by rw [e1]; exact hdata) hne).mono (fun p w => ?_)
  obtain ⟨_, sts', w1, w2⟩ := w
  intro i s g hi
  have hsi : (sts.map (·.s))[i]? = some (s.stage LibAct.D) := by rw [e1, List.getElem?_map, hi]; rfl
  obtain ⟨s', q1, ⟨G, rfl⟩, q3⟩ := stackStep_descent (sts.map (·.s)) a b lr (k.fn (cells b)) k.dL hH.fits vs hdiff
    (fun vw _ => k.diff _ _ _) hsi
  rw [← w2, List.getElem?_map] at q1
  cases hst : sts'[i]? with
  | none => rw [hst] at q1; cases q1
  | some st' =>
    rw [hst] at q1
    have e3 : st'.s = _ := Option.some.inj q1
    obtain ⟨l', el, hl⟩ := forall₂_get w1.net hst
    refine ⟨_, ⟨l', el, fun a ha => ?_, fun p hp => ?_⟩, e1 ▸ q3⟩
    · subst ha
      obtain ⟨f, ef, hw, _⟩ := hl.1 _ e3
      exact ⟨f, ef, hw.B, hw.W⟩
    · subst hp
      obtain ⟨c, ec, hw⟩ := hl.2 _ e3
      exact ⟨c, ec, hw.B, hw.Ws⟩

/-! ### Concrete cases -/

/-- `exMixed` trained for `e` epochs on one sample, learning rate `lr`: filter bias and filter of the convolution. -/
def exRun (lr : Int) (e : Nat) : Res (Buf Int × List (Buf Int)) := do
  let t ← exMixed
  let r ← Train.batch gdUpdate [⟨1, 1, 3, Buf.of [1, 2, 3]⟩] [⟨1, 1, 1, Buf.of [38]⟩] e (lr, t)
  match r.2.net with
  | [.conv c, .fc _] => return (c.B, c.Ws.map (·.data))
  | _ => .error .oob

/-- First epoch: gradient descent (bias 5 - 28, filter (2, -1) - (44, 72)). -/
example : exRun 1 1 = .ok (Buf.of [-23], [Buf.of [-42, -73]]) := by decide +kernel

/-- Second epoch: the gradient of the bias is now -744884, descent would give -23 + 744884; the 28 of the first epoch is
subtracted once more. -/
example : (exRun 1 2).map (·.1) = .ok (Buf.of [-23 + 744884 - 28]) := by decide +kernel

/-- The hypotheses of `C84_library_partial` are met by a convolution followed by a sigmoid layer and one sample. -/
example : ∃ (t : Train ℝ) (sg : List (LibStage × (PRef → ℝ))) (a b : Nat × Nat × Nat) (idata odata : List (Ten ℝ)) (vs : List ((Nat → ℝ) × (Nat → ℝ))),
    List.Forall₂ (fun l (p : LibStage × (PRef → ℝ)) => l.IsLib p.1 p.2) t.net sg ∧ 2 ≤ sg.length ∧ sg.length < W64 ∧
    (∀ p ∈ sg, ∀ q, p.1 = .conv q → ∀ r, p.2 r = 0) ∧ StackFits a (sg.map (fun p => p.1.stage LibAct.D)) b ∧
    (t.delta.d = b.1 ∧ t.delta.h = b.2.1 ∧ t.delta.w = b.2.2 ∧ t.delta.data.length = cells b) ∧ t.loss = some LibLoss.mse.obj ∧
    StackData (sg.map (fun p => p.1.stage LibAct.D)) b idata odata vs ∧ vs ≠ [] ∧ ∀ vw ∈ vs, LibStage.smooth LibAct.D (sg.map (·.1)) vw.1 := by
  obtain ⟨t, sg, a, b, x, y, v, w, h1, h2, h3, h4, h5, h6, h7, h8, h9, h10⟩ := exLib_mixed
  exact ⟨t, sg, a, b, [x], [y], [(v, w)], h1, h2, h3, fun p hp _ _ r => h10 p hp r, h4, h5, h6, ⟨.cons h7 .nil, .cons h8 .nil⟩, by simp,
    fun vw hvw => by simp at hvw; subst hvw; exact h9⟩

/-- The abstract state of a convolution 1×1×3 → 1×1×2 followed by a fully connected identity layer 2 → 1 with unit weights. -/
def exSts : List (SSt ℚ) :=
  [⟨.conv ⟨1, 1, 3, 1, 1, 2, 0, 1, 1, fun _ => 0, fun _ _ _ _ => 0⟩, fun _ => 0, fun _ => 0, false⟩,
   ⟨.dense ⟨2, 1, fun _ => 0, fun _ _ => 1, fun v => v, fun _ _ => 1⟩, fun _ => 0, fun _ => 0, false⟩]

/-- The hypotheses of `C84_batch`, `C84_stochastic` and `C84_violated` are met. -/
example : ∃ (t : Train ℚ) (x y : Ten ℚ) (v w : Nat → ℚ), t.Holds exSts (1, 1, 3) (1, 1, 1) (fun t y i => (1 + 1) * (y i - t i)) ∧
    (∀ st ∈ exSts, st.acc = false) ∧ (∀ st ∈ exSts, ∀ q, st.s = .conv q → ∀ r, st.g r = 0) ∧
    StackData (exSts.map (·.s)) (1, 1, 1) [x] [y] [(v, w)] ∧
    ∃ G, (stackSum (fun t y i => (1 + 1) * (y i - t i)) (exSts.map (·.s)) [(v, w)])[0]? = some G ∧ G (.bias 0) ≠ 0 := by
  obtain ⟨c, _, hc, _⟩ := Conv.make_Wf (α := ℚ) (d := 1) (h := 1) (w := 3) (fc := 1) (fh := 1) (fw := 2) (pad := 0) (sv := 1) (sh := 1)
    ⟨by decide, by decide, by decide, by decide, by decide, by decide⟩ (by decide) 0 (fun f => f + 1)
  have hx : VecIs (Buf.of [(1 : ℚ), 2, 3]) 3 (fun i => ([1, 2, 3] : List ℚ).getD i 0) := VecIs_of [1, 2, 3] _ (fun i hi => by
    match i, hi with
    | 0, _ => rfl
    | 1, _ => rfl
    | 2, _ => rfl)
  refine ⟨⟨[.conv c, .fc { FC.make 2 1 (Act.elementwise (fun x => x) (fun _ => 1)) 7 8 with W := Mat.fill 2 1 1 }],
    ⟨1, 1, 1, [none]⟩, some (sqLoss 1 1)⟩, ⟨1, 1, 3, Buf.of [1, 2, 3]⟩, ⟨1, 1, 1, Buf.of [5]⟩, fun i => ([1, 2, 3] : List ℚ).getD i 0, fun _ => 5,
    ⟨?_, by decide, by decide, ⟨rfl, rfl, rfl⟩, ⟨rfl, rfl, rfl, rfl⟩, ⟨_, _, rfl, sqLoss_Is 1 1⟩⟩, ?_, ?_, ⟨.cons ?_ .nil, .cons ?_ .nil⟩, ?_⟩
  · refine .cons ⟨(fun p e => by cases e), fun p e => ?_⟩ (.cons ⟨fun p e => ?_, (fun p e => by cases e)⟩ .nil)
    · cases e; exact ⟨c, rfl, hc⟩
    · cases e
      exact ⟨_, rfl, { FC.Wf_make 2 1 (Act.elementwise (fun x : ℚ => x) (fun _ => 1)) 7 8 with W := MatIs_fill 2 1 1 }, Act.Is.elementwise _ _ 1, VecIs_filled 1 0, MatIs_fill 2 1 0,
        VecIs_filled 1 0, MatIs_fill 2 1 0, rfl⟩
  · intro st hst
    simp only [exSts, List.mem_cons, List.not_mem_nil, or_false] at hst
    rcases hst with rfl | rfl <;> rfl
  · intro st hst q _ r
    simp only [exSts, List.mem_cons, List.not_mem_nil, or_false] at hst
    rcases hst with rfl | rfl <;> rfl
  · intro s hs
    have e : s = .conv _ := (Option.some.inj hs).symm
    subst e
    refine ⟨(fun p e => by cases e), fun p e => ?_⟩
    cases e
    exact ⟨rfl, rfl, rfl, hx⟩
  · exact VecIs_of [5] _ (fun i hi => by
      match i, hi with
      | 0, _ => rfl)
  · refine ⟨_, rfl, ?_⟩
    decide +kernel

end Trixy
