import Verif.Proof.NetDeriv
import Verif.Proof.Trace
import Verif.Props.FC
import Verif.Props.Net
/- Properties C29 and C38–C41 (training of networks of fully connected layers). -/
namespace Trixy
set_option linter.unusedSectionVars false
open Finset

variable {α γ ρ σ : Type}

/-! ## C38 backprop -/

theorem At_gradAt {net : Net α} {sts : List (DSt α)} (h : net.At sts) {i : Nat} {st : DSt α} (hi : sts[i]? = some st) :
    net.GradAt i st.p st.g := by
  obtain ⟨l, e, f, rfl, hat⟩ := forall₂_get h hi
  exact ⟨f, e, hat.gB, hat.gW⟩

theorem setG_get (sts : List (DSt α)) (gs : List (Grad α)) {i : Nat} {st : DSt α} {g : Grad α} (h1 : sts[i]? = some st)
    (h2 : gs[i]? = some g) : (setG sts gs)[i]? = some { st with g := g } := by
  unfold setG; rw [List.getElem?_zipWith, h1, h2]

/-- After `feedforward(x); backprop(x, y)` layer `i` holds the `i`-th gradient of the sample (spec: `sampleGrads`), and the
parameters are unchanged. -/
theorem C38_backprop [Zero α] [One α] [Add α] [Mul α] [LT α] [DecidableLT α] (t : Train α) (ps : List (Dense α)) (n m : Nat)
    (dL : (Nat → α) → (Nat → α) → Nat → α) (h : t.Is ps n m dL) (x y : Ten α) (v w : Nat → α) (hx : VecIs x.data n v)
    (hy : VecIs y.data m w) :
    Ok (do let t ← t.feedforward x; t.backprop x y) (fun t' => t'.Is ps n m dL ∧
      ∀ i p g, ps[i]? = some p → (sampleGrads dL ps (v, w))[i]? = some g → t'.net.GradAt i p g) := by
  obtain ⟨sts, hat, rfl⟩ := h.at
  have := hat.sample (idata := [x]) (odata := [y]) (vs := [(v, w)]) ⟨.cons hx .nil, .cons hy .nil⟩ (i := 0) rfl
  have hs : (sampleGrads dL (sts.map (·.p)) (v, w)).length = sts.length := by rw [sampleGrads_length]; simp
  refine Ok.mono (show Ok (do let t ← t.feedforward x; t.backprop x y) _ from this) (fun t' q => ⟨?_, ?_⟩)
  · have e := setG_p sts _ hs
    have q' := q.is
    rw [e] at q'
    exact q'
  · intro i p g hp hg
    rw [List.getElem?_map] at hp
    cases hst : sts[i]? with
    | none => rw [hst] at hp; cases hp
    | some st =>
      rw [hst] at hp
      cases hp
      exact At_gradAt q.net (setG_get sts _ hst hg)

/-- The gradients of one layer of a stack are partial derivatives of the loss. -/
theorem net_partials (pre post : List (Dense ℝ)) (p : Dense ℝ) (n m : Nat)
    (L : (Nat → ℝ) → (Nat → ℝ) → ℝ) (dL : (Nat → ℝ) → (Nat → ℝ) → Nat → ℝ) (hc : Chain n (pre ++ p :: post) m) (v w : Nat → ℝ)
    (hd : DiffAt (pre ++ p :: post) v) (hL : LossDiffAt L dL m w (netOut (pre ++ p :: post) v)) :
    ∃ g : Grad ℝ, (sampleGrads dL (pre ++ p :: post) (v, w))[pre.length]? = some g ∧
      (∀ j, j < p.m → HasDerivAt (fun z => L w (netOut (pre ++ { p with b := setAt p.b j z } :: post) v)) (g.1 j) (p.b j)) ∧
      (∀ i j, i < p.n → j < p.m →
        HasDerivAt (fun z => L w (netOut (pre ++ { p with W := setEntry p.W i j z } :: post) v)) (g.2 i j) (p.W i j)) := by
  have hlen : pre.length < (sampleGrads dL (pre ++ p :: post) (v, w)).length := by rw [sampleGrads_length]; simp
  have hget := List.getElem?_eq_getElem hlen
  refine ⟨_, hget, fun j hj => ?_, fun i j hi hj => ?_⟩
  · obtain ⟨gr, e, hd⟩ := net_one pre post ⟨p, fun z => setAt p.b j z, fun _ => p.W, fun k => if k = j then 1 else 0, fun _ _ => 0⟩
      (n := n) (m := m) (t0 := p.b j) (v := v) (w := w) (L := L) (dL := dL)
      ⟨setAt_self p.b j, rfl, fun k _ => hasDerivAt_setAt p.b j k _, fun _ _ _ _ => hasDerivAt_const _ _⟩ hc hd hL
    dsimp only at e hd
    rw [hget] at e
    cases e
    simpa [pairG, DCurve.at, hj] using hd
  · obtain ⟨gr, e, hd⟩ := net_one pre post ⟨p, fun _ => p.b, fun z => setEntry p.W i j z, fun _ => 0, fun a c => if a = i ∧ c = j then 1 else 0⟩
      (n := n) (m := m) (t0 := p.W i j) (v := v) (w := w) (L := L) (dL := dL)
      ⟨rfl, setEntry_self p.W i j, fun _ _ => hasDerivAt_const _ _, fun a c _ _ => hasDerivAt_setEntry p.W i j a c _⟩ hc hd hL
    dsimp only at e hd
    rw [hget] at e
    cases e
    have e2 : ∀ g : Grad ℝ, ∑ a ∈ range p.n, ∑ c ∈ range p.m, g.2 a c * (if a = i ∧ c = j then (1 : ℝ) else 0) = g.2 i j := by
      intro g
      rw [Finset.sum_eq_single i, Finset.sum_eq_single j]
      · simp
      · intro c _ hc'; simp [hc']
      · intro hh; exact absurd (mem_range.2 hj) hh
      · intro a _ ha; exact Finset.sum_eq_zero (fun c _ => by simp [ha])
      · intro hh; exact absurd (mem_range.2 hi) hh
    unfold pairG at hd
    dsimp only at hd
    rw [e2] at hd
    simpa [DCurve.at] using hd

/-- Over the reals, with element-wise differentiable activations and a loss whose `df` is its gradient: every layer's bias and
weight gradients are the partial derivatives of `loss(target, network(input))` with respect to that layer's biases and
weights. -/
theorem C38_partials (t : Train ℝ) (pre post : List (Dense ℝ)) (p : Dense ℝ) (n m : Nat)
    (L : (Nat → ℝ) → (Nat → ℝ) → ℝ) (dL : (Nat → ℝ) → (Nat → ℝ) → Nat → ℝ) (h : t.Is (pre ++ p :: post) n m dL)
    (x y : Ten ℝ) (v w : Nat → ℝ) (hx : VecIs x.data n v) (hy : VecIs y.data m w)
    (_hloss : ∃ l, t.loss = some l ∧ l.Is m L dL) (hd : DiffAt (pre ++ p :: post) v) (hL : LossDiffAt L dL m w (netOut (pre ++ p :: post) v)) :
    Ok (do let t ← t.feedforward x; t.backprop x y) (fun t' => ∃ g : Grad ℝ, t'.net.GradAt pre.length p g ∧
      (∀ j, j < p.m → HasDerivAt (fun z => L w (netOut (pre ++ { p with b := setAt p.b j z } :: post) v)) (g.1 j) (p.b j)) ∧
      (∀ i j, i < p.n → j < p.m →
        HasDerivAt (fun z => L w (netOut (pre ++ { p with W := setEntry p.W i j z } :: post) v)) (g.2 i j) (p.W i j))) := by
  refine (C38_backprop t _ n m dL h x y v w hx hy).mono (fun t' q => ?_)
  obtain ⟨g, hg, h1, h2⟩ := net_partials pre post p n m L dL h.chain v w hd hL
  exact ⟨g, q.2 pre.length p g (by simp) hg, h1, h2⟩

/-- With a single layer, backprop reads a layer outside the container. -/
theorem C38_single_layer [Zero α] [Add α] [Mul α] (l : Layer α) (loss : Loss α) (delta x y : Ten α) (r : Buf α)
    (hr : loss.df delta.data y.data l.value.data = .ok r) :
    Train.backprop x y ⟨[l], delta, some loss⟩ = .error .oob := by
  unfold Train.backprop
  have e1 : lget [l] (wsub [l].length 1) = .ok l := by
    rw [show wsub [l].length 1 = 0 from wsub_eq (by simp) (by show 1 < W64; decide)]; rfl
  rw [e1, bind_ok]
  show Ten.onData delta _ >>= _ = _
  have e3 : delta.onData (fun d => loss.df d y.data l.value.data) = .ok { delta with data := r } := by
    unfold Ten.onData; dsimp only; rw [hr]; rfl
  rw [e3, bind_ok]
  show Net.backprop _ _ [l] >>= _ = _
  rw [Net.backprop_one]
  rfl

/-! ### A concrete training object (non-vacuity) -/

/-- A loss object for the examples: `Σ c(p-t)²` with derivative `2c(p-t)`. -/
def sqLoss [CommRing α] (c : α) (m : Nat) : Loss α where
  f t y := do
    let s ← forN m (0 : α) (fun i s => do let a ← t.get i; let b ← y.get i; return s + c * ((b - a) * (b - a)))
    return s
  df r t y := forN m r (fun i r => do let a ← t.get i; let b ← y.get i; r.set i ((c + c) * (b - a)))

theorem sqLoss_Is [CommRing α] (c : α) (m : Nat) : (sqLoss c m : Loss α).Is m (fun t y => ∑ i ∈ range m, c * ((y i - t i) * (y i - t i)))
    (fun t y i => (c + c) * (y i - t i)) := by
  refine ⟨fun t y vt vy ht hy => ?_, fun r t y vt vy hr ht hy => ?_⟩
  · have := forN_spec (n := m) (s := (0 : α)) (body := fun i s => do let a ← t.get i; let b ← y.get i; return s + c * ((b - a) * (b - a)))
      (fun k s => s = ∑ i ∈ range k, c * ((vy i - vt i) * (vy i - vt i))) (by simp)
      (fun i hi s hs => by rw [ht.get hi, bind_ok, hy.get hi, bind_ok]; exact Ok_ok.2 (by rw [sum_range_succ, hs]))
    obtain ⟨s, e, hs⟩ := this
    unfold sqLoss
    dsimp only
    rw [e, hs]
  · have := forN_spec (n := m) (s := r) (body := fun i (r : Buf α) => do let a ← t.get i; let b ← y.get i; r.set i ((c + c) * (b - a)))
      (fun k (r : Buf α) => r.length = m ∧ ∀ i, i < k → r[i]? = some (some ((c + c) * (vy i - vt i)))) ⟨hr, by simp⟩
      (fun i hi s hs => by
        rw [ht.get hi, bind_ok, hy.get hi, bind_ok]
        unfold Buf.set
        rw [if_pos (by rw [hs.1]; exact hi)]
        refine Ok_ok.2 ⟨by simp [hs.1], fun j hj => ?_⟩
        rw [List.getElem?_set]
        by_cases e : i = j
        · subst e; rw [if_pos rfl, if_pos (by rw [hs.1]; exact hi)]
        · rw [if_neg e]; exact hs.2 j (by omega))
    obtain ⟨r', e, h1, h2⟩ := this
    exact ⟨r', e, h1, fun i hi => h2 i hi⟩

/-- A 2 → 2 → 1 network with the given element-wise activation. -/
def exDense [Zero α] (g g' : α → α) (n m : Nat) : Dense α := ⟨n, m, fun _ => 0, fun _ _ => 0, fun v i => g (v i), fun v i => g' (v i)⟩
def exTrain [CommRing α] (c : α) (g g' : α → α) : Train α :=
  ⟨[.fc (FC.make 2 2 (Act.elementwise g g') 0 1), .fc (FC.make 2 1 (Act.elementwise g g') 2 3)], ⟨1, 1, 1, [none]⟩, some (sqLoss c 1)⟩

theorem exTrain_Is [CommRing α] (c : α) (g g' : α → α) : (exTrain c g g').Is [exDense g g' 2 2, exDense g g' 2 1] 2 1 (fun t y i => (c + c) * (y i - t i)) where
  net := .cons ⟨_, rfl, FC.Wf_make 2 2 _ 0 1, Act.Is.elementwise g g' 2⟩ (.cons ⟨_, rfl, FC.Wf_make 2 1 _ 2 3, Act.Is.elementwise g g' 1⟩ .nil)
  two := by simp
  word := by show 2 < W64; decide
  chain := ⟨rfl, rfl, rfl⟩
  delta := rfl
  loss := ⟨_, _, rfl, sqLoss_Is c 1⟩

/-- The hypotheses of `C38_partials` are met: identity activations, half squared error. -/
example : DiffAt [exDense (fun x : ℝ => x) (fun _ => 1) 2 2, exDense (fun x : ℝ => x) (fun _ => 1) 2 1] (fun i => i) ∧
    LossDiffAt (fun t y => ∑ i ∈ range 1, (1 / 2) * ((y i - t i) * (y i - t i))) (fun t y i => (1 / 2 + 1 / 2) * (y i - t i)) 1 (fun _ => 3)
      (netOut [exDense (fun x : ℝ => x) (fun _ => 1) 2 2, exDense (fun x : ℝ => x) (fun _ => 1) 2 1] (fun i => i)) := by
  refine ⟨⟨⟨fun x => x, fun _ => 1, rfl, rfl, fun k _ => hasDerivAt_id _⟩, ⟨fun x => x, fun _ => 1, rfl, rfl, fun k _ => hasDerivAt_id _⟩, trivial⟩, ?_⟩
  intro yc y' t0 h0 hy
  have h1 := ((((hy 0 (by decide)).sub_const 3).mul ((hy 0 (by decide)).sub_const 3)).const_mul (1 / 2 : ℝ))
  simp only [sum_range_one]
  rw [← h0 0 (by decide)]
  exact h1.congr_deriv (by ring)

/-! ## C39 batch -/

theorem Train.At.clean {t : Train α} {sts : List (DSt α)} {n m : Nat} {dL : (Nat → α) → (Nat → α) → Nat → α} (h : t.At sts n m dL) :
    (t.net.Clean ↔ ∀ st ∈ sts, st.acc = false) ∧ (t.net.Dirty ↔ ∀ st ∈ sts, st.acc = true) := by
  have := h.net
  clear h
  revert this
  generalize t.net = net
  intro h
  unfold Net.Clean Net.Dirty
  induction h with
  | nil => simp
  | @cons l st ls sts h _ ih =>
    obtain ⟨f, rfl, hat⟩ := h
    constructor
    · simp only [List.forall_mem_cons]
      rw [ih.1]
      refine and_congr_left (fun _ => ?_)
      rw [← hat.acc]
      exact ⟨fun h => h f rfl, fun h g e => by cases e; exact h⟩
    · simp only [List.forall_mem_cons]
      rw [ih.2]
      refine and_congr_left (fun _ => ?_)
      rw [← hat.acc]
      exact ⟨fun ⟨g, e, h⟩ => by cases e; exact h, fun h => ⟨f, rfl, h⟩⟩

theorem Train.Is.avg [Zero α] [One α] [Add α] [Mul α] [Sub α] [LT α] [DecidableLT α] [DecidableEq α] (hone : ∀ a : α, a * 1 = a)
    {lr alpha : α} {t : Train α} {ps : List (Dense α)} {n m : Nat} {dL : (Nat → α) → (Nat → α) → Nat → α} (h : t.Is ps n m dL)
    {idata odata : List (Ten α)} {vs : List ((Nat → α) × (Nat → α))} (hd : DataIs idata odata n m vs)
    {lo k : Nat} (hk : lo + k ≤ vs.length) (hk1 : 1 ≤ k) :
    Ok (TEv.run gdUpdate idata odata (lr, t) (stepTrace alpha lo k)) (fun r => r.1 = lr ∧
      r.2.Is (avgStep lr alpha dL ((vs.drop lo).take k) ps) n m dL ∧ r.2.net.Dirty) := by
  obtain ⟨sts, hat, rfl⟩ := h.at
  rw [run_step]
  refine (hat.gdRun hone hd hk hk1).mono (fun r q => ?_)
  obtain ⟨e, sts', hat', hacc, hp⟩ := q
  refine ⟨e, ?_, hat'.clean.2.2 hacc⟩
  have := hat'.is
  rw [hp] at this
  exact this

/-- `batch(idata, odata, opt, epochs)` with GradDescent: every epoch replaces each parameter by
`parameter - (sum of the sample gradients at the parameters of the start of the epoch) · (1/n) · lr`. -/
theorem C39_batch [Zero α] [One α] [Add α] [Mul α] [Sub α] [Div α] [NatCast α] [LT α] [DecidableLT α] [DecidableEq α]
    (hone : ∀ a : α, a * 1 = a) (lr : α) (t : Train α) (ps : List (Dense α)) (n m : Nat)
    (dL : (Nat → α) → (Nat → α) → Nat → α) (h : t.Is ps n m dL) (idata odata : List (Ten α))
    (vs : List ((Nat → α) × (Nat → α))) (hd : DataIs idata odata n m vs) (hne : vs ≠ []) (epochs : Nat) :
    Ok (Train.batch gdUpdate idata odata epochs (lr, t)) (fun r => r.1 = lr ∧
      r.2.Is ((avgStep lr (1 / (vs.length : α)) dL vs)^[epochs] ps) n m dL ∧ (1 ≤ epochs → r.2.net.Dirty)) := by
  have hlen : idata.length = vs.length := hd.1.length_eq
  have hpos : 1 ≤ vs.length := List.length_pos_iff.2 hne
  rw [batch_run _ _ _ _ _ (by omega), hlen]
  unfold batchTrace
  rw [← forN_replicate]
  have := forN_spec (n := epochs) (s := (lr, t)) (body := fun _ st => TEv.run gdUpdate idata odata st (stepTrace (1 / (vs.length : α)) 0 vs.length))
    (fun k (r : α × Train α) => r.1 = lr ∧ r.2.Is ((avgStep lr (1 / (vs.length : α)) dL vs)^[k] ps) n m dL ∧ (1 ≤ k → r.2.net.Dirty))
    ⟨rfl, h, fun h => absurd h (by omega)⟩ (fun k _ r hr => by
      obtain ⟨s, t'⟩ := r
      obtain ⟨rfl, hr, _⟩ := hr
      refine (Train.Is.avg hone hr hd (lo := 0) (k := vs.length) (by omega) hpos).mono (fun r q => ⟨q.1, ?_, fun _ => q.2.2⟩)
      have := q.2.1
      rw [List.drop_zero, List.take_length] at this
      rw [Function.iterate_succ_apply']
      exact this)
  exact this

theorem gradSum_get {ps : List (Dense α)} [Zero α] [One α] [Add α] [Mul α] (dL : (Nat → α) → (Nat → α) → Nat → α) {i : Nat} {p : Dense α}
    (hi : ps[i]? = some p) (vs : List ((Nat → α) × (Nat → α))) :
    (gradSum dL ps vs)[i]? = some (vs.foldl (fun a vw => addGrad a ((sampleGrads dL ps vw)[i]?.getD zeroGrad)) zeroGrad) := by
  have hs : ∀ vw, ∃ g, (sampleGrads dL ps vw)[i]? = some g := by
    intro vw
    have : i < (sampleGrads dL ps vw).length := by
      rw [sampleGrads_length]
      by_contra hc; rw [List.getElem?_eq_none (by omega)] at hi; cases hi
    exact ⟨_, List.getElem?_eq_getElem this⟩
  unfold gradSum
  have : ∀ (vs : List ((Nat → α) × (Nat → α))) (as : List (Grad α)) (a : Grad α), as[i]? = some a →
      (vs.foldl (fun acc vw => List.zipWith addGrad acc (sampleGrads dL ps vw)) as)[i]? =
        some (vs.foldl (fun a vw => addGrad a ((sampleGrads dL ps vw)[i]?.getD zeroGrad)) a) := by
    intro vs
    induction vs with
    | nil => intro as a h; exact h
    | cons vw vs ih =>
      intro as a h
      obtain ⟨g, hg⟩ := hs vw
      rw [List.foldl_cons, List.foldl_cons]
      refine ih _ _ ?_
      rw [List.getElem?_zipWith, h, hg]
      rfl
  exact this vs _ _ (by rw [List.getElem?_map, hi]; rfl)

/-- The mean loss over the data set as a function of the network. -/
noncomputable def meanLoss (L : (Nat → ℝ) → (Nat → ℝ) → ℝ) (vs : List ((Nat → ℝ) × (Nat → ℝ))) (ps : List (Dense ℝ)) : ℝ :=
  (1 / (vs.length : ℝ)) * (vs.map (fun vw => L vw.2 (netOut ps vw.1))).sum

theorem foldl_addGrad (f : ((Nat → ℝ) × (Nat → ℝ)) → Grad ℝ) (vs : List ((Nat → ℝ) × (Nat → ℝ))) : ∀ a : Grad ℝ,
    (∀ j, (vs.foldl (fun a vw => addGrad a (f vw)) a).1 j = a.1 j + (vs.map (fun vw => (f vw).1 j)).sum) ∧
    (∀ i j, (vs.foldl (fun a vw => addGrad a (f vw)) a).2 i j = a.2 i j + (vs.map (fun vw => (f vw).2 i j)).sum) := by
  induction vs with
  | nil => intro a; simp
  | cons vw vs ih =>
    intro a
    obtain ⟨h1, h2⟩ := ih (addGrad a (f vw))
    simp only [List.foldl_cons, List.map_cons, List.sum_cons]
    refine ⟨fun j => ?_, fun i j => ?_⟩
    · rw [h1]; simp only [addGrad]; ring
    · rw [h2]; simp only [addGrad]; ring

theorem hasDerivAt_listSum {ι : Type} (vs : List ι) (f : ι → ℝ → ℝ) (f' : ι → ℝ) (z : ℝ)
    (h : ∀ v ∈ vs, HasDerivAt (f v) (f' v) z) :
    HasDerivAt (fun t => (vs.map (fun v => f v t)).sum) (vs.map f').sum z := by
  induction vs with
  | nil => simpa using hasDerivAt_const z (0 : ℝ)
  | cons v vs ih =>
    simp only [List.map_cons, List.sum_cons]
    exact (h v (by simp)).add (ih (fun w hw => h w (by simp [hw])))

/-- One averaged step over the reals is gradient descent on the mean loss: for every layer, each new bias and weight is the
old one minus `lr` times the partial derivative of the mean loss. -/
theorem avgStep_descent (pre post : List (Dense ℝ)) (p : Dense ℝ) (n m : Nat) (lr : ℝ)
    (L : (Nat → ℝ) → (Nat → ℝ) → ℝ) (dL : (Nat → ℝ) → (Nat → ℝ) → Nat → ℝ) (hc : Chain n (pre ++ p :: post) m)
    (vs : List ((Nat → ℝ) × (Nat → ℝ))) (hd : ∀ vw ∈ vs, DiffAt (pre ++ p :: post) vw.1)
    (hL : ∀ vw ∈ vs, LossDiffAt L dL m vw.2 (netOut (pre ++ p :: post) vw.1)) :
    ∃ p', (avgStep lr (1 / (vs.length : ℝ)) dL vs (pre ++ p :: post))[pre.length]? = some p' ∧ p'.n = p.n ∧ p'.m = p.m ∧
      p'.F = p.F ∧ p'.D = p.D ∧
      (∀ j, j < p.m → ∃ G, HasDerivAt (fun z => meanLoss L vs (pre ++ { p with b := setAt p.b j z } :: post)) G (p.b j) ∧
        p'.b j = p.b j - lr * G) ∧
      (∀ i j, i < p.n → j < p.m →
        ∃ G, HasDerivAt (fun z => meanLoss L vs (pre ++ { p with W := setEntry p.W i j z } :: post)) G (p.W i j) ∧
        p'.W i j = p.W i j - lr * G) := by
  classical
  have hp : (pre ++ p :: post)[pre.length]? = some p := by simp
  have hall : ∀ vw ∈ vs, ∃ g : Grad ℝ, (sampleGrads dL (pre ++ p :: post) vw)[pre.length]? = some g ∧
      (∀ j, j < p.m → HasDerivAt (fun z => L vw.2 (netOut (pre ++ { p with b := setAt p.b j z } :: post) vw.1)) (g.1 j) (p.b j)) ∧
      (∀ i j, i < p.n → j < p.m →
        HasDerivAt (fun z => L vw.2 (netOut (pre ++ { p with W := setEntry p.W i j z } :: post) vw.1)) (g.2 i j) (p.W i j)) :=
    fun vw h => net_partials pre post p n m L dL hc vw.1 vw.2 (hd vw h) (hL vw h)
  let f : ((Nat → ℝ) × (Nat → ℝ)) → Grad ℝ := fun vw => (sampleGrads dL (pre ++ p :: post) vw)[pre.length]?.getD zeroGrad
  have hf : ∀ vw, ∃ g, (sampleGrads dL (pre ++ p :: post) vw)[pre.length]? = some g ∧ f vw = g := by
    intro vw
    have hlen : pre.length < (sampleGrads dL (pre ++ p :: post) vw).length := by rw [sampleGrads_length]; simp
    refine ⟨_, List.getElem?_eq_getElem hlen, ?_⟩
    show (sampleGrads dL (pre ++ p :: post) vw)[pre.length]?.getD zeroGrad = _
    rw [List.getElem?_eq_getElem hlen]
    rfl
  have hsum := gradSum_get dL hp vs
  refine ⟨Dense.gd lr (1 / (vs.length : ℝ)) p (vs.foldl (fun a vw => addGrad a (f vw)) zeroGrad), ?_, rfl, rfl, rfl, rfl, fun j hj => ?_, fun i j hi hj => ?_⟩
  · unfold avgStep gdStep
    rw [List.getElem?_zipWith, hp, hsum]
  · refine ⟨(1 / (vs.length : ℝ)) * (vs.map (fun vw => (f vw).1 j)).sum, ?_, ?_⟩
    · unfold meanLoss
      refine (hasDerivAt_listSum vs (fun vw z => L vw.2 (netOut (pre ++ { p with b := setAt p.b j z } :: post) vw.1)) (fun vw => (f vw).1 j) (p.b j) (fun vw hvw => ?_)).const_mul _
      obtain ⟨g, e, h1, _⟩ := hall vw hvw
      obtain ⟨g', e', e2⟩ := hf vw
      rw [e] at e'; cases e'
      rw [e2]; exact h1 j hj
    · show p.b j - _ * _ * _ = _
      rw [(foldl_addGrad f vs zeroGrad).1 j]
      simp only [zeroGrad]; ring
  · refine ⟨(1 / (vs.length : ℝ)) * (vs.map (fun vw => (f vw).2 i j)).sum, ?_, ?_⟩
    · unfold meanLoss
      refine (hasDerivAt_listSum vs (fun vw z => L vw.2 (netOut (pre ++ { p with W := setEntry p.W i j z } :: post) vw.1)) (fun vw => (f vw).2 i j) (p.W i j) (fun vw hvw => ?_)).const_mul _
      obtain ⟨g, e, _, h2⟩ := hall vw hvw
      obtain ⟨g', e', e2⟩ := hf vw
      rw [e] at e'; cases e'
      rw [e2]; exact h2 i j hi hj
    · show p.W i j - _ * _ * _ = _
      rw [(foldl_addGrad f vs zeroGrad).2 i j]
      simp only [zeroGrad]; ring

/-- C39 over the reals: one epoch of `batch` is one gradient-descent step on the mean loss over the whole data set. -/
theorem C39_descent (t : Train ℝ) (pre post : List (Dense ℝ)) (p : Dense ℝ) (n m : Nat) (lr : ℝ)
    (L : (Nat → ℝ) → (Nat → ℝ) → ℝ) (dL : (Nat → ℝ) → (Nat → ℝ) → Nat → ℝ) (h : t.Is (pre ++ p :: post) n m dL)
    (_hloss : ∃ l, t.loss = some l ∧ l.Is m L dL)
    (idata odata : List (Ten ℝ)) (vs : List ((Nat → ℝ) × (Nat → ℝ))) (hdata : DataIs idata odata n m vs) (hne : vs ≠ [])
    (hd : ∀ vw ∈ vs, DiffAt (pre ++ p :: post) vw.1)
    (hL : ∀ vw ∈ vs, LossDiffAt L dL m vw.2 (netOut (pre ++ p :: post) vw.1)) :
    Ok (Train.batch gdUpdate idata odata 1 (lr, t)) (fun r => ∃ ps' p', r.2.Is ps' n m dL ∧ ps'[pre.length]? = some p' ∧
      p'.n = p.n ∧ p'.m = p.m ∧ p'.F = p.F ∧ p'.D = p.D ∧
      (∀ j, j < p.m → ∃ G, HasDerivAt (fun z => meanLoss L vs (pre ++ { p with b := setAt p.b j z } :: post)) G (p.b j) ∧
        p'.b j = p.b j - lr * G) ∧
      (∀ i j, i < p.n → j < p.m →
        ∃ G, HasDerivAt (fun z => meanLoss L vs (pre ++ { p with W := setEntry p.W i j z } :: post)) G (p.W i j) ∧
        p'.W i j = p.W i j - lr * G)) := by
  refine (C39_batch (fun a => mul_one a) lr t _ n m dL h idata odata vs hdata hne 1).mono (fun r q => ?_)
  obtain ⟨p', h1, h2⟩ := avgStep_descent pre post p n m lr L dL h.chain vs hd hL
  exact ⟨_, p', q.2.1, h1, h2⟩

/-- The elementary actions of `batch`: per epoch one reset, every sample once in order (each followed by an accumulation),
one update with factor 1/n — for every network, optimizer, loss and data set. -/
theorem C39_schedule [Zero α] [One α] [Add α] [Mul α] [Div α] [NatCast α] [LT α] [DecidableLT α] [DecidableEq α] (upd : Upd σ α)
    (idata odata : List (Ten α)) (hne : idata ≠ []) (epochs : Nat) (st : σ × Train α) :
    Train.batch upd idata odata epochs st = TEv.run upd idata odata st (batchTrace (1 / (idata.length : α)) idata.length epochs) :=
  batch_run upd idata odata epochs st (by intro e; exact hne (List.length_eq_zero_iff.1 e))

theorem visited_append (es fs : List (TEv α)) : TEv.visited (es ++ fs) = TEv.visited es ++ TEv.visited fs := by
  unfold TEv.visited; rw [List.filterMap_append]

theorem updates_append (es fs : List (TEv α)) : TEv.updates (es ++ fs) = TEv.updates es + TEv.updates fs := by
  unfold TEv.updates; rw [List.countP_append]

theorem visited_flatten (ess : List (List (TEv α))) : TEv.visited ess.flatten = (ess.map TEv.visited).flatten := by
  induction ess with
  | nil => rfl
  | cons es ess ih => rw [List.flatten_cons, visited_append, ih]; rfl

theorem updates_flatten (ess : List (List (TEv α))) : TEv.updates ess.flatten = (ess.map TEv.updates).sum := by
  induction ess with
  | nil => rfl
  | cons es ess ih => rw [List.flatten_cons, updates_append, ih]; rfl

theorem visited_step (alpha : α) (lo k : Nat) : TEv.visited (stepTrace alpha lo k) = (List.range k).map (lo + ·) := by
  unfold stepTrace
  rw [visited_append]
  have : TEv.visited ((List.range k).flatMap (fun j => [TEv.sample (lo + j), (TEv.accumulate : TEv α)])) = (List.range k).map (lo + ·) := by
    induction k with
    | zero => rfl
    | succ k ih => rw [List.range_succ, List.flatMap_append, visited_append, ih, List.map_append]; rfl
  have e : TEv.visited (TEv.reset :: (List.range k).flatMap (fun j => [TEv.sample (lo + j), (TEv.accumulate : TEv α)])) =
      TEv.visited ((List.range k).flatMap (fun j => [TEv.sample (lo + j), (TEv.accumulate : TEv α)])) := rfl
  rw [e, this]
  simp [TEv.visited]

theorem updates_step (alpha : α) (lo k : Nat) : TEv.updates (stepTrace alpha lo k) = 1 := by
  unfold stepTrace
  rw [updates_append]
  have : TEv.updates ((List.range k).flatMap (fun j => [TEv.sample (lo + j), (TEv.accumulate : TEv α)])) = 0 := by
    induction k with
    | zero => rfl
    | succ k ih => rw [List.range_succ, List.flatMap_append, updates_append, ih]; rfl
  have e : TEv.updates (TEv.reset :: (List.range k).flatMap (fun j => [TEv.sample (lo + j), (TEv.accumulate : TEv α)])) =
      TEv.updates ((List.range k).flatMap (fun j => [TEv.sample (lo + j), (TEv.accumulate : TEv α)])) := rfl
  rw [e, this]
  rfl

/-- In `batch` every sample is visited exactly once per epoch, in order, and there is one update per epoch. -/
theorem C39_visits (alpha : α) (n epochs : Nat) :
    TEv.visited (batchTrace alpha n epochs) = (List.replicate epochs (List.range n)).flatten ∧
    TEv.updates (batchTrace alpha n epochs) = epochs := by
  unfold batchTrace
  rw [visited_flatten, updates_flatten, List.map_replicate, List.map_replicate, visited_step, updates_step]
  simp

/-! ## C40 mini_batch -/

/-- `mini_batch` with `m ≥ 1` runs the schedule: per epoch `n/m` blocks, each one reset, `m` samples with accumulation, one
update with factor 1/m — for every network, optimizer, loss and data set. -/
theorem C40_schedule [Zero α] [One α] [Add α] [Mul α] [Div α] [NatCast α] [LT α] [DecidableLT α] [DecidableEq α] (upd : Upd σ α)
    (idata odata : List (Ten α)) (epochs m : Nat) (hm : m ≠ 0) (st : σ × Train α) :
    Train.miniBatch upd idata odata epochs m st = TEv.run upd idata odata st (miniTrace (1 / (m : α)) idata.length m epochs) :=
  miniBatch_run upd idata odata epochs m st hm

theorem range_blocks (m k : Nat) : ((List.range k).map (fun b => (List.range m).map (b * m + ·))).flatten = List.range (k * m) := by
  induction k with
  | zero => simp
  | succ k ih =>
    rw [List.range_succ, List.map_append, List.flatten_append, ih, Nat.succ_mul, List.range_add]
    simp

/-- Per epoch the samples `0, …, ⌊n/m⌋·m - 1` are visited once each in order (all valid indices; the `n mod m` last ones are
not visited), with `⌊n/m⌋` updates. -/
theorem C40_visits (alpha : α) (n m epochs : Nat) :
    TEv.visited (miniTrace alpha n m epochs) = (List.replicate epochs (List.range (n / m * m))).flatten ∧
    TEv.updates (miniTrace alpha n m epochs) = epochs * (n / m) ∧
    (∀ i ∈ TEv.visited (miniTrace alpha n m epochs), i < n) ∧ n - n / m * m = n % m := by
  have e1 : TEv.visited (miniEpochTrace alpha n m) = List.range (n / m * m) := by
    unfold miniEpochTrace
    rw [List.flatMap_def, visited_flatten, List.map_map]
    have : (TEv.visited ∘ fun k => stepTrace alpha (k * m) m) = fun b => (List.range m).map (b * m + ·) := by
      funext b; exact visited_step alpha (b * m) m
    rw [this, range_blocks]
  have e2 : TEv.updates (miniEpochTrace alpha n m) = n / m := by
    unfold miniEpochTrace
    rw [List.flatMap_def, updates_flatten, List.map_map]
    have : (TEv.updates ∘ fun k => stepTrace alpha (k * m) m) = fun _ => 1 := by
      funext b; exact updates_step alpha (b * m) m
    rw [this]; simp
  have h1 : TEv.visited (miniTrace alpha n m epochs) = (List.replicate epochs (List.range (n / m * m))).flatten := by
    unfold miniTrace
    rw [visited_flatten, List.map_replicate, e1]
  refine ⟨h1, ?_, ?_, ?_⟩
  · unfold miniTrace
    rw [updates_flatten, List.map_replicate, e2]; simp
  · intro i hi
    rw [h1] at hi
    obtain ⟨l, hl, hi⟩ := List.mem_flatten.1 hi
    obtain ⟨_, rfl⟩ := List.mem_replicate.1 hl
    have := List.mem_range.1 hi
    have := Nat.div_mul_le_self n m
    omega
  · have := Nat.div_add_mod n m
    rw [Nat.mul_comm] at this
    generalize n / m * m = q at *
    omega

/-- `m = 0` divides by zero. -/
theorem C40_zero [Zero α] [One α] [Add α] [Mul α] [Div α] [NatCast α] [LT α] [DecidableLT α] [DecidableEq α] (upd : Upd σ α)
    (idata odata : List (Ten α)) (epochs : Nat) (st : σ × Train α) :
    Train.miniBatch upd idata odata epochs 0 st = .error .divByZero := rfl

/-- With GradDescent: every block is one averaged step on its `m` samples, starting from the parameters the previous block
left. -/
theorem C40_gd [Zero α] [One α] [Add α] [Mul α] [Sub α] [Div α] [NatCast α] [LT α] [DecidableLT α] [DecidableEq α]
    (hone : ∀ a : α, a * 1 = a) (lr : α) (t : Train α) (ps : List (Dense α)) (n k : Nat)
    (dL : (Nat → α) → (Nat → α) → Nat → α) (h : t.Is ps n k dL) (idata odata : List (Ten α))
    (vs : List ((Nat → α) × (Nat → α))) (hd : DataIs idata odata n k vs) (m : Nat) (hm : 1 ≤ m) (epochs : Nat) :
    Ok (Train.miniBatch gdUpdate idata odata epochs m (lr, t)) (fun r => r.1 = lr ∧
      r.2.Is ((fun ps => (List.range (vs.length / m)).foldl (fun ps b => avgStep lr (1 / (m : α)) dL ((vs.drop (b * m)).take m) ps) ps)^[epochs] ps)
        n k dL) := by
  have hlen : idata.length = vs.length := hd.1.length_eq
  rw [miniBatch_run _ _ _ _ _ _ (by omega), hlen]
  unfold miniTrace miniEpochTrace
  rw [← forN_replicate]
  refine forN_spec (n := epochs) (s := (lr, t)) (fun e (r : α × Train α) => r.1 = lr ∧
    r.2.Is ((fun ps => (List.range (vs.length / m)).foldl (fun ps b => avgStep lr (1 / (m : α)) dL ((vs.drop (b * m)).take m) ps) ps)^[e] ps) n k dL)
    ⟨rfl, h⟩ (fun e _ r hr => ?_)
  obtain ⟨s, t'⟩ := r
  obtain ⟨rfl, hr⟩ := hr
  rw [← run_forN, Function.iterate_succ_apply']
  dsimp only at hr
  generalize (fun ps => (List.range (vs.length / m)).foldl (fun ps b => avgStep s (1 / (m : α)) dL ((vs.drop (b * m)).take m) ps) ps)^[e] ps = qs at hr ⊢
  have := forN_spec (n := vs.length / m) (s := (s, t')) (body := fun b st => TEv.run gdUpdate idata odata st (stepTrace (1 / (m : α)) (b * m) m))
    (fun B (r : α × Train α) => r.1 = s ∧
      r.2.Is ((List.range B).foldl (fun ps b => avgStep s (1 / (m : α)) dL ((vs.drop (b * m)).take m) ps) qs) n k dL)
    ⟨rfl, hr⟩ (fun B hB r hr => by
      obtain ⟨s', t''⟩ := r
      obtain ⟨rfl, hr⟩ := hr
      have hfit : B * m + m ≤ vs.length := by
        have h1 : (B + 1) * m ≤ vs.length / m * m := Nat.mul_le_mul_right m hB
        have h2 := Nat.div_mul_le_self vs.length m
        rw [Nat.add_mul, Nat.one_mul] at h1
        omega
      refine (Train.Is.avg hone hr hd hfit hm).mono (fun r q => ⟨q.1, ?_⟩)
      rw [List.range_succ, List.foldl_append]
      exact q.2.1)
  exact this

/-! ## C41 stochastic -/

/-- `stochastic` performs exactly the requested number of rounds; the index of each is the next generator value modulo the
number of samples, hence valid — for every generator, network, optimizer and loss. -/
theorem C41_schedule [Zero α] [One α] [Add α] [Mul α] [LT α] [DecidableLT α] [DecidableEq α] (upd : Upd σ α)
    (idata odata : List (Ten α)) (hne : idata ≠ []) (gen : Gen γ ρ Nat) (iterations : Nat) (c : γ) (g : ρ) (st : σ × Train α) :
    ∃ is : List Nat, is = (draws gen iterations c g).map (· % idata.length) ∧ is.length = iterations ∧ (∀ i ∈ is, i < idata.length) ∧
      (Train.stochastic upd idata odata iterations gen c g st).map (fun r => r.1) = TEv.run upd idata odata st (stoTrace is) := by
  have hpos : 0 < idata.length := List.length_pos_iff.2 hne
  refine ⟨_, rfl, by simp [draws_length], fun i hi => ?_, ?_⟩
  · obtain ⟨a, _, rfl⟩ := List.mem_map.1 hi
    exact Nat.mod_lt _ hpos
  · rw [stochastic_run _ _ _ _ (by omega)]
    cases TEv.run upd idata odata st (stoTrace ((draws gen iterations c g).map (· % idata.length))) <;> rfl

theorem C41_visits [One α] (is : List Nat) : TEv.visited (stoTrace is : List (TEv α)) = is ∧ TEv.updates (stoTrace is : List (TEv α)) = is.length := by
  unfold stoTrace
  induction is with
  | nil => exact ⟨rfl, rfl⟩
  | cons i is ih =>
    rw [List.flatMap_cons, visited_append, updates_append, ih.1, ih.2]
    exact ⟨rfl, by rw [List.length_cons, Nat.add_comm]; rfl⟩

/-- An empty data set: the first round divides by zero. -/
theorem C41_empty [Zero α] [One α] [Add α] [Mul α] [LT α] [DecidableLT α] [DecidableEq α] (upd : Upd σ α)
    (odata : List (Ten α)) (gen : Gen γ ρ Nat) (k : Nat) (c : γ) (g : ρ) (st : σ × Train α) :
    Train.stochastic upd [] odata (k + 1) gen c g st = .error .divByZero := by
  unfold Train.stochastic
  rw [forN_first]
  rfl

/-! ## C29 stochastic training and the accumulated flag -/

/-- One round of `stochastic` on abstract states. -/
theorem Train.At.sto [Zero α] [One α] [Add α] [Mul α] [Sub α] [LT α] [DecidableLT α] [DecidableEq α] (hone : ∀ a : α, a * 1 = a)
    {lr : α} {t : Train α} {sts : List (DSt α)} {n m : Nat} {dL : (Nat → α) → (Nat → α) → Nat → α} (h : t.At sts n m dL)
    {idata odata : List (Ten α)} {vs : List ((Nat → α) × (Nat → α))} (hd : DataIs idata odata n m vs) {i : Nat}
    {vw : (Nat → α) × (Nat → α)} (hi : vs[i]? = some vw) :
    Ok (TEv.run gdUpdate idata odata (lr, t) [.sample i, .update 1]) (fun r => r.1 = lr ∧
      r.2.At ((setG sts (sampleGrads dL (sts.map (fun st => st.p)) vw)).map (DSt.gd lr 1)) n m dL) := by
  obtain ⟨t1, e1, h1⟩ := h.sample hd hi
  obtain ⟨r, e2, h2⟩ := h1.updating hone (lr := lr) (alpha := 1)
  refine ⟨r, ?_, h2⟩
  rw [TEv.run_cons]
  unfold TEv.exec
  dsimp only
  rw [e1]
  show TEv.run gdUpdate idata odata (lr, t1) [.update 1] = _
  rw [TEv.run_cons]
  unfold TEv.exec
  dsimp only
  rw [e2]
  rfl

/-- On a network whose flags are not set, `stochastic` with GradDescent updates after every round with the gradient of the
sample just processed (at the current parameters), and the flags stay unset. -/
theorem C29_clean_partial [Zero α] [One α] [Add α] [Mul α] [Sub α] [LT α] [DecidableLT α] [DecidableEq α] (hone : ∀ a : α, a * 1 = a)
    (lr : α) (t : Train α) (ps : List (Dense α)) (n m : Nat) (dL : (Nat → α) → (Nat → α) → Nat → α) (h : t.Is ps n m dL)
    (hclean : t.net.Clean) (idata odata : List (Ten α)) (vs : List ((Nat → α) × (Nat → α))) (hd : DataIs idata odata n m vs)
    (is : List Nat) (hi : ∀ i ∈ is, i < vs.length) :
    Ok (TEv.run gdUpdate idata odata (lr, t) (stoTrace is)) (fun r => r.1 = lr ∧ r.2.net.Clean ∧
      r.2.Is ((is.filterMap (vs[·]?)).foldl (sgdStep lr dL) ps) n m dL) := by
  unfold stoTrace
  induction is generalizing t ps with
  | nil => exact Ok_ok.2 ⟨rfl, hclean, h⟩
  | cons i is ih =>
    have hlt := hi i (by simp)
    have hv : vs[i]? = some vs[i] := List.getElem?_eq_getElem hlt
    obtain ⟨sts, hat, rfl⟩ := h.at
    rw [List.flatMap_cons, TEv.run_append]
    refine (hat.sto hone hd hv).bind (fun r q => ?_)
    obtain ⟨s, t1⟩ := r
    obtain ⟨rfl, h1⟩ := q
    dsimp only at h1
    have hacc := hat.clean.1.1 hclean
    have hl : (sampleGrads dL (sts.map (fun st : DSt α => st.p)) vs[i]).length = sts.length := by rw [sampleGrads_length]; simp
    have key : ∀ (sts : List (DSt α)) (gs : List (Grad α)), (∀ st ∈ sts, st.acc = false) → gs.length = sts.length →
        ((setG sts gs).map (DSt.gd s 1)).map (fun st => st.p) = gdStep s 1 (sts.map (fun st => st.p)) gs ∧
        ∀ st ∈ (setG sts gs).map (DSt.gd s 1), st.acc = false := by
      intro sts
      induction sts with
      | nil => intro gs _ _; simp [setG, gdStep]
      | cons st sts ih =>
        intro gs ha hl
        cases gs with
        | nil => simp at hl
        | cons g gs =>
          obtain ⟨k1, k2⟩ := ih gs (fun st' h' => ha st' (by simp [h'])) (by simpa using hl)
          have h0 := ha st (by simp)
          have e : ({ st with g := g } : DSt α).used = g := by unfold DSt.used; rw [h0]; rfl
          unfold setG gdStep at *
          simp only [List.zipWith_cons_cons, List.map_cons]
          refine ⟨?_, ?_⟩
          · rw [k1, DSt.gd_p, e]
          · intro st' hst'
            rcases List.mem_cons.1 hst' with rfl | hst'
            · unfold DSt.gd; split <;> exact h0
            · exact k2 st' hst'
    obtain ⟨k1, k2⟩ := key sts _ hacc hl
    have his := h1.is
    rw [k1] at his
    refine (ih t1 _ his (h1.clean.1.2 k2) (fun j hj => hi j (by simp [hj]))).mono (fun r q => ?_)
    have e : (i :: is).filterMap (vs[·]?) = vs[i] :: is.filterMap (vs[·]?) := by
      rw [List.filterMap_cons, hv]
    rw [e, List.foldl_cons]
    exact q

/-- The parameters and the stale accumulator of a layer after one update that uses the accumulator. -/
def stale [One α] [Mul α] [Sub α] (lr : α) (st : Dense α × Grad α) : Dense α × Grad α := (st.1.gd lr 1 st.2, Grad.scale lr 1 st.2)

theorem sto_dirty [Zero α] [One α] [Add α] [Mul α] [Sub α] [LT α] [DecidableLT α] [DecidableEq α] (hone : ∀ a : α, a * 1 = a)
    {lr : α} {n m : Nat} {dL : (Nat → α) → (Nat → α) → Nat → α}
    {idata odata : List (Ten α)} {vs : List ((Nat → α) × (Nat → α))} (hd : DataIs idata odata n m vs)
    (is : List Nat) (hi : ∀ i ∈ is, i < vs.length) : ∀ {t : Train α} {sts : List (DSt α)}, t.At sts n m dL → (∀ st ∈ sts, st.acc = true) →
    Ok (TEv.run gdUpdate idata odata (lr, t) (stoTrace is)) (fun r => r.1 = lr ∧
      r.2.Is ((sts.map (fun st => ((stale lr)^[is.length] (st.p, st.a)).1))) n m dL) := by
  unfold stoTrace
  induction is with
  | nil => intro t sts hat _; exact Ok_ok.2 ⟨rfl, by simpa using hat.is⟩
  | cons i is ih =>
    intro t sts hat hacc
    have hlt := hi i (by simp)
    have hv : vs[i]? = some vs[i] := List.getElem?_eq_getElem hlt
    rw [List.flatMap_cons, TEv.run_append]
    refine (hat.sto hone hd hv).bind (fun r q => ?_)
    obtain ⟨s, t1⟩ := r
    obtain ⟨rfl, h1⟩ := q
    dsimp only at h1
    have hl : (sampleGrads dL (sts.map (fun st : DSt α => st.p)) vs[i]).length = sts.length := by rw [sampleGrads_length]; simp
    have key : ∀ (sts : List (DSt α)) (gs : List (Grad α)), (∀ st ∈ sts, st.acc = true) → gs.length = sts.length →
        ((setG sts gs).map (DSt.gd s 1)).map (fun st => (st.p, st.a)) = sts.map (fun st => stale s (st.p, st.a)) ∧
        ∀ st ∈ (setG sts gs).map (DSt.gd s 1), st.acc = true := by
      intro sts
      induction sts with
      | nil => intro gs _ _; simp [setG]
      | cons st sts ih =>
        intro gs ha hl
        cases gs with
        | nil => simp at hl
        | cons g gs =>
          obtain ⟨k1, k2⟩ := ih gs (fun st' h' => ha st' (by simp [h'])) (by simpa using hl)
          have h0 := ha st (by simp)
          unfold setG at *
          simp only [List.zipWith_cons_cons, List.map_cons]
          refine ⟨?_, ?_⟩
          · rw [k1]
            congr 1
            unfold DSt.gd
            dsimp only
            rw [if_pos h0]
            rfl
          · intro st' hst'
            rcases List.mem_cons.1 hst' with rfl | hst'
            · unfold DSt.gd; split <;> exact h0
            · exact k2 st' hst'
    obtain ⟨k1, k2⟩ := key sts _ hacc hl
    refine (ih (fun j hj => hi j (by simp [hj])) h1 k2).mono (fun r q => ⟨q.1, ?_⟩)
    have e : List.map (fun st : DSt α => ((stale s)^[is.length] (st.p, st.a)).1)
          ((setG sts (sampleGrads dL (sts.map (fun st : DSt α => st.p)) vs[i])).map (DSt.gd s 1)) =
        sts.map (fun st => ((stale s)^[(i :: is).length] (st.p, st.a)).1) := by
      have := congrArg (List.map (fun pa : Dense α × Grad α => ((stale s)^[is.length] pa).1)) k1
      rw [List.map_map (l := (setG sts (sampleGrads dL (sts.map (fun st : DSt α => st.p)) vs[i])).map (DSt.gd s 1)), List.map_map (l := sts)] at this
      refine this.trans (List.map_congr_left (fun st _ => ?_))
      simp only [Function.comp, List.length_cons, Function.iterate_succ_apply]
    rw [← e]
    exact q.2

/-- After `batch` (at least one epoch, at least one sample), `stochastic` ignores its samples: for every number of
iterations the final parameters are the same whatever data set and generator it is given. -/
theorem C29_violated [Zero α] [One α] [Add α] [Mul α] [Sub α] [Div α] [NatCast α] [LT α] [DecidableLT α] [DecidableEq α]
    (hone : ∀ a : α, a * 1 = a) (lr : α) (t : Train α) (ps : List (Dense α)) (n m : Nat)
    (dL : (Nat → α) → (Nat → α) → Nat → α) (h : t.Is ps n m dL) (idata odata : List (Ten α))
    (vs : List ((Nat → α) × (Nat → α))) (hd : DataIs idata odata n m vs) (hne : vs ≠ []) (epochs : Nat) (he : 1 ≤ epochs) (k : Nat) :
    Ok (Train.batch gdUpdate idata odata epochs (lr, t)) (fun r => ∃ ps' : List (Dense α),
      ∀ (γ ρ : Type) (gen : Gen γ ρ Nat) (c : γ) (g : ρ) (idata' odata' : List (Ten α)) (vs' : List ((Nat → α) × (Nat → α))),
        DataIs idata' odata' n m vs' → vs' ≠ [] →
        Ok (Train.stochastic gdUpdate idata' odata' k gen c g r) (fun r' => r'.1.2.Is ps' n m dL)) := by
  refine (C39_batch hone lr t ps n m dL h idata odata vs hd hne epochs).mono (fun r q => ?_)
  obtain ⟨s, t1⟩ := r
  obtain ⟨rfl, h1, hdirty⟩ := q
  obtain ⟨sts, hat, _⟩ := h1.at
  have hacc := hat.clean.2.1 (hdirty he)
  refine ⟨sts.map (fun st => ((stale s)^[k] (st.p, st.a)).1), fun γ ρ gen c g idata' odata' vs' hd' hne' => ?_⟩
  · have hlen : idata'.length = vs'.length := hd'.1.length_eq
    have hpos : 0 < vs'.length := List.length_pos_iff.2 hne'
    rw [stochastic_run _ _ _ _ (by omega)]
    refine (sto_dirty hone hd' _ (fun i hi => ?_) hat hacc).bind (fun r q => Ok_ok.2 ?_)
    · obtain ⟨a, _, rfl⟩ := List.mem_map.1 hi
      rw [hlen]; exact Nat.mod_lt _ hpos
    · have := q.2
      rw [List.length_map, draws_length] at this
      exact this

/-- Non-vacuity on integers (identity activation, 2 → 2 → 1, loss `(p-t)²`): after one epoch of `batch` on the sample
((1, 2), 3) one round of `stochastic` changes the output bias by the stale gradient for every sample it is given, in particular for
one that the network already predicts exactly (bias −(−6) = 6, then 6·2 = 12 instead of 6). -/
def exSto (batchFirst : Bool) (x y : List Int) : Res (Buf Int) := do
  let t := exTrain (1 : Int) (fun x => x) (fun _ => 1)
  let st ← if batchFirst then Train.batch gdUpdate [exRow [1, 2]] [exRow [3]] 1 ((1 : Int), t) else .ok ((1 : Int), t)
  let r ← Train.stochastic gdUpdate [exRow x] [exRow y] 1 (fun (_ : Unit) (k : Nat) => (k, (), k + 1)) () 7 st
  let l ← lget r.1.2.net 1
  return (l.params.headD [])

example : exSto true [0, 0] [6] = .ok (Buf.of [12]) ∧ exSto true [5, 5] [-100] = .ok (Buf.of [12]) ∧
    exSto false [0, 0] [0] = .ok (Buf.of [0]) ∧ exSto false [0, 0] [6] = .ok (Buf.of [12]) := by decide +kernel

end Trixy
