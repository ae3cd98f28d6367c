import Verif.Proof.NetDense
/- Training of dense networks with GradDescent. -/
namespace Trixy
set_option linter.unusedSectionVars false

variable {α γ ρ σ : Type}

theorem forall₂_get {A B : Type} {R : A → B → Prop} {l : List A} {m : List B} (h : List.Forall₂ R l m) :
    ∀ {i : Nat} {b : B}, m[i]? = some b → ∃ a, lget l i = .ok a ∧ R a b := by
  induction h with
  | nil => intro i b h; simp at h
  | @cons a b l m h _ ih =>
    intro i c hc
    cases i with
    | zero => simp only [List.getElem?_cons_zero, Option.some.injEq] at hc; subst hc; exact ⟨a, rfl, h⟩
    | succ i => simp only [List.getElem?_cons_succ] at hc; obtain ⟨a', e, r⟩ := ih hc; exact ⟨a', e, r⟩

/-- Training object whose network is in an abstract state. -/
structure Train.At (t : Train α) (sts : List (DSt α)) (n m : Nat) (dL : (Nat → α) → (Nat → α) → Nat → α) : Prop where
  net : t.net.At sts
  two : 2 ≤ sts.length
  word : sts.length < W64
  chain : Chain n (sts.map (·.p)) m
  delta : t.delta.data.length = m
  loss : ∃ l L, t.loss = some l ∧ l.Is m L dL

theorem Train.Is.at {t : Train α} {ps : List (Dense α)} {n m : Nat} {dL : (Nat → α) → (Nat → α) → Nat → α} (h : t.Is ps n m dL) :
    ∃ sts : List (DSt α), t.At sts n m dL ∧ sts.map (·.p) = ps := by
  obtain ⟨sts, h1, h2⟩ := h.net.at
  have hl : sts.length = ps.length := by rw [← h2]; simp
  exact ⟨sts, ⟨h1, hl ▸ h.two, hl ▸ h.word, by rw [h2]; exact h.chain, h.delta, h.loss⟩, h2⟩

theorem Train.At.is {t : Train α} {sts : List (DSt α)} {n m : Nat} {dL : (Nat → α) → (Nat → α) → Nat → α} (h : t.At sts n m dL) :
    t.Is (sts.map (·.p)) n m dL :=
  ⟨h.net.isDense, by simpa using h.two, by simpa using h.word, h.chain, h.delta, h.loss⟩

section
variable [Zero α] [One α] [Add α] [Mul α]

theorem Train.At.backprop {t : Train α} {sts : List (DSt α)} {n m : Nat} {dL : (Nat → α) → (Nat → α) → Nat → α} (h : t.At sts n m dL)
    {x y : Ten α} {v w : Nat → α} (hf : t.net.Fwd (sts.map (·.p)) v) (hx : VecIs x.data n v) (hy : VecIs y.data m w) :
    Ok (t.backprop x y) (fun t' => t'.At (setG sts (sampleGrads dL (sts.map (·.p)) (v, w))) n m dL ∧ t'.loss = t.loss) := by
  have hlen := h.net.length
  obtain ⟨loss, L, hloss, hL⟩ := h.loss
  have hne : t.net ≠ [] := by
    intro e; rw [e] at hlen; have := h.two; simp at hlen; omega
  obtain ⟨l, e1, hl⟩ := hf.last h.chain hne
  unfold Train.backprop
  have hw : wsub t.net.length 1 = t.net.length - 1 := wsub_eq (by have := h.two; omega) (by rw [hlen]; exact h.word)
  rw [hw, e1, bind_ok, hloss]
  show Ok (Ten.onData t.delta _ >>= _) _
  obtain ⟨d', e2, hd'⟩ := hL.df t.delta.data y.data l.value.data _ _ h.delta hy hl.2.2.2
  have e3 : t.delta.onData (fun d => loss.df d y.data l.value.data) = .ok { t.delta with data := d' } := by
    unfold Ten.onData; dsimp only; rw [e2]; rfl
  rw [e3, bind_ok, Net.backprop_eq _ _ _ (by rw [hlen]; exact h.two) (by rw [hlen]; exact h.word)]
  refine (bp_dense h.net false hf h.chain hx (d := { t.delta with data := d' }) hd').bind (fun net' q => ?_)
  have hg : (netGrads (sts.map (·.p)) v (dL w (netOut (sts.map (·.p)) v))).length = sts.length := by simp [netGrads_length]
  have hp := setG_p sts (sampleGrads dL (sts.map (fun st : DSt α => st.p)) (v, w)) hg
  have hlen2 : (setG sts (sampleGrads dL (sts.map (·.p)) (v, w))).length = sts.length := by
    have := congrArg List.length hp; simpa using this
  exact Ok_ok.2 ⟨⟨q.1, hlen2 ▸ h.two, hlen2 ▸ h.word, by rw [hp]; exact h.chain, hd'.length, ⟨loss, L, hloss ▸ rfl, hL⟩⟩, rfl⟩

theorem Train.At.sample [LT α] [DecidableLT α] {t : Train α} {sts : List (DSt α)} {n m : Nat} {dL : (Nat → α) → (Nat → α) → Nat → α}
    (h : t.At sts n m dL) {idata odata : List (Ten α)} {vs : List ((Nat → α) × (Nat → α))} (hd : DataIs idata odata n m vs)
    {i : Nat} {vw : (Nat → α) × (Nat → α)} (hi : vs[i]? = some vw) :
    Ok (t.sample idata odata i) (fun t' => t'.At (setG sts (sampleGrads dL (sts.map (·.p)) vw)) n m dL) := by
  obtain ⟨x, ex, hx⟩ := forall₂_get hd.1 hi
  obtain ⟨y, ey, hy⟩ := forall₂_get hd.2 hi
  have hlen := h.net.length
  have hne : t.net ≠ [] := by
    intro e; rw [e] at hlen; have := h.two; simp at hlen; omega
  unfold Train.sample Train.feedforward
  rw [ex, bind_ok, ey, Net.feedforward_eq _ _ hne (by rw [hlen]; exact h.word)]
  obtain ⟨net', e, hat, hfwd⟩ := ff_dense h.net h.chain hx
  have hne' : net' ≠ [] := by
    have := hat.length; intro e; rw [e] at this; have := h.two; simp at *; omega
  obtain ⟨l, e1, hl⟩ := hfwd.last h.chain hne'
  rw [e, bind_ok, e1]
  show Ok (Train.backprop x y { t with net := net' }) _
  have hat' : ({ t with net := net' } : Train α).At sts n m dL := ⟨hat, h.two, h.word, h.chain, h.delta, h.loss⟩
  exact (hat'.backprop hfwd hx hy).mono (fun t' q => q.1)

theorem Train.At.accumulating {t : Train α} {sts : List (DSt α)} {n m : Nat} {dL : (Nat → α) → (Nat → α) → Nat → α}
    (h : t.At sts n m dL) : Ok t.accumulating (fun t' => t'.At (sts.map DSt.accum) n m dL) := by
  unfold Train.accumulating
  refine h.net.accum.bind (fun net' q => Ok_ok.2 ?_)
  have e : (sts.map DSt.accum).map (·.p) = sts.map (·.p) := by simp [Function.comp_def, DSt.accum]
  exact ⟨q, by simpa using h.two, by simpa using h.word, by rw [e]; exact h.chain, h.delta, h.loss⟩

theorem Train.At.reseting {t : Train α} {sts : List (DSt α)} {n m : Nat} {dL : (Nat → α) → (Nat → α) → Nat → α}
    (h : t.At sts n m dL) : Ok t.reseting (fun t' => t'.At (sts.map DSt.reset) n m dL) := by
  unfold Train.reseting
  refine h.net.reset.bind (fun net' q => Ok_ok.2 ?_)
  have e : (sts.map DSt.reset).map (·.p) = sts.map (·.p) := by simp [Function.comp_def, DSt.reset]
  exact ⟨q, by simpa using h.two, by simpa using h.word, by rw [e]; exact h.chain, h.delta, h.loss⟩

end

theorem Chain.congr {n m : Nat} {ps qs : List (Dense α)} (h : ps.map (fun p => (p.n, p.m)) = qs.map (fun p => (p.n, p.m))) :
    Chain n ps m → Chain n qs m := by
  induction ps generalizing n qs with
  | nil => intro hc; cases qs with
    | nil => exact hc
    | cons => simp at h
  | cons p ps ih =>
    intro hc
    cases qs with
    | nil => simp at h
    | cons q qs =>
      simp only [List.map_cons, List.cons.injEq, Prod.mk.injEq] at h
      exact ⟨h.1.1 ▸ hc.1, h.1.2 ▸ ih h.2 hc.2⟩

theorem Train.At.updating [Mul α] [Sub α] [One α] [DecidableEq α] (hone : ∀ a : α, a * 1 = a) {lr alpha : α} {t : Train α}
    {sts : List (DSt α)} {n m : Nat} {dL : (Nat → α) → (Nat → α) → Nat → α} (h : t.At sts n m dL) :
    Ok (Train.updating gdUpdate alpha (lr, t)) (fun r => r.1 = lr ∧ r.2.At (sts.map (DSt.gd lr alpha)) n m dL) := by
  unfold Train.updating
  refine (h.net.gd hone (lr := lr) (alpha := alpha)).bind (fun r q => Ok_ok.2 ?_)
  refine ⟨q.1, q.2, by simpa using h.two, by simpa using h.word, Chain.congr ?_ h.chain, h.delta, h.loss⟩
  simp only [List.map_map]
  refine List.map_congr_left (fun st _ => ?_)
  simp only [Function.comp, DSt.gd_p, Dense.gd]

/-! ### One epoch of batch -/

section
variable [Zero α] [One α] [Add α] [Mul α]

theorem setG_accum_a (sts : List (DSt α)) : ∀ gs : List (Grad α), gs.length = sts.length →
    ((setG sts gs).map DSt.accum).map (·.a) = List.zipWith addGrad (sts.map (·.a)) gs := by
  induction sts with
  | nil => intro gs _; simp [setG]
  | cons st sts ih =>
    intro gs h
    cases gs with
    | nil => simp at h
    | cons g gs =>
      have := ih gs (by simpa using h)
      simp only [setG, List.zipWith_cons_cons, List.map_cons] at this ⊢
      rw [this]; rfl

theorem sampleGrads_length (dL : (Nat → α) → (Nat → α) → Nat → α) (ps : List (Dense α)) (vw : (Nat → α) × (Nat → α)) :
    (sampleGrads dL ps vw).length = ps.length := netGrads_length _ _ _

theorem gradSum_take_succ (dL : (Nat → α) → (Nat → α) → Nat → α) (ps : List (Dense α)) (vs : List ((Nat → α) × (Nat → α))) {i : Nat}
    {vw : (Nat → α) × (Nat → α)} (h : vs[i]? = some vw) :
    gradSum dL ps (vs.take (i + 1)) = List.zipWith addGrad (gradSum dL ps (vs.take i)) (sampleGrads dL ps vw) := by
  unfold gradSum
  rw [List.take_add_one, h, List.foldl_append]
  rfl

/-- The state after `reset` and `i` accumulated samples. -/
structure Acc (sts : List (DSt α)) (ps : List (Dense α)) (dL : (Nat → α) → (Nat → α) → Nat → α) (vs : List ((Nat → α) × (Nat → α)))
    (keys : List (Nat × Nat)) : Prop where
  p : sts.map (·.p) = ps
  a : sts.map (·.a) = gradSum dL ps vs
  acc : ∀ st ∈ sts, st.acc = decide (0 < vs.length)
  keys : sts.map (fun st => (st.kB, st.kW)) = keys

theorem Acc.step {sts : List (DSt α)} {ps : List (Dense α)} {dL : (Nat → α) → (Nat → α) → Nat → α}
    {vs : List ((Nat → α) × (Nat → α))} {keys : List (Nat × Nat)} {i : Nat} {vw : (Nat → α) × (Nat → α)} (hi : vs[i]? = some vw)
    (h : Acc sts ps dL (vs.take i) keys) :
    Acc ((setG sts (sampleGrads dL ps vw)).map DSt.accum) ps dL (vs.take (i + 1)) keys := by
  have hl : (sampleGrads dL ps vw).length = sts.length := by rw [sampleGrads_length, ← h.p]; simp
  refine ⟨?_, ?_, ?_, ?_⟩
  · rw [List.map_map]; exact (setG_p sts _ hl).trans h.p
  · rw [setG_accum_a sts _ hl, h.a, gradSum_take_succ _ _ _ hi]
  · intro st hst
    obtain ⟨st', _, rfl⟩ := List.mem_map.1 hst
    have : i < vs.length := by
      by_contra hc; rw [List.getElem?_eq_none (by omega)] at hi; cases hi
    simp [DSt.accum, this]
  · rw [List.map_map, ← h.keys]
    clear h hi
    revert hl
    generalize sampleGrads dL ps vw = gs
    induction sts generalizing gs with
    | nil => intro _; simp [setG]
    | cons st sts ih =>
      intro hl
      cases gs with
      | nil => simp at hl
      | cons g gs => have := ih gs (by simpa using hl); simp only [setG, List.zipWith_cons_cons, List.map_cons] at this ⊢; rw [this]; rfl

theorem gd_used [Sub α] {sts : List (DSt α)} {ps : List (Dense α)} {gs : List (Grad α)} {lr alpha : α} (hp : sts.map (·.p) = ps)
    (hg : sts.map DSt.used = gs) : (sts.map (DSt.gd lr alpha)).map (·.p) = gdStep lr alpha ps gs := by
  subst hp hg
  rw [List.map_map]
  unfold gdStep
  rw [List.zipWith_map]
  induction sts with
  | nil => rfl
  | cons st sts ih => simp only [List.map_cons, List.zipWith_cons_cons, ih, Function.comp, DSt.gd_p]

theorem Acc.used {sts : List (DSt α)} {ps : List (Dense α)} {dL : (Nat → α) → (Nat → α) → Nat → α}
    {vs : List ((Nat → α) × (Nat → α))} {keys : List (Nat × Nat)} (h : Acc sts ps dL vs keys) (hne : vs ≠ []) :
    sts.map DSt.used = gradSum dL ps vs := by
  rw [← h.a]
  refine List.map_congr_left (fun st hst => ?_)
  have := h.acc st hst
  unfold DSt.used
  rw [this, if_pos]
  simp [List.length_pos_iff.2 hne]

/-- Accumulating a run of samples `lo, …, lo+k-1` after a reset. -/
theorem Train.At.accRun [LT α] [DecidableLT α] {t : Train α} {sts : List (DSt α)} {n m : Nat} {dL : (Nat → α) → (Nat → α) → Nat → α}
    (h : t.At sts n m dL) {idata odata : List (Ten α)} {vs : List ((Nat → α) × (Nat → α))} (hd : DataIs idata odata n m vs)
    {lo k : Nat} (hk : lo + k ≤ vs.length) :
    Ok (do let t ← t.reseting; forN k t (fun i t => t.sampleAcc idata odata (lo + i)))
      (fun t' => ∃ sts', t'.At sts' n m dL ∧ Acc sts' (sts.map (·.p)) dL ((vs.drop lo).take k) (sts.map (fun st => (st.kB, st.kW)))) := by
  refine h.reseting.bind (fun t1 h1 => ?_)
  refine forN_spec (fun i (t' : Train α) => ∃ sts', t'.At sts' n m dL ∧
    Acc sts' (sts.map (·.p)) dL ((vs.drop lo).take i) (sts.map (fun st => (st.kB, st.kW)))) ?_ ?_
  · refine ⟨_, h1, ⟨?_, ?_, ?_, ?_⟩⟩
    · simp [Function.comp_def, DSt.reset]
    · simp [gradSum, Function.comp_def, DSt.reset, zeroGrad]
    · intro st hst; obtain ⟨st', _, rfl⟩ := List.mem_map.1 hst; simp [DSt.reset]
    · simp [Function.comp_def, DSt.reset]
  · rintro i hi t' ⟨sts', hat, hacc⟩
    have hlt : lo + i < vs.length := by omega
    have e : vs[lo + i]? = some vs[lo + i] := List.getElem?_eq_getElem hlt
    have e' : (vs.drop lo)[i]? = some vs[lo + i] := by rw [List.getElem?_drop, e]
    unfold Train.sampleAcc
    refine (hat.sample hd e).bind (fun t2 h2 => ?_)
    refine h2.accumulating.mono (fun t3 h3 => ⟨_, h3, ?_⟩)
    rw [hacc.p]
    exact hacc.step e'

/-- One averaged step on samples `lo, …, lo+k-1` (`k ≥ 1`). -/
theorem Train.At.gdRun [Sub α] [LT α] [DecidableLT α] [DecidableEq α] (hone : ∀ a : α, a * 1 = a) {lr alpha : α} {t : Train α}
    {sts : List (DSt α)} {n m : Nat} {dL : (Nat → α) → (Nat → α) → Nat → α}
    (h : t.At sts n m dL) {idata odata : List (Ten α)} {vs : List ((Nat → α) × (Nat → α))} (hd : DataIs idata odata n m vs)
    {lo k : Nat} (hk : lo + k ≤ vs.length) (hk1 : 1 ≤ k) :
    Ok (do let t ← t.reseting
           let t ← forN k t (fun i t => t.sampleAcc idata odata (lo + i))
           Train.updating gdUpdate alpha (lr, t))
      (fun r => r.1 = lr ∧ ∃ sts', r.2.At sts' n m dL ∧ (∀ st ∈ sts', st.acc = true) ∧
        sts'.map (·.p) = gdStep lr alpha (sts.map (·.p)) (gradSum dL (sts.map (·.p)) ((vs.drop lo).take k))) := by
  have := h.accRun hd hk
  rw [← bind_assoc]
  refine this.bind (fun t' q => ?_)
  obtain ⟨sts', hat, hacc⟩ := q
  have hne : (vs.drop lo).take k ≠ [] := by
    intro e; have := congrArg List.length e; simp at this; omega
  refine (hat.updating hone).mono (fun r q => ⟨q.1, _, q.2, ?_, ?_⟩)
  · intro st hst
    obtain ⟨st', hst', rfl⟩ := List.mem_map.1 hst
    have := hacc.acc st' hst'
    have hpos : 0 < ((vs.drop lo).take k).length := List.length_pos_iff.2 hne
    rw [decide_eq_true hpos] at this
    unfold DSt.gd; rw [if_pos this]; exact this
  · exact gd_used hacc.p (hacc.used hne)

end

end Trixy
