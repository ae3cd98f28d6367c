import Verif.Spec.Still
import Verif.Proof.Still
import Verif.Props.Rescale
import Verif.Props.Library
/- Property C104 (what has no gradient is not moved). -/
namespace Trixy
set_option linter.unusedSectionVars false

variable {α σ : Type}

/-! ### The optimizers -/

section
variable [Field α]

/-- The table is zero at the addresses `Z`. -/
def TabZero (Z : Nat → Prop) (size : Nat → Nat) (t : Table α) : Prop := ∀ k, Z k → VecIs (t.get k (size k)) (size k) (fun _ => 0)

theorem TabZero.empty (Z : Nat → Prop) (size : Nat → Nat) : TabZero Z size (fun _ => none : Table α) := fun k _ => Table.get_empty k _

theorem TabZero.of {Z : Nat → Prop} {size : Nat → Nat} {t t' : Table α} (h : TabZero Z size t) {k : Nat}
    (hk : Z k → VecIs (t'.get k (size k)) (size k) (fun _ => 0)) (ho : ∀ k', k' ≠ k → t' k' = t k') : TabZero Z size t' := by
  intro k' hz
  by_cases e : k' = k
  · subst e; exact hk hz
  · rw [getTab_congr (ho k' e)]; exact h k' hz

/-- `UpdOk` with an invariant that survives, and a parameter that stays where the gradient vanishes. -/
theorem stillOpt_of {upd : Upd σ α} {size : Nat → Nat} {I : σ → Prop} {Z : Nat → Prop} {K : σ → Prop} (hu : UpdOk upd size I)
    (hK : ∀ s k p g r, I s → K s → Full p (size k) → Full g (size k) → (Z k → VecIs g (size k) (fun _ => 0)) → upd s k p g = .ok r →
      K r.1 ∧ (Z k → r.2.1 = p)) :
    StillOpt upd Z (fun k n => size k = n) (fun s => I s ∧ K s) where
  still s k n p g hJ hz hV hp hg := by
    subst hV
    obtain ⟨⟨s', p', g'⟩, e, h1, h2, h3⟩ := hu s k p g hJ.1 hp hg.full
    obtain ⟨q1, q2⟩ := hK s k p g _ hJ.1 hJ.2 hp hg.full (fun _ => hg) e
    have q2 := q2 hz
    dsimp only at q2
    subst q2
    exact ⟨s', g', e, ⟨h1, q1⟩, h3⟩
  other s k n p g hJ hz hV hp hg := by
    subst hV
    obtain ⟨⟨s', p', g'⟩, e, h1, h2, h3⟩ := hu s k p g hJ.1 hp hg
    exact ⟨s', p', g', e, ⟨h1, (hK s k p g _ hJ.1 hJ.2 hp hg (fun h => absurd h hz) e).1⟩, h2, h3⟩

theorem C104_gd (Z : Nat → Prop) (size : Nat → Nat) : StillOpt (gdUpdate (α := α)) Z (fun k n => size k = n) (fun _ => True ∧ True) := by
  refine stillOpt_of (gd_UpdOk size) (fun s k p g r _ _ ⟨fp, hp⟩ _ hz e => ⟨trivial, fun h => ?_⟩)
  obtain ⟨r', e', _, h2, _⟩ := gd_spec (lr := s) (k := k) hp (hz h)
  cases e.symm.trans e'
  exact BufIs.ext (h2.congr (fun i _ => by rw [zero_mul, sub_zero])) hp

theorem C104_momentum (Z : Nat → Prop) (size : Nat → Nat) :
    StillOpt (momUpdate (α := α)) Z (fun k n => size k = n) (fun s => MomOk size s ∧ TabZero Z size s.opt) := by
  refine stillOpt_of (mom_UpdOk size) (fun s k p g r hI hK ⟨fp, hp⟩ ⟨fg, hg⟩ hz e => ?_)
  have ho := local_mom.other s k p g r e
  simp only [Prod.mk.injEq] at ho
  have key : Z k → VecIs (r.1.opt.get k (size k)) (size k) (fun _ => 0) ∧ r.2.1 = p := by
    intro h
    obtain ⟨r', e', _, _, _, h4, h5, _⟩ := mom_spec hp (hz h) (hI.1 k) (hK k h)
    cases e.symm.trans e'
    exact ⟨h4.congr (fun i _ => by ring), BufIs.ext (h5.congr (fun i _ => by ring)) hp⟩
  exact ⟨hK.of (fun h => (key h).1) (fun k' hk' => (ho k' hk').2.1), fun h => (key h).2⟩

theorem C104_nestorov (Z : Nat → Prop) (size : Nat → Nat) :
    StillOpt (nesUpdate (α := α)) Z (fun k n => size k = n) (fun s => MomOk size s ∧ TabZero Z size s.opt) := by
  refine stillOpt_of (nes_UpdOk size) (fun s k p g r hI hK ⟨fp, hp⟩ ⟨fg, hg⟩ hz e => ?_)
  have ho := local_nes.other s k p g r e
  simp only [Prod.mk.injEq] at ho
  have key : Z k → VecIs (r.1.opt.get k (size k)) (size k) (fun _ => 0) ∧ r.2.1 = p := by
    intro h
    obtain ⟨r', e', _, _, _, h4, h5, _⟩ := nes_spec hp (hz h) (hI.1 k) (hK k h)
    cases e.symm.trans e'
    exact ⟨h4.congr (fun i _ => by ring), BufIs.ext (h5.congr (fun i _ => by ring)) hp⟩
  exact ⟨hK.of (fun h => (key h).1) (fun k' hk' => (ho k' hk').2.1), fun h => (key h).2⟩

theorem C104_adagrad (isq : α → α) (Z : Nat → Prop) (size : Nat → Nat) :
    StillOpt (adagradUpdate isq) Z (fun k n => size k = n) (fun s => AdaOk size s ∧ True) := by
  refine stillOpt_of (adagrad_UpdOk isq size) (fun s k p g r hI _ ⟨fp, hp⟩ _ hz e => ⟨trivial, fun h => ?_⟩)
  obtain ⟨v, hv⟩ := hI.2 k
  obtain ⟨r', e', _, _, _, h5, _⟩ := adagrad_spec (isq := isq) hp (hz h) (hI.1 k) hv
  cases e.symm.trans e'
  exact BufIs.ext (h5.congr (fun i _ => by ring)) hp

theorem C104_rmsprop (isq : α → α) (Z : Nat → Prop) (size : Nat → Nat) :
    StillOpt (rmspropUpdate isq) Z (fun k n => size k = n) (fun s => AdaOk size s ∧ True) := by
  refine stillOpt_of (rmsprop_UpdOk isq size) (fun s k p g r hI _ ⟨fp, hp⟩ _ hz e => ⟨trivial, fun h => ?_⟩)
  obtain ⟨v, hv⟩ := hI.2 k
  obtain ⟨r', e', _, _, _, _, _, h5, _⟩ := rmsprop_spec (isq := isq) hp (hz h) (hI.1 k) hv
  cases e.symm.trans e'
  exact BufIs.ext (h5.congr (fun i _ => by ring)) hp

end

theorem C104_adam [Field α] [LinearOrder α] [IsStrictOrderedRing α] (isq : α → α) (Z : Nat → Prop) (size : Nat → Nat) :
    StillOpt (adamUpdate isq) Z (fun k n => size k = n) (fun s : AdamS α => AdamOk size s ∧ TabZero Z size s.m) := by
  refine stillOpt_of (adam_UpdOk isq size) (fun s k p g r hI hK ⟨fp, hp⟩ ⟨fg, hg⟩ hz e => ?_)
  obtain ⟨m, hm⟩ := hI.m k
  obtain ⟨v, hv⟩ := hI.s k
  have l1 : s.tbeta1 * s.beta1 < 1 := (mul_le_of_le_one_left hI.b1.1 hI.t1.2).trans_lt hI.b1.2
  have l2 : s.tbeta2 * s.beta2 < 1 := (mul_le_of_le_one_left hI.b2.1 hI.t2.2).trans_lt hI.b2.2
  obtain ⟨r', e', _, _, _, _, _, _, _, ho, _⟩ :=
    adam_spec (isq := isq) hp hg (hI.buff k) hm hv (sub_ne_zero.2 (ne_of_gt l1)) (sub_ne_zero.2 (ne_of_gt l2))
  cases e.symm.trans e'
  have key : Z k → VecIs (r.1.m.get k (size k)) (size k) (fun _ => 0) ∧ r.2.1 = p := by
    intro h
    obtain ⟨r', e', _, _, _, _, _, _, _, _, _, h4, _, h6, _⟩ :=
      adam_spec (isq := isq) hp (hz h) (hI.buff k) (hK k h) hv (sub_ne_zero.2 (ne_of_gt l1)) (sub_ne_zero.2 (ne_of_gt l2))
    cases e.symm.trans e'
    exact ⟨h4.congr (fun i _ => by ring), BufIs.ext (h6.congr (fun i _ => by ring)) hp⟩
  exact ⟨hK.of (fun h => (key h).1) (fun k' hk' => (ho k' hk').2.1), fun h => (key h).2⟩

/-! ### Training -/

section
variable [Field α] [LT α] [DecidableLT α] [DecidableEq α] {upd : Upd σ α} {Z : Nat → Prop} {J : σ → Prop}

theorem stillT_start {t : Train α} {ps : List (Dense α)} {n m : Nat} {dL : (Nat → α) → (Nat → α) → Nat → α} {A : List (DSt α)}
    (h : t.At A n m dL) {size : Nat → Nat} (hz : t.net.Sized size) {Q : List ((Nat × Nat) × Dense α) → Prop} (hQ : Q (A.map DSt.kp)) {s : σ} (hJ : J s)
    (cl : Bool) (hc : cl = true → t.net.Clean) : StillT (fun k n => size k = n) J n m dL Q cl (s, t) := by
  refine ⟨hJ, A, h, ?_, hQ, fun e => ?_⟩
  · have hn := h.net
    generalize t.net = net at hn hz
    clear * - hn hz
    induction hn with
    | nil => intro x hx; simp at hx
    | @cons l a ls A hl _ ih =>
      obtain ⟨f, rfl, hf⟩ := hl
      intro x hx
      rw [List.map_cons] at hx
      rcases List.mem_cons.1 hx with rfl | hx
      · have := hz f (by simp)
        rw [hf.kB, hf.kW, hf.wf.osize, hf.wf.isize] at this
        exact this
      · exact ih (fun f hf => hz f (by simp [hf])) x hx
  · have hcl := hc e
    have hn := h.net
    generalize t.net = net at hn hcl
    clear * - hn hcl
    induction hn with
    | nil => simp
    | @cons l a ls A h _ ih =>
      obtain ⟨f, rfl, hf⟩ := h
      intro b hb
      rcases List.mem_cons.1 hb with rfl | hb
      · rw [← hf.acc]; exact hcl _ (by simp) f rfl
      · exact ih (fun l hl => hcl l (by simp [hl])) b hb

/-- All ways of training keep the situation `Q`. -/
theorem still_training {size : Nat → Nat} (ho : StillOpt upd Z (fun k n => size k = n) J) {n m : Nat} {dL : (Nat → α) → (Nat → α) → Nat → α}
    {t : Train α} {A : List (DSt α)} (h : t.At A n m dL) (hz : t.net.Sized size) {Q : List ((Nat × Nat) × Dense α) → Prop} (q : Q (A.map DSt.kp))
    {idata odata : List (Ten α)} {vs : List ((Nat → α) × (Nat → α))} (hd : DataIs idata odata n m vs) (hne : vs ≠ [])
    (hQ : ∀ A A', Q A → MovesAll Z A A' → Q A')
    (hG : ∀ A, Q A → Chain n (A.map (·.2)) m → ∀ vw ∈ vs, List.Forall₂ (GradZero Z) A (sampleGrads dL (A.map (·.2)) vw)) {s : σ} (hJ : J s) :
    TrainingGives upd idata odata (s, t) (fun t' => ∃ A : List (DSt α), t'.At A n m dL ∧ Q (A.map DSt.kp)) := by
  have hlen : idata.length = vs.length := hd.1.length_eq
  have hpos : 1 ≤ vs.length := List.length_pos_iff.2 hne
  have out : ∀ {cl : Bool} {x : σ × Train α}, StillT (fun k n => size k = n) J n m dL Q cl x → ∃ A : List (DSt α), x.2.At A n m dL ∧ Q (A.map DSt.kp) := by
    rintro cl x ⟨_, A, h1, _, h2, _⟩
    exact ⟨A, h1, h2⟩
  have run : ∀ (a : α) (ws : List (Nat × Nat)), (∀ w ∈ ws, w.1 + w.2 ≤ vs.length ∧ 1 ≤ w.2) →
      Ok (TEv.run upd idata odata (s, t) (ws.flatMap (fun w => stepTrace a w.1 w.2))) (fun r => ∃ A : List (DSt α), r.2.At A n m dL ∧ Q (A.map DSt.kp)) := by
    intro a ws hw
    obtain ⟨x, e, hx⟩ := StillT.steps ho hd hQ hG a ws hw (stillT_start (ps := []) (s := s) h hz q hJ false (fun h => by simp at h))
    exact ⟨x, e, out hx⟩
  refine ⟨fun epochs => ?_, fun k epochs hk => ?_, fun hcl γ ρ gen g0 r0 iterations => ?_⟩
  · rw [batch_run upd idata odata _ _ (by omega), batchTrace_steps]
    refine run _ _ (fun w hw => ?_)
    rw [List.mem_replicate] at hw
    rw [hw.2]; dsimp only; omega
  · rw [miniBatch_run upd idata odata _ _ _ (by omega), miniTrace_steps]
    refine run _ _ (fun w hw => ?_)
    obtain ⟨l, h1, h2⟩ := List.mem_flatten.1 hw
    rw [List.mem_replicate] at h1
    rw [h1.2] at h2
    obtain ⟨b, h3, rfl⟩ := List.mem_map.1 h2
    rw [List.mem_range] at h3
    have h4 : (b + 1) * k ≤ idata.length / k * k := Nat.mul_le_mul_right k h3
    have h5 := Nat.div_mul_le_self idata.length k
    rw [Nat.succ_mul] at h4
    dsimp only; omega
  · obtain ⟨x, e, hx⟩ := StillT.stos ho hd hQ hG ((draws gen iterations g0 r0).map (· % idata.length))
      (by
        intro i hi
        obtain ⟨a, _, rfl⟩ := List.mem_map.1 hi
        rw [← hlen]; exact Nat.mod_lt _ (by omega))
      (stillT_start (ps := []) (s := s) h hz q hJ true (fun _ => hcl))
    rw [stochastic_run _ _ _ _ (by omega), e, bind_ok]
    exact Ok_ok.2 (out hx)

theorem foldSum_nil (n : Nat) (f : Nat → α) (h : ∀ i, i < n → f i = 0) : foldSum 0 n f = 0 := by
  induction n with
  | zero => rfl
  | succ n ih => rw [foldSum_succ, ih (fun i hi => h i (by omega)), h n (by omega), add_zero]

theorem netBack_zero : ∀ (ps : List (Dense α)) {n m : Nat} (v u : Nat → α), Chain n ps m → (∀ j, j < m → u j = 0) → ∀ j, j < n → netBack ps v u j = 0
  | [], n, m, v, u, hc, hu, j, hj => hu j (hc ▸ hj)
  | p :: ps, n, m, v, u, hc, hu, j, hj => by
    simp only [netBack, Dense.back]
    exact foldSum_nil _ _ (fun i hi => by rw [netBack_zero ps _ u hc.2 hu i hi]; ring)

theorem netGrads_zero : ∀ (A : List ((Nat × Nat) × Dense α)) {n m : Nat} (v u : Nat → α), Chain n (A.map (·.2)) m → (∀ j, j < m → u j = 0) →
    List.Forall₂ (GradZero Z) A (netGrads (A.map (·.2)) v u)
  | [], _, _, _, _, _, _ => .nil
  | x :: A, n, m, v, u, hc, hu => by
    refine .cons ⟨fun _ j hj => ?_, fun _ i j _ hj => ?_⟩ (netGrads_zero A _ u hc.2 hu)
    · simp only [Dense.grad]; rw [netBack_zero _ _ u hc.2 hu j hj, mul_zero]
    · simp only [Dense.grad]; rw [netBack_zero _ _ u hc.2 hu j hj, mul_zero, mul_zero]

theorem MovesAll.eq : ∀ {A A' : List ((Nat × Nat) × Dense α)}, MovesAll Z A A' → (∀ x ∈ A, Z x.1.1 ∧ Z x.1.2) → A' = A := by
  intro A A' h
  induction h with
  | nil => intro _; rfl
  | @cons x y A A' h _ ih =>
    intro hz
    obtain ⟨h1, b, W, e, h2, h3⟩ := h
    obtain ⟨z1, z2⟩ := hz x (by simp)
    rw [ih (fun x hx => hz x (by simp [hx]))]
    congr 1
    obtain ⟨y1, y2⟩ := y
    dsimp only at h1 e
    rw [h1, e, h2 z1, h3 z2]

theorem MovesAll.split {H : List ((Nat × Nat) × Dense α)} {x : (Nat × Nat) × Dense α} : ∀ {A' : List ((Nat × Nat) × Dense α)}, MovesAll Z (H ++ [x]) A' →
    ∃ H' y, A' = H' ++ [y] ∧ MovesAll Z H H' ∧ y.1 = x.1 ∧ Moves Z x.1 x.2 y.2 := by
  induction H with
  | nil =>
    intro A' h
    cases h with
    | cons h h' => cases h'; exact ⟨[], _, rfl, .nil, h⟩
  | cons a H ih =>
    intro A' h
    rw [List.cons_append] at h
    cases h with
    | cons h h' =>
      obtain ⟨H', y, e, h1, h2⟩ := ih h'
      exact ⟨_ :: H', y, by rw [e]; rfl, .cons h h1, h2⟩

/-- A network that already fits all targets (the derivative of the loss vanishes on every sample) is not changed by any way of training,
with any optimizer that leaves parameters without gradients alone. -/
theorem C104_fit (upd : Upd σ α) (size : Nat → Nat) (J : σ → Prop) (ho : StillOpt upd (fun _ => True) (fun k n => size k = n) J) (s : σ) (hJ : J s)
    (t : Train α) (ps : List (Dense α)) (n m : Nat) (dL : (Nat → α) → (Nat → α) → Nat → α) (h : t.Is ps n m dL) (hz : t.net.Sized size)
    (idata odata : List (Ten α)) (vs : List ((Nat → α) × (Nat → α))) (hd : DataIs idata odata n m vs) (hne : vs ≠ [])
    (hfit : ∀ vw ∈ vs, ∀ j, j < m → dL vw.2 (netOut ps vw.1) j = 0) :
    TrainingGives upd idata odata (s, t) (fun t' => t'.net.params = t.net.params) := by
  obtain ⟨A, hA, e⟩ := h.at
  have T := still_training ho hA hz (Q := fun B => B = A.map DSt.kp) rfl hd hne
    (fun B B' q hm => (hm.eq (fun _ _ => ⟨trivial, trivial⟩)).trans q)
    (fun B q hc vw hvw => netGrads_zero B _ _ hc (fun j hj => by
      have := hfit vw hvw j hj
      rw [q, kp_p, e]; exact this)) hJ
  have out : ∀ t' : Train α, (∃ B : List (DSt α), t'.At B n m dL ∧ B.map DSt.kp = A.map DSt.kp) → t'.net.params = t.net.params := by
    rintro t' ⟨B, hB, q⟩
    refine At_params hB.net hA.net ?_
    rw [← kp_p, ← kp_p, q]
  exact ⟨fun epochs => (T.1 epochs).mono (fun r hr => out _ hr), fun k epochs hk => (T.2.1 k epochs hk).mono (fun r hr => out _ hr),
    fun hc γ ρ gen c g it => (T.2.2 hc γ ρ gen c g it).mono (fun r hr => out _ hr)⟩

theorem netGrads_dead (kb kw : Nat) (last : Dense α) (hW : last.W = fun _ _ => 0) (u : Nat → α) :
    ∀ (H : List ((Nat × Nat) × Dense α)) (v : Nat → α) {n m : Nat}, Chain n (H.map (·.2) ++ [last]) m →
      (∀ x ∈ H, x.2.b = (fun _ => 0) ∧ x.2.W = (fun _ _ => 0) ∧ ∀ j, j < x.2.m → x.2.F (fun _ => 0) j = 0) → (H = [] → ∀ i, i < last.n → v i = 0) →
      List.Forall₂ (GradZero (fun k => k ≠ kb)) (H ++ [((kb, kw), last)]) (netGrads (H.map (·.2) ++ [last]) v u)
  | [], v, n, m, _, _, hv => by
    refine .cons ⟨fun h => absurd rfl h, fun _ i j hi _ => ?_⟩ .nil
    simp only [Dense.grad]; rw [hv rfl i hi, zero_mul]
  | x :: H, v, n, m, hc, hH, _ => by
    obtain ⟨h1, h2, h3⟩ := hH x (by simp)
    have back : ∀ w i, netBack (H.map (·.2) ++ [last]) w u i = 0 := by
      intro w i
      cases H with
      | nil => simp only [List.map_nil, List.nil_append, netBack, Dense.back, hW]; exact foldSum_nil _ _ (fun _ _ => by ring)
      | cons y H =>
        simp only [List.map_cons, List.cons_append, netBack, Dense.back, (hH y (by simp)).2.1]
        exact foldSum_nil _ _ (fun _ _ => by ring)
    have out : ∀ i, i < x.2.m → x.2.out v i = 0 := by
      intro i hi
      have : affine x.2.n x.2.W x.2.b v = fun _ => 0 := by
        funext j
        unfold affine
        rw [h1, h2, foldSum_nil _ _ (fun _ _ => by ring), add_zero]
      unfold Dense.out
      rw [this]; exact h3 i hi
    refine .cons ⟨fun _ j _ => ?_, fun _ i j _ _ => ?_⟩ (netGrads_dead kb kw last hW u H _ hc.2 (fun y hy => hH y (by simp [hy])) ?_)
    · exact (congrArg _ (back _ j)).trans (mul_zero _)
    · exact (congrArg _ ((congrArg _ (back _ j)).trans (mul_zero _))).trans (mul_zero _)
    · intro e i hi
      subst e
      have : last.n = x.2.m := hc.2.1
      exact out i (this ▸ hi)

theorem kp_last {f : FC α} : ∀ {ls : Net α} {A : List (DSt α)} {hid : List (Dense α)} {last : Dense α}, Net.At (ls ++ [.fc f]) A →
    A.map (·.p) = hid ++ [last] → ∃ H, A.map DSt.kp = H ++ [((f.keyB, f.keyW), last)] ∧ H.map (·.2) = hid ∧
      ∀ x ∈ H, x.1.1 ∈ ls.flatMap Layer.addrs ∧ x.1.2 ∈ ls.flatMap Layer.addrs
  | [], A, hid, last, h, e => by
    cases h with
    | @cons _ a _ A hl h' =>
      cases h'
      obtain ⟨f', h1, hf⟩ := hl
      cases h1
      cases hid with
      | cons => simp at e
      | nil =>
        have e : a.p = last := by simpa using e
        refine ⟨[], ?_, rfl, by simp⟩
        rw [List.map_cons, List.map_nil, List.nil_append]
        unfold DSt.kp
        rw [e, hf.kB, hf.kW]
  | l :: ls, A, hid, last, h, e => by
    cases h with
    | @cons _ a _ A hl h' =>
      obtain ⟨f', rfl, hf⟩ := hl
      cases hid with
      | nil =>
        have h1 := List.Forall₂.length_eq h'
        have h2 := congrArg List.length e
        have h1 : (ls ++ [Layer.fc f]).length = A.length := h1
        rw [List.length_append] at h1
        simp only [List.map_cons, List.length_cons, List.length_map, List.nil_append, List.length_nil] at h1 h2
        omega
      | cons p hid =>
        rw [List.map_cons, List.cons_append] at e
        injection e with e e'
        obtain ⟨H, h1, h2, h3⟩ := kp_last h' e'
        refine ⟨a.kp :: H, by rw [List.map_cons, h1]; rfl, by rw [List.map_cons, h2, ← e]; rfl, fun x hx => ?_⟩
        rw [List.flatMap_cons]
        rcases List.mem_cons.1 hx with rfl | hx
        · have : Layer.addrs (.fc f') = [a.kB, a.kW] := by rw [← hf.kB, ← hf.kW]; rfl
          rw [this]; simp [DSt.kp]
        · exact ⟨List.mem_append_right _ (h3 x hx).1, List.mem_append_right _ (h3 x hx).2⟩

/-- A network that starts with all weights and all hidden biases zero and whose hidden activations send 0 to 0 learns the biases of its last
layer and nothing else: after any training all weights and all other biases are still zero. -/
theorem C104_zero (upd : Upd σ α) (size : Nat → Nat) (J : σ → Prop) (kb : Nat) (ho : StillOpt upd (fun k => k ≠ kb) (fun k n => size k = n) J) (s : σ) (hJ : J s)
    (t : Train α) (hid : List (Dense α)) (last : Dense α) (n m : Nat) (dL : (Nat → α) → (Nat → α) → Nat → α) (h : t.Is (hid ++ [last]) n m dL)
    (hz : t.net.Sized size) (ha : t.net.Apart) (hkb : t.net.LastBias kb)
    (h0 : ∀ p ∈ hid, p.b = (fun _ => 0) ∧ p.W = (fun _ _ => 0) ∧ ∀ j, j < p.m → p.F (fun _ => 0) j = 0) (hW : last.W = fun _ _ => 0)
    (idata odata : List (Ten α)) (vs : List ((Nat → α) × (Nat → α))) (hd : DataIs idata odata n m vs) (hne : vs ≠ []) :
    TrainingGives upd idata odata (s, t) (fun t' => ∃ b, t'.Is (hid ++ [{ last with b := b }]) n m dL) := by
  obtain ⟨A, hA, e⟩ := h.at
  have start : ∃ kw b H, A.map DSt.kp = H ++ [((kb, kw), { last with b := b })] ∧ H.map (·.2) = hid ∧ kw ≠ kb ∧ ∀ x ∈ H, x.1.1 ≠ kb ∧ x.1.2 ≠ kb := by
    obtain ⟨ls, f, hf, rfl⟩ := hkb
    have hn := hA.net
    rw [hf] at hn
    unfold Net.Apart at ha
    rw [hf, List.flatMap_append, show [Layer.fc f].flatMap Layer.addrs = [f.keyB, f.keyW] from rfl, List.nodup_append] at ha
    obtain ⟨_, a2, a3⟩ := ha
    obtain ⟨H, h1, h2, h3⟩ := kp_last hn e
    refine ⟨f.keyW, last.b, H, h1, h2, ?_, fun x hx => ⟨a3 _ (h3 x hx).1 _ (by simp), a3 _ (h3 x hx).2 _ (by simp)⟩⟩
    intro e
    rw [e] at a2
    simp at a2
  have T := still_training ho hA hz
    (Q := fun B => ∃ kw b H, B = H ++ [((kb, kw), { last with b := b })] ∧ H.map (·.2) = hid ∧ kw ≠ kb ∧ ∀ x ∈ H, x.1.1 ≠ kb ∧ x.1.2 ≠ kb)
    start hd hne
    (by
      rintro B B' ⟨kw, b, H, rfl, q1, q2, q3⟩ hm
      obtain ⟨H', y, e', hH, h1, b', W', h2, _, h4⟩ := hm.split
      obtain rfl := hH.eq q3
      refine ⟨kw, b', H', ?_, q1, q2, q3⟩
      rw [e']
      obtain ⟨y1, y2⟩ := y
      dsimp only at h1 h2 h4
      rw [h1, h2, h4 q2])
    (by
      rintro B ⟨kw, b, H, rfl, q1, q2, q3⟩ hc vw _
      have e2 : (H ++ [((kb, kw), { last with b := b })]).map (fun x : (Nat × Nat) × Dense α => x.2) = H.map (·.2) ++ [{ last with b := b }] := by simp
      rw [e2] at hc ⊢
      refine netGrads_dead kb kw { last with b := b } hW _ H _ hc (fun x hx => h0 _ (by rw [← q1]; exact List.mem_map_of_mem hx)) ?_
      intro hH
      subst hH
      have h1 := h.two
      rw [← q1] at h1
      simp at h1) hJ
  have out : ∀ t' : Train α, (∃ B : List (DSt α), t'.At B n m dL ∧ ∃ kw b H, B.map DSt.kp = H ++ [((kb, kw), { last with b := b })] ∧ H.map (·.2) = hid ∧
      kw ≠ kb ∧ ∀ x ∈ H, x.1.1 ≠ kb ∧ x.1.2 ≠ kb) → ∃ b, t'.Is (hid ++ [{ last with b := b }]) n m dL := by
    rintro t' ⟨B, hB, kw, b, H, q1, q2, _⟩
    refine ⟨b, ?_⟩
    have := hB.is
    rw [← kp_p, q1, List.map_append, q2] at this
    exact this
  exact ⟨fun epochs => (T.1 epochs).mono (fun r hr => out _ hr), fun k epochs hk => (T.2.1 k epochs hk).mono (fun r hr => out _ hr),
    fun hc γ ρ gen c g it => (T.2.2 hc γ ρ gen c g it).mono (fun r hr => out _ hr)⟩

/-- Such a network computes a constant: the same outputs for all inputs. -/
theorem C104_constant (t : Train α) (hid : List (Dense α)) (last : Dense α) (n m : Nat) (dL : (Nat → α) → (Nat → α) → Nat → α)
    (h : t.Is (hid ++ [last]) n m dL) (hW : last.W = fun _ _ => 0) (x : Ten α) (v : Nat → α) (hx : VecIs x.data n v) :
    Ok (Net.feedforward x t.net) (fun r => RowIs r.2 m (last.F last.b)) := by
  obtain ⟨A, hA, e⟩ := h.at
  have hl := hA.net.length
  have h2 := hA.two
  have hw := hA.word
  have hne : t.net ≠ [] := by intro e; rw [e] at hl; simp at hl; omega
  rw [Net.feedforward_eq x t.net hne (by rw [hl]; exact hw)]
  refine (ff_dense hA.net hA.chain hx).bind (fun net' q => ?_)
  have hl' := q.1.length
  have hne' : net' ≠ [] := by intro e; rw [e] at hl'; simp at hl'; omega
  obtain ⟨l, el, hr⟩ := q.2.last hA.chain hne'
  rw [el, bind_ok]
  refine Ok_ok.2 ?_
  have key : ∀ (hid : List (Dense α)) (v : Nat → α), netOut (hid ++ [last]) v = last.F last.b := by
    intro hid
    induction hid with
    | nil =>
      intro v
      simp only [List.nil_append, netOut, Dense.out]
      congr 1
      funext j
      unfold affine
      rw [hW, foldSum_nil _ _ (fun _ _ => by ring), zero_add]
    | cons p hid ih => intro v; exact ih _
  rw [e, key] at hr
  exact hr

end

/-! ### The library's loss classes -/

/-- With the mean squared error or the log-cosh loss: a network whose outputs are the targets is not changed by any way of training. -/
theorem C104_library (upd : Upd σ ℝ) (size : Nat → Nat) (J : σ → Prop) (ho : StillOpt upd (fun _ => True) (fun k n => size k = n) J) (s : σ) (hJ : J s)
    (k : LibLoss) (t : Train ℝ) (ls : List LibLayer) (n m : Nat) (h : t.IsLib ls n m k.obj) (hz : t.net.Sized size)
    (idata odata : List (Ten ℝ)) (vs : List ((Nat → ℝ) × (Nat → ℝ))) (hd : DataIs idata odata n m vs) (hne : vs ≠ [])
    (hfit : ∀ vw ∈ vs, ∀ j, j < m → libOut ls vw.1 j = vw.2 j) :
    TrainingGives upd idata odata (s, t) (fun t' => t'.net.params = t.net.params) := by
  refine C104_fit upd size J ho s hJ t _ n m k.dL (IsLib.toIs h (k.obj_Is m)) hz idata odata vs hd hne (fun vw hvw j hj => ?_)
  have := hfit vw hvw j hj
  rw [← libOut_eq] at this
  cases k <;> simp only [LibLoss.dL, this, sub_self, Real.tanh_zero]

/-! ### Examples -/

/-- A network that fits: momentum moves nothing (in both the other sample would move it). -/
example : trained (Train.batch momUpdate [⟨1, 1, 1, [some 1]⟩, ⟨1, 1, 1, [some 3]⟩] [⟨1, 1, 1, [some 1]⟩, ⟨1, 1, 1, [some 3]⟩] 2 (Mom.make (1/8 : ℚ) (1/2), ckTrain 10 11 12 13)) =
      .ok (ckTrain 10 11 12 13).net.params ∧
    trained (Train.batch momUpdate [⟨1, 1, 1, [some 1]⟩, ⟨1, 1, 1, [some 3]⟩] [⟨1, 1, 1, [some 1]⟩, ⟨1, 1, 1, [some 2]⟩] 2 (Mom.make (1/8 : ℚ) (1/2), ckTrain 10 11 12 13)) ≠
      .ok (ckTrain 10 11 12 13).net.params := by
  refine ⟨?_, ?_⟩ <;> decide +kernel

/-- With weight decay (`StochasticGradientDescentOptimizer`) a network that fits is moved away. -/
example : trained (Train.batch sgdUpdate [⟨1, 1, 1, [some 1]⟩] [⟨1, 1, 1, [some 1]⟩] 1 (Sgd.make (1/8 : ℚ) (1/2), ckTrain 10 11 12 13)) ≠
      .ok (ckTrain 10 11 12 13).net.params := by
  decide +kernel

/-- A network of two layers as constructed, never initialised with values. -/
def zeTrain : Train ℚ :=
  ⟨[.fc (FC.make 1 2 (Act.elementwise (fun x => x) (fun _ => 1)) 10 11), .fc (FC.make 2 1 (Act.elementwise (fun x => x) (fun _ => 1)) 12 13)],
    ⟨1, 1, 1, [none]⟩, some (sqLoss 1 1)⟩

def zeHid : Dense ℚ := ⟨1, 2, fun _ => 0, fun _ _ => 0, fun v i => v i, fun _ _ => 1⟩
def zeLast : Dense ℚ := ⟨2, 1, fun _ => 0, fun _ _ => 0, fun v i => v i, fun _ _ => 1⟩
def zeSize (k : Nat) : Nat := if k = 11 ∨ k = 13 ∨ k = 10 then 2 else 1

/-- It meets the hypotheses of `C104_zero`, with momentum from the start. -/
example : zeTrain.Is ([zeHid] ++ [zeLast]) 1 1 (fun t y i => (1 + 1) * (y i - t i)) ∧ zeTrain.net.Sized zeSize ∧ zeTrain.net.Apart ∧
    zeTrain.net.LastBias 12 ∧ (MomOk zeSize (Mom.make (1/8 : ℚ) (1/2)) ∧ TabZero (fun k => k ≠ 12) zeSize (Mom.make (1/8 : ℚ) (1/2)).opt) := by
  refine ⟨⟨.cons ⟨_, rfl, FC.Wf_make .., Act.Is.elementwise (fun x => x) (fun _ => 1) _⟩ (.cons ⟨_, rfl, FC.Wf_make .., Act.Is.elementwise (fun x => x) (fun _ => 1) _⟩ .nil), by decide, by decide, ⟨rfl, rfl, rfl⟩, rfl,
    _, _, rfl, sqLoss_Is 1 1⟩, ?_, by unfold Net.Apart; decide +kernel, ⟨[_], _, rfl, rfl⟩, MomOk_make .., fun k _ => Table.get_empty k _⟩
  intro f hf
  simp only [zeTrain, List.mem_cons, List.not_mem_nil, or_false, Layer.fc.injEq] at hf
  rcases hf with rfl | rfl <;> exact ⟨rfl, rfl⟩

/-- What it learns: only the last bias. -/
example : trained (Train.batch momUpdate [⟨1, 1, 1, [some 1]⟩, ⟨1, 1, 1, [some 3]⟩] [⟨1, 1, 1, [some 2]⟩, ⟨1, 1, 1, [some 6]⟩] 1 (Mom.make (1/8 : ℚ) (1/2), zeTrain)) =
      .ok [[[some 0, some 0], [some 0, some 0]], [[some 1], [some 0, some 0]]] := by
  decide +kernel

end Trixy
