import Verif.Proof.Rule
import Verif.Props.Still
/- C114: training with every optimizer of the library follows the published rule of that optimizer. -/
namespace Trixy
set_option linter.unusedSectionVars false

variable {α μ σ : Type}

/-! ### The optimizer classes -/

section
variable [Field α]

/-- `GradDescentOptimizer`. -/
theorem C114_gd (lr : α) : FollowsRule gdUpdate lr (Rule.gd lr) := by
  intro size
  refine ⟨fun s _ _ => s = lr, fun s T M k P G p g hJ hP hG => ?_, rfl⟩
  subst hJ
  exact (gd_spec (k := k) hP hG).mono (fun r h => ⟨h.2.1.congr (fun i _ => by show _ = p i - s * g i; ring), h.2.2.full, h.1⟩)

/-- `StoGradDescentOptimizer`. -/
theorem C114_sgd (lr decay : α) : FollowsRule sgdUpdate (Sgd.make lr decay) (Rule.sgd lr decay) := by
  intro size
  refine ⟨fun s _ _ => s = Sgd.make lr decay, fun s T M k P G p g hJ hP hG => ?_, rfl⟩
  subst hJ
  exact (sgd_spec (k := k) hP hG).mono (fun r h => ⟨h.2.1.congr (fun i _ => by
    show p i * (1 - lr * decay) - g i * lr = (1 - lr * decay) * p i - lr * g i; ring), h.2.2.full, h.1⟩)

/-- Scratch arrays of the right length, state arrays holding `M`. -/
def TabHolds (size : Nat → Nat) (t : Table α) (M : Nat → Nat → α) : Prop := ∀ k, VecIs (t.get k (size k)) (size k) (M k)

def TabLen (size : Nat → Nat) (t : Table α) : Prop := ∀ k, (t.get k (size k)).length = size k

theorem TabHolds.of {size : Nat → Nat} {t t' : Table α} {M : Nat → Nat → α} (h : TabHolds size t M) {k : Nat} {v : Nat → α}
    (hk : VecIs (t'.get k (size k)) (size k) v) (ho : ∀ k', k' ≠ k → t' k' = t k') : TabHolds size t' (fun k' => if k' = k then v else M k') := by
  intro k'
  by_cases e : k' = k
  · subst e; dsimp only; rw [if_pos rfl]; exact hk
  · dsimp only; rw [getTab_congr (ho k' e), if_neg e]; exact h k'

theorem TabLen.of {size : Nat → Nat} {t t' : Table α} (h : TabLen size t) {k : Nat}
    (hk : (t'.get k (size k)).length = size k) (ho : ∀ k', k' ≠ k → t' k' = t k') : TabLen size t' := by
  intro k'
  by_cases e : k' = k
  · subst e; exact hk
  · rw [getTab_congr (ho k' e)]; exact h k'

theorem TabHolds.empty (size : Nat → Nat) : TabHolds size (fun _ => none : Table α) (fun _ _ => 0) := fun k => Table.get_empty k _
theorem TabLen.empty (size : Nat → Nat) : TabLen size (fun _ => none : Table α) := fun k => (Table.get_empty k _).length

/-- `MomentumOptimizer`. -/
theorem C114_momentum (lr mu : α) : FollowsRule momUpdate (Mom.make lr mu) (Rule.momentum lr mu) := by
  intro size
  refine ⟨fun s _ M => s.lr = lr ∧ s.mu = mu ∧ TabLen size s.buff ∧ TabHolds size s.opt M, fun s T M k P G p g ⟨e1, e2, hb, ho⟩ hP hG => ?_,
    rfl, rfl, TabLen.empty size, TabHolds.empty size⟩
  subst e1 e2
  obtain ⟨r, e, h1, h2, h3, h4, h5, h6⟩ := mom_spec hP hG (hb k) (ho k)
  have hl := local_mom.other s k P G r e
  simp only [Prod.mk.injEq] at hl
  refine ⟨r, e, h5.congr (fun i _ => by show _ = p i + (s.mu * M k i - s.lr * g i); ring), h6 ▸ hG.full, h1, h2,
    hb.of h3 (fun k' hk => (hl k' hk).1), ?_⟩
  exact ho.of (h4.congr (fun i _ => by show _ = s.mu * M k i - s.lr * g i; ring)) (fun k' hk => (hl k' hk).2.1)

/-- `NestorovOptimizer`. -/
theorem C114_nestorov (lr mu : α) : FollowsRule nesUpdate (Mom.make lr mu) (Rule.nestorov lr mu) := by
  intro size
  refine ⟨fun s _ M => s.lr = lr ∧ s.mu = mu ∧ TabLen size s.buff ∧ TabHolds size s.opt M, fun s T M k P G p g ⟨e1, e2, hb, ho⟩ hP hG => ?_,
    rfl, rfl, TabLen.empty size, TabHolds.empty size⟩
  subst e1 e2
  obtain ⟨r, e, h1, h2, h3, h4, h5, h6⟩ := nes_spec hP hG (hb k) (ho k)
  have hl := local_nes.other s k P G r e
  simp only [Prod.mk.injEq] at hl
  refine ⟨r, e, h5.congr (fun i _ => by show _ = p i - s.lr * g i + s.mu * (s.mu * M k i - s.lr * g i); ring), h6 ▸ hG.full, h1, h2,
    hb.of h3 (fun k' hk => (hl k' hk).1), ?_⟩
  exact ho.of (h4.congr (fun i _ => by show _ = s.mu * M k i - s.lr * g i; ring)) (fun k' hk => (hl k' hk).2.1)

/-- `AdaGradOptimizer` (the second constructor argument of the model is not used by this class). -/
theorem C114_adagrad (isq : α → α) (lr b : α) : FollowsRule (adagradUpdate isq) (Ada.make lr b) (Rule.adagrad isq lr) := by
  intro size
  refine ⟨fun s _ M => s.lr = lr ∧ TabLen size s.buff ∧ TabHolds size s.opt M, fun s T M k P G p g ⟨e1, hb, ho⟩ hP hG => ?_,
    rfl, TabLen.empty size, TabHolds.empty size⟩
  subst e1
  obtain ⟨r, e, h1, h3, h4, h5, h6⟩ := adagrad_spec (isq := isq) hP hG (hb k) (ho k)
  have hl := (local_adagrad isq).other s k P G r e
  simp only [Prod.mk.injEq] at hl
  refine ⟨r, e, h5.congr (fun i _ => by show _ = p i - s.lr * (isq (M k i + g i ^ 2) * g i); rw [pow_two]; ring), h6 ▸ hG.full, h1,
    hb.of h3 (fun k' hk => (hl k' hk).1), ?_⟩
  exact ho.of (h4.congr (fun i _ => by show _ = M k i + g i ^ 2; ring)) (fun k' hk => (hl k' hk).2.1)

/-- `RMSPropOptimizer`. -/
theorem C114_rmsprop (isq : α → α) (lr beta : α) : FollowsRule (rmspropUpdate isq) (Ada.make lr beta) (Rule.rmsprop isq lr beta) := by
  intro size
  refine ⟨fun s _ M => s.lr = lr ∧ s.beta = beta ∧ s.rbeta = 1 - beta ∧ TabLen size s.buff ∧ TabHolds size s.opt M,
    fun s T M k P G p g ⟨e1, e2, e3, hb, ho⟩ hP hG => ?_, rfl, rfl, rfl, TabLen.empty size, TabHolds.empty size⟩
  obtain ⟨r, e, h1, h2, h2', h3, h4, h5, h6⟩ := rmsprop_spec (isq := isq) hP hG (hb k) (ho k)
  rw [e1] at h1 h5
  rw [e2] at h2 h4 h5
  rw [e3] at h2' h4 h5
  have hl := (local_rmsprop isq).other s k P G r e
  simp only [Prod.mk.injEq] at hl
  have eq : ∀ i, M k i * beta + g i * g i * (1 - beta) = beta * M k i + (1 - beta) * g i ^ 2 := fun i => by ring
  refine ⟨r, e, h5.congr (fun i _ => by show _ = p i - lr * (isq (beta * M k i + (1 - beta) * g i ^ 2) * g i); rw [eq]; ring), h6 ▸ hG.full, h1, h2, h2',
    hb.of h3 (fun k' hk => (hl k' hk).1), ?_⟩
  exact ho.of (h4.congr (fun i _ => eq i)) (fun k' hk => (hl k' hk).2.1)

/-- `AdamOptimizer`, as long as no bias correction divides by zero. -/
theorem C114_adam [DecidableEq α] (isq : α → α) (lr beta1 beta2 : α) (h1 : ∀ T : Nat, 1 - beta1 ^ (T + 1) ≠ 0) (h2 : ∀ T : Nat, 1 - beta2 ^ (T + 1) ≠ 0) :
    FollowsRule (adamUpdate isq) (AdamS.make lr beta1 beta2) (Rule.adam isq lr beta1 beta2) := by
  intro size
  refine ⟨fun s T M => s.lr = lr ∧ s.beta1 = beta1 ∧ s.beta2 = beta2 ∧ s.rbeta1 = 1 - beta1 ∧ s.rbeta2 = 1 - beta2 ∧ s.tbeta1 = beta1 ^ T ∧ s.tbeta2 = beta2 ^ T ∧
      TabLen size s.buff ∧ TabHolds size s.m (fun k i => (M k i).1) ∧ TabHolds size s.s (fun k i => (M k i).2),
    fun s T M k P G p g ⟨e1, e2, e3, e4, e5, e6, e7, hb, hm, hs⟩ hP hG => ?_,
    rfl, rfl, rfl, rfl, rfl, (pow_zero _).symm, (pow_zero _).symm, TabLen.empty size, TabHolds.empty size, TabHolds.empty size⟩
  have t1 : s.tbeta1 * s.beta1 = beta1 ^ (T + 1) := by rw [e6, e2, pow_succ]
  have t2 : s.tbeta2 * s.beta2 = beta2 ^ (T + 1) := by rw [e7, e3, pow_succ]
  obtain ⟨r, e, q1, q2, q3, q4, q5, q6, q7, ho, q8, q9, q10, q11, q12⟩ :=
    adam_spec (isq := isq) hP hG (hb k) (hm k) (hs k) (by rw [t1]; exact h1 T) (by rw [t2]; exact h2 T)
  rw [t1] at q6 q11
  rw [t2] at q7 q11
  rw [e1] at q1 q11
  rw [e2] at q2 q9 q11
  rw [e3] at q3 q10 q11
  rw [e4] at q4 q9 q11
  rw [e5] at q5 q10 q11
  have em : ∀ i, (M k i).1 * beta1 + (1 - beta1) * g i = beta1 * (M k i).1 + (1 - beta1) * g i := fun i => by ring
  have es : ∀ i, (M k i).2 * beta2 + g i * g i * (1 - beta2) = beta2 * (M k i).2 + (1 - beta2) * g i ^ 2 := fun i => by ring
  have key : ∀ {t t' : Table α} {f : α × α → α} {v : Nat → α × α} {w : Nat → α}, TabHolds size t (fun k i => f (M k i)) → VecIs (t'.get k (size k)) (size k) w →
      (∀ i, w i = f (v i)) → (∀ k', k' ≠ k → t' k' = t k') → TabHolds size t' (fun k' i => f ((if k' = k then v else M k') i)) := by
    intro t t' f v w h hw hv ho k'
    have := h.of (hw.congr (fun i _ => hv i)) ho k'
    by_cases e : k' = k
    · dsimp only at this ⊢; rw [if_pos e] at this ⊢; exact this
    · dsimp only at this ⊢; rw [if_neg e] at this ⊢; exact this
  refine ⟨r, e, q11.congr (fun i _ => ?_), q12 ▸ hG.full, q1, q2, q3, q4, q5, q6, q7, hb.of q8 (fun k' hk => (ho k' hk).1),
    key (f := Prod.fst) hm q9 (fun i => em i) (fun k' hk => (ho k' hk).2.1), key (f := Prod.snd) hs q10 (fun i => es i) (fun k' hk => (ho k' hk).2.2)⟩
  show _ = p i - lr / (1 - beta1 ^ (T + 1)) * (isq ((beta2 * (M k i).2 + (1 - beta2) * g i ^ 2) / (1 - beta2 ^ (T + 1))) * (beta1 * (M k i).1 + (1 - beta1) * g i))
  dsimp only
  rw [em, es, show 1 / (1 - beta2 ^ (T + 1)) * (beta2 * (M k i).2 + (1 - beta2) * g i ^ 2) = (beta2 * (M k i).2 + (1 - beta2) * g i ^ 2) / (1 - beta2 ^ (T + 1)) by
    rw [one_div, div_eq_mul_inv, mul_comm]]
  ring

end

/-! ### Training -/

section
variable [Field α] [LT α] [DecidableLT α] [DecidableEq α] {upd : Upd σ α} {R : Rule α μ}

theorem aKeys_net {net : Net α} {A : List (DSt α)} (h : net.At A) : aKeys A = net.flatMap Layer.addrs := by
  unfold Net.At at h
  induction h with
  | nil => rfl
  | @cons l a net A hl _ ih =>
    obtain ⟨f, rfl, hf⟩ := hl
    unfold aKeys at ih ⊢
    rw [List.flatMap_cons, List.flatMap_cons, ih, ← hf.kB, ← hf.kW]
    rfl

/-- Sizes of arrays at pairwise different addresses. -/
theorem sizes_exist : ∀ {A : List (DSt α)}, (aKeys A).Nodup → ∃ size : Nat → Nat, ∀ a ∈ A, size a.kB = a.p.m ∧ size a.kW = a.p.n * a.p.m
  | [], _ => ⟨fun _ => 0, by simp⟩
  | a :: A, h => by
    have h' : (a.kB :: a.kW :: aKeys A).Nodup := h
    rw [List.nodup_cons, List.nodup_cons] at h'
    obtain ⟨h1, h2, h3⟩ := h'
    obtain ⟨size, hs⟩ := sizes_exist h3
    have n1 : a.kW ≠ a.kB := fun e => h1 (e ▸ List.mem_cons_self ..)
    refine ⟨fun k => if k = a.kB then a.p.m else if k = a.kW then a.p.n * a.p.m else size k, fun b hb => ?_⟩
    rcases List.mem_cons.1 hb with rfl | hb
    · exact ⟨if_pos rfl, by dsimp only; rw [if_neg n1, if_pos rfl]⟩
    · have m1 : b.kB ∈ aKeys A := List.mem_flatMap.2 ⟨b, hb, by simp⟩
      have m2 : b.kW ∈ aKeys A := List.mem_flatMap.2 ⟨b, hb, by simp⟩
      have g : ∀ k ∈ aKeys A, k ≠ a.kB ∧ k ≠ a.kW := fun k hk => ⟨fun e => h1 (List.mem_cons_of_mem _ (e ▸ hk)), fun e => h2 (e ▸ hk)⟩
      dsimp only
      rw [if_neg (g _ m1).1, if_neg (g _ m1).2, if_neg (g _ m2).1, if_neg (g _ m2).2]
      exact hs b hb

theorem ruleT_start {s0 : σ} (hR : FollowsRule upd s0 R) {t : Train α} {ps : List (Dense α)} {n m : Nat} {dL : (Nat → α) → (Nat → α) → Nat → α} (h : t.Is ps n m dL)
    (ha : t.net.Apart) (cl : Bool) (hc : cl = true → t.net.Clean) :
    ∃ size J, RuleOpt upd R size J ∧ RuleT size J n m dL cl (R.init ps) (s0, t) := by
  obtain ⟨A, hA, hp⟩ := h.at
  have hn : (aKeys A).Nodup := by rw [aKeys_net hA.net]; exact ha
  obtain ⟨size, hs⟩ := sizes_exist hn
  obtain ⟨J, ho, hJ⟩ := hR size
  refine ⟨size, J, ho, _, A, hJ, hA, hn, ?_, fun e => ?_⟩
  · subst hp
    unfold Rule.init
    dsimp only
    rw [List.map_map, List.forall₂_map_right_iff]
    exact List.forall₂_same.2 (fun a ha => ⟨rfl, (hs a ha).1, (hs a ha).2, fun _ _ => rfl, fun _ _ => rfl⟩)
  · have hcl := hc e
    have hn := hA.net
    generalize t.net = net at hn hcl
    clear * - hn hcl
    induction hn with
    | nil => simp
    | @cons l a ls A h _ ih =>
      obtain ⟨f, rfl, hf⟩ := h
      intro b hb
      rcases List.mem_cons.1 hb with rfl | hb
      · rw [← hf.acc]; exact hcl _ (by simp) f rfl
      · exact ih (fun l hl => hcl l (by simp [hl])) b hb

theorem RuleT.is {size : Nat → Nat} {J : σ → Nat → (Nat → Nat → μ) → Prop} {n m : Nat} {dL : (Nat → α) → (Nat → α) → Nat → α} {cl : Bool}
    {X : Nat × List (Dense α × LMem μ)} {x : σ × Train α} (h : RuleT size J n m dL cl X x) : x.2.Is (X.2.map (·.1)) n m dL := by
  obtain ⟨M, A, _, hA, _, hx, _⟩ := h
  rw [← LIs_p hx]; exact hA.is

/-- `batch()`: per epoch every parameter is moved once, by the rule, with the mean gradient over the data. -/
theorem C114_batch {s0 : σ} (hR : FollowsRule upd s0 R) (t : Train α) (ps : List (Dense α)) (n m : Nat) (dL : (Nat → α) → (Nat → α) → Nat → α) (h : t.Is ps n m dL)
    (ha : t.net.Apart) (idata odata : List (Ten α)) (vs : List ((Nat → α) × (Nat → α))) (hd : DataIs idata odata n m vs) (hne : vs ≠ []) (epochs : Nat) :
    Ok (Train.batch upd idata odata epochs (s0, t)) (fun r =>
      r.2.Is (((R.update (1 / (vs.length : α)) (fun ps => gradSum dL ps vs))^[epochs] (R.init ps)).2.map (·.1)) n m dL) := by
  have hlen : idata.length = vs.length := hd.1.length_eq
  have hpos : 1 ≤ vs.length := List.length_pos_iff.2 hne
  obtain ⟨size, J, ho, hT⟩ := ruleT_start hR h ha false (fun h => by simp at h)
  rw [batch_run upd idata odata _ _ (by omega), batchTrace_steps, hlen]
  obtain ⟨x, e, hx⟩ := RuleT.steps ho hd (1 / (vs.length : α)) (List.replicate epochs (0, vs.length)) (fun w hw => by
    rw [List.mem_replicate] at hw
    rw [hw.2]; dsimp only; omega) hT
  refine ⟨x, e, ?_⟩
  have hx := hx.is
  have key : ∀ X : Nat × List (Dense α × LMem μ), (List.replicate epochs (0, vs.length)).foldl (fun X w => R.update (1 / (vs.length : α)) (fun ps => gradSum dL ps ((vs.drop w.1).take w.2)) X) X =
      (R.update (1 / (vs.length : α)) (fun ps => gradSum dL ps vs))^[epochs] X := by
    clear * - R dL vs
    induction epochs with
    | zero => exact fun _ => rfl
    | succ k ih => exact fun X => by rw [List.replicate_succ, List.foldl_cons, ih, Function.iterate_succ_apply, List.drop_zero, List.take_length]
  rw [key] at hx
  exact hx

/-- `mini_batch()`: every block of `k` samples moves every parameter once, by the rule, with the mean gradient over the block; a rest of fewer than `k`
samples at the end of the data is not used. -/
theorem C114_mini_batch {s0 : σ} (hR : FollowsRule upd s0 R) (t : Train α) (ps : List (Dense α)) (n m : Nat) (dL : (Nat → α) → (Nat → α) → Nat → α) (h : t.Is ps n m dL)
    (ha : t.net.Apart) (idata odata : List (Ten α)) (vs : List ((Nat → α) × (Nat → α))) (hd : DataIs idata odata n m vs) (k : Nat) (hk : 1 ≤ k) (epochs : Nat) :
    Ok (Train.miniBatch upd idata odata epochs k (s0, t)) (fun r =>
      r.2.Is (((fun X => (List.range (vs.length / k)).foldl (fun X b => R.update (1 / (k : α)) (fun ps => gradSum dL ps ((vs.drop (b * k)).take k)) X) X)^[epochs]
        (R.init ps)).2.map (·.1)) n m dL) := by
  have hlen : idata.length = vs.length := hd.1.length_eq
  obtain ⟨size, J, ho, hT⟩ := ruleT_start hR h ha false (fun h => by simp at h)
  rw [miniBatch_run upd idata odata _ _ _ (by omega), miniTrace_steps, hlen]
  obtain ⟨x, e, hx⟩ := RuleT.steps ho hd (1 / (k : α)) ((List.replicate epochs ((List.range (vs.length / k)).map (fun b => (b * k, k)))).flatten) (fun w hw => by
    obtain ⟨l, h1, h2⟩ := List.mem_flatten.1 hw
    rw [List.mem_replicate] at h1
    rw [h1.2] at h2
    obtain ⟨b, h3, rfl⟩ := List.mem_map.1 h2
    rw [List.mem_range] at h3
    have h4 : (b + 1) * k ≤ vs.length / k * k := Nat.mul_le_mul_right k h3
    have h5 := Nat.div_mul_le_self vs.length k
    rw [Nat.succ_mul] at h4
    dsimp only; omega) hT
  refine ⟨x, e, ?_⟩
  have hx := hx.is
  have key : ∀ X : Nat × List (Dense α × LMem μ), ((List.replicate epochs ((List.range (vs.length / k)).map (fun b => (b * k, k)))).flatten).foldl
        (fun X w => R.update (1 / (k : α)) (fun ps => gradSum dL ps ((vs.drop w.1).take w.2)) X) X =
      (fun X => (List.range (vs.length / k)).foldl (fun X b => R.update (1 / (k : α)) (fun ps => gradSum dL ps ((vs.drop (b * k)).take k)) X) X)^[epochs] X := by
    clear * - R dL vs
    induction epochs with
    | zero => exact fun _ => rfl
    | succ e ih => exact fun X => by rw [List.replicate_succ, List.flatten_cons, List.foldl_append, ih, Function.iterate_succ_apply, List.foldl_map]
  rw [key] at hx
  exact hx

/-- `stochastic()`: every round moves every parameter once, by the rule, with the gradient of the drawn sample (from a network whose layers are not in the
accumulating state, C29). -/
theorem C114_stochastic {γ ρ : Type} {s0 : σ} (hR : FollowsRule upd s0 R) (t : Train α) (ps : List (Dense α)) (n m : Nat) (dL : (Nat → α) → (Nat → α) → Nat → α) (h : t.Is ps n m dL)
    (ha : t.net.Apart) (hc : t.net.Clean) (idata odata : List (Ten α)) (vs : List ((Nat → α) × (Nat → α))) (hd : DataIs idata odata n m vs) (hne : vs ≠ [])
    (gen : Gen γ ρ Nat) (c : γ) (g : ρ) (iterations : Nat) :
    Ok (Train.stochastic upd idata odata iterations gen c g (s0, t)) (fun r =>
      r.1.2.Is ((((draws gen iterations c g).filterMap (fun d => vs[d % vs.length]?)).foldl (fun X vw => R.update 1 (fun ps => sampleGrads dL ps vw) X) (R.init ps)).2.map (·.1)) n m dL) := by
  have hlen : idata.length = vs.length := hd.1.length_eq
  have hpos : 1 ≤ vs.length := List.length_pos_iff.2 hne
  obtain ⟨size, J, ho, hT⟩ := ruleT_start hR h ha true (fun _ => hc)
  obtain ⟨x, e, hx⟩ := RuleT.stos ho hd ((draws gen iterations c g).map (· % idata.length)) (fun i hi => by
    obtain ⟨a, _, rfl⟩ := List.mem_map.1 hi
    rw [← hlen]; exact Nat.mod_lt _ (by omega)) hT
  rw [stochastic_run _ _ _ _ (by omega), e, bind_ok]
  refine Ok_ok.2 ?_
  have := hx.is
  rw [List.filterMap_map, hlen] at this
  exact this

end

/-! ### Examples -/

/-- The hypotheses are met by a network over the rationals, and momentum moves it as the rule says: one sample 1 ↦ 2, learning rate 1/8, momentum 1/2, two epochs. -/
example : (ckTrain 10 11 12 13).Is [ckDense, ckDense] 1 1 (fun t y i => (1 + 1) * (y i - t i)) ∧ (ckTrain 10 11 12 13).net.Apart ∧ (ckTrain 10 11 12 13).net.Clean ∧
    DataIs (α := ℚ) [⟨1, 1, 1, [some 1]⟩] [⟨1, 1, 1, [some 2]⟩] 1 1 [(fun _ => 1, fun _ => 2)] := by
  refine ⟨ckTrain_Is .., ?_, ?_, ?_⟩
  · show [10, 11, 12, 13].Nodup
    decide
  · intro l hl f e
    simp only [ckTrain, List.mem_cons, List.not_mem_nil, or_false] at hl
    rcases hl with rfl | rfl <;> (cases e; rfl)
  · exact ⟨.cons (VecIs_of [1] _ (fun i hi => by simp at hi; subst hi; rfl)) .nil, .cons (VecIs_of [2] _ (fun i hi => by simp at hi; subst hi; rfl)) .nil⟩

/-- Numbers of a training run: the parameters the program leaves are those of the rule. -/
example : trained (Train.batch momUpdate [⟨1, 1, 1, [some 1]⟩] [⟨1, 1, 1, [some 2]⟩] 2 (Mom.make (1/8 : ℚ) (1/2), ckTrain 10 11 12 13)) =
      .ok (((((Rule.momentum (1/8 : ℚ) (1/2)).update (1 / ((1 : Nat) : ℚ)) (fun ps => gradSum (fun t y i => (1 + 1) * (y i - t i)) ps [(fun _ => 1, fun _ => 2)]))^[2]
        ((Rule.momentum (1/8 : ℚ) (1/2)).init [ckDense, ckDense])).2.map (fun x => [[some (x.1.b 0)], [some (x.1.W 0 0)]]))) ∧
    trained (Train.batch momUpdate [⟨1, 1, 1, [some 1]⟩] [⟨1, 1, 1, [some 2]⟩] 2 (Mom.make (1/8 : ℚ) (1/2), ckTrain 10 11 12 13)) ≠ .ok (ckTrain 10 11 12 13).net.params := by
  refine ⟨?_, ?_⟩ <;> decide +kernel

end Trixy
