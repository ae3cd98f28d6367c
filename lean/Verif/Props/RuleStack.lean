import Verif.Proof.RuleStack
import Verif.Props.Rule
import Verif.Props.StackTrain
/- C125: what training does to stacks with convolutions, for every optimizer of the library. -/
namespace Trixy
set_option linter.unusedSectionVars false

variable {α μ σ : Type}

/-! ### The optimizer classes -/

/-- The update does not change the gradient array. -/
def LeavesGrad (upd : Upd σ α) : Prop := ∀ s k P G, Post (upd s k P G) (fun r => r.2.2 = G)

theorem leaves_mom [Zero α] [Add α] [Mul α] [Sub α] : LeavesGrad (momUpdate (α := α)) := fun _ _ _ _ =>
  Post.bind (fun _ => Post.bind (fun _ => Post.bind (fun _ => Post.bind (fun _ => Post.ok rfl))))
theorem leaves_nes [Zero α] [Add α] [Mul α] [Sub α] : LeavesGrad (nesUpdate (α := α)) := fun _ _ _ _ =>
  Post.bind (fun _ => Post.bind (fun _ => Post.bind (fun _ => Post.bind (fun _ => Post.bind (fun _ => Post.bind (fun _ => Post.ok rfl))))))
theorem leaves_adagrad [Zero α] [Add α] [Mul α] [Sub α] (isq : α → α) : LeavesGrad (adagradUpdate isq) := fun _ _ _ _ =>
  Post.bind (fun _ => Post.bind (fun _ => Post.bind (fun _ => Post.bind (fun _ => Post.bind (fun _ => Post.bind (fun _ => Post.ok rfl))))))
theorem leaves_rmsprop [Zero α] [Add α] [Mul α] [Sub α] (isq : α → α) : LeavesGrad (rmspropUpdate isq) := fun _ _ _ _ =>
  Post.bind (fun _ => Post.bind (fun _ => Post.bind (fun _ => Post.bind (fun _ => Post.bind (fun _ => Post.bind (fun _ => Post.bind (fun _ => Post.bind (fun _ => Post.ok rfl))))))))
theorem leaves_adam [Field α] [DecidableEq α] (isq : α → α) : LeavesGrad (adamUpdate isq) := fun _ _ _ _ =>
  Post.bind (fun _ => Post.bind (fun _ => Post.bind (fun _ => Post.bind (fun _ => Post.bind (fun _ => Post.bind (fun _ => Post.bind (fun _ => Post.bind (fun _ =>
    Post.bind (fun _ => Post.bind (fun _ => Post.bind (fun _ => Post.bind (fun _ => Post.bind (fun _ => Post.bind (fun _ => Post.ok rfl))))))))))))))

section
variable [Field α]

theorem LeavesGrad.follows {upd : Upd σ α} {s0 : σ} {R : Rule α μ} (h : LeavesGrad upd) (hR : FollowsRule upd s0 R) : FollowsKeeping upd s0 R id := by
  intro size
  obtain ⟨J, ho, hJ⟩ := hR size
  refine ⟨J, fun s T M k P G p g hJ hP hG => ?_, hJ⟩
  obtain ⟨r, e, h1, _, h3⟩ := ho s T M k P G p g hJ hP hG
  exact ⟨r, e, h1, (by rw [h s k P G r e]; exact hG), h3⟩

/-- `GradDescentOptimizer`: the gradient arrays are left multiplied by the learning rate. -/
theorem C125_gd (lr : α) : FollowsKeeping gdUpdate lr (Rule.gd lr) (· * lr) := by
  intro size
  refine ⟨fun s _ _ => s = lr, fun s T M k P G p g hJ hP hG => ?_, rfl⟩
  subst hJ
  exact (gd_spec (k := k) hP hG).mono (fun r h => ⟨h.2.1.congr (fun i _ => by show _ = p i - s * g i; ring), h.2.2, h.1⟩)

/-- `StoGradDescentOptimizer`: likewise. -/
theorem C125_sgd (lr decay : α) : FollowsKeeping sgdUpdate (Sgd.make lr decay) (Rule.sgd lr decay) (· * lr) := by
  intro size
  refine ⟨fun s _ _ => s = Sgd.make lr decay, fun s T M k P G p g hJ hP hG => ?_, rfl⟩
  subst hJ
  exact (sgd_spec (k := k) hP hG).mono (fun r h => ⟨h.2.1.congr (fun i _ => by
    show p i * (1 - lr * decay) - g i * lr = (1 - lr * decay) * p i - lr * g i; ring), h.2.2, h.1⟩)

/-- `MomentumOptimizer`: the gradient arrays are left as they are. -/
theorem C125_momentum (lr mu : α) : FollowsKeeping momUpdate (Mom.make lr mu) (Rule.momentum lr mu) id := leaves_mom.follows (C114_momentum lr mu)
/-- `NestorovOptimizer`. -/
theorem C125_nestorov (lr mu : α) : FollowsKeeping nesUpdate (Mom.make lr mu) (Rule.nestorov lr mu) id := leaves_nes.follows (C114_nestorov lr mu)
/-- `AdaGradOptimizer`. -/
theorem C125_adagrad (isq : α → α) (lr b : α) : FollowsKeeping (adagradUpdate isq) (Ada.make lr b) (Rule.adagrad isq lr) id :=
  (leaves_adagrad isq).follows (C114_adagrad isq lr b)
/-- `RMSPropOptimizer`. -/
theorem C125_rmsprop (isq : α → α) (lr beta : α) : FollowsKeeping (rmspropUpdate isq) (Ada.make lr beta) (Rule.rmsprop isq lr beta) id :=
  (leaves_rmsprop isq).follows (C114_rmsprop isq lr beta)
/-- `AdamOptimizer`, as long as no bias correction divides by zero. -/
theorem C125_adam [DecidableEq α] (isq : α → α) (lr beta1 beta2 : α) (h1 : ∀ T : Nat, 1 - beta1 ^ (T + 1) ≠ 0) (h2 : ∀ T : Nat, 1 - beta2 ^ (T + 1) ≠ 0) :
    FollowsKeeping (adamUpdate isq) (AdamS.make lr beta1 beta2) (Rule.adam isq lr beta1 beta2) id := (leaves_adam isq).follows (C114_adam isq lr beta1 beta2 h1 h2)

end

/-! ### Training -/

/-- The parameter arrays of a layer: address and size. -/
def Layer.slots : Layer α → List (Nat × Nat)
  | .fc l => [(l.keyB, l.osize), (l.keyW, l.isize * l.osize)]
  | .conv l => (l.keyB, l.fc) :: (List.range l.Ws.length).map (fun f => (l.keyW f, l.fd * l.fh * l.fw))
  | _ => []

theorem slots_keys (l : Layer α) : l.slots.map (·.1) = l.keys := by
  cases l with
  | conv l => simp [Layer.slots, Layer.keys, Function.comp_def]
  | _ => rfl

theorem sizes_of : ∀ {kn : List (Nat × Nat)}, (kn.map (·.1)).Nodup → ∃ size : Nat → Nat, ∀ p ∈ kn, size p.1 = p.2
  | [], _ => ⟨fun _ => 0, by simp⟩
  | q :: kn, h => by
    rw [List.map_cons, List.nodup_cons] at h
    obtain ⟨size, hs⟩ := sizes_of h.2
    refine ⟨fun k => if k = q.1 then q.2 else size k, fun p hp => ?_⟩
    rcases List.mem_cons.1 hp with rfl | hp
    · exact if_pos rfl
    · dsimp only
      rw [if_neg (fun e => h.1 (List.mem_map.2 ⟨p, hp, e⟩))]
      exact hs p hp

section
variable [Field α] [LT α] [DecidableLT α] [DecidableEq α] {upd : Upd σ α} {R : Rule α μ} {keep : α → α}

theorem SIs_start {size : Nat → Nat} {l : Layer α} {st : SSt α} (h : l.Holds st) (hs : ∀ p ∈ l.slots, size p.1 = p.2) (m0 : μ) (c : PRef → α) :
    SIs size (fun _ _ => m0) l.keys ⟨st.s, c, fun _ => m0⟩ := by
  refine ⟨fun p e => ?_, fun p e => ?_⟩
  · obtain ⟨f, rfl, w, _⟩ := h.1 p e
    refine ⟨f.keyB, f.keyW, rfl, ?_, ?_, fun _ _ => rfl, fun _ _ => rfl⟩
    · rw [hs (f.keyB, f.osize) (by simp [Layer.slots])]; exact w.osize
    · rw [hs (f.keyW, f.isize * f.osize) (by simp [Layer.slots])]; dsimp only; rw [w.osize, w.isize]
  · obtain ⟨c, rfl, w⟩ := h.2 p e
    refine ⟨c.keyB, c.keyW, by rw [← w.Ws.1]; rfl, ?_, fun f hf => ?_, fun _ _ => rfl, fun _ _ _ _ => rfl⟩
    · rw [hs (c.keyB, c.fc) (by simp [Layer.slots])]; exact w.fil.1
    · have hf' : f < c.Ws.length := by rw [w.Ws.1]; exact hf
      rw [hs (c.keyW f, c.fd * c.fh * c.fw) (by simp only [Layer.slots, List.mem_cons, List.mem_map, List.mem_range]; exact Or.inr ⟨f, hf', rfl⟩)]
      dsimp only
      rw [w.fil.2.1, w.fil.2.2.1, w.fil.2.2.2]

theorem stackT_start {s0 : σ} (hR : FollowsKeeping upd s0 R keep) {t : Train α} {sts : List (SSt α)} {a b : Nat × Nat × Nat} {dL : (Nat → α) → (Nat → α) → Nat → α}
    (h : t.Holds sts a b dL) (hk : t.net.keys.Nodup) (cl : Bool) (hc : cl = true → ∀ st ∈ sts, st.acc = false) :
    ∃ size J, KeepOpt upd R keep size J ∧ StackT size J a b dL cl (R.stackInit (sts.map SSt.carry)) (s0, t) := by
  have hk' : ((t.net.flatMap Layer.slots).map (·.1)).Nodup := by
    have : (t.net.flatMap Layer.slots).map (·.1) = t.net.keys := by
      unfold Net.keys
      rw [List.map_flatMap]
      congr 1
      funext l; exact slots_keys l
    rw [this]; exact hk
  obtain ⟨size, hs⟩ := sizes_of hk'
  obtain ⟨J, ho, hJ⟩ := hR size
  refine ⟨size, J, ho, _, sts, hJ, h, hk, ?_, ?_, hc⟩
  · unfold Rule.stackInit
    dsimp only
    rw [List.map_map, List.map_map]
    rfl
  · unfold Rule.stackInit
    dsimp only
    rw [List.map_map, List.forall₂_map_left_iff, List.forall₂_map_right_iff]
    have hn := h.net
    unfold Net.Holds at hn
    generalize t.net = net at hn hs
    clear * - hn hs
    induction hn with
    | nil => exact .nil
    | @cons l st net sts hl _ ih =>
      refine .cons (SIs_start hl (fun p hp => hs p (by rw [List.flatMap_cons]; exact List.mem_append_left _ hp)) R.start _)
        (ih (fun p hp => hs p (by rw [List.flatMap_cons]; exact List.mem_append_right _ hp)))

theorem StackT.holds {size : Nat → Nat} {J : σ → Nat → (Nat → Nat → μ) → Prop} {a b : Nat × Nat × Nat} {dL : (Nat → α) → (Nat → α) → Nat → α} {cl : Bool}
    {X : Nat × List (RSt α μ)} {x : σ × Train α} (h : StackT size J a b dL cl X x) : ∃ sts', x.2.Holds sts' a b dL ∧ sts'.map SSt.carry = X.2.map RSt.carry := by
  obtain ⟨M, sts, _, hA, _, hc, _⟩ := h
  exact ⟨sts, hA, hc⟩

theorem init_data (R : Rule α μ) {sts : List (SSt α)} {b : Nat × Nat × Nat} {idata odata : List (Ten α)} {vs : List ((Nat → α) × (Nat → α))}
    (hd : StackData (sts.map (·.s)) b idata odata vs) : StackData ((R.stackInit (sts.map SSt.carry)).2.map (·.s)) b idata odata vs := by
  unfold Rule.stackInit
  dsimp only
  rw [List.map_map, List.map_map]
  exact hd

/-- `batch()`: every epoch hands to the optimizer, for every parameter, `1/N` times the gradients summed over the data — for a convolution plus `1/N` times what
the epochs before have left. -/
theorem C125_batch {s0 : σ} (hR : FollowsKeeping upd s0 R keep) (t : Train α) (sts : List (SSt α)) (a b : Nat × Nat × Nat) (dL : (Nat → α) → (Nat → α) → Nat → α)
    (h : t.Holds sts a b dL) (hk : t.net.keys.Nodup) (idata odata : List (Ten α)) (vs : List ((Nat → α) × (Nat → α))) (hd : StackData (sts.map (·.s)) b idata odata vs)
    (hne : vs ≠ []) (epochs : Nat) :
    Ok (Train.batch upd idata odata epochs (s0, t)) (fun r => ∃ sts', r.2.Holds sts' a b dL ∧
      sts'.map SSt.carry = ((R.stackStep piled keep (1 / (vs.length : α)) (fun ss => stackSum dL ss vs))^[epochs] (R.stackInit (sts.map SSt.carry))).2.map RSt.carry) := by
  have hlen : idata.length = vs.length := hd.1.length_eq
  have hpos : 1 ≤ vs.length := List.length_pos_iff.2 hne
  obtain ⟨size, J, ho, hT⟩ := stackT_start hR h hk false (fun h => by simp at h)
  rw [batch_run upd idata odata _ _ (by omega), batchTrace_steps, hlen]
  obtain ⟨x, e, hx⟩ := StackT.steps ho (1 / (vs.length : α)) (List.replicate epochs (0, vs.length)) (fun w hw => by
    rw [List.mem_replicate] at hw
    rw [hw.2]; dsimp only; omega) (init_data R hd) hT
  refine ⟨x, e, ?_⟩
  have hx := hx.holds
  have key : ∀ X : Nat × List (RSt α μ), (List.replicate epochs (0, vs.length)).foldl (fun X w => R.stackStep piled keep (1 / (vs.length : α)) (fun ss => stackSum dL ss ((vs.drop w.1).take w.2)) X) X =
      (R.stackStep piled keep (1 / (vs.length : α)) (fun ss => stackSum dL ss vs))^[epochs] X := by
    clear * - R dL vs
    induction epochs with
    | zero => exact fun _ => rfl
    | succ k ih => exact fun X => by rw [List.replicate_succ, List.foldl_cons, ih, Function.iterate_succ_apply, List.drop_zero, List.take_length]
  rw [key] at hx
  exact hx

/-- `mini_batch()`: the same, block by block. -/
theorem C125_mini_batch {s0 : σ} (hR : FollowsKeeping upd s0 R keep) (t : Train α) (sts : List (SSt α)) (a b : Nat × Nat × Nat) (dL : (Nat → α) → (Nat → α) → Nat → α)
    (h : t.Holds sts a b dL) (hk : t.net.keys.Nodup) (idata odata : List (Ten α)) (vs : List ((Nat → α) × (Nat → α))) (hd : StackData (sts.map (·.s)) b idata odata vs)
    (k : Nat) (hk1 : 1 ≤ k) (epochs : Nat) :
    Ok (Train.miniBatch upd idata odata epochs k (s0, t)) (fun r => ∃ sts', r.2.Holds sts' a b dL ∧
      sts'.map SSt.carry = ((fun X => (List.range (vs.length / k)).foldl (fun X B => R.stackStep piled keep (1 / (k : α)) (fun ss => stackSum dL ss ((vs.drop (B * k)).take k)) X) X)^[epochs]
        (R.stackInit (sts.map SSt.carry))).2.map RSt.carry) := by
  have hlen : idata.length = vs.length := hd.1.length_eq
  obtain ⟨size, J, ho, hT⟩ := stackT_start hR h hk false (fun h => by simp at h)
  rw [miniBatch_run upd idata odata _ _ _ (by omega), miniTrace_steps, hlen]
  obtain ⟨x, e, hx⟩ := StackT.steps ho (1 / (k : α)) ((List.replicate epochs ((List.range (vs.length / k)).map (fun b => (b * k, k)))).flatten) (fun w hw => by
    obtain ⟨l, h1, h2⟩ := List.mem_flatten.1 hw
    rw [List.mem_replicate] at h1
    rw [h1.2] at h2
    obtain ⟨b, h3, rfl⟩ := List.mem_map.1 h2
    rw [List.mem_range] at h3
    have h4 : (b + 1) * k ≤ vs.length / k * k := Nat.mul_le_mul_right k h3
    have h5 := Nat.div_mul_le_self vs.length k
    rw [Nat.succ_mul] at h4
    dsimp only; omega) (init_data R hd) hT
  refine ⟨x, e, ?_⟩
  have hx := hx.holds
  have key : ∀ X : Nat × List (RSt α μ), ((List.replicate epochs ((List.range (vs.length / k)).map (fun b => (b * k, k)))).flatten).foldl
        (fun X w => R.stackStep piled keep (1 / (k : α)) (fun ss => stackSum dL ss ((vs.drop w.1).take w.2)) X) X =
      (fun X => (List.range (vs.length / k)).foldl (fun X b => R.stackStep piled keep (1 / (k : α)) (fun ss => stackSum dL ss ((vs.drop (b * k)).take k)) X) X)^[epochs] X := by
    clear * - R dL vs
    induction epochs with
    | zero => exact fun _ => rfl
    | succ e ih => exact fun X => by rw [List.replicate_succ, List.flatten_cons, List.foldl_append, ih, Function.iterate_succ_apply, List.foldl_map]
  rw [key] at hx
  exact hx

/-- `stochastic()`: every round hands to the optimizer the gradients of the drawn sample, for a convolution plus what the rounds before have left. -/
theorem C125_stochastic {γ ρ : Type} {s0 : σ} (hR : FollowsKeeping upd s0 R keep) (t : Train α) (sts : List (SSt α)) (a b : Nat × Nat × Nat) (dL : (Nat → α) → (Nat → α) → Nat → α)
    (h : t.Holds sts a b dL) (hk : t.net.keys.Nodup) (hc : ∀ st ∈ sts, st.acc = false) (idata odata : List (Ten α)) (vs : List ((Nat → α) × (Nat → α)))
    (hd : StackData (sts.map (·.s)) b idata odata vs) (hne : vs ≠ []) (gen : Gen γ ρ Nat) (c : γ) (g : ρ) (iterations : Nat) :
    Ok (Train.stochastic upd idata odata iterations gen c g (s0, t)) (fun r => ∃ sts', r.1.2.Holds sts' a b dL ∧
      sts'.map SSt.carry = (((draws gen iterations c g).filterMap (fun d => vs[d % vs.length]?)).foldl (fun X vw => R.stackStep piled keep 1 (fun ss => stackSum dL ss [vw]) X)
        (R.stackInit (sts.map SSt.carry))).2.map RSt.carry) := by
  have hlen : idata.length = vs.length := hd.1.length_eq
  have hpos : 1 ≤ vs.length := List.length_pos_iff.2 hne
  obtain ⟨size, J, ho, hT⟩ := stackT_start hR h hk true (fun _ => hc)
  obtain ⟨x, e, hx⟩ := StackT.stos ho ((draws gen iterations c g).map (· % idata.length)) (fun i hi => by
    obtain ⟨a, _, rfl⟩ := List.mem_map.1 hi
    rw [← hlen]; exact Nat.mod_lt _ (by omega)) (init_data R hd) hT
  rw [stochastic_run _ _ _ _ (by omega), e, bind_ok]
  refine Ok_ok.2 ?_
  have := hx.holds
  rw [List.filterMap_map, hlen] at this
  exact this

end

/-! ### The rule is followed as long as nothing is carried -/

section
variable [Field α]

theorem stages_clean (R : Rule α μ) (keep : α → α) (alpha : α) : ∀ (T : Nat) (xs : List (RSt α μ)) (Gs : List (PRef → α)),
    (∀ x ∈ xs, ∀ q, x.s = .conv q → ∀ r, x.c r = 0) → R.stages piled keep alpha T xs Gs = R.stages published keep alpha T xs Gs
  | _, [], _, _ => by unfold Rule.stages; rfl
  | _, x :: xs, [], _ => rfl
  | T, x :: xs, G :: Gs, h => by
    show R.move keep alpha T x (piled x G) :: _ = R.move keep alpha T x G :: _
    rw [stages_clean R keep alpha _ xs Gs (fun y hy => h y (by simp [hy]))]
    have : piled x G = G := by
      obtain ⟨s, c, m⟩ := x
      cases s with
      | dense p => rfl
      | conv p => funext r; show c r + G r = G r; rw [show c r = 0 from h ⟨.conv p, c, m⟩ (by simp) p rfl r, zero_add]
    rw [this]

/-- The first step from fresh layers follows the rule. -/
theorem C125_first_partial (R : Rule α μ) (keep : α → α) (alpha : α) (grads : List (Stage α) → List (PRef → α)) (cs : List (Carried α))
    (h : ∀ c ∈ cs, ∀ q, c.1 = .conv q → ∀ r, c.2 r = 0) :
    R.stackStep piled keep alpha grads (R.stackInit cs) = R.stackStep published keep alpha grads (R.stackInit cs) := by
  unfold Rule.stackStep
  rw [stages_clean R keep alpha]
  intro x hx q hq r
  obtain ⟨c, hc, rfl⟩ := List.mem_map.1 hx
  exact h c hc q hq r

/-- Without convolutions every step follows the rule. -/
theorem C125_dense_partial (R : Rule α μ) (keep : α → α) (alpha : α) (grads : List (Stage α) → List (PRef → α)) (X : Nat × List (RSt α μ))
    (h : ∀ x ∈ X.2, ∀ q, x.s ≠ .conv q) : R.stackStep piled keep alpha grads X = R.stackStep published keep alpha grads X := by
  unfold Rule.stackStep
  rw [stages_clean R keep alpha _ _ _ (fun x hx q hq => absurd hq (h x hx q))]

/-! ### What piles up in a convolution -/

theorem stages_get (R : Rule α μ) (hand : RSt α μ → (PRef → α) → PRef → α) (keep : α → α) (alpha : α) : ∀ (T : Nat) (xs : List (RSt α μ)) (Gs : List (PRef → α)) (i : Nat) (x : RSt α μ) (G : PRef → α),
    xs[i]? = some x → Gs[i]? = some G → (R.stages hand keep alpha T xs Gs)[i]? = some (R.move keep alpha (T + ((xs.take i).map (·.s.arrays)).sum) x (hand x G))
  | _, [], _, i, _, _, h, _ => by simp at h
  | _, _ :: _, [], i, _, _, _, h => by simp at h
  | T, x :: xs, G :: Gs, 0, x', G', h, h' => by
    rw [List.getElem?_cons_zero] at h h'
    cases h; cases h'
    rfl
  | T, x :: xs, G :: Gs, i + 1, x', G', h, h' => by
    rw [List.getElem?_cons_succ] at h h'
    show (_ :: R.stages hand keep alpha (T + x.s.arrays) xs Gs)[i + 1]? = _
    rw [List.getElem?_cons_succ, stages_get R hand keep alpha _ xs Gs i x' G' h h', List.take_succ_cons, List.map_cons, List.sum_cons, Nat.add_assoc]

theorem stages_length (R : Rule α μ) (hand : RSt α μ → (PRef → α) → PRef → α) (keep : α → α) (alpha : α) : ∀ (T : Nat) (xs : List (RSt α μ)) (Gs : List (PRef → α)), xs.length = Gs.length →
    (R.stages hand keep alpha T xs Gs).length = xs.length
  | _, [], Gs, _ => by cases Gs <;> rfl
  | T, x :: xs, [], h => by simp at h
  | T, x :: xs, G :: Gs, h => by
    show (_ :: R.stages hand keep alpha _ xs Gs).length = _
    rw [List.length_cons, stages_length R hand keep alpha _ xs Gs (by simpa using h), List.length_cons]

/-- The states before step 0, 1, 2, … when step `n` uses the samples `vs n`. -/
def Rule.trail (R : Rule α μ) (keep : α → α) (alpha : α) (dL : (Nat → α) → (Nat → α) → Nat → α) (cs : List (Carried α)) (vs : Nat → List ((Nat → α) × (Nat → α))) : Nat → Nat × List (RSt α μ)
  | 0 => R.stackInit cs
  | n + 1 => R.stackStep piled keep alpha (fun ss => stackSum dL ss (vs n)) (R.trail keep alpha dL cs vs n)

/-- With an optimizer that leaves the gradient arrays as they are, what a convolution carries before step `n` is every summed gradient since the start, the one of
step `j` weighted with `alpha ^ (n - j)`. So the optimizer is handed `alpha · ∑ⱼ≤ₙ alpha ^ (n - j) · gradient j` instead of `alpha · gradient n`; in `stochastic()`,
where `alpha = 1`, the sum of all gradients so far. -/
theorem C125_pile (R : Rule α μ) (alpha : α) (dL : (Nat → α) → (Nat → α) → Nat → α) (cs : List (Carried α)) (vs : Nat → List ((Nat → α) × (Nat → α)))
    (i : Nat) (q : ConvP α) (hi : cs[i]? = some (.conv q, fun _ => 0)) (n : Nat) :
    ∃ (x : RSt α μ) (q' : ConvP α) (G : Nat → PRef → α), (R.trail id alpha dL cs vs n).2[i]? = some x ∧ x.s = .conv q' ∧
      (∀ j, (stackSum dL ((R.trail id alpha dL cs vs j).2.map (·.s)) (vs j))[i]? = some (G j)) ∧
      ∀ r, x.c r = ∑ j ∈ Finset.range n, alpha ^ (n - j) * G j r := by
  have hlen : ∀ n, (R.trail id alpha dL cs vs n).2.length = cs.length := by
    intro n
    induction n with
    | zero => show (List.map _ cs).length = _; rw [List.length_map]
    | succ n ih =>
      show (R.stages piled id alpha _ (R.trail id alpha dL cs vs n).2 _).length = _
      rw [stages_length _ _ _ _ _ _ _ (by rw [stackSum_length]; simp), ih]
  have hlt : i < cs.length := (List.getElem?_eq_some_iff.1 hi).1
  have hG : ∀ j, ∃ G, (stackSum dL ((R.trail id alpha dL cs vs j).2.map (·.s)) (vs j))[i]? = some G := fun j =>
    ⟨_, List.getElem?_eq_getElem (by rw [stackSum_length, List.length_map, hlen]; exact hlt)⟩
  obtain ⟨G, hG⟩ := Classical.axiomOfChoice hG
  suffices hs : ∀ n, ∃ (x : RSt α μ) (q' : ConvP α), (R.trail id alpha dL cs vs n).2[i]? = some x ∧ x.s = .conv q' ∧ ∀ r, x.c r = ∑ j ∈ Finset.range n, alpha ^ (n - j) * G j r by
    obtain ⟨x, q', h1, h2, h3⟩ := hs n
    exact ⟨x, q', G, h1, h2, hG, h3⟩
  intro n
  induction n with
  | zero =>
    refine ⟨⟨.conv q, fun _ => 0, fun _ => R.start⟩, q, ?_, rfl, fun r => by simp⟩
    show (cs.map _)[i]? = _
    rw [List.getElem?_map, hi]; rfl
  | succ n ih =>
    obtain ⟨x, q', h1, h2, h3⟩ := ih
    have := stages_get R piled id alpha (R.trail id alpha dL cs vs n).1 _ _ i x (G n) h1 (hG n)
    obtain ⟨s, c, m⟩ := x
    dsimp only at h2 h3
    subst h2
    refine ⟨_, _, this, rfl, fun r => ?_⟩
    show (c r + G n r) * alpha = _
    rw [h3, Finset.sum_range_succ, add_mul, Finset.sum_mul]
    congr 1
    · refine Finset.sum_congr rfl (fun j hj => ?_)
      rw [show n + 1 - j = (n - j) + 1 by have := Finset.mem_range.1 hj; omega, pow_succ]
      ring
    · rw [show n + 1 - n = 1 by omega, pow_one, mul_comm]

/-! ### The rule is not followed from the second step on -/

/-- Different gradients move a parameter differently (for what the optimizer remembers after one step). -/
def Rule.Tells (R : Rule α μ) : Prop := ∀ (T T' : Nat) (p p' g : α), Function.Injective (fun h => (R.step T (R.step T' R.start p' g).1 p h).2)

theorem tells_momentum (lr mu : α) (hlr : lr ≠ 0) : (Rule.momentum lr mu).Tells := by
  intro T T' p p' g h h' e
  have e : p + (mu * (mu * 0 - lr * g) - lr * h) = p + (mu * (mu * 0 - lr * g) - lr * h') := e
  exact mul_left_cancel₀ hlr (by linear_combination -e)

theorem tells_nestorov (lr mu : α) (hlr : lr ≠ 0) (hmu : 1 + mu ≠ 0) : (Rule.nestorov lr mu).Tells := by
  intro T T' p p' g h h' e
  have e : p - lr * h + mu * (mu * (mu * 0 - lr * g) - lr * h) = p - lr * h' + mu * (mu * (mu * 0 - lr * g) - lr * h') := e
  exact mul_left_cancel₀ (mul_ne_zero hlr hmu) (by linear_combination -e)

theorem move_get (R : Rule α μ) (keep : α → α) (alpha : α) (T : Nat) (x : RSt α μ) (H : PRef → α) {r : PRef} (hr : x.s.Has r) :
    (R.move keep alpha T x H).s.get r = (R.step (T + x.s.before r) (x.m r) (x.s.get r) (H r * alpha)).2 := by
  obtain ⟨s, c, m⟩ := x
  cases s <;> cases r <;> first | rfl | exact absurd hr id

/-- From the second epoch of `batch()` on the optimizer rule is not followed: a parameter of a convolution whose first gradient is not zero has another value
after two epochs than the rule prescribes (for every optimizer that leaves its gradient arrays alone and tells gradients apart). -/
theorem C125_violated [LT α] [DecidableLT α] [DecidableEq α] {upd : Upd σ α} {R : Rule α μ} {s0 : σ} (hR : FollowsKeeping upd s0 R id) (hT : R.Tells) (t : Train α) (sts : List (SSt α)) (a b : Nat × Nat × Nat)
    (dL : (Nat → α) → (Nat → α) → Nat → α) (h : t.Holds sts a b dL) (hk : t.net.keys.Nodup) (hz : ∀ st ∈ sts, ∀ q, st.s = .conv q → ∀ r, st.g r = 0)
    (idata odata : List (Ten α)) (vs : List ((Nat → α) × (Nat → α))) (hd : StackData (sts.map (·.s)) b idata odata vs) (hn : (vs.length : α) ≠ 0)
    (i : Nat) (st : SSt α) (q : ConvP α) (hi : sts[i]? = some st) (hq : st.s = .conv q) (r : PRef) (hr : st.s.Has r)
    (G : PRef → α) (hG : (stackSum dL (sts.map (·.s)) vs)[i]? = some G) (hG0 : G r ≠ 0) :
    Ok (Train.batch upd idata odata 2 (s0, t)) (fun p => ∃ (sts' : List (SSt α)) (s1 s2 : Stage α), p.2.Holds sts' a b dL ∧ (sts'.map (·.s))[i]? = some s1 ∧
      (((R.stackStep published id (1 / (vs.length : α)) (fun ss => stackSum dL ss vs))^[2] (R.stackInit (sts.map SSt.carry))).2.map (·.s))[i]? = some s2 ∧ s1.get r ≠ s2.get r) := by
  have hne : vs ≠ [] := by intro e; rw [e] at hn; simp at hn
  refine (C125_batch hR t sts a b dL h hk idata odata vs hd hne 2).mono (fun p w => ?_)
  obtain ⟨sts', w1, w2⟩ := w
  generalize hal : 1 / (vs.length : α) = alpha at w2 ⊢
  have hal0 : alpha ≠ 0 := by rw [← hal]; exact one_div_ne_zero hn
  have hclean : ∀ c ∈ sts.map SSt.carry, ∀ q, c.1 = .conv q → ∀ r, c.2 r = 0 := by
    intro c hc q hq r
    obtain ⟨st, hst, rfl⟩ := List.mem_map.1 hc
    have hs : st.s = .conv q := hq
    show (match st.s with | .dense _ => fun _ => 0 | .conv _ => st.g) r = 0
    rw [hs]; exact hz st hst q hs r
  have hg0 := hz st (List.mem_of_getElem? hi) q hq
  have hxi : (R.stackInit (sts.map SSt.carry)).2[i]? = some ⟨.conv q, st.g, fun _ => R.start⟩ := by
    show ((sts.map SSt.carry).map _)[i]? = _
    rw [List.getElem?_map, List.getElem?_map, hi]
    show some (RSt.mk st.s (match st.s with | .dense _ => fun _ => 0 | .conv _ => st.g) _) = _
    rw [hq]
  have es : (R.stackInit (sts.map SSt.carry)).2.map (·.s) = sts.map (·.s) := by
    show List.map _ (List.map _ (List.map _ sts)) = _
    rw [List.map_map, List.map_map]; rfl
  set X0 := R.stackInit (sts.map SSt.carry) with hX0
  have hfirst := C125_first_partial R id alpha (fun ss => stackSum dL ss vs) (sts.map SSt.carry) hclean
  rw [← hX0] at hfirst
  have h1 := stages_get R published id alpha X0.1 X0.2 (stackSum dL (X0.2.map (·.s)) vs) i _ G hxi (by rw [es]; exact hG)
  set X1 := R.stackStep published id alpha (fun ss => stackSum dL ss vs) X0 with hX1
  have h1 : X1.2[i]? = _ := h1
  generalize X0.1 + ((X0.2.take i).map (·.s.arrays)).sum = T0 at h1
  have hlen1 : X1.2.length = sts.length := by
    show (R.stages published id alpha _ X0.2 _).length = _
    rw [stages_length _ _ _ _ _ _ _ (by rw [stackSum_length]; simp)]
    simpa using congrArg List.length es
  have hlt : i < sts.length := (List.getElem?_eq_some_iff.1 hi).1
  obtain ⟨G1, hG1⟩ : ∃ G1, (stackSum dL (X1.2.map (·.s)) vs)[i]? = some G1 :=
    ⟨_, List.getElem?_eq_getElem (by rw [stackSum_length, List.length_map, hlen1]; exact hlt)⟩
  have p2 := stages_get R piled id alpha X1.1 X1.2 (stackSum dL (X1.2.map (·.s)) vs) i _ G1 h1 hG1
  have q2 := stages_get R published id alpha X1.1 X1.2 (stackSum dL (X1.2.map (·.s)) vs) i _ G1 h1 hG1
  generalize X1.1 + ((X1.2.take i).map (·.s.arrays)).sum = T1 at p2 q2
  have e1 : (R.stackStep piled id alpha (fun ss => stackSum dL ss vs))^[2] X0 = R.stackStep piled id alpha (fun ss => stackSum dL ss vs) X1 := by
    rw [Function.iterate_succ_apply, Function.iterate_one, hfirst]
  let x0 : RSt α μ := ⟨.conv q, st.g, fun _ => R.start⟩
  refine ⟨sts', (R.move id alpha T1 (R.move id alpha T0 x0 G) (piled (R.move id alpha T0 x0 G) G1)).s, (R.move id alpha T1 (R.move id alpha T0 x0 G) G1).s, w1, ?_, ?_, ?_⟩
  · rw [carry_stages w2, e1, List.getElem?_map]
    exact congrArg (Option.map _) p2
  · exact (List.getElem?_map ..).trans (congrArg (Option.map _) q2)
  · rw [hq] at hr
    have hr' : (R.move id alpha T0 x0 G).s.Has r := by cases r <;> exact hr
    rw [move_get _ _ _ _ _ _ hr', move_get _ _ _ _ _ _ hr']
    intro e
    have := hT _ _ _ _ _ e
    have this : (G r * alpha + G1 r) * alpha = G1 r * alpha := this
    have : G r * (alpha * alpha) = 0 := by linear_combination this
    rcases mul_eq_zero.1 this with h' | h'
    · exact hG0 h'
    · exact hal0 (by simpa using h')

end

/-- The adaptive step `g / √(A + b·g²)` with `A > 0` tells gradients apart. -/
theorem adaptive_inj {A b : ℝ} (hA : 0 < A) (hb : 0 ≤ b) {g h : ℝ} (e : 1 / Real.sqrt (A + b * g ^ 2) * g = 1 / Real.sqrt (A + b * h ^ 2) * h) : g = h := by
  have p1 : 0 < A + b * g ^ 2 := by positivity
  have p2 : 0 < A + b * h ^ 2 := by positivity
  have q1 := Real.sqrt_pos.2 p1
  have q2 := Real.sqrt_pos.2 p2
  have s1 := Real.sq_sqrt p1.le
  have s2 := Real.sq_sqrt p2.le
  have e' : g * Real.sqrt (A + b * h ^ 2) = h * Real.sqrt (A + b * g ^ 2) := by field_simp at e; linarith
  have e2 : g ^ 2 * (A + b * h ^ 2) = h ^ 2 * (A + b * g ^ 2) := by
    have : (g * Real.sqrt (A + b * h ^ 2)) ^ 2 = (h * Real.sqrt (A + b * g ^ 2)) ^ 2 := by rw [e']
    rw [mul_pow, mul_pow, s1, s2] at this
    exact this
  have e3 : g ^ 2 = h ^ 2 := by
    have : A * g ^ 2 = A * h ^ 2 := by linear_combination e2
    exact mul_left_cancel₀ hA.ne' this
  rw [e3] at e'
  exact mul_right_cancel₀ q2.ne' e'

theorem tells_adagrad (lr : ℝ) (hlr : lr ≠ 0) : (Rule.adagrad invertSqrt lr).Tells := by
  intro T T' p p' g h h' e
  have e : p - lr * (invertSqrt (0 + g ^ 2 + h ^ 2) * h) = p - lr * (invertSqrt (0 + g ^ 2 + h' ^ 2) * h') := e
  have e := mul_left_cancel₀ hlr (sub_right_injective e)
  unfold invertSqrt at e
  refine adaptive_inj (A := 1e-9 + g ^ 2) (b := 1) (by positivity) (by norm_num) ?_
  rw [show (1e-9 : ℝ) + g ^ 2 + 1 * h ^ 2 = 1e-9 + (0 + g ^ 2 + h ^ 2) by ring, show (1e-9 : ℝ) + g ^ 2 + 1 * h' ^ 2 = 1e-9 + (0 + g ^ 2 + h' ^ 2) by ring]
  exact e

theorem tells_rmsprop (lr beta : ℝ) (hlr : lr ≠ 0) (h0 : 0 ≤ beta) (h1 : beta < 1) : (Rule.rmsprop invertSqrt lr beta).Tells := by
  intro T T' p p' g h h' e
  have e : p - lr * (invertSqrt (beta * (beta * 0 + (1 - beta) * g ^ 2) + (1 - beta) * h ^ 2) * h) =
    p - lr * (invertSqrt (beta * (beta * 0 + (1 - beta) * g ^ 2) + (1 - beta) * h' ^ 2) * h') := e
  have e := mul_left_cancel₀ hlr (sub_right_injective e)
  unfold invertSqrt at e
  have hb : 0 < 1 - beta := by linarith
  refine adaptive_inj (A := 1e-9 + beta * ((1 - beta) * g ^ 2)) (b := 1 - beta) (by positivity) hb.le ?_
  rw [show (1e-9 : ℝ) + beta * ((1 - beta) * g ^ 2) + (1 - beta) * h ^ 2 = 1e-9 + (beta * (beta * 0 + (1 - beta) * g ^ 2) + (1 - beta) * h ^ 2) by ring,
    show (1e-9 : ℝ) + beta * ((1 - beta) * g ^ 2) + (1 - beta) * h' ^ 2 = 1e-9 + (beta * (beta * 0 + (1 - beta) * g ^ 2) + (1 - beta) * h' ^ 2) by ring]
  exact e

/-! ### Concrete cases -/

/-- The hypotheses of `C125_batch`, `C125_stochastic` and `C125_violated` are met, for momentum and the two-layer stack of C84. -/
example : ∃ (t : Train ℚ) (x y : Ten ℚ) (v w : Nat → ℚ), t.Holds exSts (1, 1, 3) (1, 1, 1) (fun t y i => (1 + 1) * (y i - t i)) ∧ t.net.keys.Nodup ∧
    (∀ st ∈ exSts, st.acc = false) ∧ (∀ st ∈ exSts, ∀ q, st.s = .conv q → ∀ r, st.g r = 0) ∧
    StackData (exSts.map (·.s)) (1, 1, 1) [x] [y] [(v, w)] ∧ FollowsKeeping momUpdate (Mom.make (1/2 : ℚ) (1/4)) (Rule.momentum (1/2) (1/4)) id ∧ (Rule.momentum (1/2 : ℚ) (1/4)).Tells ∧
    ∃ G, (stackSum (fun t y i => (1 + 1) * (y i - t i)) (exSts.map (·.s)) [(v, w)])[0]? = some G ∧ G (.bias 0) ≠ 0 := by
  obtain ⟨c, _, hc, k1, k2⟩ := Conv.make_Wf (α := ℚ) (d := 1) (h := 1) (w := 3) (fc := 1) (fh := 1) (fw := 2) (pad := 0) (sv := 1) (sh := 1)
    ⟨by decide, by decide, by decide, by decide, by decide, by decide⟩ (by decide) 0 (fun f => f + 1)
  have hx : VecIs (Buf.of [(1 : ℚ), 2, 3]) 3 (fun i => ([1, 2, 3] : List ℚ).getD i 0) := VecIs_of [1, 2, 3] _ (fun i hi => by
    match i, hi with
    | 0, _ => rfl
    | 1, _ => rfl
    | 2, _ => rfl)
  refine ⟨⟨[.conv c, .fc { FC.make 2 1 (Act.elementwise (fun x => x) (fun _ => 1)) 7 8 with W := Mat.fill 2 1 1 }],
    ⟨1, 1, 1, [none]⟩, some (sqLoss 1 1)⟩, ⟨1, 1, 3, Buf.of [1, 2, 3]⟩, ⟨1, 1, 1, Buf.of [5]⟩, fun i => ([1, 2, 3] : List ℚ).getD i 0, fun _ => 5,
    ⟨?_, by decide, by decide, ⟨rfl, rfl, rfl⟩, ⟨rfl, rfl, rfl, rfl⟩, ⟨_, _, rfl, sqLoss_Is 1 1⟩⟩, ?_, ?_, ?_, ⟨.cons ?_ .nil, .cons ?_ .nil⟩,
    C125_momentum _ _, tells_momentum _ _ (by norm_num), ?_⟩
  · refine .cons ⟨(fun p e => by cases e), fun p e => ?_⟩ (.cons ⟨fun p e => ?_, (fun p e => by cases e)⟩ .nil)
    · cases e; exact ⟨c, rfl, hc⟩
    · cases e
      exact ⟨_, rfl, { FC.Wf_make 2 1 (Act.elementwise (fun x : ℚ => x) (fun _ => 1)) 7 8 with W := MatIs_fill 2 1 1 }, Act.Is.elementwise _ _ 1, VecIs_filled 1 0, MatIs_fill 2 1 0,
        VecIs_filled 1 0, MatIs_fill 2 1 0, rfl⟩
  · show ((c.keyB :: (List.range c.Ws.length).map c.keyW) ++ [7, 8]).Nodup
    rw [k1, k2, hc.Ws.1]
    decide
  · intro st hst
    simp only [exSts, List.mem_cons, List.not_mem_nil, or_false] at hst
    rcases hst with rfl | rfl <;> rfl
  · intro st hst q _ r
    simp only [exSts, List.mem_cons, List.not_mem_nil, or_false] at hst
    rcases hst with rfl | rfl <;> rfl
  · intro s hs
    have e : s = .conv _ := (Option.some.inj hs).symm
    subst e
    refine ⟨(fun p e => by cases e), fun p e => ?_⟩
    cases e
    exact ⟨rfl, rfl, rfl, hx⟩
  · exact VecIs_of [5] _ (fun i hi => by
      match i, hi with
      | 0, _ => rfl)
  · refine ⟨_, rfl, ?_⟩
    decide +kernel

/-- Momentum without memory (`mu = 0`) is gradient descent; two epochs with it on `exMixed` (over the integers, learning rate 1). -/
def pileRun (e : Nat) : Res (Buf Int) := do
  let t ← exMixed
  let r ← Train.batch momUpdate [⟨1, 1, 3, Buf.of [1, 2, 3]⟩] [⟨1, 1, 1, Buf.of [38]⟩] e (Mom.make 1 0, t)
  match r.2.net with
  | [.conv c, .fc _] => return c.B
  | _ => .error .oob

/-- First epoch: bias 5 - 28. Second epoch: the gradient is -744884, the optimizer is handed -744884 + 28. -/
example : pileRun 1 = .ok (Buf.of [-23]) ∧ pileRun 2 = .ok (Buf.of [-23 - (28 - 744884)]) := by
  refine ⟨?_, ?_⟩ <;> decide +kernel

end Trixy
