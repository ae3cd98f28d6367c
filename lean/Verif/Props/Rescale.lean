import Verif.Spec.Rescale
import Verif.Proof.Rescale
import Verif.Props.Order
/- Property C103 (repeated data, multiplied losses). -/
namespace Trixy
set_option linter.unusedSectionVars false
open Finset

variable {α σ : Type}

section
variable [Field α]

theorem zipAdd_assoc : ∀ (a x y : List (Grad α)),
    List.zipWith addGrad (List.zipWith addGrad a x) y = List.zipWith addGrad a (List.zipWith addGrad x y)
  | [], _, _ => by simp
  | a :: as, [], y => by simp
  | a :: as, x :: xs, [] => by simp
  | a :: as, x :: xs, y :: ys => by
    simp only [List.zipWith_cons_cons, zipAdd_assoc as xs ys]
    congr 1
    unfold addGrad
    simp only [add_assoc]

theorem zeroAdd : ∀ (ps : List (Dense α)) (gs : List (Grad α)), gs.length = ps.length → List.zipWith addGrad (ps.map (fun _ => zeroGrad)) gs = gs
  | [], [], _ => rfl
  | [], _ :: _, h => by simp at h
  | _ :: _, [], h => by simp at h
  | p :: ps, g :: gs, h => by
    simp only [List.map_cons, List.zipWith_cons_cons, zeroAdd ps gs (by simpa using h)]
    congr 1
    simp only [addGrad, zeroGrad, zero_add]

theorem gradSum_cons (dL : (Nat → α) → (Nat → α) → Nat → α) (ps : List (Dense α)) :
    ∀ (vs : List ((Nat → α) × (Nat → α))) (a : List (Grad α)),
    vs.foldl (fun acc vw => List.zipWith addGrad acc (sampleGrads dL ps vw)) a = List.zipWith addGrad a (gradSum dL ps vs) ∨ a.length ≠ ps.length := by
  intro vs
  induction vs with
  | nil =>
    intro a
    by_cases h : a.length = ps.length
    · refine Or.inl ?_
      show a = _
      unfold gradSum
      rw [List.foldl_nil]
      clear * - h
      induction a generalizing ps with
      | nil => rfl
      | cons g a ih =>
        cases ps with
        | nil => simp at h
        | cons p ps =>
          rw [List.map_cons, List.zipWith_cons_cons, ← ih ps (by simpa using h)]
          congr 1
          simp only [addGrad, zeroGrad, add_zero]
    · exact Or.inr h
  | cons v vs ih =>
    intro a
    by_cases h : a.length = ps.length
    · refine Or.inl ?_
      have hs : (sampleGrads dL ps v).length = ps.length := sampleGrads_length ..
      have k1 := (ih (List.zipWith addGrad a (sampleGrads dL ps v))).resolve_right (by simp [h, hs])
      have k2 := (ih (List.zipWith addGrad (ps.map (fun _ => zeroGrad)) (sampleGrads dL ps v))).resolve_right (by simp [hs])
      show List.foldl _ (List.zipWith addGrad a (sampleGrads dL ps v)) vs = _
      rw [k1, zipAdd_assoc]
      show _ = List.zipWith addGrad a (List.foldl _ (List.zipWith addGrad (ps.map (fun _ => zeroGrad)) (sampleGrads dL ps v)) vs)
      rw [k2, zeroAdd _ _ hs]
    · exact Or.inr h

theorem gradSum_len (dL : (Nat → α) → (Nat → α) → Nat → α) (ps : List (Dense α)) (vs : List ((Nat → α) × (Nat → α))) :
    (gradSum dL ps vs).length = ps.length := by
  unfold gradSum
  have : ∀ (vs : List ((Nat → α) × (Nat → α))) (acc : List (Grad α)), acc.length = ps.length →
      (vs.foldl (fun acc vw => List.zipWith addGrad acc (sampleGrads dL ps vw)) acc).length = ps.length := by
    intro vs
    induction vs with
    | nil => intro acc h; exact h
    | cons v vs ih =>
      intro acc h
      rw [List.foldl_cons]
      exact ih _ (by rw [List.length_zipWith, h, sampleGrads_length, Nat.min_self])
  exact this vs _ (by simp)

theorem gradSum_append (dL : (Nat → α) → (Nat → α) → Nat → α) (ps : List (Dense α)) (vs ws : List ((Nat → α) × (Nat → α))) :
    gradSum dL ps (vs ++ ws) = List.zipWith addGrad (gradSum dL ps vs) (gradSum dL ps ws) := by
  have h : (gradSum dL ps vs).length = ps.length := gradSum_len ..
  have := (gradSum_cons dL ps ws (gradSum dL ps vs)).resolve_right (by simp [h])
  rw [← this]
  unfold gradSum
  rw [List.foldl_append]

theorem gradSum_copies (dL : (Nat → α) → (Nat → α) → Nat → α) (ps : List (Dense α)) (vs : List ((Nat → α) × (Nat → α))) :
    ∀ c : Nat, List.Forall₂ (Grad.Times (c : α) 1 1) (gradSum dL ps vs) (gradSum dL ps (List.replicate c vs).flatten)
  | 0 => by
    have h : (gradSum dL ps vs).length = ps.length := gradSum_len ..
    show List.Forall₂ _ _ (ps.map (fun _ => zeroGrad))
    generalize gradSum dL ps vs = gs at h
    induction gs generalizing ps with
    | nil => cases ps with
      | nil => exact .nil
      | cons => simp at h
    | cons g gs ih => cases ps with
      | nil => simp at h
      | cons p ps => exact .cons ⟨fun j => by simp [zeroGrad], fun i j => by simp [zeroGrad]⟩ (ih ps (by simpa using h))
  | c + 1 => by
    have ih := gradSum_copies dL ps vs c
    rw [List.replicate_succ, List.flatten_cons, gradSum_append]
    generalize gradSum dL ps vs = gs at ih ⊢
    generalize gradSum dL ps _ = hs at ih
    induction ih with
    | nil => exact .nil
    | @cons g h gs hs hgh _ ih =>
      refine .cons ⟨fun j => ?_, fun i j => ?_⟩ ih
      · have := hgh.1 j
        simp only [addGrad, mul_one, Nat.cast_succ] at this ⊢
        rw [this]; ring
      · have := hgh.2 i j
        simp only [addGrad, mul_one, Nat.cast_succ] at this ⊢
        rw [this]; ring

/-- `c` copies of the samples, averaged over `c · k` instead of `k`. -/
theorem gradSum_average (dL : (Nat → α) → (Nat → α) → Nat → α) (ps : List (Dense α)) {vs vs' : List ((Nat → α) × (Nat → α))} {c : Nat}
    (hc : (c : α) ≠ 0) (hp : ((List.replicate c vs).flatten).Perm vs') (k : Nat) :
    List.Forall₂ (Grad.Times 1 (1 / (k : α)) (1 / ((c * k : Nat) : α))) (gradSum dL ps vs) (gradSum dL ps vs') := by
  rw [← gradSum_perm dL ps hp]
  refine (gradSum_copies dL ps vs c).imp (fun g h hgh => ?_)
  have key : ∀ a b : α, b * 1 = (c : α) * (a * 1) → b * (1 / ((c * k : Nat) : α)) = 1 * (a * (1 / (k : α))) := by
    intro a b e
    rw [mul_one, mul_one] at e
    rw [e, Nat.cast_mul]
    by_cases hk : (k : α) = 0
    · simp [hk]
    · field_simp
  exact ⟨fun j => key _ _ (hgh.1 j), fun i j => key _ _ (hgh.2 i j)⟩

theorem foldSum_mul' (c : α) (n : Nat) (f : Nat → α) : foldSum 0 n (fun j => c * f j) = c * foldSum 0 n f := by
  induction n with
  | zero => simp [foldSum]
  | succ n ih => simp only [foldSum] at ih ⊢; rw [ih, mul_add]

theorem netBack_scale (c : α) : ∀ (ps : List (Dense α)) (v u : Nat → α), netBack ps v (fun i => c * u i) = fun i => c * netBack ps v u i
  | [], _, _ => rfl
  | p :: ps, v, u => by
    funext i
    simp only [netBack, Dense.back, netBack_scale c ps]
    rw [← foldSum_mul']
    congr 1
    funext j
    ring

theorem netGrads_scale (c : α) : ∀ (ps : List (Dense α)) (v u : Nat → α),
    List.Forall₂ (Grad.Times c 1 1) (netGrads ps v u) (netGrads ps v (fun i => c * u i))
  | [], _, _ => .nil
  | p :: ps, v, u => by
    refine .cons ?_ (netGrads_scale c ps _ u)
    rw [netBack_scale]
    exact ⟨fun j => by simp only [Dense.grad]; ring, fun i j => by simp only [Dense.grad]; ring⟩

theorem sampleGrads_scale (c : α) (dL : (Nat → α) → (Nat → α) → Nat → α) (ps : List (Dense α)) (vw : (Nat → α) × (Nat → α)) :
    List.Forall₂ (Grad.Times c 1 1) (sampleGrads dL ps vw) (sampleGrads (fun t y i => c * dL t y i) ps vw) :=
  netGrads_scale c ps _ _

theorem gradSum_scale (c : α) (dL : (Nat → α) → (Nat → α) → Nat → α) (ps : List (Dense α)) (vs : List ((Nat → α) × (Nat → α))) (a : α) :
    List.Forall₂ (Grad.Times c a a) (gradSum dL ps vs) (gradSum (fun t y i => c * dL t y i) ps vs) := by
  have start : List.Forall₂ (Grad.Times c 1 1) (ps.map (fun _ => (zeroGrad : Grad α))) (ps.map (fun _ => zeroGrad)) := by
    clear vs
    induction ps with
    | nil => exact .nil
    | cons p ps ih => exact .cons ⟨fun j => by simp [zeroGrad], fun i j => by simp [zeroGrad]⟩ ih
  have loop : ∀ (x y : List (Grad α)), List.Forall₂ (Grad.Times c 1 1) x y → List.Forall₂ (Grad.Times c 1 1)
      (vs.foldl (fun acc vw => List.zipWith addGrad acc (sampleGrads dL ps vw)) x)
      (vs.foldl (fun acc vw => List.zipWith addGrad acc (sampleGrads (fun t y i => c * dL t y i) ps vw)) y) := by
    induction vs with
    | nil => intro x y h; exact h
    | cons v vs ih =>
      intro x y h
      rw [List.foldl_cons, List.foldl_cons]
      refine ih _ _ ?_
      have hs := sampleGrads_scale c dL ps v
      generalize sampleGrads dL ps v = gs at hs ⊢
      generalize sampleGrads (fun t y i => c * dL t y i) ps v = hs' at hs ⊢
      induction h generalizing gs hs' with
      | nil => simp
      | @cons g g' x y hg _ ih =>
        cases hs with
        | nil => simp
        | @cons k k' ks ks' hk hks =>
          refine .cons ⟨fun j => ?_, fun i j => ?_⟩ (ih _ _ hks)
          · have h1 := hg.1 j; have h2 := hk.1 j
            simp only [addGrad, mul_one] at h1 h2 ⊢
            rw [h1, h2]; ring
          · have h1 := hg.2 i j; have h2 := hk.2 i j
            simp only [addGrad, mul_one] at h1 h2 ⊢
            rw [h1, h2]; ring
  refine (loop _ _ start).imp (fun g h hgh => ⟨fun j => ?_, fun i j => ?_⟩)
  · have := hgh.1 j
    rw [mul_one, mul_one] at this
    rw [this]; ring
  · have := hgh.2 i j
    rw [mul_one, mul_one] at this
    rw [this]; ring

end

section
variable [Field α] [LT α] [DecidableLT α] [DecidableEq α]

theorem scaleOpt_one {upd : Upd σ α} {size : Nat → Nat} {I : σ → Prop} (hu : UpdOk upd size I) :
    ScaleOpt upd 1 Eq (fun k n => size k = n) I := by
  intro s₁ s₂ k n p g₁ g₂ f hs hI hV hp h1 h2
  subst hs hV
  have e : g₂ = g₁ := BufIs.ext (h2.congr (g := f) (fun i _ => one_mul _)) h1
  obtain ⟨r, e1, q1, q2, q3⟩ := hu s₁ k p g₁ hI hp h1.full
  exact ⟨r.1, r.1, r.2.1, r.2.2, r.2.2, e1, e ▸ e1, rfl, q1, q2, q3, q3⟩

theorem twinS_start {t : Train α} {ps : List (Dense α)} {n m : Nat} {dL dL' : (Nat → α) → (Nat → α) → Nat → α} (h : t.Is ps n m dL)
    {l : Loss α} {L : (Nat → α) → (Nat → α) → α} (hl : l.Is m L dL')
    {size : Nat → Nat} (hz : t.net.Sized size) {S : σ → σ → Prop} {I : σ → Prop} {s s' : σ} (hs : S s s') (hI : I s) (cl : Bool) (hc : cl = true → t.net.Clean) :
    TwinS (fun k n => size k = n) S I n m dL dL' cl (s, t) (s', { t with loss := some l }) := by
  obtain ⟨A, hA, _⟩ := h.at
  refine ⟨hs, hI, A, A, hA, ⟨hA.net, hA.two, hA.word, hA.chain, hA.delta, l, L, rfl, hl⟩, twin_zip hA.net hA.net rfl hz (fun q hq => ?_), fun e => ?_⟩
  · rw [List.zip_eq_zipWith, List.zipWith_self, List.mem_map] at hq
    obtain ⟨_, _, rfl⟩ := hq
    rfl
  · have hcl := hc e
    have : ∀ a ∈ A, a.acc = false := by
      have hn := hA.net
      generalize t.net = net at hn hcl
      clear * - hn hcl
      induction hn with
      | nil => simp
      | @cons l a ls A h _ ih =>
        obtain ⟨f, rfl, hf⟩ := h
        intro b hb
        rcases List.mem_cons.1 hb with rfl | hb
        · rw [← hf.acc]; exact hcl _ (by simp) f rfl
        · exact ih (fun l hl => hcl l (by simp [hl])) b hb
    exact ⟨this, this⟩

theorem TwinS.outcome_eq {V : Nat → Nat → Prop} {I : σ → Prop} {n m : Nat} {dL dL' : (Nat → α) → (Nat → α) → Nat → α} {cl : Bool} {x y : σ × Train α}
    (h : TwinS V Eq I n m dL dL' cl x y) : outcome (.ok x) = outcome (.ok y) := by
  have := h.params
  unfold outcome
  rw [bind_ok, bind_ok, h.1]
  unfold Net.params
  rw [this]

theorem TwinS.same {V : Nat → Nat → Prop} {S : σ → σ → Prop} {I : σ → Prop} {n m : Nat} {dL dL' : (Nat → α) → (Nat → α) → Nat → α} {cl : Bool} {x y : σ × Train α}
    (h : TwinS V S I n m dL dL' cl x y) : SameParams (.ok x) (.ok y) := by
  refine ⟨x.2.net.params, rfl, ?_⟩
  have := h.params
  unfold trained Net.params
  rw [bind_ok, this]; rfl

/-- `batch` on a data set in which every sample occurs `c` times as often: the same parameters and the same optimizer state. -/
theorem C103_batch (upd : Upd σ α) (size : Nat → Nat) (I : σ → Prop) (hu : UpdOk upd size I) (s : σ) (hI : I s) (t : Train α)
    (ps : List (Dense α)) (n m : Nat) (dL : (Nat → α) → (Nat → α) → Nat → α) (h : t.Is ps n m dL) (hz : t.net.Sized size)
    (idata odata idata' odata' : List (Ten α)) (vs : List ((Nat → α) × (Nat → α))) (hd : DataIs idata odata n m vs) (hne : vs ≠ [])
    (c : Nat) (hc : (c : α) ≠ 0) (hp : Copies c idata odata idata' odata') (epochs : Nat) :
    ∃ r, outcome (Train.batch upd idata odata epochs (s, t)) = .ok r ∧ outcome (Train.batch upd idata' odata' epochs (s, t)) = .ok r := by
  obtain ⟨l1, l2, hp⟩ := hp
  have hc1 : 1 ≤ c := by
    rcases Nat.eq_zero_or_pos c with rfl | h
    · simp at hc
    · exact h
  have hrep : List.Forall₂ (fun (q : Ten α × Ten α) vw => VecIs q.1.data n vw.1 ∧ VecIs q.2.data m vw.2)
      (List.replicate c (idata.zip odata)).flatten (List.replicate c vs).flatten := by
    clear hp hc hc1
    induction c with
    | zero => exact .nil
    | succ c ih =>
      rw [List.replicate_succ, List.replicate_succ, List.flatten_cons, List.flatten_cons]
      exact List.rel_append hd.zip ih
  obtain ⟨vs', h', p'⟩ := forall₂_perm hrep hp
  have hd' := DataIs.of_zip l2 h'
  have hlen : idata.length = vs.length := hd.1.length_eq
  have hv' : vs'.length = c * vs.length := by rw [← p'.length_eq]; simp
  have hlen' : idata'.length = c * vs.length := hd'.1.length_eq.trans hv'
  have hpos : 1 ≤ vs.length := List.length_pos_iff.2 hne
  have hpos' : 1 ≤ c * vs.length := Nat.mul_pos hc1 hpos
  obtain ⟨l, L, el, hl⟩ := h.loss
  have htt : { t with loss := some l } = t := by cases t; simp only [Train.mk.injEq]; simp at el; simp [el]
  have st := twinS_start (s := s) (s' := s) h hl hz rfl hI false (fun h => by simp at h)
  rw [htt] at st
  obtain ⟨x, y, e1, e2, q⟩ := TwinS.steps (scaleOpt_one hu) hd hd' (1 / (vs.length : α)) (1 / ((c * vs.length : Nat) : α))
    (List.replicate epochs ((0, vs.length), (0, c * vs.length)))
    (by
      intro w hw
      rw [List.mem_replicate] at hw
      rw [hw.2]; dsimp only
      refine ⟨by omega, by omega, by omega, by omega, fun qs => ?_⟩
      rw [List.drop_zero, List.drop_zero, List.take_length, ← hv', List.take_length, hv']
      exact gradSum_average dL qs hc p' _)
    st
  rw [batch_run upd idata odata _ _ (by omega), batch_run upd idata' odata' _ _ (by omega), hlen, hlen', batchTrace_steps, batchTrace_steps]
  have rep : ∀ (a : α) (k : Nat) (f : ((Nat × Nat) × Nat × Nat) → Nat × Nat), f ((0, vs.length), (0, c * vs.length)) = (0, k) →
      (List.replicate epochs ((0, vs.length), (0, c * vs.length))).flatMap (fun w => stepTrace a (f w).1 (f w).2) =
      (List.replicate epochs (0, k)).flatMap (fun w => stepTrace a w.1 w.2) := by
    intro a k f hf
    clear e1 e2
    induction epochs with
    | zero => rfl
    | succ e ih => rw [List.replicate_succ, List.replicate_succ, List.flatMap_cons, List.flatMap_cons, ih, hf]

  rw [rep _ vs.length (fun w => w.1) rfl] at e1
  rw [rep _ (c * vs.length) (fun w => w.2) rfl] at e2
  rw [e1, e2]
  exact ⟨_, rfl, q.outcome_eq.symm⟩

/-- `mini_batch` with `c` times larger batches, each holding the samples of the corresponding batch `c` times. -/
theorem C103_mini_batch (upd : Upd σ α) (size : Nat → Nat) (I : σ → Prop) (hu : UpdOk upd size I) (s : σ) (hI : I s) (t : Train α)
    (ps : List (Dense α)) (n m : Nat) (dL : (Nat → α) → (Nat → α) → Nat → α) (h : t.Is ps n m dL) (hz : t.net.Sized size)
    (idata odata idata' odata' : List (Ten α)) (vs vs' : List ((Nat → α) × (Nat → α))) (hd : DataIs idata odata n m vs)
    (hd' : DataIs idata' odata' n m vs') (c : Nat) (hc : (c : α) ≠ 0) (k : Nat) (hk : 1 ≤ k)
    (hq : idata.length / k = idata'.length / (c * k))
    (hp : ∀ b, b < idata.length / k → Copies c (block idata k b) (block odata k b) (block idata' (c * k) b) (block odata' (c * k) b)) (epochs : Nat) :
    ∃ r, outcome (Train.miniBatch upd idata odata epochs k (s, t)) = .ok r ∧
      outcome (Train.miniBatch upd idata' odata' epochs (c * k) (s, t)) = .ok r := by
  have hc1 : 1 ≤ c := by
    rcases Nat.eq_zero_or_pos c with rfl | h
    · simp at hc
    · exact h
  have hk' : 1 ≤ c * k := Nat.mul_pos hc1 hk
  have hq1 : (idata.zip odata).length = idata.length := by
    rw [List.length_zip, ← hd.1.length_eq.trans hd.2.length_eq.symm, Nat.min_self]
  have hq2 : (idata'.zip odata').length = idata'.length := by
    rw [List.length_zip, ← hd'.1.length_eq.trans hd'.2.length_eq.symm, Nat.min_self]
  obtain ⟨l, L, el, hl⟩ := h.loss
  have htt : { t with loss := some l } = t := by cases t; simp only [Train.mk.injEq]; simp at el; simp [el]
  have st := twinS_start (s := s) (s' := s) h hl hz rfl hI false (fun h => by simp at h)
  rw [htt] at st
  have fit : ∀ k N b : Nat, b < N / k → b * k + k ≤ N := by
    intro k N b hb
    have h1 : (b + 1) * k ≤ N / k * k := Nat.mul_le_mul_right k hb
    have h2 := Nat.div_mul_le_self N k
    rw [Nat.succ_mul] at h1
    exact h1.trans h2
  obtain ⟨x, y, e1, e2, q⟩ := TwinS.steps (scaleOpt_one hu) hd.vals hd'.vals (1 / (k : α)) (1 / ((c * k : Nat) : α))
    ((List.replicate epochs ((List.range (idata.length / k)).map (fun b => ((b * k, k), (b * (c * k), c * k))))).flatten)
    (by
      intro w hw
      obtain ⟨l, h1, h2⟩ := List.mem_flatten.1 hw
      rw [List.mem_replicate] at h1
      rw [h1.2] at h2
      obtain ⟨b, h3, rfl⟩ := List.mem_map.1 h2
      rw [List.mem_range] at h3
      dsimp only
      rw [List.length_map, List.length_map, hq1, hq2]
      refine ⟨fit _ _ _ h3, hk, fit _ _ _ (hq ▸ h3), hk', fun qs => gradSum_average dL qs hc ?_ k⟩
      show ((List.replicate c (block _ k b)).flatten).Perm (block _ (c * k) b)
      rw [block_map, block_map, block_zip, block_zip]
      have := (hp b h3).2.2.map sampleVals
      rwa [List.map_flatten, List.map_replicate] at this)
    st
  have rep : ∀ (a : α) (f : ((Nat × Nat) × Nat × Nat) → Nat × Nat) (g : Nat → Nat × Nat),
      (∀ b, f ((b * k, k), (b * (c * k), c * k)) = g b) →
      (((List.replicate epochs ((List.range (idata.length / k)).map (fun b => ((b * k, k), (b * (c * k), c * k))))).flatten).flatMap
        (fun w => stepTrace a (f w).1 (f w).2)) =
      ((List.replicate epochs ((List.range (idata.length / k)).map g)).flatten).flatMap (fun w => stepTrace a w.1 w.2) := by
    intro a f g hf
    clear e1 e2
    induction epochs with
    | zero => rfl
    | succ e ih =>
      rw [List.replicate_succ, List.replicate_succ, List.flatten_cons, List.flatten_cons, List.flatMap_append, List.flatMap_append, ih,
        List.flatMap_map, List.flatMap_map]
      simp only [hf]
  rw [rep _ (fun w => w.1) (fun b => (b * k, k)) (fun _ => rfl)] at e1
  rw [rep _ (fun w => w.2) (fun b => (b * (c * k), c * k)) (fun _ => rfl)] at e2
  rw [miniBatch_run upd idata odata _ _ _ (by omega), miniBatch_run upd idata' odata' _ _ _ (by omega), miniTrace_steps,
    miniTrace_steps, ← hq, e1, e2]
  exact ⟨_, rfl, q.outcome_eq.symm⟩

/-! ### A multiplied loss -/

/-- An optimizer for which a `c` times larger gradient is the same as a `c` times larger rate: every way of training with the loss
derivative multiplied by `c` is training with the rate multiplied by `c`. -/
theorem scaled_training (upd : Upd σ α) (c : α) (S : σ → σ → Prop) (size : Nat → Nat) (I : σ → Prop) (hS : ScaleOpt upd c S (fun k n => size k = n) I)
    (s₁ s₂ : σ) (hs : S s₁ s₂) (hI : I s₁) (t : Train α) (ps : List (Dense α)) (n m : Nat) (dL : (Nat → α) → (Nat → α) → Nat → α)
    (h : t.Is ps n m dL) (hz : t.net.Sized size) (l : Loss α) (L : (Nat → α) → (Nat → α) → α) (hl : l.Is m L (fun t y i => c * dL t y i))
    (idata odata : List (Ten α)) (vs : List ((Nat → α) × (Nat → α))) (hd : DataIs idata odata n m vs) (hne : vs ≠ []) :
    TrainAlike upd idata odata (s₁, t) (s₂, { t with loss := some l }) := by
  have hlen : idata.length = vs.length := hd.1.length_eq
  have hpos : 1 ≤ vs.length := List.length_pos_iff.2 hne
  have run : ∀ (a : α) (ws : List (Nat × Nat)), (∀ w ∈ ws, w.1 + w.2 ≤ vs.length ∧ 1 ≤ w.2) →
      SameParams (TEv.run upd idata odata (s₁, t) (ws.flatMap (fun w => stepTrace a w.1 w.2)))
        (TEv.run upd idata odata (s₂, { t with loss := some l }) (ws.flatMap (fun w => stepTrace a w.1 w.2))) := by
    intro a ws hw
    obtain ⟨x, y, e1, e2, q⟩ := TwinS.steps hS hd hd a a (ws.map (fun w => (w, w)))
      (by
        intro w hw'
        obtain ⟨v, h1, rfl⟩ := List.mem_map.1 hw'
        obtain ⟨h2, h3⟩ := hw v h1
        exact ⟨h2, h3, h2, h3, fun qs => gradSum_scale c dL qs _ a⟩)
      (twinS_start (S := S) (s := s₁) (s' := s₂) h hl hz hs hI false (fun h => by simp at h))
    rw [List.flatMap_map] at e1 e2
    dsimp only at e1 e2
    rw [e1, e2]
    exact q.same
  refine ⟨fun epochs => ?_, fun k epochs hk => ?_, fun hcl γ ρ gen g0 r0 iterations => ?_⟩
  · rw [batch_run upd idata odata _ _ (by omega), batch_run upd idata odata _ _ (by omega), batchTrace_steps]
    refine run _ _ (fun w hw => ?_)
    rw [List.mem_replicate] at hw
    rw [hw.2]; dsimp only; omega
  · rw [miniBatch_run upd idata odata _ _ _ (by omega), miniBatch_run upd idata odata _ _ _ (by omega), miniTrace_steps]
    refine run _ _ (fun w hw => ?_)
    obtain ⟨l, h1, h2⟩ := List.mem_flatten.1 hw
    rw [List.mem_replicate] at h1
    rw [h1.2] at h2
    obtain ⟨b, h3, rfl⟩ := List.mem_map.1 h2
    rw [List.mem_range] at h3
    have h4 : (b + 1) * k ≤ idata.length / k * k := Nat.mul_le_mul_right k h3
    have h5 := Nat.div_mul_le_self idata.length k
    rw [Nat.succ_mul] at h4
    dsimp only; omega
  · obtain ⟨x, y, e1, e2, q⟩ := TwinS.stos hS hd (fun qs vw => sampleGrads_scale c dL qs vw) ((draws gen iterations g0 r0).map (· % idata.length))
      (by
        intro i hi
        obtain ⟨a, _, rfl⟩ := List.mem_map.1 hi
        rw [← hlen]; exact Nat.mod_lt _ (by omega))
      (twinS_start (S := S) (s := s₁) (s' := s₂) h hl hz hs hI true (fun _ => hcl))
    rw [stochastic_run _ _ _ _ (by omega), stochastic_run _ _ _ _ (by omega), e1, e2]
    exact q.same

theorem scale_gd (c : α) (size : Nat → Nat) : ScaleOpt (gdUpdate (α := α)) c (fun a b => a = c * b) (fun k n => size k = n) (fun _ => True) := by
  intro s₁ s₂ k n p g₁ g₂ f hs _ hV ⟨fp, hp⟩ h1 h2
  obtain ⟨⟨q1, q2, q3⟩, e1, w1, w2, w3⟩ := gd_spec (lr := s₁) (k := k) hp h1
  obtain ⟨⟨r1, r2, r3⟩, e2, v1, v2, v3⟩ := gd_spec (lr := s₂) (k := k) hp h2
  have : r2 = q2 := BufIs.ext (v2.congr (fun i _ => by rw [hs]; ring)) w2
  subst this
  exact ⟨q1, r1, r2, q3, r3, e1, e2, w1.trans (hs.trans (by rw [show r1 = s₂ from v1])), trivial, w2.full, w3.full, v3.full⟩

theorem scale_sgd (c : α) (size : Nat → Nat) : ScaleOpt (sgdUpdate (α := α)) c (fun a b => a = { b with lr := c * b.lr }) (fun k n => size k = n) (fun _ => True) := by
  intro s₁ s₂ k n p g₁ g₂ f hs _ hV ⟨fp, hp⟩ h1 h2
  obtain ⟨⟨q1, q2, q3⟩, e1, w1, w2, w3⟩ := sgd_spec (s := s₁) (k := k) hp h1
  obtain ⟨⟨r1, r2, r3⟩, e2, v1, v2, v3⟩ := sgd_spec (s := s₂) (k := k) hp h2
  have : r2 = q2 := BufIs.ext (v2.congr (fun i _ => by rw [hs]; ring)) w2
  subst this
  exact ⟨q1, r1, r2, q3, r3, e1, e2, w1.trans (hs.trans (by rw [show r1 = s₂ from v1])), trivial, w2.full, w3.full, v3.full⟩

theorem scaleTo_swap {n : Nat} {b g₁ g₂ : Buf α} {f : Nat → α} {c r : α} (hb : b.length = n) (h1 : VecIs g₁ n f) (h2 : VecIs g₂ n (fun i => c * f i)) :
    scaleTo b r g₂ = scaleTo b (c * r) g₁ := by
  obtain ⟨x, e1, q1⟩ := scaleTo_spec hb h1 (Nat.le_refl _) (c * r)
  obtain ⟨y, e2, q2⟩ := scaleTo_spec hb h2 (Nat.le_refl _) r
  rw [e1, e2, BufIs.ext (q2.congr (fun i _ => by ring)) q1]

theorem scale_mom (c : α) (size : Nat → Nat) : ScaleOpt (momUpdate (α := α)) c (fun a b => a = { b with lr := c * b.lr }) (fun k n => size k = n) (MomOk size) := by
  intro s₁ s₂ k n p g₁ g₂ f hs hI hV hp h1 h2
  subst hV hs
  obtain ⟨⟨q1, q2, q3⟩, e1, w1, w2, w3⟩ := mom_UpdOk size _ k p g₁ hI hp h1.full
  refine ⟨q1, { q1 with lr := s₂.lr }, q2, q3, g₂, e1, ?_, ?_, w1, w2, w3, h2.full⟩
  all_goals
    obtain ⟨fp, hp⟩ := hp
    have hb := hI.1 k
    dsimp only at hb
    unfold momUpdate at e1
    dsimp only at e1
    simp only [hp.length] at e1
    rw [← scaleTo_swap hb h1 h2] at e1
    obtain ⟨a1, d1, e1⟩ := res_bind_inv e1
    obtain ⟨a2, d2, e1⟩ := res_bind_inv e1
    obtain ⟨a3, d3, e1⟩ := res_bind_inv e1
    obtain ⟨a4, d4, e1⟩ := res_bind_inv e1
    cases e1
  · unfold momUpdate
    simp only [hp.length]
    rw [d1, bind_ok, d2, bind_ok, d3, bind_ok, d4, bind_ok]; rfl
  · rfl

theorem scale_nes (c : α) (size : Nat → Nat) : ScaleOpt (nesUpdate (α := α)) c (fun a b => a = { b with lr := c * b.lr }) (fun k n => size k = n) (MomOk size) := by
  intro s₁ s₂ k n p g₁ g₂ f hs hI hV hp h1 h2
  subst hV hs
  obtain ⟨⟨q1, q2, q3⟩, e1, w1, w2, w3⟩ := nes_UpdOk size _ k p g₁ hI hp h1.full
  refine ⟨q1, { q1 with lr := s₂.lr }, q2, q3, g₂, e1, ?_, ?_, w1, w2, w3, h2.full⟩
  all_goals
    obtain ⟨fp, hp⟩ := hp
    have hb := hI.1 k
    dsimp only at hb
    unfold nesUpdate at e1
    dsimp only at e1
    simp only [hp.length] at e1
    rw [← scaleTo_swap hb h1 h2] at e1
    obtain ⟨a1, d1, e1⟩ := res_bind_inv e1
    obtain ⟨a2, d2, e1⟩ := res_bind_inv e1
    obtain ⟨a3, d3, e1⟩ := res_bind_inv e1
    obtain ⟨a4, d4, e1⟩ := res_bind_inv e1
    obtain ⟨a5, d5, e1⟩ := res_bind_inv e1
    obtain ⟨a6, d6, e1⟩ := res_bind_inv e1
    cases e1
  · unfold nesUpdate
    simp only [hp.length]
    rw [d1, bind_ok, d2, bind_ok, d3, bind_ok, d4, bind_ok, d5, bind_ok, d6, bind_ok]; rfl
  · rfl

/-- A loss with `c` times the derivative is a `c` times larger rate: gradient descent. -/
theorem C103_loss_gd (c lr : α) (t : Train α) (ps : List (Dense α)) (n m : Nat) (dL : (Nat → α) → (Nat → α) → Nat → α)
    (h : t.Is ps n m dL) (size : Nat → Nat) (hz : t.net.Sized size) (l : Loss α) (L : (Nat → α) → (Nat → α) → α) (hl : l.Is m L (fun t y i => c * dL t y i))
    (idata odata : List (Ten α)) (vs : List ((Nat → α) × (Nat → α))) (hd : DataIs idata odata n m vs) (hne : vs ≠ []) :
    TrainAlike gdUpdate idata odata (c * lr, t) (lr, { t with loss := some l }) :=
  scaled_training _ c _ size _ (scale_gd c size) _ _ rfl trivial t ps n m dL h hz l L hl idata odata vs hd hne

/-- The same with weight decay; the decay of the second has to be larger by `c`. -/
theorem C103_loss_sgd (c lr decay : α) (t : Train α) (ps : List (Dense α)) (n m : Nat) (dL : (Nat → α) → (Nat → α) → Nat → α)
    (h : t.Is ps n m dL) (size : Nat → Nat) (hz : t.net.Sized size) (l : Loss α) (L : (Nat → α) → (Nat → α) → α) (hl : l.Is m L (fun t y i => c * dL t y i))
    (idata odata : List (Ten α)) (vs : List ((Nat → α) × (Nat → α))) (hd : DataIs idata odata n m vs) (hne : vs ≠ []) :
    TrainAlike sgdUpdate idata odata (Sgd.make (c * lr) decay, t) (Sgd.make lr (c * decay), { t with loss := some l }) := by
  refine scaled_training _ c _ size _ (scale_sgd c size) _ _ ?_ trivial t ps n m dL h hz l L hl idata odata vs hd hne
  show (⟨c * lr, 1 - c * lr * decay⟩ : Sgd α) = ⟨c * lr, 1 - lr * (c * decay)⟩
  congr 2
  ring

theorem MomOk_make (size : Nat → Nat) (lr mu : α) : MomOk size (Mom.make lr mu) :=
  ⟨fun k => by simp [Mom.make, Table.get, filled], TabOk.empty size⟩

/-- The same with momentum. -/
theorem C103_loss_momentum (c lr mu : α) (t : Train α) (ps : List (Dense α)) (n m : Nat) (dL : (Nat → α) → (Nat → α) → Nat → α)
    (h : t.Is ps n m dL) (size : Nat → Nat) (hz : t.net.Sized size) (l : Loss α) (L : (Nat → α) → (Nat → α) → α) (hl : l.Is m L (fun t y i => c * dL t y i))
    (idata odata : List (Ten α)) (vs : List ((Nat → α) × (Nat → α))) (hd : DataIs idata odata n m vs) (hne : vs ≠ []) :
    TrainAlike momUpdate idata odata (Mom.make (c * lr) mu, t) (Mom.make lr mu, { t with loss := some l }) :=
  scaled_training _ c _ size _ (scale_mom c size) (Mom.make (c * lr) mu) (Mom.make lr mu) rfl (MomOk_make ..) t ps n m dL h hz l L hl idata odata vs hd hne

/-- The same with Nestorov momentum. -/
theorem C103_loss_nestorov (c lr mu : α) (t : Train α) (ps : List (Dense α)) (n m : Nat) (dL : (Nat → α) → (Nat → α) → Nat → α)
    (h : t.Is ps n m dL) (size : Nat → Nat) (hz : t.net.Sized size) (l : Loss α) (L : (Nat → α) → (Nat → α) → α) (hl : l.Is m L (fun t y i => c * dL t y i))
    (idata odata : List (Ten α)) (vs : List ((Nat → α) × (Nat → α))) (hd : DataIs idata odata n m vs) (hne : vs ≠ []) :
    TrainAlike nesUpdate idata odata (Mom.make (c * lr) mu, t) (Mom.make lr mu, { t with loss := some l }) :=
  scaled_training _ c _ size _ (scale_nes c size) (Mom.make (c * lr) mu) (Mom.make lr mu) rfl (MomOk_make ..) t ps n m dL h hz l L hl idata odata vs hd hne

end

/-! ### Regressions, accuracies and the mean loss -/

section

theorem RepeatsEach.sum {M : Type} [Semiring M] {c h h' : Nat} {e : Nat → Nat} (he : RepeatsEach c h h' e) (f : Nat → M) :
    ∑ i ∈ range h', f (e i) = c * ∑ j ∈ range h, f j := by
  rw [mul_sum, ← Finset.sum_fiberwise_of_maps_to (s := range h') (t := range h) (g := e) (fun i hi => mem_range.2 (he.1 i (mem_range.1 hi)))]
  refine Finset.sum_congr rfl (fun j hj => ?_)
  rw [Finset.sum_congr rfl (g := fun _ => f j) (fun i hi => by rw [(mem_filter.1 hi).2]), Finset.sum_const,
    he.2 j (mem_range.1 hj), nsmul_eq_mul]

theorem RepeatsEach.size {c h h' : Nat} {e : Nat → Nat} (he : RepeatsEach c h h' e) : h' = c * h := by
  have := he.sum (fun _ => 1)
  simpa using this

theorem RepeatsEach.image {c h h' : Nat} {e : Nat → Nat} (he : RepeatsEach c h h' e) (hc : 0 < c) {j : Nat} (hj : j < h) :
    ∃ i, i < h' ∧ e i = j := by
  have := he.2 j hj
  obtain ⟨i, hi⟩ := Finset.card_pos.1 (by omega : 0 < ((range h').filter (fun i => e i = j)).card)
  exact ⟨i, mem_range.1 (mem_filter.1 hi).1, (mem_filter.1 hi).2⟩

variable {K : Type} [Field K] [LinearOrder K] [IsStrictOrderedRing K]

theorem BestFit.repeats {k c h h' : Nat} {e : Nat → Nat} (he : RepeatsEach c h h' e) (hc : 0 < c) {y : Nat → K} {pred : (Nat → K) → Nat → K} {w w' : Nat → K}
    (h1 : BestFit k h y pred w) (h2 : BestFit k h' (fun i => y (e i)) (fun u i => pred u (e i)) w') : ∀ j, j < k + 1 → w' j = w j := by
  refine h1.2 w' ?_
  have := h2.1 w
  unfold rss at this ⊢
  rw [he.sum (fun i => (y i - pred w' i) ^ 2), he.sum (fun i => (y i - pred w i) ^ 2)] at this
  exact le_of_mul_le_mul_left this (by exact_mod_cast hc)

/-- Training a linear regression on a data set with every sample repeated `c` times: the same weights, or the same failure. -/
theorem C103_linear (r : Reg K) (h h' k c : Nat) (x : Nat → Nat → K) (y : Nat → K) (e : Nat → Nat) (he : RepeatsEach c h h' e) (hc : 0 < c)
    (idata idata' : Mat K) (odata odata' : Buf K) (hr : r.Sized k) (hx : MatIs idata h k x) (hy : VecIs odata h y)
    (hx' : MatIs idata' h' k (fun i j => x (e i) j)) (hy' : VecIs odata' h' (fun i => y (e i))) :
    r.linTrain idata' odata' = r.linTrain idata odata := by
  have hid : LinIdent h' k (fun i j => x (e i) j) ↔ LinIdent h k x := by
    constructor
    · intro hh u hu
      exact hh u (fun i hi => hu _ (he.1 i hi))
    · intro hh u hu
      exact hh u (fun i hi => by obtain ⟨j, h1, rfl⟩ := he.image hc hi; exact hu j h1)
  by_cases hcc : LinIdent h k x
  · obtain ⟨r1, e1, w1, q1, b1, _⟩ := C56_linear r h k x y idata odata hr hx hy hcc
    obtain ⟨r2, e2, w2, q2, b2, _⟩ := C56_linear r h' k _ _ idata' odata' hr hx' hy' (hid.2 hcc)
    rw [e1, e2, q1.unique q2 (BestFit.repeats he hc b1 b2)]
  · rw [C56_not_identified_linear r h k x idata odata hr hx hcc,
      C56_not_identified_linear r h' k _ idata' odata' hr hx' (fun q => hcc (hid.1 q))]

/-- The same for a polynomial regression. -/
theorem C103_poly (r : Reg K) (h h' k c : Nat) (x y : Nat → K) (e : Nat → Nat) (he : RepeatsEach c h h' e) (hc : 0 < c)
    (idata idata' odata odata' : Buf K) (hr : r.Sized k) (hx : VecIs idata h x) (hy : VecIs odata h y)
    (hx' : VecIs idata' h' (fun i => x (e i))) (hy' : VecIs odata' h' (fun i => y (e i))) :
    r.polyTrain idata' odata' = r.polyTrain idata odata := by
  have hid : PolyIdent h' k (fun i => x (e i)) ↔ PolyIdent h k x := by
    constructor
    · intro hh u hu
      exact hh u (fun i hi => hu _ (he.1 i hi))
    · intro hh u hu
      exact hh u (fun i hi => by obtain ⟨j, h1, rfl⟩ := he.image hc hi; exact hu j h1)
  by_cases hcc : PolyIdent h k x
  · obtain ⟨r1, e1, w1, q1, b1, _⟩ := C56_poly r h k x y idata odata hr hx hy hcc
    obtain ⟨r2, e2, w2, q2, b2, _⟩ := C56_poly r h' k _ _ idata' odata' hr hx' hy' (hid.2 hcc)
    rw [e1, e2, q1.unique q2 (BestFit.repeats he hc b1 b2)]
  · rw [C56_not_identified_poly r h k x idata odata hr hx hcc,
      C56_not_identified_poly r h' k _ idata' odata' hr hx' (fun q => hcc (hid.1 q))]

theorem fractionOf_repeats {c N N' : Nat} {e : Nat → Nat} (he : RepeatsEach c N N' e) (hc : 0 < c) (P : Nat → Prop) :
    fractionOf N' (fun i => P (e i)) = fractionOf N P := by
  classical
  have : (((range N').filter (fun i => P (e i))).card : ℚ) = c * (((range N).filter P).card : ℚ) := by
    rw [card_filter, card_filter, Nat.cast_sum, Nat.cast_sum, ← he.sum (fun i => (((if P i then 1 else 0) : ℕ) : ℚ))]
  have hN : (N' : ℚ) = c * N := by exact_mod_cast he.size
  have hc' : (c : ℚ) ≠ 0 := by exact_mod_cast hc.ne'
  have h1 : fractionOf N' (fun i => P (e i)) = (((range N').filter (fun i => P (e i))).card : ℚ) / (N' : ℚ) := by unfold fractionOf; congr!
  have h2 : fractionOf N P = (((range N).filter P).card : ℚ) / (N : ℚ) := by unfold fractionOf; congr!
  rw [h1, h2, this, hN, mul_div_mul_left _ _ hc']

theorem fractionOf2_repeats {c N N' m : Nat} {e : Nat → Nat} (he : RepeatsEach c N N' e) (hc : 0 < c) (P : Nat → Nat → Prop) :
    fractionOf2 N' m (fun i j => P (e i) j) = fractionOf2 N m P := by
  classical
  have : (((range N' ×ˢ range m).filter (fun ij => P (e ij.1) ij.2)).card : ℚ) = c * (((range N ×ˢ range m).filter (fun ij => P ij.1 ij.2)).card : ℚ) := by
    rw [card_filter, card_filter, sum_product, sum_product, Nat.cast_sum, Nat.cast_sum,
      ← he.sum (fun i => ((∑ j ∈ range m, if P i j then 1 else 0 : ℕ) : ℚ))]
  have hN : ((N' * m : Nat) : ℚ) = c * ((N * m : Nat) : ℚ) := by rw [he.size]; push_cast; ring
  have hc' : (c : ℚ) ≠ 0 := by exact_mod_cast hc.ne'
  have h1 : fractionOf2 N' m (fun i j => P (e i) j) = (((range N' ×ˢ range m).filter (fun ij => P (e ij.1) ij.2)).card : ℚ) / ((N' * m : Nat) : ℚ) := by
    unfold fractionOf2; congr!
  have h2 : fractionOf2 N m P = (((range N ×ˢ range m).filter (fun ij => P ij.1 ij.2)).card : ℚ) / ((N * m : Nat) : ℚ) := by unfold fractionOf2; congr!
  rw [h1, h2, this, hN, mul_div_mul_left _ _ hc']

/-- The three accuracies and the mean loss on a data set with every sample repeated `c` times. -/
theorem C103_scores {ι ν : Type} (ff : ι → ν → Res (ν × Buf K)) (Inv : ν → Prop) (D : ι → Prop) (m N N' c : Nat) (F : ι → Nat → K)
    (hff : Predicts ff Inv D m F) (x : Nat → ι) (y : Nat → Nat → K) (e : Nat → Nat) (he : RepeatsEach c N N' e) (hc : 0 < c) (idata idata' : List ι)
    (odata odata' : List (Buf K)) (hd : SetIs idata odata D N m x y) (hd' : SetIs idata' odata' D N' m (fun i => x (e i)) (fun i => y (e i)))
    (net : ν) (hnet : Inv net) (hN : 0 < N) (hm : 0 < m) (hw : N' * m < W64) (r : K) (loss : Buf K → Buf K → Res K)
    (L : (Nat → K) → (Nat → K) → K) (hL : ∀ t p a b, VecIs t m a → VecIs p m b → loss t p = .ok (L a b)) :
    ∃ a b d f, (do let q ← Accuracy.normal ff idata odata net; return q.1) = .ok a ∧ (do let q ← Accuracy.normal ff idata' odata' net; return q.1) = .ok a ∧
      (do let q ← Accuracy.full ff r idata odata net; return q.1) = .ok b ∧ (do let q ← Accuracy.full ff r idata' odata' net; return q.1) = .ok b ∧
      (do let q ← Accuracy.global ff r idata odata net; return q.1) = .ok d ∧
      (do let q ← Accuracy.global ff r idata' odata' net; return q.1) = .ok d ∧
      (do let q ← Checker.loss ff loss idata odata net; return q.1) = .ok f ∧ (do let q ← Checker.loss ff loss idata' odata' net; return q.1) = .ok f := by
  have hsz := he.size
  have hN' : 0 < N' := by rw [hsz]; exact Nat.mul_pos hc hN
  have hw1 : N * m < W64 := Nat.lt_of_le_of_lt (by rw [hsz, Nat.mul_assoc]; exact Nat.le_mul_of_pos_left _ hc) hw
  obtain ⟨q1, e1, v1, _⟩ := C57_normal hff hd hnet hN hm
  obtain ⟨q2, e2, v2, _⟩ := C57_normal hff hd' hnet hN' hm
  obtain ⟨q3, e3, v3, _⟩ := C57_full hff hd hnet hN r
  obtain ⟨q4, e4, v4, _⟩ := C57_full hff hd' hnet hN' r
  obtain ⟨q5, e5, v5, _⟩ := C57_global hff hd hnet hN hm hw1 r
  obtain ⟨q6, e6, v6, _⟩ := C57_global hff hd' hnet hN' hm hw r
  obtain ⟨q7, e7, v7, _⟩ := C69_checker hff hd hnet hN hL
  obtain ⟨q8, e8, v8, _⟩ := C69_checker hff hd' hnet hN' hL
  rw [fractionOf_repeats he hc (fun i => SameArgmax m (y i) (F (x i)))] at v2
  rw [fractionOf_repeats he hc (fun i => AllWithin m r (y i) (F (x i)))] at v4
  rw [fractionOf2_repeats he hc (fun i j => |y i j - F (x i) j| < r)] at v6
  have v9 : q8.1 = q7.1 := by
    rw [v7, v8, foldSum_zero_eq, foldSum_zero_eq, he.sum (fun i => L (y i) (F (x i))), hsz, Nat.cast_mul]
    have hc' : (c : K) ≠ 0 := by exact_mod_cast hc.ne'
    rw [mul_div_mul_left _ _ hc']
  refine ⟨q1.1, q3.1, q5.1, q7.1, ?_, ?_, ?_, ?_, ?_, ?_, ?_, ?_⟩
  · rw [e1]; rfl
  · rw [e2, bind_ok, v1, ← v2]; rfl
  · rw [e3]; rfl
  · rw [e4, bind_ok, v3, ← v4]; rfl
  · rw [e5]; rfl
  · rw [e6, bind_ok, v5, ← v6]; rfl
  · rw [e7]; rfl
  · rw [e8, bind_ok, v9]; rfl

end

/-! ### Examples -/

/-- Two samples, and the same with both doubled, Momentum, two epochs: same outcome (and `C82` shows that something is learned). -/
example : trained (Train.batch momUpdate [⟨1, 1, 1, [some 1]⟩, ⟨1, 1, 1, [some 3]⟩] [⟨1, 1, 1, [some 2]⟩, ⟨1, 1, 1, [some 1]⟩] 2 (Mom.make (1/8 : ℚ) (1/2), ckTrain 10 11 12 13)) =
      trained (Train.batch momUpdate [⟨1, 1, 1, [some 3]⟩, ⟨1, 1, 1, [some 1]⟩, ⟨1, 1, 1, [some 1]⟩, ⟨1, 1, 1, [some 3]⟩]
        [⟨1, 1, 1, [some 1]⟩, ⟨1, 1, 1, [some 2]⟩, ⟨1, 1, 1, [some 2]⟩, ⟨1, 1, 1, [some 1]⟩] 2 (Mom.make (1/8 : ℚ) (1/2), ckTrain 10 11 12 13)) := by
  decide +kernel

/-- Doubling only one of the samples is different. -/
example : trained (Train.batch momUpdate [⟨1, 1, 1, [some 1]⟩, ⟨1, 1, 1, [some 3]⟩] [⟨1, 1, 1, [some 2]⟩, ⟨1, 1, 1, [some 1]⟩] 1 (Mom.make (1/8 : ℚ) (1/2), ckTrain 10 11 12 13)) ≠
      trained (Train.batch momUpdate [⟨1, 1, 1, [some 1]⟩, ⟨1, 1, 1, [some 1]⟩, ⟨1, 1, 1, [some 3]⟩]
        [⟨1, 1, 1, [some 2]⟩, ⟨1, 1, 1, [some 2]⟩, ⟨1, 1, 1, [some 1]⟩] 1 (Mom.make (1/8 : ℚ) (1/2), ckTrain 10 11 12 13)) := by
  decide +kernel

/-- The hypothesis on the data of `C103_batch` is met by these. -/
example : Copies (α := ℚ) 2 [⟨1, 1, 1, [some 1]⟩, ⟨1, 1, 1, [some 3]⟩] [⟨1, 1, 1, [some 2]⟩, ⟨1, 1, 1, [some 1]⟩]
    [⟨1, 1, 1, [some 1]⟩, ⟨1, 1, 1, [some 1]⟩, ⟨1, 1, 1, [some 3]⟩, ⟨1, 1, 1, [some 3]⟩] [⟨1, 1, 1, [some 2]⟩, ⟨1, 1, 1, [some 2]⟩, ⟨1, 1, 1, [some 1]⟩, ⟨1, 1, 1, [some 1]⟩] :=
  ⟨rfl, rfl, (List.Perm.swap _ _ _).cons _⟩

/-- Twice the loss, half the rate. -/
example : trained (Train.batch nesUpdate [⟨1, 1, 1, [some 1]⟩, ⟨1, 1, 1, [some 3]⟩] [⟨1, 1, 1, [some 2]⟩, ⟨1, 1, 1, [some 1]⟩] 2 (Mom.make (2 * (1/8) : ℚ) (1/2), ckTrain 10 11 12 13)) =
      trained (Train.batch nesUpdate [⟨1, 1, 1, [some 1]⟩, ⟨1, 1, 1, [some 3]⟩] [⟨1, 1, 1, [some 2]⟩, ⟨1, 1, 1, [some 1]⟩] 2
        (Mom.make (1/8 : ℚ) (1/2), { ckTrain 10 11 12 13 with loss := (ckTrain 10 11 12 13).loss.map (fun l =>
          { l with df := fun r t y => do let r ← l.df r t y; scaleInto r 2 }) })) := by
  decide +kernel

example : RepeatsEach 2 3 6 (fun i => i % 3) := by
  refine ⟨fun i _ => Nat.mod_lt _ (by omega), fun j hj => ?_⟩
  interval_cases j <;> decide

end Trixy
