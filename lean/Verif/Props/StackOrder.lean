import Verif.Proof.StackTwin
import Verif.Props.Order
import Verif.Props.StackTrain
import Verif.Props.Place
/- C82 for stacks of convolution and dense layers. -/
namespace Trixy
set_option linter.unusedSectionVars false

variable {α σ : Type}

theorem zipFun_right_comm [AddCommSemigroup α] : ∀ (a x y : List (PRef → α)),
    List.zipWith (fun a g r => a r + g r) (List.zipWith (fun a g r => a r + g r) a x) y =
      List.zipWith (fun a g r => a r + g r) (List.zipWith (fun a g r => a r + g r) a y) x
  | [], _, _ => by simp
  | a :: as, [], y => by cases y <;> simp
  | a :: as, x :: xs, [] => by simp
  | a :: as, x :: xs, y :: ys => by
    simp only [List.zipWith_cons_cons, zipFun_right_comm as xs ys]
    congr 1
    funext r
    exact add_right_comm _ _ _

theorem stackSum_perm [CommRing α] (dL : (Nat → α) → (Nat → α) → Nat → α) (ss : List (Stage α))
    {vs vs' : List ((Nat → α) × (Nat → α))} (h : vs.Perm vs') : stackSum dL ss vs = stackSum dL ss vs' := by
  unfold stackSum
  exact h.foldl_eq' (fun x _ y _ z => zipFun_right_comm z _ _) _

theorem StackData.zip {ss : List (Stage α)} {b : Nat × Nat × Nat} {idata odata : List (Ten α)} {vs : List ((Nat → α) × (Nat → α))}
    (h : StackData ss b idata odata vs) :
    List.Forall₂ (fun (q : Ten α × Ten α) vw => StackInput ss q.1 vw.1 ∧ VecIs q.2.data (cells b) vw.2) (idata.zip odata) vs := by
  obtain ⟨h1, h2⟩ := h
  induction h1 generalizing odata with
  | nil => simp
  | cons a _ ih =>
    cases h2 with
    | cons b h2 => exact .cons ⟨a, b⟩ (ih h2)

theorem StackData.of_zip {ss : List (Stage α)} {b : Nat × Nat × Nat} : ∀ {idata odata : List (Ten α)} {vs : List ((Nat → α) × (Nat → α))},
    idata.length = odata.length →
    List.Forall₂ (fun (q : Ten α × Ten α) vw => StackInput ss q.1 vw.1 ∧ VecIs q.2.data (cells b) vw.2) (idata.zip odata) vs →
    StackData ss b idata odata vs
  | [], [], vs, _, h => by cases h; exact ⟨.nil, .nil⟩
  | [], _ :: _, _, e, _ => by simp at e
  | _ :: _, [], _, e, _ => by simp at e
  | x :: xs, y :: ys, vs, e, h => by
    rw [List.zip_cons_cons] at h
    cases h with
    | cons a h =>
      obtain ⟨h1, h2⟩ := StackData.of_zip (by simpa using e) h
      exact ⟨.cons a.1 h1, .cons a.2 h2⟩

theorem StackInput.vals [Zero α] {ss : List (Stage α)} {x : Ten α} {v : Nat → α} (h : StackInput ss x v) :
    StackInput ss x (fun i => (x.data[i]?.join).getD 0) := by
  intro s hs
  obtain ⟨h1, h2⟩ := h s hs
  refine ⟨fun p e => (h1 p e).vals, fun p e => ?_⟩
  obtain ⟨q1, q2, q3, q4⟩ := h2 p e
  exact ⟨q1, q2, q3, VecIs.vals q4⟩

theorem StackData.vals [Zero α] {ss : List (Stage α)} {b : Nat × Nat × Nat} {idata odata : List (Ten α)} {vs : List ((Nat → α) × (Nat → α))}
    (h : StackData ss b idata odata vs) : StackData ss b idata odata ((idata.zip odata).map sampleVals) := by
  refine StackData.of_zip (h.1.length_eq.trans h.2.length_eq.symm) ?_
  rw [List.forall₂_map_right_iff]
  have hz := h.zip
  clear h
  generalize idata.zip odata = l at hz ⊢
  induction hz with
  | nil => exact .nil
  | cons a _ ih => exact .cons ⟨a.1.vals, a.2.vals⟩ ih

section
variable [Field α] [LT α] [DecidableLT α] [DecidableEq α]

/-- `batch` on a stack of convolution and dense layers: the order of the samples does not matter in exact arithmetic, for any optimizer — although
convolutions carry gradients over from step to step. -/
theorem C82_stack_batch (upd : Upd σ α) (size : Nat → Nat) (I : σ → Prop) (hu : UpdOk upd size I) (s : σ) (hI : I s) (t : Train α)
    (sts : List (SSt α)) (a b : Nat × Nat × Nat) (dL : (Nat → α) → (Nat → α) → Nat → α) (h : t.Holds sts a b dL)
    (hz : ∀ l ∈ t.net, l.SizedBy size) (idata odata idata' odata' : List (Ten α)) (vs : List ((Nat → α) × (Nat → α)))
    (hd : StackData (sts.map (·.s)) b idata odata vs) (hne : vs ≠ []) (hp : SameSamples idata odata idata' odata') (epochs : Nat) :
    ∃ r, outcome (Train.batch upd idata odata epochs (s, t)) = .ok r ∧ outcome (Train.batch upd idata' odata' epochs (s, t)) = .ok r := by
  obtain ⟨l1, l2, hp⟩ := hp
  obtain ⟨vs', h', p'⟩ := forall₂_perm hd.zip hp
  have hd' := StackData.of_zip l2 h'
  have hlen : idata.length = vs.length := hd.1.length_eq
  have hlen' : idata'.length = vs.length := hd'.1.length_eq.trans p'.length_eq.symm
  have hpos : 1 ≤ vs.length := List.length_pos_iff.2 hne
  obtain ⟨x, y, e1, e2, q⟩ := StackTwin.steps hu hd hd' (1 / (vs.length : α)) (List.replicate epochs (0, vs.length))
    (by
      intro w hw
      rw [List.mem_replicate] at hw
      rw [hw.2]; dsimp only
      have := p'.length_eq
      refine ⟨by omega, by omega, by omega, fun qs => ?_⟩
      rw [List.drop_zero, List.drop_zero, List.take_length, this, List.take_length]
      exact stackSum_perm dL qs p')
    (StackTwin.refl hI h hz rfl)
  rw [batch_run upd idata odata _ _ (by omega), batch_run upd idata' odata' _ _ (by omega), hlen, hlen', batchTrace_steps, e1, e2]
  exact ⟨_, rfl, q.outcome.symm⟩

/-- `mini_batch` on such a stack: neither does the order of the samples inside a batch. -/
theorem C82_stack_mini_batch (upd : Upd σ α) (size : Nat → Nat) (I : σ → Prop) (hu : UpdOk upd size I) (s : σ) (hI : I s) (t : Train α)
    (sts : List (SSt α)) (a b : Nat × Nat × Nat) (dL : (Nat → α) → (Nat → α) → Nat → α) (h : t.Holds sts a b dL)
    (hz : ∀ l ∈ t.net, l.SizedBy size) (idata odata idata' odata' : List (Ten α)) (vs vs' : List ((Nat → α) × (Nat → α)))
    (hd : StackData (sts.map (·.s)) b idata odata vs) (hd' : StackData (sts.map (·.s)) b idata' odata' vs')
    (k : Nat) (hk : 1 ≤ k) (hq : idata.length / k = idata'.length / k)
    (hp : ∀ b, b < idata.length / k → SameSamples (block idata k b) (block odata k b) (block idata' k b) (block odata' k b)) (epochs : Nat) :
    ∃ r, outcome (Train.miniBatch upd idata odata epochs k (s, t)) = .ok r ∧
      outcome (Train.miniBatch upd idata' odata' epochs k (s, t)) = .ok r := by
  have hq1 : (idata.zip odata).length = idata.length := by
    rw [List.length_zip, ← hd.1.length_eq.trans hd.2.length_eq.symm, Nat.min_self]
  have hq2 : (idata'.zip odata').length = idata'.length := by
    rw [List.length_zip, ← hd'.1.length_eq.trans hd'.2.length_eq.symm, Nat.min_self]
  obtain ⟨x, y, e1, e2, q⟩ := StackTwin.steps hu hd.vals hd'.vals (1 / (k : α))
    ((List.replicate epochs ((List.range (idata.length / k)).map (fun b => (b * k, k)))).flatten)
    (by
      intro w hw
      obtain ⟨l, h1, h2⟩ := List.mem_flatten.1 hw
      rw [List.mem_replicate] at h1
      rw [h1.2] at h2
      obtain ⟨b, h3, rfl⟩ := List.mem_map.1 h2
      rw [List.mem_range] at h3
      dsimp only
      have fit : ∀ N, b < N / k → b * k + k ≤ N := by
        intro N hb
        have h1 : (b + 1) * k ≤ N / k * k := Nat.mul_le_mul_right k hb
        have h2 := Nat.div_mul_le_self N k
        rw [Nat.succ_mul] at h1
        exact h1.trans h2
      rw [List.length_map, List.length_map, hq1, hq2]
      refine ⟨fit _ h3, fit _ (hq ▸ h3), hk, fun qs => stackSum_perm dL qs ?_⟩
      show (block _ k b).Perm (block _ k b)
      rw [block_map, block_map, block_zip, block_zip]
      exact (hp b h3).2.2.map _)
    (StackTwin.refl hI h hz rfl)
  rw [miniBatch_run upd idata odata _ _ _ (by omega), miniBatch_run upd idata' odata' _ _ _ (by omega), miniTrace_steps,
    miniTrace_steps, ← hq, e1, e2]
  exact ⟨_, rfl, q.outcome.symm⟩

end

/-! ### Examples -/

/-- Convolution → fully connected, two samples in both orders, Momentum, two epochs: same parameters, and something was learned. -/
example : trained (Train.batch momUpdate [⟨1, 1, 3, Buf.of [1, 2, 3]⟩, ⟨1, 1, 3, Buf.of [0, 1, 1]⟩] [⟨1, 1, 1, Buf.of [38]⟩, ⟨1, 1, 1, Buf.of [30]⟩] 2
      (Mom.make (1/64 : ℚ) (1/2), plTrain 3 4 5 6)) =
    trained (Train.batch momUpdate [⟨1, 1, 3, Buf.of [0, 1, 1]⟩, ⟨1, 1, 3, Buf.of [1, 2, 3]⟩] [⟨1, 1, 1, Buf.of [30]⟩, ⟨1, 1, 1, Buf.of [38]⟩] 2
      (Mom.make (1/64 : ℚ) (1/2), plTrain 3 4 5 6)) ∧
    trained (Train.batch momUpdate [⟨1, 1, 3, Buf.of [1, 2, 3]⟩, ⟨1, 1, 3, Buf.of [0, 1, 1]⟩] [⟨1, 1, 1, Buf.of [38]⟩, ⟨1, 1, 1, Buf.of [30]⟩] 2
      (Mom.make (1/64 : ℚ) (1/2), plTrain 3 4 5 6)) ≠ .ok (plTrain 3 4 5 6).net.params := by
  refine ⟨?_, ?_⟩ <;> decide +kernel

/-- The hypotheses of `C82_stack_batch` are met, with two samples in both orders. -/
example : ∃ (t : Train ℚ) (size : Nat → Nat) (x x' y y' : Ten ℚ) (vs : List ((Nat → ℚ) × (Nat → ℚ))),
    t.Holds exSts (1, 1, 3) (1, 1, 1) (fun t y i => (1 + 1) * (y i - t i)) ∧ (∀ l ∈ t.net, l.SizedBy size) ∧ UpdOk (momUpdate (α := ℚ)) size (MomOk size) ∧
    StackData (exSts.map (·.s)) (1, 1, 1) [x, x'] [y, y'] vs ∧ SameSamples [x, x'] [y, y'] [x', x] [y', y] ∧ (x, y) ≠ (x', y') := by
  obtain ⟨c, _, hc, kB, kW⟩ := Conv.make_Wf (α := ℚ) (d := 1) (h := 1) (w := 3) (fc := 1) (fh := 1) (fw := 2) (pad := 0) (sv := 1) (sh := 1)
    ⟨by decide, by decide, by decide, by decide, by decide, by decide⟩ (by decide) 0 (fun f => f + 1)
  have hx : ∀ u v w : ℚ, VecIs (Buf.of [u, v, w]) 3 (fun i => ([u, v, w] : List ℚ).getD i 0) := fun u v w => VecIs_of [u, v, w] _ (fun i hi => by
    match i, hi with
    | 0, _ => rfl
    | 1, _ => rfl
    | 2, _ => rfl)
  have hin : ∀ u v w : ℚ, StackInput (exSts.map (·.s)) ⟨1, 1, 3, Buf.of [u, v, w]⟩ (fun i => ([u, v, w] : List ℚ).getD i 0) := by
    intro u v w s hs
    have e : s = .conv _ := (Option.some.inj hs).symm
    subst e
    refine ⟨(fun p e => by cases e), fun p e => ?_⟩
    cases e
    exact ⟨rfl, rfl, rfl, hx u v w⟩
  have hy : ∀ u : ℚ, VecIs (Buf.of [u]) 1 (fun _ => u) := fun u => VecIs_of [u] _ (fun i hi => by
    match i, hi with
    | 0, _ => rfl)
  refine ⟨⟨[.conv c, .fc { FC.make 2 1 (Act.elementwise (fun x => x) (fun _ => 1)) 7 8 with W := Mat.fill 2 1 1 }],
    ⟨1, 1, 1, [none]⟩, some (sqLoss 1 1)⟩, fun k => if k = 0 ∨ k = 7 then 1 else 2, ⟨1, 1, 3, Buf.of [1, 2, 3]⟩, ⟨1, 1, 3, Buf.of [0, 1, 1]⟩,
    ⟨1, 1, 1, Buf.of [38]⟩, ⟨1, 1, 1, Buf.of [30]⟩, [(_, _), (_, _)],
    ⟨?_, by decide, by decide, ⟨rfl, rfl, rfl⟩, ⟨rfl, rfl, rfl, rfl⟩, ⟨_, _, rfl, sqLoss_Is 1 1⟩⟩, ?_, mom_UpdOk _, ⟨.cons (hin 1 2 3) (.cons (hin 0 1 1) .nil), .cons (hy 38) (.cons (hy 30) .nil)⟩,
    ⟨rfl, rfl, .swap _ _ _⟩, by decide⟩
  · refine .cons ⟨(fun p e => by cases e), fun p e => ?_⟩ (.cons ⟨fun p e => ?_, (fun p e => by cases e)⟩ .nil)
    · cases e; exact ⟨c, rfl, hc⟩
    · cases e
      exact ⟨_, rfl, { FC.Wf_make 2 1 (Act.elementwise (fun x : ℚ => x) (fun _ => 1)) 7 8 with W := MatIs_fill 2 1 1 }, Act.Is.elementwise _ _ 1, VecIs_filled 1 0, MatIs_fill 2 1 0,
        VecIs_filled 1 0, MatIs_fill 2 1 0, rfl⟩
  · intro l hl
    simp only [List.mem_cons, List.not_mem_nil, or_false] at hl
    rcases hl with rfl | rfl
    · refine ⟨?_, fun f hf => ?_⟩
      · rw [kB, hc.fil.1]; rfl
      · have hf : f < 1 := by rw [← hc.fil.1]; exact hf
        have : f = 0 := by omega
        rw [kW, this, hc.fil.2.1, hc.fil.2.2.1, hc.fil.2.2.2]; rfl
    · exact ⟨rfl, rfl⟩

end Trixy
