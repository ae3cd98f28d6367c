import Verif.Spec.FitObject
import Verif.Props.Schedule
/- The runs of C116 and C132 with one optimizer object. -/
namespace Trixy
open Filter Topology

theorem gd_rate (lr : ℝ) (k : Nat) (p g : Buf ℝ) : gdUpdate lr k p g = (gdUpdate lr k p g).bind (fun x => .ok (lr, x.2)) := by
  unfold gdUpdate
  show Except.bind _ _ = Except.bind (Except.bind _ _) _
  cases scaleInto g lr with
  | error e => rfl
  | ok g =>
    show Except.bind (zipInto (· - ·) p g) _ = Except.bind (Except.bind (zipInto (· - ·) p g) _) _
    cases zipInto (· - ·) p g <;> rfl

theorem updateWith_rate (lr a : ℝ) (l : FC ℝ) (gB : Buf ℝ) (gW : Mat ℝ) :
    FC.updateWith gdUpdate lr a l gB gW = (FC.updateWith gdUpdate lr a l gB gW).bind (fun x => .ok (lr, x.2)) := by
  unfold FC.updateWith
  cases scaleUnlessOne a gB with
  | error e => rfl
  | ok gB =>
    cases scaleUnlessOne a gW.data with
    | error e => rfl
    | ok gW =>
      show Except.bind (gdUpdate lr _ _ _) _ = Except.bind (Except.bind (gdUpdate lr _ _ _) _) _
      rw [gd_rate lr l.keyB]
      cases gdUpdate lr l.keyB l.B gB with
      | error e => rfl
      | ok x =>
        show Except.bind (gdUpdate lr _ _ _) _ = Except.bind (Except.bind (gdUpdate lr _ _ _) _) _
        rw [gd_rate lr l.keyW]
        cases gdUpdate lr l.keyW l.W.data gW <;> rfl

theorem update_rate (lr a : ℝ) (l : FC ℝ) : l.update gdUpdate lr a = (l.update gdUpdate lr a).bind (fun x => .ok (lr, x.2)) := by
  unfold FC.update
  split
  · rw [updateWith_rate]
    cases FC.updateWith gdUpdate lr a l l.gradBs l.gradWs <;> rfl
  · rw [updateWith_rate]
    cases FC.updateWith gdUpdate lr a l l.gradB l.gradW <;> rfl

theorem fitBatch_with (loss : Loss ℝ) (B : List (Ten ℝ × Ten ℝ)) (lr : ℝ) (l : FC ℝ) : FC.fitBatchWith loss B (lr, l) = withRate lr (l.fitBatch loss lr B) := by
  unfold FC.fitBatchWith FC.fitBatch withRate
  dsimp only
  cases l.reset with
  | error e => rfl
  | ok l =>
    show Except.bind (l.fitSamples loss B) _ = Except.bind (Except.bind (l.fitSamples loss B) _) _
    cases l.fitSamples loss B with
    | error e => rfl
    | ok l =>
      show FC.update gdUpdate lr _ l = Except.bind (Except.bind (FC.update gdUpdate lr _ l) _) _
      rw [update_rate]
      cases l.update gdUpdate lr (1 / (B.length : ℝ)) <;> rfl

/-! ### C116, C132 -/

/-- The optimizer object keeps its rate: a run with one object is the run with a new object for every batch, and the object has the same rate afterwards. -/
theorem C116_object (loss : Loss ℝ) (lr : ℝ) (B : Nat → List (Ten ℝ × Ten ℝ)) (l : FC ℝ) (N : Nat) : FC.fitWith loss B N (lr, l) = withRate lr (l.fit loss lr B N) := by
  unfold FC.fitWith FC.fit
  induction N with
  | zero => rfl
  | succ N ih =>
    show Except.bind (forN N (lr, l) _) _ = withRate lr (Except.bind (forN N l _) _)
    rw [ih]
    cases forN N l (fun i l => l.fitBatch loss lr (B i)) with
    | error e => rfl
    | ok l' => exact fitBatch_with loss (B N) lr l'

/-- Epochs with one object whose rate is set anew before each: the layer is the one of C132, and the object has the last rate set. -/
theorem C132_object (loss : Loss ℝ) (rate : Nat → ℝ) (B : Nat → Nat → List (Ten ℝ × Ten ℝ)) (K : Nat) (l : FC ℝ) (E : Nat) :
    FC.fitEpochsWith loss rate B K E (rate 0, l) = withRate (rate (E - 1)) (l.fitEpochs loss rate B K E) := by
  unfold FC.fitEpochsWith FC.fitEpochs
  induction E with
  | zero => rfl
  | succ E ih =>
    show Except.bind (forN E (rate 0, l) _) _ = withRate (rate E) (Except.bind (forN E l _) _)
    rw [ih]
    cases forN E l (fun e l => l.fit loss (rate e) (B e) K) with
    | error e => rfl
    | ok l' => exact C116_object loss (rate E) (B E) l' K

/-- The rates `1 / (e + 1)` are set one after the other in one object; the runs succeed. -/
example (E : Nat) : Ok (FC.fitEpochsWith FitKind.mse.loss (fun e => 1 / ((e : ℝ) + 1)) (fun _ i => ftBatch 1 1 (cyBatch i)) 2 E (1 / (((0 : Nat) : ℝ) + 1), ftLayer .mse 1 1))
    (fun s => s.1 = 1 / (((E - 1 : Nat) : ℝ) + 1) ∧ ∃ θ, s.2.IsFit .mse 1 1 θ) := by
  have hsh : ∀ e i, shuf (K := 2) (by decide) (fun q => cyBatch q) (fun _ => 1) e i = cyBatch i := fun e i => by simp [shuf, cyBatch]
  have h1 := sched_spec (k := .mse) (n := 1) (m := 1) (K := 2) (σ := fun _ => 1) (vs := fun q => cyBatch q) one_pos (by decide) (B := fun _ i => ftBatch 1 1 (cyBatch i))
    (fun e i => by rw [hsh e i]; exact ftBatch_Is 1 1 (cyBatch i)) (fun q => cyBatch_ne q) (fun e => 1 / ((e : ℝ) + 1)) (ftLayer_IsFit .mse 1 1) E
  have e1 := C132_object FitKind.mse.loss (fun e => 1 / ((e : ℝ) + 1)) (fun _ i => ftBatch 1 1 (cyBatch i)) 2 (ftLayer .mse 1 1) E
  obtain ⟨l', h2, h3⟩ := h1
  rw [h2] at e1
  exact ⟨_, e1, rfl, _, h3⟩

end Trixy
