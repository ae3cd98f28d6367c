import Verif.Spec.Trace
import Verif.Proof.Net
/- The training loops execute the traces of Spec/Trace. -/
namespace Trixy
set_option linter.unusedSectionVars false

variable {α γ ρ σ : Type}

section
variable [Zero α] [One α] [Add α] [Mul α] [LT α] [DecidableLT α] [DecidableEq α]

theorem TEv.run_cons (upd : Upd σ α) (idata odata : List (Ten α)) (e : TEv α) (es : List (TEv α)) (st : σ × Train α) :
    TEv.run upd idata odata st (e :: es) = (do let st ← TEv.exec upd idata odata st e; TEv.run upd idata odata st es) := rfl

theorem TEv.run_append (upd : Upd σ α) (idata odata : List (Ten α)) (es fs : List (TEv α)) : ∀ st : σ × Train α,
    TEv.run upd idata odata st (es ++ fs) = (do let st ← TEv.run upd idata odata st es; TEv.run upd idata odata st fs) := by
  induction es with
  | nil => intro st; rfl
  | cons e es ih =>
    intro st
    rw [List.cons_append, TEv.run_cons, TEv.run_cons, bind_assoc]
    congr 1
    funext st'
    exact ih st'

/-- Loops whose body runs a trace run the concatenation. -/
theorem run_forN (upd : Upd σ α) (idata odata : List (Ten α)) (k : Nat) (tr : Nat → List (TEv α)) (st : σ × Train α) :
    forN k st (fun i st => TEv.run upd idata odata st (tr i)) = TEv.run upd idata odata st ((List.range k).flatMap tr) := by
  induction k with
  | zero => rfl
  | succ k ih =>
    rw [forN_succ, ih, List.range_succ, List.flatMap_append, TEv.run_append]
    congr 1
    funext st'
    simp

theorem run_sampleAcc (upd : Upd σ α) (idata odata : List (Ten α)) (i : Nat) (s : σ) (t : Train α) :
    TEv.run upd idata odata (s, t) [.sample i, .accumulate] = (do let t ← t.sampleAcc idata odata i; return (s, t)) := by
  unfold Train.sampleAcc TEv.run TEv.exec
  simp only [bind_assoc]
  cases t.sample idata odata i with
  | error e => rfl
  | ok t' =>
    simp only [bind_ok, pure_eq_ok]
    unfold TEv.run TEv.exec
    cases t'.accumulating with
    | error e => rfl
    | ok t'' => rfl

/-- Loops on the training object only, lifted to the pair with the optimizer. -/
theorem forN_lift (k : Nat) (body : Nat → Train α → Res (Train α)) (s : σ) (t : Train α) :
    forN k (s, t) (fun i st => do let t ← body i st.2; return (st.1, t)) = (do let t ← forN k t body; return (s, t)) := by
  induction k with
  | zero => rfl
  | succ k ih =>
    rw [forN_succ, forN_succ, ih]
    cases forN k t body with
    | error e => rfl
    | ok t' => simp only [bind_ok, pure_eq_ok]

theorem run_step (upd : Upd σ α) (idata odata : List (Ten α)) (alpha : α) (lo k : Nat) (s : σ) (t : Train α) :
    TEv.run upd idata odata (s, t) (stepTrace alpha lo k) = (do
      let t ← t.reseting
      let t ← forN k t (fun i t => t.sampleAcc idata odata (lo + i))
      Train.updating upd alpha (s, t)) := by
  unfold stepTrace
  rw [TEv.run_append]
  have h1 : TEv.run upd idata odata (s, t) (.reset :: (List.range k).flatMap (fun j => [.sample (lo + j), .accumulate])) = (do
      let t ← t.reseting
      let t ← forN k t (fun i t => t.sampleAcc idata odata (lo + i))
      return (s, t)) := by
    rw [TEv.run]
    unfold TEv.exec
    cases t.reseting with
    | error e => rfl
    | ok t' =>
      simp only [bind_ok, pure_eq_ok]
      rw [← run_forN]
      have e := forN_lift (σ := σ) k (fun i t => t.sampleAcc idata odata (lo + i)) s t'
      simp only [pure_eq_ok] at e
      rw [← e]
      refine forN_congr (fun i _ st => ?_)
      exact run_sampleAcc upd idata odata (lo + i) st.1 st.2
  rw [h1, bind_assoc]
  congr 1
  funext t1
  rw [bind_assoc]
  congr 1
  funext t2
  show (Train.updating upd alpha (s, t2) >>= fun st => .ok st) = _
  cases Train.updating upd alpha (s, t2) <;> rfl

theorem forN_replicate (upd : Upd σ α) (idata odata : List (Ten α)) (k : Nat) (tr : List (TEv α)) (st : σ × Train α) :
    forN k st (fun _ st => TEv.run upd idata odata st tr) = TEv.run upd idata odata st (List.replicate k tr).flatten := by
  have e : (List.replicate k tr).flatten = (List.range k).flatMap (fun _ => tr) := by
    rw [List.flatMap_def]; congr 1; exact List.eq_replicate_iff.2 ⟨by simp, by simp⟩ |>.symm
  rw [run_forN upd idata odata k (fun _ => tr) st, e]

theorem epoch_run (upd : Upd σ α) (idata odata : List (Ten α)) (alpha : α) (st : σ × Train α) :
    Train.epoch upd idata odata alpha st = TEv.run upd idata odata st (stepTrace alpha 0 idata.length) := by
  rw [run_step]
  simp only [Nat.zero_add]
  rfl

/-- `batch` executes `batchTrace`. -/
theorem batch_run [Div α] [NatCast α] (upd : Upd σ α) (idata odata : List (Ten α)) (epochs : Nat) (st : σ × Train α)
    (hne : idata.length ≠ 0) :
    Train.batch upd idata odata epochs st = TEv.run upd idata odata st (batchTrace (1 / (idata.length : α)) idata.length epochs) := by
  unfold Train.batch invCount batchTrace
  rw [if_neg hne, bind_ok, ← forN_replicate]
  exact forN_congr (fun _ _ st => epoch_run upd idata odata _ st)

theorem fill_eq (idata odata : List (Ten α)) (k : Nat) (t : Train α) (lo : Nat) :
    Train.fill idata odata (lo + k) t lo = (do let t ← forN k t (fun i t => t.sampleAcc idata odata (lo + i)); return (t, lo + k)) := by
  unfold Train.fill
  rw [show lo + k - lo = k by omega]
  induction k with
  | zero => rfl
  | succ k ih =>
    rw [forN_succ, ih, forN_succ]
    cases forN k t (fun i t => t.sampleAcc idata odata (lo + i)) with
    | error e => rfl
    | ok t' => simp only [bind_ok, pure_eq_ok]; rfl

theorem miniEpoch_run (upd : Upd σ α) (idata odata : List (Ten α)) (m scale : Nat) (alpha : α) (st : σ × Train α) :
    Train.miniEpoch upd idata odata m scale alpha st =
      TEv.run upd idata odata st ((List.range scale).flatMap (fun k => stepTrace alpha (k * m) m)) := by
  unfold Train.miniEpoch
  have key : forN scale (st, 0, 0) (fun _ s => Train.miniStep upd idata odata m alpha s) =
      (do let st ← TEv.run upd idata odata st ((List.range scale).flatMap (fun k => stepTrace alpha (k * m) m))
          return (st, scale * m, scale * m)) := by
    induction scale with
    | zero => simp [TEv.run]
    | succ k ih =>
      rw [forN_succ, ih, List.range_succ, List.flatMap_append, TEv.run_append]
      cases TEv.run upd idata odata st ((List.range k).flatMap (fun k => stepTrace alpha (k * m) m)) with
      | error e => rfl
      | ok st' =>
        simp only [bind_ok, pure_eq_ok, List.flatMap_cons, List.flatMap_nil, List.append_nil]
        obtain ⟨s, t⟩ := st'
        rw [run_step]
        unfold Train.miniStep
        dsimp only
        cases t.reseting with
        | error e => rfl
        | ok t1 =>
          simp only [bind_ok]
          rw [fill_eq]
          cases forN m t1 (fun i t => t.sampleAcc idata odata (k * m + i)) with
          | error e => rfl
          | ok t2 =>
            simp only [bind_ok, pure_eq_ok]
            cases Train.updating upd alpha (s, t2) with
            | error e => rfl
            | ok r => rw [show (k + 1) * m = k * m + m by rw [Nat.add_mul, Nat.one_mul]]
  rw [key]
  cases TEv.run upd idata odata st ((List.range scale).flatMap (fun k => stepTrace alpha (k * m) m)) <;> rfl

/-- `mini_batch` executes `miniTrace`. -/
theorem miniBatch_run [Div α] [NatCast α] (upd : Upd σ α) (idata odata : List (Ten α)) (epochs m : Nat) (st : σ × Train α)
    (hm : m ≠ 0) :
    Train.miniBatch upd idata odata epochs m st = TEv.run upd idata odata st (miniTrace (1 / (m : α)) idata.length m epochs) := by
  unfold Train.miniBatch invCount quot miniTrace miniEpochTrace
  rw [if_neg hm, bind_ok, if_neg hm, bind_ok, ← forN_replicate]
  exact forN_congr (fun _ _ st => miniEpoch_run upd idata odata m _ _ st)

/-- State of a generator after `k` calls. -/
def drawn {β : Type} (gen : Gen γ ρ β) : Nat → γ → ρ → γ × ρ
  | 0, c, g => (c, g)
  | k + 1, c, g => drawn gen k (gen c g).2.1 (gen c g).2.2

/-- `stochastic` executes `stoTrace`. -/
theorem stochastic_run (upd : Upd σ α) (idata odata : List (Ten α)) (gen : Gen γ ρ Nat) (hne : idata.length ≠ 0) (k : Nat) :
    ∀ (c : γ) (g : ρ) (st : σ × Train α),
    Train.stochastic upd idata odata k gen c g st = (do
      let st ← TEv.run upd idata odata st (stoTrace ((draws gen k c g).map (· % idata.length)))
      return (st, (drawn gen k c g).2)) := by
  unfold Train.stochastic
  induction k with
  | zero => intro c g st; rfl
  | succ k ih =>
    intro c g st
    rw [forN_first]
    unfold draws drawn
    simp only [List.map_cons]
    rw [show stoTrace ((gen c g).1 % idata.length :: (draws gen k (gen c g).2.1 (gen c g).2.2).map (· % idata.length)) =
      ([.sample ((gen c g).1 % idata.length), .update 1] : List (TEv α)) ++
        stoTrace ((draws gen k (gen c g).2.1 (gen c g).2.2).map (· % idata.length)) from by simp [stoTrace]]
    rw [TEv.run_append]
    have e : (rem (gen c g).1 idata.length) = .ok ((gen c g).1 % idata.length) := by unfold rem; rw [if_neg hne]
    rw [e, bind_ok]
    have e2 : TEv.run upd idata odata st [.sample ((gen c g).1 % idata.length), .update 1] = (do
        let t ← st.2.sample idata odata ((gen c g).1 % idata.length)
        Train.updating upd 1 (st.1, t)) := by
      show ((st.2.sample idata odata ((gen c g).1 % idata.length) >>= fun t => Except.ok (st.1, t)) >>= fun st =>
        (Train.updating upd 1 st >>= fun st => .ok st)) = _
      cases st.2.sample idata odata ((gen c g).1 % idata.length) with
      | error e => rfl
      | ok t =>
        simp only [bind_ok]
        cases Train.updating upd 1 (st.1, t) <;> rfl
    rw [e2]
    cases st.2.sample idata odata ((gen c g).1 % idata.length) with
    | error e => rfl
    | ok t =>
      simp only [bind_ok, pure_eq_ok]
      cases Train.updating upd 1 (st.1, t) with
      | error e => rfl
      | ok st' =>
        simp only [bind_ok]
        have := ih (gen c g).2.1 (gen c g).2.2 st'
        simp only [pure_eq_ok] at this
        exact this

end

end Trixy
