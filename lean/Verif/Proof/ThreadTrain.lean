import Verif.Proof.Thread
/- Training programs: running alone is Model/HeapNet.lean. -/
namespace Trixy
set_option linter.unusedSectionVars false

variable {α β γ ρ σ τ υ : Type}

namespace Prog

/-- Running alone, the program gives `x`, where `e` puts memory and result together. -/
def Makes (p : Prog α β) (e : Heap α → β → τ) (x : Heap α → Res τ) : Prop := ∀ H, x H = p.run H >>= fun r => .ok (e r.1 r.2)

theorem Makes.bind {p : Prog α β} {e : Heap α → β → τ} {x : Heap α → Res τ} {ι : Type} {q : β → Prog α ι} {e' : Heap α → ι → υ} {y : τ → Res υ}
    (hp : p.Makes e x) (hq : ∀ b, (q b).Makes e' (fun H => y (e H b))) : (p >>= q).Makes e' (fun H => x H >>= y) := by
  intro H
  dsimp only
  rw [hp H, run_bind, bind_assoc, bind_assoc]
  exact bind_congr (fun r => hq r.2 r.1)

theorem Makes.lift {x : Res β} {q : β → Prog α τ} {e : Heap α → τ → υ} {y : β → Heap α → Res υ} (hq : ∀ b, (q b).Makes e (y b)) :
    (Prog.lift x >>= q).Makes e (fun H => x >>= fun b => y b H) := by
  intro H
  rw [run_bind, run_lift, bind_assoc, bind_assoc]
  exact bind_congr (fun b => hq b H)

theorem Makes.acts {p : Prog α Unit} {f : Heap α → Res (Heap α)} (h : p.Acts f) : p.Makes (fun H _ => H) f := by
  intro H
  rw [h H, bind_assoc]
  exact (bind_pure (f H)).symm

theorem Makes.does {p : Prog α β} {f : Heap α → Res (Heap α × β)} (h : p.Does f) : p.Makes (fun H b => (H, b)) f := by
  intro H
  rw [h H]
  exact (bind_pure (f H)).symm

theorem Makes.pure {e : Heap α → β → τ} (b : β) : (Pure.pure b : Prog α β).Makes e (fun H => .ok (e H b)) := fun _ => rfl

theorem Makes.forN {n : Nat} {s : β} {body : Nat → β → Prog α β} {e : Heap α → β → τ} {f : Nat → τ → Res τ}
    (h : ∀ i s, (body i s).Makes e (fun H => f i (e H s))) : (Prog.forN n s body).Makes e (fun H => Trixy.forN n (e H s) f) :=
  fun H => run_forN_at e (fun i _ H s => h i s H) H

end Prog

open Prog

section
variable [Zero α] [_root_.One α] [Add α] [Mul α] [DecidableEq α] [LT α] [DecidableLT α]

/-- The training object with the memory. -/
abbrev atE : Heap α → PTrain α σ → HTrain α σ := fun H t => t.at H

theorem PTrain.feedforward_makes (x : Obj) (t : PTrain α σ) : (t.feedforward x).Makes atE (fun H => HTrain.feedforward x (t.at H)) := by
  unfold HTrain.feedforward PTrain.feedforward
  exact Makes.bind (q := fun _ => pure t) (e' := atE) (y := fun r => .ok { t.at r.1 with heap := r.1 }) (Makes.does (t.net.feedforward_does x)) (fun _ _ => rfl)

theorem PTrain.backprop_makes (x y : Obj) (t : PTrain α σ) : (t.backprop x y).Makes atE (fun H => HTrain.backprop x y (t.at H)) := by
  intro H
  unfold HTrain.backprop PTrain.backprop
  dsimp only [PTrain.at]
  rw [PNet.obj_length, lget_obj, bind_assoc, run_bind, run_lift, bind_assoc, bind_assoc]
  refine bind_congr (fun l => ?_)
  rw [bind_ok, bind_ok, PLayer.value_obj]
  cases hl : t.loss with
  | none => rfl
  | some p =>
    show ((p.df t.delta y l.value).exec H >>= fun H => t.net.obj.backprop H x t.delta >>= fun H => _) = _
    show _ = (p.df t.delta y l.value >>= fun _ => t.net.backprop x t.delta >>= fun _ => pure t).run H >>= _
    rw [run_bind, acts_exec, bind_assoc, bind_assoc]
    refine bind_congr (fun H' => ?_)
    show _ = (t.net.backprop x t.delta >>= fun _ => pure t).run H' >>= _
    rw [run_bind, t.net.backprop_acts x t.delta H', bind_assoc, bind_assoc]
    refine bind_congr (fun H'' => ?_)
    show Except.ok _ = Except.ok _
    rw [show atE H'' t = t.at H'' from rfl, PTrain.at, hl]

theorem PTrain.updating_makes (u : PUpd σ α) (alpha : α) (t : PTrain α σ) : (t.updating u alpha).Makes atE (fun H => HTrain.updating u.obj alpha (t.at H)) := by
  unfold HTrain.updating PTrain.updating
  exact Makes.bind (q := fun s => pure { t with opt := s }) (e' := atE) (y := fun r => .ok { t.at r.1 with heap := r.1, opt := r.2 }) (Makes.does (t.net.updating_does u alpha t.opt)) (fun s _ => rfl)

theorem PTrain.reseting_makes (t : PTrain α σ) : t.reseting.Makes atE (fun H => HTrain.reseting (t.at H)) := by
  unfold HTrain.reseting PTrain.reseting
  exact Makes.bind (q := fun n => pure { t with net := n }) (e' := atE) (e := fun H n => (H, PNet.obj n)) (y := fun r => .ok { t.at r.1 with heap := r.1, net := r.2 }) (fun H => t.net.reseting_run H) (fun n _ => rfl)

theorem PTrain.accumulating_makes (t : PTrain α σ) : t.accumulating.Makes atE (fun H => HTrain.accumulating (t.at H)) := by
  unfold HTrain.accumulating PTrain.accumulating
  exact Makes.bind (q := fun n => pure { t with net := n }) (e' := atE) (e := fun H n => (H, PNet.obj n)) (y := fun r => .ok { t.at r.1 with heap := r.1, net := r.2 }) (fun H => t.net.accumulating_run H) (fun n _ => rfl)

theorem PTrain.sample_makes (X Y : List Obj) (i : Nat) (t : PTrain α σ) : (t.sample X Y i).Makes atE (fun H => HTrain.sample X Y i (t.at H)) := by
  unfold HTrain.sample
  exact Makes.lift (fun x => Makes.bind (y := fun t => lget Y i >>= fun y => HTrain.backprop x y t) (t.feedforward_makes x)
    (fun t => Makes.lift (fun y => t.backprop_makes x y)))

theorem PTrain.sampleAcc_makes (X Y : List Obj) (i : Nat) (t : PTrain α σ) : (t.sampleAcc X Y i).Makes atE (fun H => HTrain.sampleAcc X Y i (t.at H)) := by
  unfold HTrain.sampleAcc
  exact Makes.bind (t.sample_makes X Y i) (fun t => t.accumulating_makes)

theorem PTrain.epoch_makes (u : PUpd σ α) (X Y : List Obj) (alpha : α) (t : PTrain α σ) :
    (t.epoch u X Y alpha).Makes atE (fun H => HTrain.epoch u.obj X Y alpha (t.at H)) := by
  unfold HTrain.epoch
  exact Makes.bind (y := fun t => forN X.length t (fun i t => t.sampleAcc X Y i) >>= fun t => t.updating u.obj alpha) t.reseting_makes
    (fun t => Makes.bind (Makes.forN (fun i t => t.sampleAcc_makes X Y i)) (fun t => t.updating_makes u alpha))

theorem PTrain.stochastic_makes (u : PUpd σ α) (X Y : List Obj) (n : Nat) (gen : Gen γ ρ Nat) (c : γ) (g : ρ) (t : PTrain α σ) :
    (t.stochastic u X Y n gen c g).Makes (fun H r => (r.1.at H, r.2)) (fun H => HTrain.stochastic u.obj X Y n gen c g (t.at H)) := by
  unfold HTrain.stochastic PTrain.stochastic
  refine Makes.bind (e := fun H r => (r.1.at H, r.2.1, r.2.2)) (y := fun r => .ok (r.1, r.2.2)) (Makes.forN (s := (t, c, g)) (fun i s => ?_)) (fun r _ => rfl)
  exact Makes.lift (fun i => Makes.bind (y := fun t => t.updating u.obj 1 >>= fun t => .ok (t, (gen s.2.1 s.2.2).2.1, (gen s.2.1 s.2.2).2.2)) (s.1.sample_makes X Y i)
    (fun t => Makes.bind (y := fun t => .ok (t, (gen s.2.1 s.2.2).2.1, (gen s.2.1 s.2.2).2.2)) (t.updating_makes u 1) (fun t _ => rfl)))

theorem PTrain.fill_makes (X Y : List Obj) (limit : Nat) (t : PTrain α σ) (k : Nat) :
    (t.fill X Y limit k).Makes (fun H r => (r.1.at H, r.2)) (fun H => HTrain.fill X Y limit (t.at H) k) := by
  unfold HTrain.fill
  exact Makes.forN (s := (t, k)) (fun i s => Makes.bind (y := fun t => .ok (t, s.2 + 1)) (s.1.sampleAcc_makes X Y s.2) (fun t _ => rfl))

theorem PTrain.miniStep_makes (u : PUpd σ α) (X Y : List Obj) (m : Nat) (alpha : α) (s : PTrain α σ × Nat × Nat) :
    (PTrain.miniStep u X Y m alpha s).Makes (fun H r => (r.1.at H, r.2)) (fun H => HTrain.miniStep u.obj X Y m alpha (s.1.at H, s.2)) := by
  unfold HTrain.miniStep
  exact Makes.bind (y := fun t => HTrain.fill X Y (s.2.2 + m) t s.2.1 >>= fun r => r.1.updating u.obj alpha >>= fun t => .ok (t, r.2, s.2.2 + m)) s.1.reseting_makes
    (fun t => Makes.bind (y := fun r => r.1.updating u.obj alpha >>= fun t => .ok (t, r.2, s.2.2 + m)) (t.fill_makes X Y (s.2.2 + m) s.2.1)
      (fun r => Makes.bind (y := fun t => .ok (t, r.2, s.2.2 + m)) (r.1.updating_makes u alpha) (fun t _ => rfl)))

theorem PTrain.miniEpoch_makes (u : PUpd σ α) (X Y : List Obj) (m scale : Nat) (alpha : α) (t : PTrain α σ) :
    (t.miniEpoch u X Y m scale alpha).Makes atE (fun H => HTrain.miniEpoch u.obj X Y m scale alpha (t.at H)) := by
  unfold HTrain.miniEpoch
  exact Makes.bind (e := fun H r => (r.1.at H, r.2)) (y := fun s => .ok s.1) (Makes.forN (s := (t, 0, 0)) (fun i s => PTrain.miniStep_makes u X Y m alpha s))
    (fun r _ => rfl)

variable [Div α] [NatCast α]

theorem PTrain.batch_makes (u : PUpd σ α) (X Y : List Obj) (n : Nat) (t : PTrain α σ) :
    (t.batch u X Y n).Makes atE (fun H => HTrain.batch u.obj X Y n (t.at H)) := by
  unfold HTrain.batch
  exact Makes.lift (fun alpha => Makes.forN (fun i t => t.epoch_makes u X Y alpha))

theorem PTrain.miniBatch_makes (u : PUpd σ α) (X Y : List Obj) (n m : Nat) (t : PTrain α σ) :
    (t.miniBatch u X Y n m).Makes atE (fun H => HTrain.miniBatch u.obj X Y n m (t.at H)) := by
  unfold HTrain.miniBatch
  exact Makes.lift (fun alpha => Makes.lift (fun scale => Makes.forN (fun i t => t.miniEpoch_makes u X Y m scale alpha)))

theorem PTrainOp.exec_makes (u : PUpd σ α) (gen : Gen γ ρ Nat) (st : PTrain α σ × ρ) (op : PTrainOp γ) :
    (PTrainOp.exec u gen st op).Makes (fun H r => (r.1.at H, r.2)) (fun H => HTrainOp.exec u.obj gen (st.1.at H, st.2) op.op) := by
  cases op with
  | batch X Y n => exact Makes.bind (y := fun t => .ok (t, st.2)) (st.1.batch_makes u X Y n) (fun t _ => rfl)
  | mini X Y n m => exact Makes.bind (y := fun t => .ok (t, st.2)) (st.1.miniBatch_makes u X Y n m) (fun t _ => rfl)
  | sto X Y n c => exact st.1.stochastic_makes u X Y n gen c st.2
  | eval x => exact Makes.bind (y := fun t => .ok (t, st.2)) (st.1.feedforward_makes x) (fun t _ => rfl)

theorem PTrainOp.run_makes (u : PUpd σ α) (gen : Gen γ ρ Nat) (ops : List (PTrainOp γ)) (st : PTrain α σ × ρ) :
    (PTrainOp.run u gen st ops).Makes (fun H r => (r.1.at H, r.2)) (fun H => HTrainOp.run u.obj gen (st.1.at H, st.2) (ops.map PTrainOp.op)) := by
  induction ops generalizing st with
  | nil => exact Makes.pure st
  | cons op ops ih =>
    exact Makes.bind (y := fun st => HTrainOp.run u.obj gen st (ops.map PTrainOp.op)) (PTrainOp.exec_makes u gen st op) (fun st => ih st)

end
end Trixy
