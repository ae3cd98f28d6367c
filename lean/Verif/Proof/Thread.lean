import Verif.Spec.Thread
import Verif.Proof.HeapProg
/- Programs: composition, running alone, running among other threads. -/
namespace Trixy
set_option linter.unusedSectionVars false

variable {α β γ ρ σ τ : Type}

/-! ### Running alone -/
namespace Prog

theorem bind_eq (p : Prog α β) (k : β → Prog α τ) : (p >>= k) = p.bind k := rfl
theorem pure_eq (b : β) : (pure b : Prog α β) = .ret b := rfl

theorem run_bind (H : Heap α) (p : Prog α β) (k : β → Prog α τ) : (p >>= k).run H = p.run H >>= fun r => (k r.2).run r.1 := by
  rw [bind_eq]
  induction p generalizing H with
  | ret b => rfl
  | ub u => rfl
  | load p i c ih =>
    show (H.load p i >>= fun a => (bind (c a) k).run H) = (H.load p i >>= fun a => (c a).run H) >>= _
    rw [bind_assoc]
    exact bind_congr (fun a => ih a H)
  | store p i a c ih =>
    show (H.store p i a >>= fun H => (bind c k).run H) = (H.store p i a >>= fun H => c.run H) >>= _
    rw [bind_assoc]
    exact bind_congr (fun H => ih H)

theorem run_lift (H : Heap α) (x : Res β) : (lift x : Prog α β).run H = x >>= fun b => .ok (H, b) := by cases x <;> rfl

/-- The program, running alone, changes the memory like `f`. -/
def Acts (p : Prog α Unit) (f : Heap α → Res (Heap α)) : Prop := ∀ H, p.run H = f H >>= fun H => .ok (H, ())

/-- The program only reads and returns what `f` returns. -/
def Reads (p : Prog α β) (f : Heap α → Res β) : Prop := ∀ H, p.run H = f H >>= fun a => .ok (H, a)

/-- The program, running alone, is `f`. -/
def Does (p : Prog α β) (f : Heap α → Res (Heap α × β)) : Prop := ∀ H, p.run H = f H

theorem Acts.seq {p : Prog α Unit} {q : Prog α Unit} {f g : Heap α → Res (Heap α)} (hp : p.Acts f) (hq : q.Acts g) :
    (p >>= fun _ => q).Acts (fun H => f H >>= g) := by
  intro H
  rw [run_bind, hp H, bind_assoc, bind_assoc]
  exact bind_congr (fun H' => hq H')

theorem Acts.read {p : Prog α β} {q : β → Prog α Unit} {f : Heap α → Res β} {g : β → Heap α → Res (Heap α)} (hp : p.Reads f)
    (hq : ∀ a, (q a).Acts (g a)) : (p >>= q).Acts (fun H => f H >>= fun a => g a H) := by
  intro H
  rw [run_bind, hp H, bind_assoc, bind_assoc]
  exact bind_congr (fun a => hq a H)

theorem Reads.lift (x : Res β) : (Prog.lift x : Prog α β).Reads (fun _ => x) := fun H => run_lift H x

theorem Acts.lift {x : Res β} {q : β → Prog α Unit} {g : β → Heap α → Res (Heap α)} (hq : ∀ a, (q a).Acts (g a)) :
    (Prog.lift x >>= q).Acts (fun H => x >>= fun a => g a H) := Acts.read (Reads.lift x) hq

theorem Acts.ret : (ret () : Prog α Unit).Acts (fun H => .ok H) := fun _ => rfl

theorem Acts.ub {u : UB} : (ub u : Prog α Unit).Acts (fun _ => .error u) := fun _ => rfl

theorem Reads.bind {p : Prog α β} {q : β → Prog α τ} {f : Heap α → Res β} {g : β → Heap α → Res τ} (hp : p.Reads f)
    (hq : ∀ a, (q a).Reads (g a)) : (p >>= q).Reads (fun H => f H >>= fun a => g a H) := by
  intro H
  rw [run_bind, hp H, bind_assoc, bind_assoc]
  exact bind_congr (fun a => hq a H)

theorem Reads.ret (b : β) : (Prog.ret b : Prog α β).Reads (fun _ => .ok b) := fun _ => rfl
theorem Reads.pure (b : β) : (Pure.pure b : Prog α β).Reads (fun _ => Pure.pure b) := fun _ => rfl

theorem Reads.get1 (a : Obj) (i : Nat) : (Prog.get1 a i : Prog α α).Reads (fun H => a.get1 H i) := fun _ => rfl
theorem Reads.get2 (a : Obj) (i j : Nat) : (Prog.get2 a i j : Prog α α).Reads (fun H => a.get2 H i j) := fun _ => rfl
theorem Reads.get3 (a : Obj) (i j k : Nat) : (Prog.get3 a i j k : Prog α α).Reads (fun H => a.get3 H i j k) := fun _ => rfl
theorem Acts.set1 (a : Obj) (i : Nat) (v : α) : (Prog.set1 a i v).Acts (fun H => a.set1 H i v) := fun _ => rfl
theorem Acts.set3 (a : Obj) (i j k : Nat) (v : α) : (Prog.set3 a i j k v).Acts (fun H => a.set3 H i j k v) := fun _ => rfl

theorem Reads.forN {n : Nat} {s : σ} {body : Nat → σ → Prog α σ} {f : Heap α → Nat → σ → Res σ} (h : ∀ i s, (body i s).Reads (fun H => f H i s)) :
    (Prog.forN n s body).Reads (fun H => Trixy.forN n s (f H)) := by
  induction n with
  | zero => exact Reads.ret s
  | succ n ih => exact Reads.bind ih (fun s => h n s)

theorem Acts.forU {n : Nat} {body : Nat → Prog α Unit} {f : Nat → Heap α → Res (Heap α)} (h : ∀ i, (body i).Acts (f i)) :
    (Prog.forU n body).Acts (fun H => Trixy.forN n H f) := by
  induction n with
  | zero => exact Acts.ret
  | succ n ih => exact Acts.seq ih (h n)

/-- A loop on a state of the thread, seen as a loop on memory and state. -/
theorem run_forN {n : Nat} {s : σ} {body : Nat → σ → Prog α σ} {f : Nat → Heap α × σ → Res (Heap α × σ)}
    (h : ∀ i, i < n → ∀ H s, (body i s).run H = f i (H, s)) (H : Heap α) : (Prog.forN n s body).run H = Trixy.forN n (H, s) f := by
  induction n with
  | zero => rfl
  | succ n ih =>
    show (Prog.forN n s body >>= fun s => body n s).run H = Trixy.forN n (H, s) f >>= f n
    rw [run_bind, ih (fun i hi => h i (by omega))]
    exact bind_congr (fun r => h n (by omega) r.1 r.2)

/-- … seen as a loop on any state made of the two. -/
theorem run_forN_at {n : Nat} {s : σ} {body : Nat → σ → Prog α σ} {f : Nat → τ → Res τ} (e : Heap α → σ → τ)
    (h : ∀ i, i < n → ∀ H s, f i (e H s) = (body i s).run H >>= fun r => .ok (e r.1 r.2)) (H : Heap α) :
    Trixy.forN n (e H s) f = (Prog.forN n s body).run H >>= fun r => .ok (e r.1 r.2) := by
  induction n with
  | zero => rfl
  | succ n ih =>
    show (Trixy.forN n (e H s) f >>= f n) = (Prog.forN n s body >>= fun s => body n s).run H >>= _
    rw [run_bind, ih (fun i hi => h i (by omega)), bind_assoc, bind_assoc]
    exact bind_congr (fun r => h n (by omega) r.1 r.2)

theorem Acts.exec {p : Prog α Unit} {f : Heap α → Res (Heap α)} (h : p.Acts f) (H : Heap α) : p.exec H = f H := by
  unfold Prog.exec
  rw [h H, bind_assoc]
  exact bind_pure (f H)

theorem acts_exec (p : Prog α Unit) : p.Acts (fun H => p.exec H) := by
  intro H
  unfold Prog.exec
  rw [bind_assoc]
  exact (bind_pure (p.run H)).symm

/-! ### Element loops and Linear.hpp -/

theorem fill_acts (a : Obj) (v : α) : (fill a v).Acts (fun H => a.fill H v) := Acts.forU (fun i => Acts.set1 a i v)

theorem assign_acts (op : α → α → α) (a r : Obj) : (assign op a r).Acts (fun H => assignPtr op H a.data a.shape.size r.data) :=
  Acts.forU (fun i => Acts.read (Reads.get1 a i) (fun x => Acts.read (Reads.get1 r i) (fun y => Acts.set1 a i (op x y))))

theorem join_acts [Mul α] (a : Obj) (v : α) : (join a v).Acts (fun H => a.join H v) :=
  Acts.forU (fun i => Acts.read (Reads.get1 a i) (fun x => Acts.set1 a i (x * v)))

theorem apply_acts (f : α → α) (a r : Obj) : (apply f a r).Acts (fun H => applyPtr f H a.data a.shape.size r.data) :=
  Acts.forU (fun i => Acts.read (Reads.get1 r i) (fun x => Acts.set1 a i (f x)))

theorem dotRow_acts [Zero α] [Add α] [Mul α] (r x m : Obj) : (dotRow r x m : Prog α Unit).Acts (fun H => Obj.dotRow H r x m) :=
  Acts.seq (fill_acts r 0) (Acts.forU (fun i => Acts.read (Reads.get1 x i) (fun temp => Acts.forU (fun j =>
    Acts.read (Reads.get1 r j) (fun u => Acts.read (Reads.get2 m i j) (fun y => Acts.set1 r j (u + temp * y)))))))

theorem dotCol_acts [Zero α] [Add α] [Mul α] (r m x : Obj) : (dotCol r m x : Prog α Unit).Acts (fun H => Obj.dotCol H r m x) :=
  Acts.seq (fill_acts r 0) (Acts.forU (fun i => Acts.forU (fun j => Acts.read (Reads.get1 r i) (fun u =>
    Acts.read (Reads.get2 m i j) (fun a => Acts.read (Reads.get1 x j) (fun b => Acts.set1 r i (u + a * b)))))))

theorem tensordot_acts [Mul α] (r c x : Obj) : (tensordot r c x : Prog α Unit).Acts (fun H => Obj.tensordot H r c x) :=
  Acts.forU (fun i => Acts.read (Reads.get1 c i) (fun v => Acts.forU (fun j => Acts.read (Reads.get1 x j) (fun y =>
    Acts.set1 r (i * x.shape.size + j) (v * y)))))

/-! ### Function objects -/

theorem rangeMax_reads [LT α] [DecidableLT α] (x : Obj) : (rangeMax x : Prog α α).Reads (fun H => x.rangeMax H) :=
  Reads.bind (Reads.get1 x 0) (fun _ => Reads.forN (fun i _ => Reads.bind (Reads.get1 x (1 + i)) (fun _ => Reads.pure _)))

theorem expInto_acts [Sub α] (exp : α → Res α) (max : α) (r x : Obj) : (expInto exp max r x).Acts (fun H => r.expInto exp max H x) :=
  Acts.forU (fun i => Acts.read (Reads.get1 x i) (fun a => Acts.lift (fun e => Acts.set1 r i e)))

theorem normalise_acts [Zero α] [Add α] [Mul α] (recip : α → Res α) (r : Obj) : (normalise recip r).Acts (fun H => r.normalise recip H) :=
  Acts.read (Reads.forN (fun i _ => Reads.bind (Reads.get1 r i) (fun _ => Reads.pure _))) (fun den => Acts.lift (fun den => join_acts r den))

end Prog

theorem PAct.elementwise_obj (g g' : α → α) : (PAct.elementwise g g').obj = HAct.elementwise g g' := by
  unfold PAct.obj HAct.elementwise PAct.elementwise
  congr 1 <;> funext H r x <;> exact (Prog.apply_acts _ r x).exec H

theorem PAct.softmax_obj [Zero α] [_root_.One α] [Add α] [Sub α] [Mul α] [LT α] [DecidableLT α] (exp recip : α → Res α) :
    (PAct.softmax exp recip).obj = HAct.softmax exp recip := by
  unfold PAct.obj HAct.softmax PAct.softmax
  congr 1
  · funext H r x
    exact (Prog.Acts.read (Prog.rangeMax_reads x) (fun max => Prog.Acts.seq (Prog.expInto_acts exp max r x) (Prog.normalise_acts recip r))).exec H
  · funext H r x
    exact (Prog.fill_acts r 1).exec H

theorem ActKind.pobj_obj (k : ActKind) : k.pobj.obj = k.hobj := by cases k <;> exact PAct.elementwise_obj _ _

theorem softMaxPAct_obj : softMaxPAct.obj = softMaxHAct := PAct.softmax_obj _ _

theorem PLoss.elementwise_df (f : Heap α → Obj → Obj → Res α) (d : α → α → Res α) (r t p : Obj) : ((PLoss.elementwise f d).df r t p).Acts
    (fun H => forN r.shape.size H (fun i H => do
      let a ← t.get1 H i
      let b ← p.get1 H i
      let q ← d a b
      r.set1 H i q)) :=
  Prog.Acts.forU (fun i => Prog.Acts.read (Prog.Reads.get1 t i) (fun a => Prog.Acts.read (Prog.Reads.get1 p i) (fun b =>
    Prog.Acts.lift (fun q => Prog.Acts.set1 r i q))))

theorem PLosses.MSE_obj : PLosses.MSE.obj = HLosses.MSE := by
  unfold PLoss.obj PLosses.MSE
  show HLoss.mk _ _ = HLoss.mk _ _
  congr 1; funext H r t p; exact (PLoss.elementwise_df _ _ r t p).exec H
theorem PLosses.CCE_obj : PLosses.CCE.obj = HLosses.CCE := by
  unfold PLoss.obj PLosses.CCE
  show HLoss.mk _ _ = HLoss.mk _ _
  congr 1; funext H r t p; exact (PLoss.elementwise_df _ _ r t p).exec H
theorem PLosses.BCE_obj : PLosses.BCE.obj = HLosses.BCE := by
  unfold PLoss.obj PLosses.BCE
  show HLoss.mk _ _ = HLoss.mk _ _
  congr 1; funext H r t p; exact (PLoss.elementwise_df _ _ r t p).exec H
theorem PLosses.NLL_obj : PLosses.NLL.obj = HLosses.NLL := by
  unfold PLoss.obj PLosses.NLL
  show HLoss.mk _ _ = HLoss.mk _ _
  congr 1; funext H r t p; exact (PLoss.elementwise_df _ _ r t p).exec H
theorem PLosses.LC_obj : PLosses.LC.obj = HLosses.LC := by
  unfold PLoss.obj PLosses.LC
  show HLoss.mk _ _ = HLoss.mk _ _
  congr 1; funext H r t p; exact (PLoss.elementwise_df _ _ r t p).exec H
theorem PLosses.MAE_obj : PLosses.MAE.obj = HLosses.MAE := by
  unfold PLoss.obj PLosses.MAE
  show HLoss.mk _ _ = HLoss.mk _ _
  congr 1; funext H r t p
  exact (Prog.Acts.forU (fun i => Prog.Acts.read (Prog.Reads.get1 t i) (fun a => Prog.Acts.read (Prog.Reads.get1 p i) (fun b =>
    Prog.Acts.seq (Prog.Acts.set1 r i (a - b)) (Prog.Acts.read (Prog.Reads.get1 r i) (fun d =>
      Prog.Acts.set1 r i (if d < 0 then -1 else if d > 0 then 1 else 0))))))).exec H
theorem PLosses.MSLE_obj : PLosses.MSLE.obj = HLosses.MSLE := by
  unfold PLoss.obj PLosses.MSLE
  show HLoss.mk _ _ = HLoss.mk _ _
  congr 1; funext H r t p
  exact (Prog.Acts.forU (fun i => Prog.Acts.read (Prog.Reads.get1 p i) (fun b => Prog.Acts.seq (Prog.Acts.set1 r i (b + 1))
    (Prog.Acts.read (Prog.Reads.get1 r i) (fun d => Prog.Acts.read (Prog.Reads.get1 t i) (fun a => Prog.Acts.lift (fun q =>
      Prog.Acts.read (Prog.Reads.get1 r i) (fun d => Prog.Acts.lift (fun q => Prog.Acts.set1 r i q))))))))).exec H

theorem pgdUpdate_obj [Mul α] [Sub α] : PUpd.obj (pgdUpdate (α := α)) = hgdUpdate := by
  funext H lr p g
  show (Prog.join g lr >>= fun _ => Prog.assign (· - ·) p g >>= fun _ => pure lr).run H = _
  rw [Prog.run_bind, Prog.join_acts g lr H, bind_assoc]
  refine bind_congr (fun H' => ?_)
  show (Prog.assign (· - ·) p g >>= fun _ => pure lr).run H' = _
  rw [Prog.run_bind, Prog.assign_acts _ p g H', bind_assoc]
  rfl

theorem psgdUpdate_obj [Mul α] [Sub α] : PUpd.obj (psgdUpdate (α := α)) = hsgdUpdate := by
  funext H s p g
  show (Prog.join g s.lr >>= fun _ => Prog.join p s.alpha >>= fun _ => Prog.assign (· - ·) p g >>= fun _ => pure s).run H = _
  rw [Prog.run_bind, Prog.join_acts g s.lr H, bind_assoc]
  refine bind_congr (fun H' => ?_)
  show (Prog.join p s.alpha >>= fun _ => Prog.assign (· - ·) p g >>= fun _ => pure s).run H' = _
  rw [Prog.run_bind, Prog.join_acts p s.alpha H', bind_assoc]
  refine bind_congr (fun H' => ?_)
  show (Prog.assign (· - ·) p g >>= fun _ => pure s).run H' = _
  rw [Prog.run_bind, Prog.assign_acts _ p g H', bind_assoc]
  rfl

/-! ### Layers -/

section
variable [Zero α] [_root_.One α] [Add α] [Mul α] [DecidableEq α]

theorem HFC.forwardP_acts (l : HFC α) (a : PAct α) (x : Obj) : (l.forwardP a x).Acts (fun H => HFC.forward H x { l with act := a.obj }) :=
  Prog.Acts.seq (Prog.dotRow_acts l.buff x l.W) (Prog.Acts.seq (Prog.assign_acts (· + ·) l.buff l.B) (Prog.acts_exec _))

theorem HFC.backDeltaP_acts (full : Bool) (l : HFC α) (a : PAct α) : (l.backDeltaP full).Acts (fun H => HFC.backDelta full H { l with act := a.obj }) := by
  unfold HFC.backDeltaP HFC.backDelta
  cases full
  · exact Prog.Acts.ret
  · exact Prog.dotCol_acts l.delta l.W l.gradB

theorem HFC.backwardP_acts (l : HFC α) (a : PAct α) (x d : Obj) (full : Bool) :
    (l.backwardP a x d full).Acts (fun H => HFC.backward H x d full { l with act := a.obj }) :=
  Prog.Acts.seq (Prog.acts_exec _) (Prog.Acts.seq (Prog.assign_acts (· * ·) l.gradB d)
    (Prog.Acts.seq (Prog.tensordot_acts l.gradW x l.gradB) (l.backDeltaP_acts full a)))

theorem scaleUnlessOne_acts (alpha : α) (g : Obj) : (Prog.scaleUnlessOne alpha g).Acts (fun H => Obj.scaleUnlessOne alpha H g) := by
  unfold Prog.scaleUnlessOne Obj.scaleUnlessOne
  by_cases h : alpha ≠ 1
  · simp only [if_pos h]; exact Prog.join_acts g alpha
  · simp only [if_neg h]; exact Prog.Acts.ret

/-- After a write. -/
theorem Prog.Does.seq {p : Prog α Unit} {q : Prog α τ} {f : Heap α → Res (Heap α)} {g : Heap α → Res (Heap α × τ)} (hp : p.Acts f) (hq : q.Does g) :
    (p >>= fun _ => q).Does (fun H => f H >>= g) := by
  intro H
  rw [run_bind, hp H, bind_assoc]
  exact bind_congr (fun H' => hq H')

theorem Prog.Does.bind {p : Prog α β} {q : β → Prog α τ} {f : Heap α → Res (Heap α × β)} {g : Heap α × β → Res (Heap α × τ)} (hp : p.Does f)
    (hq : ∀ H b, (q b).run H = g (H, b)) : (p >>= q).Does (fun H => f H >>= g) := by
  intro H
  rw [run_bind, hp H]
  exact bind_congr (fun r => hq r.1 r.2)

theorem Prog.Does.lift {x : Res β} {q : β → Prog α τ} {g : β → Heap α → Res (Heap α × τ)} (hq : ∀ a, (q a).Does (g a)) :
    (Prog.lift x >>= q).Does (fun H => x >>= fun a => g a H) := by
  intro H
  rw [run_bind, run_lift, bind_assoc]
  exact bind_congr (fun a => hq a H)

theorem HFC.updateWithP_does (u : PUpd σ α) (s : σ) (alpha : α) (l : HFC α) (a : HAct α) (gB gW : Obj) :
    (l.updateWithP u s alpha gB gW).Does (fun H => HFC.updateWith u.obj H s alpha { l with act := a } gB gW) :=
  Prog.Does.seq (scaleUnlessOne_acts alpha gB) (Prog.Does.seq (scaleUnlessOne_acts alpha gW)
    (Prog.Does.bind (f := fun H => u.obj H s l.B gB) (g := fun r => u.obj r.1 r.2 l.W gW) (fun _ => rfl) (fun _ _ => rfl)))

theorem HFC.updateP_does (u : PUpd σ α) (s : σ) (alpha : α) (l : HFC α) (a : HAct α) :
    (l.updateP u s alpha).Does (fun H => HFC.update u.obj H s alpha { l with act := a }) := by
  intro H
  unfold HFC.updateP HFC.update
  dsimp only
  split
  · exact l.updateWithP_does u s alpha a _ _ H
  · exact l.updateWithP_does u s alpha a _ _ H

theorem HFC.resetP_run (l : HFC α) (a : HAct α) (H : Heap α) :
    HFC.reset H { l with act := a } = l.resetP.run H >>= fun r => .ok (r.1, { r.2 with act := a }) := by
  have h := (Prog.Acts.seq (Prog.fill_acts l.gradBs (0 : α)) (Prog.fill_acts l.gradWs 0)) H
  show (l.gradBs.fill H 0 >>= fun H => l.gradWs.fill H 0 >>= fun H => .ok (H, { { l with act := a } with accumulated := false })) = _
  show _ = (Prog.fill l.gradBs (0 : α) >>= fun _ => Prog.fill l.gradWs (0 : α) >>= fun _ => pure { l with accumulated := false }).run H >>= _
  rw [Prog.run_bind, Prog.fill_acts, bind_assoc, bind_assoc]
  refine bind_congr (fun H' => ?_)
  show _ = (Prog.fill l.gradWs (0 : α) >>= fun _ => pure { l with accumulated := false }).run H' >>= _
  rw [Prog.run_bind, Prog.fill_acts, bind_assoc, bind_assoc]
  rfl

theorem HFC.accumulateP_run (l : HFC α) (a : HAct α) (H : Heap α) :
    HFC.accumulate H { l with act := a } = l.accumulateP.run H >>= fun r => .ok (r.1, { r.2 with act := a }) := by
  show (l.gradBs.add H l.gradB >>= fun H => l.gradWs.add H l.gradW >>= fun H => .ok (H, { { l with act := a } with accumulated := true })) = _
  show _ = (Prog.assign (· + ·) l.gradBs l.gradB >>= fun _ => Prog.assign (· + ·) l.gradWs l.gradW >>= fun _ => pure { l with accumulated := true }).run H >>= _
  rw [Prog.run_bind, Prog.assign_acts, bind_assoc, bind_assoc]
  refine bind_congr (fun H' => ?_)
  show _ = (Prog.assign (· + ·) l.gradWs l.gradW >>= fun _ => pure { l with accumulated := true }).run H' >>= _
  rw [Prog.run_bind, Prog.assign_acts, bind_assoc, bind_assoc]
  rfl

theorem HRawFC.forwardP_acts (l : HRawFC α) (a : PAct α) (x : Obj) : (l.forwardP a x).Acts (fun H => HRawFC.forward H x { l with act := a.obj }) :=
  Prog.Acts.seq (Prog.dotRow_acts l.value x l.W) (Prog.Acts.seq (Prog.assign_acts (· + ·) l.value l.B) (Prog.acts_exec _))

/-! Convolution -/

omit [Zero α] [_root_.One α] [DecidableEq α] in
theorem hconvAccumP_reads (fd : Nat) (input W : Obj) (i0 j0 i j : Nat) (sum : α) :
    (hconvAccumP fd input W i0 j0 i j sum).Reads (fun H => hconvAccum fd H input W i0 j0 i j sum) :=
  Prog.Reads.forN (fun c _ => Prog.Reads.bind (Prog.Reads.get3 input c i0 j0) (fun _ => Prog.Reads.bind (Prog.Reads.get3 W c i j) (fun _ => Prog.Reads.pure _)))

theorem HConv.cellP_reads (l : HConv) (input W : Obj) (b : α) (y x : Nat) : (l.cellP input W b y x).Reads (fun H => l.cell H input W b y x) := by
  refine Prog.Reads.forN (fun i sum => Prog.Reads.forN (fun j sum => ?_))
  dsimp only
  split
  · exact Prog.Reads.ret sum
  · exact hconvAccumP_reads (α := α) _ _ _ _ _ _ _ _

theorem HConv.forwardP_acts (l : HConv) (x : Obj) : (l.forwardP x : Prog α Unit).Acts (fun H => HConv.forward H x l) :=
  Prog.Acts.forU (fun f => Prog.Acts.forU (fun y => Prog.Acts.forU (fun x' => Prog.Acts.read (Prog.Reads.get1 l.B f) (fun b =>
    Prog.Acts.lift (fun W => Prog.Acts.read (l.cellP_reads x W b y x') (fun sum => Prog.Acts.set3 l.value f y x' sum))))))

theorem HConv.spreadP_acts (l : HConv) (d : Obj) : (l.spreadP d : Prog α Unit).Acts (fun H => l.spread H d) :=
  Prog.Acts.forU (fun _ => Prog.Acts.forU (fun i => Prog.Acts.forU (fun j => Prog.Acts.read (Prog.Reads.get3 d _ i j) (fun a => Prog.Acts.set3 l.buff _ _ _ a))))

omit [Zero α] [_root_.One α] [DecidableEq α] in
theorem hconvGradChanP_acts (fd : Nat) (input : Obj) (dv : α) (i0 j0 i j : Nat) (G : Obj) :
    (hconvGradChanP fd input dv i0 j0 i j G).Acts (fun H => hconvGradChan fd input dv i0 j0 i j G H) :=
  Prog.Acts.forU (fun c => Prog.Acts.read (Prog.Reads.get3 G c i j) (fun _ => Prog.Acts.read (Prog.Reads.get3 input c i0 j0) (fun _ => Prog.Acts.set3 G c i j _)))

theorem HConv.gradCellP_acts (l : HConv) (input : Obj) (dv : α) (y x : Nat) (G : Obj) :
    (l.gradCellP input dv y x G).Acts (fun H => l.gradCell input dv y x G H) := by
  refine Prog.Acts.forU (fun i => Prog.Acts.forU (fun j => ?_))
  dsimp only
  split
  · exact Prog.Acts.ret
  · exact hconvGradChanP_acts (α := α) _ _ _ _ _ _ _ _

theorem HConv.gradsP_acts (l : HConv) (x : Obj) : (l.gradsP x : Prog α Unit).Acts (fun H => l.grads H x) :=
  Prog.Acts.forU (fun f => Prog.Acts.lift (fun G => Prog.Acts.forU (fun y => Prog.Acts.forU (fun x' => Prog.Acts.read (Prog.Reads.get3 l.buff f y x')
    (fun dv => Prog.Acts.seq (l.gradCellP_acts x dv y x' G) (Prog.Acts.read (Prog.Reads.get1 l.gradB f) (fun gb => Prog.Acts.set1 l.gradB f (gb + dv))))))))

omit [Zero α] [_root_.One α] [DecidableEq α] in
theorem HConv.deltaFiltersP_reads (l : HConv) (c i j i0 j0 : Nat) (sum : α) :
    (l.deltaFiltersP c i j i0 j0 sum).Reads (fun H => l.deltaFilters H c i j i0 j0 sum) :=
  Prog.Reads.forN (fun f _ => Prog.Reads.bind (Prog.Reads.lift (lget l.Ws f)) (fun W => Prog.Reads.bind (Prog.Reads.get3 W c _ _)
    (fun _ => Prog.Reads.bind (Prog.Reads.get3 l.buff f i0 j0) (fun _ => Prog.Reads.pure _))))

theorem HConv.deltaCellP_reads (l : HConv) (c y x : Nat) : (l.deltaCellP c y x : Prog α α).Reads (fun H => l.deltaCell H c y x) := by
  refine Prog.Reads.forN (fun i sum => Prog.Reads.forN (fun j sum => ?_))
  dsimp only
  split
  · exact Prog.Reads.ret sum
  · exact l.deltaFiltersP_reads (α := α) _ _ _ _ _ _

theorem HConv.deltasP_acts (l : HConv) : (l.deltasP : Prog α Unit).Acts (fun H => l.deltas H) :=
  Prog.Acts.forU (fun y => Prog.Acts.forU (fun x => Prog.Acts.forU (fun c => Prog.Acts.read (l.deltaCellP_reads c y x) (fun sum => Prog.Acts.set3 l.delta c y x sum))))

theorem HConv.backwardP_acts (l : HConv) (x d : Obj) (full : Bool) : (l.backwardP x d full : Prog α Unit).Acts (fun H => l.backward H x d full) :=
  Prog.Acts.seq (l.spreadP_acts d) (Prog.Acts.seq (l.gradsP_acts x) l.deltasP_acts)

theorem hconvScaleP_acts (alpha : α) (Gs : List Obj) : (hconvScaleP alpha Gs).Acts (fun H => hconvScale alpha H Gs) :=
  Prog.Acts.forU (fun _ => Prog.Acts.lift (fun G => Prog.join_acts G alpha))

theorem hconvUpdWP_does (u : PUpd σ α) (n : Nat) (s : σ) (Ws Gs : List Obj) :
    (hconvUpdWP u n s Ws Gs).Does (fun H => hconvUpdW u.obj n H s Ws Gs) := by
  intro H
  exact Prog.run_forN (fun f _ H s => (Prog.Does.lift (q := fun W => Prog.lift (lget Gs f) >>= fun G => u s W G)
    (g := fun W H => lget Gs f >>= fun G => u.obj H s W G) (fun W => Prog.Does.lift (fun G H => rfl))) H) H

theorem HConv.updateP_does (u : PUpd σ α) (s : σ) (alpha : α) (l : HConv) : (l.updateP u s alpha).Does (fun H => l.update u.obj H s alpha) :=
  Prog.Does.seq (hconvScaleP_acts alpha l.gradWs) (Prog.Does.seq (Prog.join_acts l.gradB alpha)
    (Prog.Does.bind (g := fun r => u.obj r.1 r.2 l.B l.gradB) (hconvUpdWP_does u l.Ws.length s l.Ws l.gradWs) (fun _ _ => rfl)))

/-! Pooling -/

theorem HPool.backwardP_acts (l : HPool α) (a : PAct α) (x d : Obj) (full : Bool) :
    (l.backwardP a x d full).Acts (fun H => HPool.backward H x d full { l with act := a.obj }) :=
  Prog.Acts.seq (Prog.acts_exec _) (Prog.Acts.seq (Prog.assign_acts (· * ·) l.buff d) (Prog.Acts.forU (fun _ => Prog.Acts.forU (fun i => Prog.Acts.forU (fun j =>
    Prog.Acts.read (Prog.Reads.get3 l.buff _ _ _) (fun _ => Prog.Acts.read (Prog.Reads.get3 l.mask _ i j) (fun _ => Prog.Acts.set3 l.delta _ i j _)))))))

variable [LT α] [DecidableLT α]

theorem hpoolScanP_reads (input : Obj) (sv sh d i j : Nat) : (hpoolScanP input sv sh d i j : Prog α α).Reads (fun H => hpoolScan H input sv sh d i j) :=
  Prog.Reads.bind (Prog.Reads.get3 input d i j) (fun _ => Prog.Reads.forN (fun a _ => Prog.Reads.forN (fun b _ =>
    Prog.Reads.bind (Prog.Reads.get3 input d (i + a) (j + b)) (fun _ => Prog.Reads.pure _))))

theorem HPool.forwardRawP_acts (l : HPool α) (a : PAct α) (x : Obj) : (l.forwardRawP a x).Acts (fun H => HPool.forwardRaw H x { l with act := a.obj }) :=
  Prog.Acts.seq (Prog.Acts.forU (fun _ => Prog.Acts.forU (fun _ => Prog.Acts.forU (fun _ => Prog.Acts.read (hpoolScanP_reads x l.sv l.sh _ _ _)
    (fun m => Prog.Acts.set3 l.value _ _ _ m))))) (Prog.acts_exec _)

/-- The scan of the two models. -/
def PScan.at (H : Heap α) (s : PScan α) : HScan α := ⟨H, s.max, s.imax, s.jmax⟩

theorem PScan.better_at (H H' : Heap α) (s : PScan α) (v : α) (y x : Nat) : (s.at H).better H' v y x = (s.better v y x).at H' := by
  unfold HScan.better PScan.better PScan.at
  dsimp only
  split <;> rfl

theorem hpoolScanTP_run (input mask : Obj) (sv sh d i j : Nat) (H : Heap α) :
    hpoolScanT H input mask sv sh d i j = (hpoolScanTP input mask sv sh d i j).run H >>= fun r => .ok (r.2.at r.1) := by
  unfold hpoolScanT hpoolScanTP
  rw [Prog.run_bind, Prog.Reads.get3 input d i j H, bind_assoc, bind_assoc]
  refine bind_congr (fun m => ?_)
  refine Prog.run_forN_at (s := ⟨m, i, j⟩) (fun H s => PScan.at H s) (fun a _ H s => ?_) H
  refine Prog.run_forN_at (fun H s => PScan.at H s) (fun b _ H s => ?_) H
  rw [Prog.run_bind, Prog.Reads.get3 input d (i + a) (j + b) H, bind_assoc, bind_assoc]
  refine bind_congr (fun v => ?_)
  show _ = (Prog.set3 mask d (i + a) (j + b) 0 >>= fun _ => pure (s.better v (i + a) (j + b))).run H >>= _
  rw [Prog.run_bind, Prog.Acts.set3 mask d (i + a) (j + b) 0 H, bind_assoc, bind_assoc]
  refine bind_congr (fun H' => ?_)
  show Except.ok _ = Except.ok _
  rw [PScan.better_at]

theorem HPool.scanAllP_acts (l : HPool α) (a : HAct α) (x : Obj) : (l.scanAllP x).Acts (fun H => HPool.scanAll H x { l with act := a }) := by
  refine Prog.Acts.forU (fun d => Prog.Acts.forU (fun p => Prog.Acts.forU (fun q => ?_)))
  intro H
  dsimp only
  rw [hpoolScanTP_run, Prog.run_bind, bind_assoc, bind_assoc]
  refine bind_congr (fun r => ?_)
  exact Prog.Acts.seq (Prog.Acts.set3 l.value d _ _ r.2.max) (Prog.Acts.set3 l.mask d r.2.imax r.2.jmax 1) r.1

theorem HPool.forwardP_acts (l : HPool α) (a : PAct α) (x : Obj) : (l.forwardP a x).Acts (fun H => HPool.forward H x { l with act := a.obj }) :=
  Prog.Acts.seq (Prog.fill_acts l.mask 0) (Prog.Acts.seq (l.scanAllP_acts a.obj x) (Prog.acts_exec _))

/-! ### Networks -/

theorem PLayer.value_obj (l : PLayer α) : l.obj.value = l.value := by cases l <;> rfl
theorem PLayer.delta_obj (l : PLayer α) : l.obj.delta = l.delta := by cases l <;> rfl

theorem PLayer.forward_acts (l : PLayer α) (x : Obj) : (l.forward x).Acts (fun H => HLayer.forward H x l.obj) := by
  cases l with
  | fc l a => exact l.forwardP_acts a x
  | conv l => exact l.forwardP_acts x
  | pool l a => exact l.forwardP_acts a x
  | rawFC l a => exact l.forwardP_acts a x
  | rawConv l => exact l.forwardP_acts x
  | rawPool l a => exact l.forwardRawP_acts a x

theorem PLayer.backward_acts (l : PLayer α) (x d : Obj) (full : Bool) : (l.backward x d full).Acts (fun H => HLayer.backward H x d full l.obj) := by
  cases l with
  | fc l a => exact l.backwardP_acts a x d full
  | conv l => exact l.backwardP_acts x d full
  | pool l a => exact l.backwardP_acts a x d full
  | _ => exact Prog.Acts.ub

theorem PLayer.update_does (u : PUpd σ α) (s : σ) (alpha : α) (l : PLayer α) : (l.update u s alpha).Does (fun H => HLayer.update u.obj H s alpha l.obj) := by
  cases l with
  | fc l a => exact l.updateP_does u s alpha a.obj
  | conv l => exact l.updateP_does u s alpha
  | pool l a => exact fun _ => rfl
  | _ => exact fun _ => rfl

theorem PLayer.reset_run (l : PLayer α) (H : Heap α) : HLayer.reset H l.obj = l.reset.run H >>= fun r => .ok (r.1, r.2.obj) := by
  cases l with
  | fc l a =>
    show (HFC.reset H { l with act := a.obj } >>= fun r => .ok (r.1, HLayer.fc r.2)) = (l.resetP >>= fun l => pure (PLayer.fc l a)).run H >>= _
    rw [HFC.resetP_run, Prog.run_bind, bind_assoc, bind_assoc]
    rfl
  | _ => rfl

theorem PLayer.accumulate_run (l : PLayer α) (H : Heap α) : HLayer.accumulate H l.obj = l.accumulate.run H >>= fun r => .ok (r.1, r.2.obj) := by
  cases l with
  | fc l a =>
    show (HFC.accumulate H { l with act := a.obj } >>= fun r => .ok (r.1, HLayer.fc r.2)) = (l.accumulateP >>= fun l => pure (PLayer.fc l a)).run H >>= _
    rw [HFC.accumulateP_run, Prog.run_bind, bind_assoc, bind_assoc]
    rfl
  | _ => rfl

theorem lget_obj (net : PNet α) (i : Nat) : lget net.obj i = lget net i >>= fun l => .ok l.obj := by
  unfold lget PNet.obj
  rw [List.getElem?_map]
  cases net[i]? <;> rfl

theorem lset_obj (net : PNet α) (i : Nat) (l : PLayer α) : lset net.obj i l.obj = lset net i l >>= fun n => .ok (PNet.obj n) := by
  unfold lset PNet.obj
  rw [List.length_map]
  split
  · exact congrArg Except.ok (List.map_set ..).symm
  · rfl

theorem PNet.obj_length (net : PNet α) : net.obj.length = net.length := List.length_map ..

theorem PNet.step_acts (net : PNet α) (i : Nat) : (net.step i).Acts (fun H => HNet.step net.obj i H) := by
  unfold HNet.step
  simp only [lget_obj, bind_assoc, bind_ok, PLayer.value_obj]
  exact Prog.Acts.lift (fun p => Prog.Acts.lift (fun l => l.forward_acts p.value))

theorem PNet.feedforward_does (net : PNet α) (x : Obj) : (net.feedforward x).Does (fun H => HNet.feedforward net.obj H x) := by
  unfold HNet.feedforward
  simp only [lget_obj, bind_assoc, bind_ok, PLayer.value_obj, PNet.obj_length]
  refine Prog.Does.lift (fun l => Prog.Does.seq (l.forward_acts x) (Prog.Does.seq (Prog.Acts.forU (fun i => net.step_acts (1 + i))) ?_))
  exact Prog.Does.lift (q := fun l : PLayer α => pure l.value) (g := fun l H => .ok (H, l.value)) (fun l H => rfl)

theorem PNet.backStep_acts (net : PNet α) (i : Nat) : (net.backStep i).Acts (fun H => HNet.backStep net.obj i H) := by
  unfold HNet.backStep
  simp only [lget_obj, bind_assoc, bind_ok, PLayer.value_obj, PLayer.delta_obj]
  exact Prog.Acts.lift (fun p => Prog.Acts.lift (fun n => Prog.Acts.lift (fun d => Prog.Acts.lift (fun l => l.backward_acts p.value d true))))

theorem PNet.backprop_acts (net : PNet α) (x d : Obj) : (net.backprop x d).Acts (fun H => HNet.backprop net.obj H x d) := by
  unfold HNet.backprop
  dsimp only
  simp only [lget_obj, bind_assoc, bind_ok, PLayer.value_obj, PLayer.delta_obj, PNet.obj_length]
  exact Prog.Acts.lift (fun l => Prog.Acts.lift (fun p => Prog.Acts.seq (l.backward_acts p.value d true)
    (Prog.Acts.seq (Prog.Acts.forU (fun k => net.backStep_acts _))
      (Prog.Acts.lift (fun l => Prog.Acts.lift (fun n => Prog.Acts.lift (fun d => l.backward_acts x d false)))))))

theorem PNet.updating_does (u : PUpd σ α) (alpha : α) (net : PNet α) (s : σ) :
    (net.updating u alpha s).Does (fun H => HNet.updating u.obj alpha net.obj H s) := by
  intro H
  unfold HNet.updating
  rw [PNet.obj_length]
  refine Prog.run_forN (fun i _ H s => ?_) H
  rw [lget_obj, bind_assoc]
  exact (Prog.Does.lift (q := fun l => PLayer.update u s alpha l) (fun l => l.update_does u s alpha)) H

theorem PNet.reseting_run (net : PNet α) (H : Heap α) : HNet.reseting net.obj H = net.reseting.run H >>= fun r => .ok (r.1, PNet.obj r.2) := by
  unfold HNet.reseting
  rw [PNet.obj_length]
  refine Prog.run_forN_at (fun H (n : PNet α) => (H, PNet.obj n)) (fun i _ H n => ?_) H
  dsimp only
  rw [lget_obj, bind_assoc, Prog.run_bind, Prog.run_lift, bind_assoc, bind_assoc]
  refine bind_congr (fun l => ?_)
  rw [bind_ok, bind_ok, PLayer.reset_run, Prog.run_bind, bind_assoc, bind_assoc]
  refine bind_congr (fun r => ?_)
  rw [bind_ok, Prog.run_lift]
  dsimp only
  rw [lset_obj, bind_assoc, bind_assoc]
  rfl

theorem PNet.accumulating_run (net : PNet α) (H : Heap α) : HNet.accumulating net.obj H = net.accumulating.run H >>= fun r => .ok (r.1, PNet.obj r.2) := by
  unfold HNet.accumulating
  rw [PNet.obj_length]
  refine Prog.run_forN_at (fun H (n : PNet α) => (H, PNet.obj n)) (fun i _ H n => ?_) H
  dsimp only
  rw [lget_obj, bind_assoc, Prog.run_bind, Prog.run_lift, bind_assoc, bind_assoc]
  refine bind_congr (fun l => ?_)
  rw [bind_ok, bind_ok, PLayer.accumulate_run, Prog.run_bind, bind_assoc, bind_assoc]
  refine bind_congr (fun r => ?_)
  rw [bind_ok, Prog.run_lift]
  dsimp only
  rw [lset_obj, bind_assoc, bind_assoc]
  rfl

end
end Trixy
