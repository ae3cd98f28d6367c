import Verif.Proof.ThreadTrain
/- Which allocations the programs access. -/
namespace Trixy
set_option linter.unusedSectionVars false

variable {α β γ ρ σ τ : Type}

namespace Prog

/-- `Within`, and every result the program may return satisfies `Q`. -/
def Safe (R W : Nat → Prop) (Q : β → Prop) : Prog α β → Prop
  | .ret b => Q b
  | .ub _ => True
  | .load p _ k => (∀ b o, p = .at b o → R b ∨ W b) ∧ ∀ a, (k a).Safe R W Q
  | .store p _ _ k => (∀ b o, p = .at b o → W b) ∧ k.Safe R W Q

variable {R W R' W' : Nat → Prop} {Q : β → Prop}

theorem Safe.within {p : Prog α β} (h : p.Safe R W Q) : p.Within R W := by
  induction p with
  | ret b => trivial
  | ub u => trivial
  | load p i k ih => exact ⟨h.1, fun a => ih a (h.2 a)⟩
  | store p i a k ih => exact ⟨h.1, ih h.2⟩

theorem Within.safe {p : Prog α β} (h : p.Within R W) : p.Safe R W (fun _ => True) := by
  induction p with
  | ret b => trivial
  | ub u => trivial
  | load p i k ih => exact ⟨h.1, fun a => ih a (h.2 a)⟩
  | store p i a k ih => exact ⟨h.1, ih h.2⟩

theorem Within.mono {p : Prog α β} (h : p.Within R W) (hR : ∀ b, R b → R' b ∨ W' b) (hW : ∀ b, W b → W' b) : p.Within R' W' := by
  induction p with
  | ret b => trivial
  | ub u => trivial
  | load p i k ih => exact ⟨fun b o e => (h.1 b o e).elim (hR b) (fun hw => Or.inr (hW b hw)), fun a => ih a (h.2 a)⟩
  | store p i a k ih => exact ⟨fun b o e => hW b (h.1 b o e), ih h.2⟩

theorem Safe.bind {p : Prog α β} {q : β → Prog α τ} {Q' : τ → Prop} (hp : p.Safe R W Q) (hq : ∀ b, Q b → (q b).Safe R W Q') :
    (p >>= q).Safe R W Q' := by
  rw [bind_eq]
  induction p with
  | ret b => exact hq b hp
  | ub u => trivial
  | load p i k ih => exact ⟨hp.1, fun a => ih a (hp.2 a)⟩
  | store p i a k ih => exact ⟨hp.1, ih hp.2⟩

theorem Within.then {p : Prog α β} {q : β → Prog α τ} {Q' : τ → Prop} (hp : p.Within R W) (hq : ∀ b, (q b).Safe R W Q') :
    (p >>= q).Safe R W Q' := hp.safe.bind (fun b _ => hq b)

theorem Within.bind {p : Prog α β} {q : β → Prog α τ} (hp : p.Within R W) (hq : ∀ b, (q b).Within R W) : (p >>= q).Within R W :=
  (hp.then (fun b => (hq b).safe)).within

theorem Within.pure (b : β) : (Pure.pure b : Prog α β).Within R W := trivial

theorem Within.lift (x : Res β) : (Prog.lift x : Prog α β).Within R W := by cases x <;> trivial

theorem Safe.lift {x : Res β} (h : ∀ b, x = .ok b → Q b) : (Prog.lift x : Prog α β).Safe R W Q := by
  cases x with
  | ok b => exact h b rfl
  | error u => trivial

theorem Safe.forN {n : Nat} {s : β} {body : Nat → β → Prog α β} (h0 : Q s) (h : ∀ i s, Q s → (body i s).Safe R W Q) :
    (Prog.forN n s body).Safe R W Q := by
  induction n with
  | zero => exact h0
  | succ n ih => exact ih.bind (fun s hs => h n s hs)

theorem Within.forN {n : Nat} {s : β} {body : Nat → β → Prog α β} (h : ∀ i s, (body i s).Within R W) : (Prog.forN n s body).Within R W :=
  (Safe.forN (Q := fun _ => True) trivial (fun i s _ => (h i s).safe)).within

theorem Within.forU {n : Nat} {body : Nat → Prog α Unit} (h : ∀ i, (body i).Within R W) : (Prog.forU n body).Within R W :=
  Within.forN (fun i _ => h i)

/-- The object may be read. -/
def In (R W : Nat → Prop) (o : Obj) : Prop := ∀ b, o.Blk b → R b ∨ W b
/-- The object may be written. -/
def Out (W : Nat → Prop) (o : Obj) : Prop := ∀ b, o.Blk b → W b

theorem Out.in {o : Obj} (h : Out W o) : In R W o := fun b hb => Or.inr (h b hb)

theorem Within.get1 {a : Obj} (h : In R W a) (i : Nat) : (Prog.get1 a i : Prog α α).Within R W := ⟨fun b o e => h b ⟨o, e⟩, fun _ => trivial⟩
theorem Within.get2 {a : Obj} (h : In R W a) (i j : Nat) : (Prog.get2 a i j : Prog α α).Within R W := ⟨fun b o e => h b ⟨o, e⟩, fun _ => trivial⟩
theorem Within.get3 {a : Obj} (h : In R W a) (i j k : Nat) : (Prog.get3 a i j k : Prog α α).Within R W := ⟨fun b o e => h b ⟨o, e⟩, fun _ => trivial⟩
theorem Within.set1 {a : Obj} (h : Out W a) (i : Nat) (v : α) : (Prog.set1 a i v).Within R W := ⟨fun b o e => h b ⟨o, e⟩, trivial⟩
theorem Within.set3 {a : Obj} (h : Out W a) (i j k : Nat) (v : α) : (Prog.set3 a i j k v).Within R W := ⟨fun b o e => h b ⟨o, e⟩, trivial⟩

variable {a r x m c : Obj}

theorem Within.fill (h : Out W a) (v : α) : (Prog.fill a v).Within R W := Within.forU (fun i => Within.set1 h i v)

theorem Within.assign (op : α → α → α) (h : Out W a) (hr : In R W r) : (Prog.assign op a r).Within R W :=
  Within.forU (fun i => (Within.get1 h.in i).bind (fun _ => (Within.get1 hr i).bind (fun _ => Within.set1 h i _)))

theorem Within.join [Mul α] (h : Out W a) (v : α) : (Prog.join a v).Within R W :=
  Within.forU (fun i => (Within.get1 h.in i).bind (fun _ => Within.set1 h i _))

theorem Within.apply (f : α → α) (h : Out W a) (hr : In R W r) : (Prog.apply f a r).Within R W :=
  Within.forU (fun i => (Within.get1 hr i).bind (fun _ => Within.set1 h i _))

theorem Within.dotRow [Zero α] [Add α] [Mul α] (hr : Out W r) (hx : In R W x) (hm : In R W m) : (Prog.dotRow r x m : Prog α Unit).Within R W :=
  (Within.fill hr 0).bind (fun _ => Within.forU (fun i => (Within.get1 hx i).bind (fun _ => Within.forU (fun j =>
    (Within.get1 hr.in j).bind (fun _ => (Within.get2 hm i j).bind (fun _ => Within.set1 hr j _))))))

theorem Within.dotCol [Zero α] [Add α] [Mul α] (hr : Out W r) (hm : In R W m) (hx : In R W x) : (Prog.dotCol r m x : Prog α Unit).Within R W :=
  (Within.fill hr 0).bind (fun _ => Within.forU (fun i => Within.forU (fun j => (Within.get1 hr.in i).bind (fun _ =>
    (Within.get2 hm i j).bind (fun _ => (Within.get1 hx j).bind (fun _ => Within.set1 hr i _))))))

theorem Within.tensordot [Mul α] (hr : Out W r) (hc : In R W c) (hx : In R W x) : (Prog.tensordot r c x : Prog α Unit).Within R W :=
  Within.forU (fun i => (Within.get1 hc i).bind (fun _ => Within.forU (fun j => (Within.get1 hx j).bind (fun _ => Within.set1 hr _ _))))

end Prog

open Prog

/-! ### Function objects -/

theorem PAct.elementwise_local (g g' : α → α) : (PAct.elementwise g g').Local :=
  fun _ _ => ⟨Within.apply g (fun _ h => h) (fun _ h => Or.inl h), Within.apply g' (fun _ h => h) (fun _ h => Or.inl h)⟩

theorem PAct.softmax_local [Zero α] [_root_.One α] [Add α] [Sub α] [Mul α] [LT α] [DecidableLT α] (exp recip : α → Res α) :
    (PAct.softmax exp recip).Local := by
  intro r x
  have hx : In x.Blk r.Blk x := fun _ h => Or.inl h
  have hr : Out r.Blk r := fun _ h => h
  refine ⟨?_, Within.fill hr 1⟩
  refine Within.bind (Within.bind (Within.get1 hx 0) (fun _ => Within.forN (fun i _ => (Within.get1 hx _).bind (fun _ => Within.pure _)))) (fun max => ?_)
  refine Within.bind (Within.forU (fun i => (Within.get1 hx i).bind (fun _ => (Within.lift _).bind (fun _ => Within.set1 hr i _)))) (fun _ => ?_)
  exact Within.bind (Within.forN (fun i _ => (Within.get1 hr.in i).bind (fun _ => Within.pure _))) (fun _ => (Within.lift _).bind (fun _ => Within.join hr _))

theorem ActKind.pobj_local (k : ActKind) : k.pobj.Local := by cases k <;> exact PAct.elementwise_local _ _

theorem softMaxPAct_local : softMaxPAct.Local := PAct.softmax_local _ _

theorem PLoss.elementwise_local (f : Heap α → Obj → Obj → Res α) (d : α → α → Res α) : (PLoss.elementwise f d).Local := fun r t p =>
  Within.forU (fun i => (Within.get1 (fun _ h => Or.inl (Or.inl h)) i).bind (fun _ => (Within.get1 (fun _ h => Or.inl (Or.inr h)) i).bind (fun _ =>
    (Within.lift _).bind (fun _ => Within.set1 (fun _ h => h) i _))))

theorem PLosses.MAE_local : PLosses.MAE.Local := fun r t p =>
  Within.forU (fun i => (Within.get1 (fun _ h => Or.inl (Or.inl h)) i).bind (fun _ => (Within.get1 (fun _ h => Or.inl (Or.inr h)) i).bind (fun _ =>
    (Within.set1 (fun _ h => h) i _).bind (fun _ => (Within.get1 (fun _ h => Or.inr h) i).bind (fun _ => Within.set1 (fun _ h => h) i _)))))

theorem PLosses.MSLE_local : PLosses.MSLE.Local := fun r t p =>
  Within.forU (fun i => (Within.get1 (fun _ h => Or.inl (Or.inr h)) i).bind (fun _ => (Within.set1 (fun _ h => h) i _).bind (fun _ =>
    (Within.get1 (fun _ h => Or.inr h) i).bind (fun _ => (Within.get1 (fun _ h => Or.inl (Or.inl h)) i).bind (fun _ => (Within.lift _).bind (fun _ =>
      (Within.get1 (fun _ h => Or.inr h) i).bind (fun _ => (Within.lift _).bind (fun _ => Within.set1 (fun _ h => h) i _))))))))

theorem pgdUpdate_local [Mul α] [Sub α] : PUpd.Local (pgdUpdate (α := α)) := fun _ p g =>
  (Within.join (fun _ h => Or.inr h) _).bind (fun _ => (Within.assign _ (fun _ h => Or.inl h) (fun _ h => Or.inr (Or.inr h))).bind (fun _ => Within.pure _))

theorem psgdUpdate_local [Mul α] [Sub α] : PUpd.Local (psgdUpdate (α := α)) := fun _ p g =>
  (Within.join (fun _ h => Or.inr h) _).bind (fun _ => (Within.join (fun _ h => Or.inl h) _).bind (fun _ =>
    (Within.assign _ (fun _ h => Or.inl h) (fun _ h => Or.inr (Or.inr h))).bind (fun _ => Within.pure _)))

/-! ### Layers -/

section
variable {R W : Nat → Prop}

theorem PAct.Local.f {a : PAct α} (h : a.Local) {r x : Obj} (hr : Out W r) (hx : In R W x) : (a.f r x).Within R W := (h r x).1.mono hx hr
theorem PAct.Local.df {a : PAct α} (h : a.Local) {r x : Obj} (hr : Out W r) (hx : In R W x) : (a.df r x).Within R W := (h r x).2.mono hx hr
theorem PUpd.Local.at {u : PUpd σ α} (h : u.Local) {p g : Obj} (hp : Out W p) (hg : Out W g) (s : σ) : (u s p g).Within R W :=
  (h s p g).mono (fun _ hf => hf.elim) (fun b hb => hb.elim (hp b) (hg b))

/-- All tensors of the layer may be written. -/
def PLayer.Out (W : Nat → Prop) (l : PLayer α) : Prop := ∀ o ∈ l.obj.objs, Prog.Out W o

variable [Zero α] [_root_.One α] [Add α] [Mul α] [DecidableEq α]

theorem HFC.forwardP_within {l : HFC α} {a : PAct α} {x : Obj} (ha : a.Local) (h : ∀ o ∈ l.objs, Prog.Out W o) (hx : In R W x) : (l.forwardP a x).Within R W := by
  have h2 : Prog.Out W l.W := h _ (by simp [HFC.objs])
  have h1 : Prog.Out W l.B := h _ (by simp [HFC.objs])
  have h3 : Prog.Out W l.value := h _ (by simp [HFC.objs])
  have h4 : Prog.Out W l.buff := h _ (by simp [HFC.objs])
  exact (Within.dotRow h4 hx h2.in).bind (fun _ => (Within.assign _ h4 h1.in).bind (fun _ => ha.f h3 h4.in))

theorem HFC.backwardP_within {l : HFC α} {a : PAct α} {x d : Obj} (full : Bool) (ha : a.Local) (h : ∀ o ∈ l.objs, Prog.Out W o) (hx : In R W x) (hd : In R W d) :
    (l.backwardP a x d full).Within R W := by
  have h2 : Prog.Out W l.W := h _ (by simp [HFC.objs])
  have h4 : Prog.Out W l.buff := h _ (by simp [HFC.objs])
  have h5 : Prog.Out W l.gradB := h _ (by simp [HFC.objs])
  have h6 : Prog.Out W l.gradW := h _ (by simp [HFC.objs])
  have h7 : Prog.Out W l.delta := h _ (by simp [HFC.objs])
  refine (ha.df h5 h4.in).bind (fun _ => (Within.assign _ h5 hd).bind (fun _ => (Within.tensordot h6 hx h5.in).bind (fun _ => ?_)))
  unfold HFC.backDeltaP
  cases full
  · trivial
  · exact Within.dotCol h7 h2.in h5.in

theorem scaleUnlessOne_within {alpha : α} {g : Obj} (h : Prog.Out W g) : (Prog.scaleUnlessOne alpha g).Within R W := by
  unfold Prog.scaleUnlessOne
  split
  · exact Within.join h _
  · trivial

theorem HFC.updateWithP_within {u : PUpd σ α} (hu : u.Local) (s : σ) (alpha : α) {l : HFC α} {gB gW : Obj} (h1 : Prog.Out W l.B) (h2 : Prog.Out W l.W)
    (h3 : Prog.Out W gB) (h4 : Prog.Out W gW) : (l.updateWithP u s alpha gB gW).Within R W :=
  (scaleUnlessOne_within h3).bind (fun _ => (scaleUnlessOne_within h4).bind (fun _ => (hu.at h1 h3 s).bind (fun s => hu.at h2 h4 s)))

theorem HFC.updateP_within {u : PUpd σ α} (hu : u.Local) (s : σ) (alpha : α) {l : HFC α} (h : ∀ o ∈ l.objs, Prog.Out W o) :
    (l.updateP u s alpha).Within R W := by
  unfold HFC.updateP
  split <;> exact HFC.updateWithP_within hu s alpha (h _ (by simp [HFC.objs])) (h _ (by simp [HFC.objs])) (h _ (by simp [HFC.objs])) (h _ (by simp [HFC.objs]))

theorem HRawFC.forwardP_within {l : HRawFC α} {a : PAct α} {x : Obj} (ha : a.Local) (h : ∀ o ∈ l.objs, Prog.Out W o) (hx : In R W x) : (l.forwardP a x).Within R W := by
  have h2 : Prog.Out W l.W := h _ (by simp [HRawFC.objs])
  have h1 : Prog.Out W l.B := h _ (by simp [HRawFC.objs])
  have h3 : Prog.Out W l.value := h _ (by simp [HRawFC.objs])
  exact (Within.dotRow h3 hx h2.in).bind (fun _ => (Within.assign _ h3 h1.in).bind (fun _ => ha.f h3 h3.in))

theorem lget_mem {l : List β} {i : Nat} {b : β} (e : lget l i = .ok b) : b ∈ l := by
  unfold lget at e
  split at e
  · cases e
  · rename_i h; cases e; exact List.mem_of_getElem? h

theorem Prog.Within.lget {l : List β} {i : Nat} {q : β → Prog α τ} (h : ∀ b ∈ l, (q b).Within R W) : (Prog.lift (lget l i) >>= q).Within R W :=
  ((Prog.Safe.lift (Q := fun b => b ∈ l) (fun _ e => lget_mem e)).bind (fun b hb => (h b hb).safe)).within

theorem HConv.forwardP_within {l : HConv} {x : Obj} (h : ∀ o ∈ l.rawObjs, Prog.Out W o) (hx : In R W x) : (l.forwardP x : Prog α Unit).Within R W := by
  have h1 : Prog.Out W l.B := h _ (by simp [HConv.rawObjs])
  have h2 : Prog.Out W l.value := h _ (by simp [HConv.rawObjs])
  refine Within.forU (fun f => Within.forU (fun y => Within.forU (fun z => (Within.get1 h1.in f).bind (fun b => Within.lget (fun w hw => ?_)))))
  have h3 : Prog.Out W w := h w (List.mem_append_right _ hw)
  refine Within.bind ?_ (fun _ => Within.set3 h2 _ _ _ _)
  refine Within.forN (fun i s => Within.forN (fun j s => ?_))
  dsimp only
  split
  · trivial
  · exact Within.forN (fun c s => (Within.get3 hx _ _ _).bind (fun _ => (Within.get3 h3.in _ _ _).bind (fun _ => Within.pure _)))

theorem HConv.backwardP_within {l : HConv} {x d : Obj} (full : Bool) (h : ∀ o ∈ l.objs, Prog.Out W o) (hx : In R W x) (hd : In R W d) :
    (l.backwardP x d full : Prog α Unit).Within R W := by
  have h3 : Prog.Out W l.gradB := h _ (by simp [HConv.objs])
  have h4 : Prog.Out W l.delta := h _ (by simp [HConv.objs])
  have h5 : Prog.Out W l.buff := h _ (by simp [HConv.objs])
  refine Within.bind ?_ (fun _ => Within.bind ?_ (fun _ => ?_))
  · exact Within.forU (fun _ => Within.forU (fun i => Within.forU (fun j => (Within.get3 hd _ _ _).bind (fun _ => Within.set3 h5 _ _ _ _))))
  · refine Within.forU (fun f => Within.lget (fun G hG => ?_))
    have h6 : Prog.Out W G := h G (by simp [HConv.objs, hG])
    refine Within.forU (fun y => Within.forU (fun z => (Within.get3 h5.in _ _ _).bind (fun dv => Within.bind ?_ (fun _ =>
      (Within.get1 h3.in _).bind (fun _ => Within.set1 h3 _ _)))))
    refine Within.forU (fun i => Within.forU (fun j => ?_))
    dsimp only
    split
    · trivial
    · exact Within.forU (fun c => (Within.get3 h6.in _ _ _).bind (fun _ => (Within.get3 hx _ _ _).bind (fun _ => Within.set3 h6 _ _ _ _)))
  · refine Within.forU (fun y => Within.forU (fun z => Within.forU (fun c => Within.bind ?_ (fun _ => Within.set3 h4 _ _ _ _))))
    refine Within.forN (fun i s => Within.forN (fun j s => ?_))
    dsimp only
    split
    · trivial
    · refine Within.forN (fun f s => Within.lget (fun w hw => ?_))
      have h6 : Prog.Out W w := h w (by simp [HConv.objs, hw])
      exact (Within.get3 h6.in _ _ _).bind (fun _ => (Within.get3 h5.in _ _ _).bind (fun _ => Within.pure _))

theorem HConv.updateP_within {u : PUpd σ α} (hu : u.Local) (s : σ) (alpha : α) {l : HConv} (h : ∀ o ∈ l.objs, Prog.Out W o) :
    (l.updateP u s alpha).Within R W := by
  have h1 : Prog.Out W l.B := h _ (by simp [HConv.objs])
  have h3 : Prog.Out W l.gradB := h _ (by simp [HConv.objs])
  refine Within.bind (Within.forU (fun f => Within.lget (fun G hG => Within.join (h G (by simp [HConv.objs, hG])) _))) (fun _ =>
    (Within.join h3 _).bind (fun _ => Within.bind (Within.forN (fun f s => Within.lget (fun w hw => Within.lget (fun G hG => ?_)))) (fun s => hu.at h1 h3 s)))
  exact hu.at (h w (by simp [HConv.objs, hw])) (h G (by simp [HConv.objs, hG])) s

theorem HPool.backwardP_within {l : HPool α} {a : PAct α} {x d : Obj} (full : Bool) (ha : a.Local) (h : ∀ o ∈ l.objs, Prog.Out W o) (hd : In R W d) :
    (l.backwardP a x d full).Within R W := by
  have h2 : Prog.Out W l.buff := h _ (by simp [HPool.objs])
  have h3 : Prog.Out W l.mask := h _ (by simp [HPool.objs])
  have h4 : Prog.Out W l.delta := h _ (by simp [HPool.objs])
  exact (ha.df h2 h2.in).bind (fun _ => (Within.assign _ h2 hd).bind (fun _ => Within.forU (fun _ => Within.forU (fun i => Within.forU (fun j =>
    (Within.get3 h2.in _ _ _).bind (fun _ => (Within.get3 h3.in _ _ _).bind (fun _ => Within.set3 h4 _ _ _ _)))))))

variable [LT α] [DecidableLT α]

theorem HPool.forwardRawP_within {l : HPool α} {a : PAct α} {x : Obj} (ha : a.Local) (h : ∀ o ∈ l.rawObjs, Prog.Out W o) (hx : In R W x) :
    (l.forwardRawP a x).Within R W := by
  have h1 : Prog.Out W l.value := h _ (by simp [HPool.rawObjs])
  refine Within.bind (Within.forU (fun _ => Within.forU (fun p => Within.forU (fun q => Within.bind ?_ (fun _ => Within.set3 h1 _ _ _ _))))) (fun _ => ha.f h1 h1.in)
  exact (Within.get3 hx _ _ _).bind (fun _ => Within.forN (fun _ _ => Within.forN (fun _ _ => (Within.get3 hx _ _ _).bind (fun _ => Within.pure _))))

theorem HPool.forwardP_within {l : HPool α} {a : PAct α} {x : Obj} (ha : a.Local) (h : ∀ o ∈ l.objs, Prog.Out W o) (hx : In R W x) :
    (l.forwardP a x).Within R W := by
  have h1 : Prog.Out W l.value := h _ (by simp [HPool.objs])
  have h2 : Prog.Out W l.buff := h _ (by simp [HPool.objs])
  have h3 : Prog.Out W l.mask := h _ (by simp [HPool.objs])
  refine (Within.fill h3 0).bind (fun _ => Within.bind (Within.forU (fun _ => Within.forU (fun p => Within.forU (fun q => Within.bind ?_ (fun r =>
    (Within.set3 h1 _ _ _ _).bind (fun _ => Within.set3 h3 _ _ _ _)))))) (fun _ => ha.f h1 h2.in))
  exact (Within.get3 hx _ _ _).bind (fun _ => Within.forN (fun _ _ => Within.forN (fun _ _ => (Within.get3 hx _ _ _).bind (fun _ =>
    (Within.set3 h3 _ _ _ _).bind (fun _ => Within.pure _)))))

theorem PLayer.forward_within {l : PLayer α} {x : Obj} (hl : l.Local) (h : l.Out W) (hx : In R W x) : (l.forward x).Within R W := by
  cases l with
  | fc l a => exact HFC.forwardP_within hl h hx
  | conv l => exact HConv.forwardP_within (fun o ho => h o (by
      simp only [HConv.rawObjs, List.mem_append, List.mem_cons, List.not_mem_nil, or_false] at ho
      show o ∈ l.objs
      rcases ho with (rfl | rfl) | ho <;> simp [HConv.objs, *])) hx
  | pool l a => exact HPool.forwardP_within hl h hx
  | rawFC l a => exact HRawFC.forwardP_within hl h hx
  | rawConv l => exact HConv.forwardP_within h hx
  | rawPool l a => exact HPool.forwardRawP_within hl h hx

theorem PLayer.backward_within {l : PLayer α} {x d : Obj} (full : Bool) (hl : l.Local) (h : l.Out W) (hx : In R W x) (hd : In R W d) :
    (l.backward x d full).Within R W := by
  cases l with
  | fc l a => exact HFC.backwardP_within full hl h hx hd
  | conv l => exact HConv.backwardP_within full h hx hd
  | pool l a => exact HPool.backwardP_within (x := x) full hl h hd
  | rawFC l a => trivial
  | rawConv l => trivial
  | rawPool l a => trivial

theorem PLayer.update_within {u : PUpd σ α} (hu : u.Local) (s : σ) (alpha : α) {l : PLayer α} (h : l.Out W) : (l.update u s alpha).Within R W := by
  cases l with
  | fc l a => exact HFC.updateP_within hu s alpha h
  | conv l => exact HConv.updateP_within hu s alpha h
  | pool l a => trivial
  | rawFC l a => trivial
  | rawConv l => trivial
  | rawPool l a => trivial

/-- What the loops over the layers keep. -/
def PLayer.Fine (W : Nat → Prop) (l : PLayer α) : Prop := l.Local ∧ l.Out W

theorem PLayer.accumulate_safe {l : PLayer α} (h : l.Fine W) : (l.accumulate).Safe R W (PLayer.Fine W) := by
  cases l with
  | fc l a =>
    have h' : ∀ o ∈ l.objs, Prog.Out W o := h.2
    refine Safe.bind (Q := fun l' => l'.objs = l.objs) ?_ (fun l' e => ?_)
    · exact (Within.assign _ (h' _ (by simp [HFC.objs])) (Out.in (h' _ (by simp [HFC.objs])))).then (fun _ =>
        (Within.assign _ (h' _ (by simp [HFC.objs])) (Out.in (h' _ (by simp [HFC.objs])))).then (fun _ => rfl))
    · exact ⟨h.1, fun o ho => h' o (by rw [← e]; exact ho)⟩
  | conv l => exact h
  | pool l a => exact h
  | rawFC l a => trivial
  | rawConv l => trivial
  | rawPool l a => trivial

theorem PLayer.reset_safe {l : PLayer α} (h : l.Fine W) : (l.reset).Safe R W (PLayer.Fine W) := by
  cases l with
  | fc l a =>
    have h' : ∀ o ∈ l.objs, Prog.Out W o := h.2
    refine Safe.bind (Q := fun l' => l'.objs = l.objs) ?_ (fun l' e => ?_)
    · exact (Within.fill (h' _ (by simp [HFC.objs])) _).then (fun _ => (Within.fill (h' _ (by simp [HFC.objs])) _).then (fun _ => rfl))
    · exact ⟨h.1, fun o ho => h' o (by rw [← e]; exact ho)⟩
  | conv l => exact h
  | pool l a => exact h
  | rawFC l a => trivial
  | rawConv l => trivial
  | rawPool l a => trivial

/-! ### Networks -/

/-- All layers may be written. -/
def PNet.Fine (W : Nat → Prop) (net : PNet α) : Prop := ∀ l ∈ net, l.Fine W

theorem PLayer.Fine.value {l : PLayer α} (h : l.Fine W) : Prog.Out W l.value := by
  cases l with
  | fc l a => exact h.2 _ (by simp [PLayer.obj, HLayer.objs, HFC.objs, PLayer.value])
  | conv l => exact h.2 _ (by simp [PLayer.obj, HLayer.objs, HConv.objs, PLayer.value])
  | pool l a => exact h.2 _ (by simp [PLayer.obj, HLayer.objs, HPool.objs, PLayer.value])
  | rawFC l a => exact h.2 _ (by simp [PLayer.obj, HLayer.objs, HRawFC.objs, PLayer.value])
  | rawConv l => exact h.2 _ (by simp [PLayer.obj, HLayer.objs, HConv.rawObjs, PLayer.value])
  | rawPool l a => exact h.2 _ (by simp [PLayer.obj, HLayer.objs, HPool.rawObjs, PLayer.value])

theorem PLayer.Fine.delta {l : PLayer α} (h : l.Fine W) {d : Obj} (e : l.delta = .ok d) : Prog.Out W d := by
  cases l with
  | fc l a => cases e; exact h.2 _ (by simp [PLayer.obj, HLayer.objs, HFC.objs])
  | conv l => cases e; exact h.2 _ (by simp [PLayer.obj, HLayer.objs, HConv.objs])
  | pool l a => cases e; exact h.2 _ (by simp [PLayer.obj, HLayer.objs, HPool.objs])
  | rawFC l a => cases e
  | rawConv l => cases e
  | rawPool l a => cases e

theorem PNet.feedforward_within {net : PNet α} {x : Obj} (h : net.Fine W) (hx : In R W x) : (net.feedforward x).Within R W := by
  refine Within.lget (fun l hl => ((PLayer.forward_within (h l hl).1 (h l hl).2 hx)).bind (fun _ => Within.bind (Within.forU (fun i => ?_)) (fun _ =>
    Within.lget (fun _ _ => Within.pure _))))
  exact Within.lget (fun p hp => Within.lget (fun l hl => PLayer.forward_within (h l hl).1 (h l hl).2 (h p hp).value.in))

theorem Prog.Within.delta {l : PLayer α} (h : l.Fine W) {q : Obj → Prog α τ} (hq : ∀ d, Prog.Out W d → (q d).Within R W) :
    (Prog.lift l.delta >>= q).Within R W :=
  ((Prog.Safe.lift (Q := fun d => Prog.Out W d) (fun _ e => h.delta e)).bind (fun b hb => (hq b hb).safe)).within

theorem PNet.backprop_within {net : PNet α} {x d : Obj} (h : net.Fine W) (hx : In R W x) (hd : In R W d) : (net.backprop x d).Within R W := by
  have hs : ∀ i, (net.backStep i).Within R W := fun i =>
    Within.lget (fun p hp => Within.lget (fun n hn => Within.delta (h n hn) (fun d hd => Within.lget (fun l hl =>
      PLayer.backward_within true (h l hl).1 (h l hl).2 (h p hp).value.in hd.in))))
  unfold PNet.backprop
  generalize wsub net.length 1 = m1
  generalize wsub net.length 2 = m2
  refine Within.lget (fun l hl => ?_)
  refine Within.lget (fun p hp => ?_)
  refine (PLayer.backward_within true (h l hl).1 (h l hl).2 (h p hp).value.in hd).bind (fun _ => ?_)
  refine Within.bind (Within.forU (fun i => hs _)) (fun _ => ?_)
  refine Within.lget (fun l hl => ?_)
  refine Within.lget (fun n hn => ?_)
  exact Within.delta (h n hn) (fun d hd => PLayer.backward_within false (h l hl).1 (h l hl).2 hx hd.in)

theorem PNet.updating_within {u : PUpd σ α} (hu : u.Local) (alpha : α) {net : PNet α} (h : net.Fine W) (s : σ) : (net.updating u alpha s).Within R W :=
  Within.forN (fun _ s => Within.lget (fun l hl => PLayer.update_within hu s alpha (h l hl).2))

theorem lset_fine {net : PNet α} (h : net.Fine W) {i : Nat} {l : PLayer α} (hl : l.Fine W) {net' : PNet α} (e : lset net i l = .ok net') : net'.Fine W := by
  unfold lset at e
  split at e
  · cases e
    intro l' hl'
    rcases List.mem_or_eq_of_mem_set hl' with h1 | rfl
    · exact h l' h1
    · exact hl
  · cases e

theorem PNet.reseting_safe {net : PNet α} (h : net.Fine W) : net.reseting.Safe R W (PNet.Fine W) :=
  Safe.forN h (fun _ _ hn => (Safe.lift (Q := fun l => PLayer.Fine W l) (fun _ e => hn _ (lget_mem e))).bind (fun _ hl =>
    (PLayer.reset_safe hl).bind (fun _ hl' => Safe.lift (fun _ e => lset_fine hn hl' e))))

theorem PNet.accumulating_safe {net : PNet α} (h : net.Fine W) : net.accumulating.Safe R W (PNet.Fine W) :=
  Safe.forN h (fun _ _ hn => (Safe.lift (Q := fun l => PLayer.Fine W l) (fun _ e => hn _ (lget_mem e))).bind (fun _ hl =>
    (PLayer.accumulate_safe hl).bind (fun _ hl' => Safe.lift (fun _ e => lset_fine hn hl' e))))

/-! ### Training -/

/-- Everything that belongs to the training object may be written. -/
structure PTrain.Fine (W : Nat → Prop) (t : PTrain α σ) : Prop where
  net : t.net.Fine W
  delta : Prog.Out W t.delta
  loss : ∀ l, t.loss = some l → l.Local

theorem PTrain.feedforward_safe {x : Obj} {t : PTrain α σ} (h : t.Fine W) (hx : In R W x) : (t.feedforward x).Safe R W (PTrain.Fine W) :=
  (PNet.feedforward_within h.net hx).then (fun _ => h)

theorem PTrain.backprop_safe {x y : Obj} {t : PTrain α σ} (h : t.Fine W) (hx : In R W x) (hy : In R W y) : (t.backprop x y).Safe R W (PTrain.Fine W) := by
  refine (Safe.lift (Q := fun l => PLayer.Fine W l) (fun _ e => h.net _ (lget_mem e))).bind (fun l hl => ?_)
  refine (Safe.lift (Q := fun l => PLoss.Local l) (fun p e => ?_)).bind (fun p hp => ?_)
  · cases hlo : t.loss with
    | none => rw [hlo] at e; cases e
    | some p' => rw [hlo] at e; cases e; exact h.loss _ hlo
  · exact ((hp t.delta y l.value).mono (fun b hb => hb.elim (hy b) (fun hb => Or.inr (hl.value b hb))) h.delta).then (fun _ =>
      (PNet.backprop_within h.net hx h.delta.in).then (fun _ => h))

theorem PTrain.Fine.updating_safe {t : PTrain α σ} (h : t.Fine W) {u : PUpd σ α} (hu : u.Local) {alpha : α} : (t.updating u alpha).Safe R W (PTrain.Fine W) :=
  (PNet.updating_within hu alpha h.net t.opt).then (fun _ => ⟨h.net, h.delta, h.loss⟩)

theorem PTrain.Fine.reseting_safe {t : PTrain α σ} (h : t.Fine W) : t.reseting.Safe R W (PTrain.Fine W) :=
  (PNet.reseting_safe h.net).bind (fun _ hn => ⟨hn, h.delta, h.loss⟩)

theorem PTrain.Fine.accumulating_safe {t : PTrain α σ} (h : t.Fine W) : t.accumulating.Safe R W (PTrain.Fine W) :=
  (PNet.accumulating_safe h.net).bind (fun _ hn => ⟨hn, h.delta, h.loss⟩)

variable {X Y : List Obj}

theorem PTrain.sample_safe {t : PTrain α σ} (h : t.Fine W) (hX : ∀ x ∈ X, In R W x) (hY : ∀ y ∈ Y, In R W y) (i : Nat) :
    (t.sample X Y i).Safe R W (PTrain.Fine W) :=
  (Safe.lift (Q := fun x => x ∈ X) (fun _ e => lget_mem e)).bind (fun x hx => (PTrain.feedforward_safe h (hX x hx)).bind (fun _ h =>
    (Safe.lift (Q := fun y => y ∈ Y) (fun _ e => lget_mem e)).bind (fun y hy => PTrain.backprop_safe h (hX x hx) (hY y hy))))

theorem PTrain.sampleAcc_safe {t : PTrain α σ} (h : t.Fine W) (hX : ∀ x ∈ X, In R W x) (hY : ∀ y ∈ Y, In R W y) (i : Nat) :
    (t.sampleAcc X Y i).Safe R W (PTrain.Fine W) := (PTrain.sample_safe h hX hY i).bind (fun _ h => h.accumulating_safe)

theorem PTrain.epoch_safe {u : PUpd σ α} (hu : u.Local) {alpha : α} {t : PTrain α σ} (h : t.Fine W) (hX : ∀ x ∈ X, In R W x) (hY : ∀ y ∈ Y, In R W y) :
    (t.epoch u X Y alpha).Safe R W (PTrain.Fine W) :=
  h.reseting_safe.bind (fun _ h => (Safe.forN h (fun i _ h => PTrain.sampleAcc_safe h hX hY i)).bind (fun _ h => h.updating_safe hu))

theorem PTrain.stochastic_safe {u : PUpd σ α} (hu : u.Local) {t : PTrain α σ} (h : t.Fine W) (hX : ∀ x ∈ X, In R W x) (hY : ∀ y ∈ Y, In R W y)
    (n : Nat) (gen : Gen γ ρ Nat) (c : γ) (g : ρ) : (t.stochastic u X Y n gen c g).Safe R W (fun r => PTrain.Fine W r.1) := by
  unfold PTrain.stochastic
  refine Safe.bind (Q := fun s : PTrain α σ × γ × ρ => PTrain.Fine W s.1) (Safe.forN h (fun _ s h => ?_)) (fun ⟨t, _, g⟩ h => h)
  exact (Within.lift _).then (fun i => (PTrain.sample_safe h hX hY i).bind (fun t h => (h.updating_safe hu).bind (fun t' h' => show PTrain.Fine W t' from h')))

theorem PTrain.fill_safe {t : PTrain α σ} (h : t.Fine W) (hX : ∀ x ∈ X, In R W x) (hY : ∀ y ∈ Y, In R W y) (limit k : Nat) :
    (t.fill X Y limit k).Safe R W (fun r => PTrain.Fine W r.1) :=
  Safe.forN (Q := fun s : PTrain α σ × Nat => PTrain.Fine W s.1) h (fun _ s h => (PTrain.sampleAcc_safe h hX hY s.2).bind (fun _ h => h))

theorem PTrain.miniStep_safe {u : PUpd σ α} (hu : u.Local) {alpha : α} {s : PTrain α σ × Nat × Nat} (h : s.1.Fine W) (hX : ∀ x ∈ X, In R W x)
    (hY : ∀ y ∈ Y, In R W y) (m : Nat) : (PTrain.miniStep u X Y m alpha s).Safe R W (fun r => PTrain.Fine W r.1) :=
  h.reseting_safe.bind (fun _ h => (PTrain.fill_safe h hX hY _ _).bind (fun _ h => (h.updating_safe hu).bind (fun _ h => h)))

theorem PTrain.miniEpoch_safe {u : PUpd σ α} (hu : u.Local) {alpha : α} {t : PTrain α σ} (h : t.Fine W) (hX : ∀ x ∈ X, In R W x)
    (hY : ∀ y ∈ Y, In R W y) (m scale : Nat) : (t.miniEpoch u X Y m scale alpha).Safe R W (PTrain.Fine W) :=
  (Safe.forN (Q := fun s : PTrain α σ × Nat × Nat => PTrain.Fine W s.1) h (fun _ _ h => PTrain.miniStep_safe hu h hX hY m)).bind (fun _ h => h)

variable [Div α] [NatCast α]

theorem PTrainOp.exec_safe {u : PUpd σ α} (hu : u.Local) (gen : Gen γ ρ Nat) {st : PTrain α σ × ρ} (h : st.1.Fine W) {op : PTrainOp γ}
    (hd : ∀ x ∈ op.data, In R W x) : (PTrainOp.exec u gen st op).Safe R W (fun r => PTrain.Fine W r.1) := by
  cases op with
  | batch X Y n =>
    exact Safe.bind ((Within.lift _).then (fun _ => Safe.forN h (fun _ _ h => PTrain.epoch_safe hu h (fun x hx => hd x (List.mem_append_left _ hx))
      (fun x hx => hd x (List.mem_append_right _ hx))))) (fun _ h => h)
  | mini X Y n m =>
    exact Safe.bind ((Within.lift _).then (fun _ => (Within.lift _).then (fun _ => Safe.forN h (fun _ _ h => PTrain.miniEpoch_safe hu h
      (fun x hx => hd x (List.mem_append_left _ hx)) (fun x hx => hd x (List.mem_append_right _ hx)) _ _)))) (fun _ h => h)
  | sto X Y n c => exact PTrain.stochastic_safe hu h (fun x hx => hd x (List.mem_append_left _ hx)) (fun x hx => hd x (List.mem_append_right _ hx)) n gen c st.2
  | eval x => exact (PTrain.feedforward_safe h (hd x (by simp [PTrainOp.data]))).bind (fun _ h => h)

theorem PTrainOp.run_safe {u : PUpd σ α} (hu : u.Local) (gen : Gen γ ρ Nat) {ops : List (PTrainOp γ)} (hd : ∀ op ∈ ops, ∀ x ∈ op.data, In R W x)
    {st : PTrain α σ × ρ} (h : st.1.Fine W) : (PTrainOp.run u gen st ops).Safe R W (fun r => PTrain.Fine W r.1) := by
  induction ops generalizing st with
  | nil => exact h
  | cons op ops ih =>
    exact (PTrainOp.exec_safe hu gen h (hd op (List.mem_cons_self ..))).bind (fun _ h => ih (fun op' h' => hd op' (List.mem_cons_of_mem _ h')) h)

end
end Trixy
