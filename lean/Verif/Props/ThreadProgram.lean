import Verif.Props.Thread
import Verif.Props.HeapNet
/- Property C96, programs: building the networks, then training them in different threads. -/
namespace Trixy
set_option linter.unusedSectionVars false

variable {α β γ ρ σ γ' ρ' : Type}

theorem HFC.make_act [Zero α] {i o : Nat} {a : HAct α} {H : Heap α} {r : Heap α × HFC α} (e : HFC.make i o a H = .ok r) : r.2.act = a := by
  unfold HFC.make at e
  obtain ⟨r1, -, e1⟩ := res_inv e
  obtain ⟨r2, -, e2⟩ := res_inv e1
  obtain ⟨r3, -, e3⟩ := res_inv e2
  obtain ⟨r4, -, e4⟩ := res_inv e3
  obtain ⟨r5, -, e5⟩ := res_inv e4
  obtain ⟨r6, -, e6⟩ := res_inv e5
  obtain ⟨r7, -, e7⟩ := res_inv e6
  obtain ⟨r8, -, e8⟩ := res_inv e7
  obtain ⟨r9, -, e9⟩ := res_inv e8
  cases e9
  rfl

theorem HPool.make_act [Zero α] {d h w sv sh : Nat} {a : HAct α} {H : Heap α} {r : Heap α × HPool α} (e : HPool.make d h w sv sh a H = .ok r) :
    r.2.act = a := by
  unfold HPool.make at e
  obtain ⟨r1, -, e1⟩ := res_inv e
  obtain ⟨r2, -, e2⟩ := res_inv e1
  obtain ⟨r3, -, e3⟩ := res_inv e2
  obtain ⟨r4, -, e4⟩ := res_inv e3
  obtain ⟨r5, -, e5⟩ := res_inv e4
  obtain ⟨r6, -, e6⟩ := res_inv e5
  cases e6
  rfl

/-- The layer object that is built is the one with the activation object. -/
theorem PLayerArgs.build_obj [Zero α] {a : PLayerArgs α} {H H1 : Heap α} {l : HLayer α} (e : a.args.build H = .ok (H1, l)) :
    ∃ l', a.build H = .ok (H1, l') ∧ l'.obj = l ∧ (a.Local → l'.Local) := by
  cases a with
  | fc i o a =>
    obtain ⟨r, e1, e2⟩ := res_inv e
    cases e2
    refine ⟨.fc r.2 a, ?_, ?_, fun h => h⟩
    · show (HFC.make i o a.obj H >>= _) = _; rw [e1]; rfl
    · show HLayer.fc { r.2 with act := a.obj } = _; rw [← HFC.make_act e1]
  | conv d h w c fh fw p sv sh =>
    obtain ⟨r, e1, e2⟩ := res_inv e
    cases e2
    refine ⟨.conv r.2, ?_, rfl, fun _ => trivial⟩
    show (HConv.make d h w c fh fw p sv sh H >>= _) = _; rw [e1]; rfl
  | pool d h w sv sh a =>
    obtain ⟨r, e1, e2⟩ := res_inv e
    cases e2
    refine ⟨.pool r.2 a, ?_, ?_, fun h => h⟩
    · show (HPool.make d h w sv sh a.obj H >>= _) = _; rw [e1]; rfl
    · show HLayer.pool { r.2 with act := a.obj } = _; rw [← HPool.make_act e1]

theorem PNet.build_obj [Zero α] {as : List (PLayerArgs α)} {net : HNet α} : ∀ {H H1 : Heap α}, HNet.build (as.map PLayerArgs.args) H = .ok (H1, net) →
    ∃ net', PNet.build as H = .ok (H1, net') ∧ net'.obj = net ∧ ((∀ a ∈ as, a.Local) → ∀ l ∈ net', l.Local) := by
  induction as generalizing net with
  | nil => intro H H1 e; cases e; exact ⟨[], rfl, rfl, fun _ l h => absurd h (List.not_mem_nil)⟩
  | cons a as ih =>
    intro H H1 e
    obtain ⟨⟨H2, l⟩, e1, e2⟩ := res_inv e
    obtain ⟨⟨H3, net1⟩, e3, e4⟩ := res_inv e2
    cases e4
    obtain ⟨l', f1, f2, f3⟩ := PLayerArgs.build_obj e1
    obtain ⟨net', g1, g2, g3⟩ := ih e3
    refine ⟨l' :: net', ?_, ?_, fun h m hm => ?_⟩
    · show (a.build H >>= _) = _
      rw [f1, bind_ok]
      show (PNet.build as H2 >>= _) = _
      rw [g1]; rfl
    · show l'.obj :: net'.obj = _; rw [f2, g2]
    · rcases List.mem_cons.1 hm with rfl | hm
      · exact f3 (h a (List.mem_cons_self ..))
      · exact g3 (fun a ha => h a (List.mem_cons_of_mem _ ha)) m hm

section
variable [Zero α] [_root_.One α] [Add α] [Mul α] [Div α] [NatCast α] [LT α] [DecidableLT α] [DecidableEq α]
variable {addr : Ptr → Nat}

theorem Worker.prepare_sim (hinj : Distinct addr) {H0 H : Heap α} {p : Worker α γ ρ σ γ' ρ'} {v : WorkerValue α γ σ} (hp : p.Sensible addr H0 v)
    (he : H0.Extends H) : ∃ st g, p.Alone v st g ∧ Ok (p.prepare H) (fun r => H.Extends r.1 ∧ H.Fresh r.1 r.2.owned ∧
      r.2.ops = p.ops ∧ ∃ w : TrainValue α γ ρ σ, TrainJob.Ready addr H0 r.1 r.2 w ∧ w.st' = st ∧ w.g' = g) := by
  obtain ⟨⟨H1, hnet⟩, eb, ⟨v0, hm, hi⟩, hsep, hfr, hnd, hex⟩ := C86_build addr _ v.layers hp.layers hp.room H
  dsimp only at hm hi hsep hfr hnd hex
  have hz := sizeAt_eq (addr := addr) (os := HNet.objs hnet) (fun o ho q hq e => by
    obtain ⟨b, e1, -⟩ := hfr o ho
    obtain ⟨c, e2, -⟩ := hfr q hq
    rw [e1, e2] at e
    have hbc := hinj b c e
    have : o = q := List.inj_on_of_nodup_map hnd ho hq (by rw [e1, e2, hbc])
    rw [this])
  obtain ⟨s, o, hfit, ⟨L, dL, hlis⟩, hgood⟩ := hp.fits
  obtain ⟨I, hI, hok⟩ := hp.optOk
  obtain ⟨⟨st, g'⟩, ep, h1, h3⟩ := value_program hm hi hp.sensible hfit hp.two hp.few hz (hok _) hI p.gi p.ci p.ri p.gen p.g hlis hgood
  refine ⟨st, g', ⟨HNet.kinds addr hnet v.layers, ?_, ep⟩, ?_⟩
  · refine List.forall₂_iff_get.2 ⟨by unfold HNet.kinds; rw [List.length_zipWith, hm.length, Nat.min_self], fun i a b => ?_⟩
    have hn : i < hnet.length := by rw [hm.length]; exact b
    refine ⟨(hnet[i]'hn).biasAddr addr, (hnet[i]'hn).weightAddr addr, ?_⟩
    simp only [HNet.kinds, List.get_eq_getElem, List.getElem_zipWith]
  obtain ⟨net, en, rfl, hloc⟩ := PNet.build_obj eb
  obtain ⟨v', e1, e⟩ := res_inv ep
  cases e1.symm.trans (hm.makeAll hp.sensible)
  obtain ⟨⟨v1, g1'⟩, e2, e⟩ := res_inv e
  obtain ⟨w, e3, e⟩ := res_inv e
  unfold Worker.prepare
  rw [en, bind_ok]
  dsimp only
  refine (HNet.init_sim hi hsep e2).bind (fun ⟨H2, g2⟩ q => ?_)
  dsimp only at q ⊢
  obtain ⟨-, q2, q3⟩ := q
  have hos : ∀ L ∈ v1, L.osize.1 * L.osize.2.1 * L.osize.2.2 < W64 := by
    intro L hL
    obtain ⟨i, hi'⟩ := List.mem_iff_getElem?.1 hL
    obtain ⟨h, eh, hh⟩ := q2.at hi'
    have hlt : i < v0.length := by rw [← hi.len]; exact (List.getElem?_eq_some_iff.1 eh).1
    obtain ⟨h', eh', hh'⟩ := hi.at (List.getElem?_eq_getElem hlt)
    cases eh.symm.trans eh'
    rw [← hh.osize, hh'.osize]
    exact hm.osize hp.room _ (List.getElem_mem hlt)
  have hf2 : H.Fresh H2 (HNet.objs net.obj) := fun o ho => by
    obtain ⟨b, b1, b2, b3⟩ := hfr o ho
    exact ⟨b, b1, b2, by rw [q3.1]; exact b3⟩
  have hnx : ∀ t, HTrain.make (σ := σ) H2 net.obj none p.opt = .ok t → t.heap.next = H2.next + 1 ∧ t.opt = p.opt ∧ t.loss = none := by
    intro t et
    obtain ⟨l, -, et⟩ := res_inv et
    cases et
    exact ⟨rfl, rfl, rfl⟩
  obtain ⟨t, et, t1, t2, t3, t4, b, t5, t6⟩ := HTrain.make_spec (hl := none) (ls := none) (opt := p.opt) q2 hsep hf2 (Or.inl ⟨rfl, rfl⟩) hos e3
  obtain ⟨n1, n2, n3⟩ := hnx t et
  rw [et, bind_ok]
  have hext2 : H.Extends t.heap := (Heap.Only.extends hex q3 (fun o ho => by
      obtain ⟨b, b1, b2, b3⟩ := hfr o ho
      exact ⟨b, b1, b2⟩)).trans t3
  have hfresh : H.Fresh t.heap t.owned := fun o ho => by
    rcases List.mem_append.1 ho with ho | ho
    · rw [t4] at ho
      obtain ⟨b, b1, b2, b3⟩ := hf2 o ho
      exact ⟨b, b1, b2, by omega⟩
    · rw [List.mem_singleton.1 ho]
      refine ⟨b, t5, ?_, by omega⟩
      rw [t6, q3.1]; exact hex.1
  have hw : ({ w with loss := none } : Train α) = w := by
    obtain ⟨L, e4, e5⟩ := res_inv e3
    cases e5
    rfl
  have hown : HNet.objs net.obj ++ [t.delta] = t.owned := by unfold HTrain.owned; rw [t4]
  refine Ok_ok.2 ⟨hext2, ?_, rfl, ⟨v.upd, (p.opt, { w with loss := some v.loss }), v.ops, st, g'⟩, ?_, rfl, rfl⟩
  · show H.Fresh t.heap (HNet.objs net.obj ++ [t.delta])
    rw [hown]; exact hfresh
  · refine ⟨⟨rfl, ?_, ?_, Or.inr ⟨_, _, rfl, rfl, hp.loss⟩⟩, ?_, ?_, hp.opt, hp.calls, e, hloc hp.localActs, ?_, hp.localUpd⟩
    · have := t1.net
      rw [t4] at this
      exact this
    · exact t1.delta
    · show AllApart (HNet.objs net.obj ++ [t.delta])
      rw [hown]; exact t2
    · intro o ho
      have ho' : o ∈ t.owned := by rw [← hown]; exact ho
      obtain ⟨b, b1, b2, -⟩ := hfresh o ho'
      exact ⟨b, b1, Nat.le_trans he.1 b2⟩
    · intro l hl
      cases hl
      exact hp.localLoss

/-- Later allocations do not matter. -/
theorem TrainJob.Ready.extends {H0 H H' H'' : Heap α} {j : TrainJob α γ ρ σ} {w : TrainValue α γ ρ σ} (h : TrainJob.Ready addr H0 H j w)
    (hf : H''.Fresh H j.owned) (he : H.Extends H') : TrainJob.Ready addr H0 H' j w := by
  refine ⟨⟨h.train.opt, ?_, ?_, h.train.loss⟩, h.apart, h.fresh, h.opt, h.calls, h.value, h.acts, h.loss, h.upd⟩
  · exact HNet.Is.extends h.train.net he (fun o ho => hf o (List.mem_append_left _ ho))
  · obtain ⟨b, b1, b2, b3⟩ := hf j.t.delta (List.mem_append_right _ (List.mem_singleton.2 rfl))
    exact Heap.KeepsT.extends h.train.delta ⟨b, 0, b1, b3⟩ he

theorem Worker.prepareAll_sim (hinj : Distinct addr) {H0 : Heap α} {ps : List (Worker α γ ρ σ γ' ρ')} {vs : List (WorkerValue α γ σ)}
    (hp : List.Forall₂ (Worker.Sensible addr H0) ps vs) : ∀ {H : Heap α}, H0.Extends H →
    Ok (Worker.prepareAll ps H) (fun r => H.Extends r.1 ∧ (∀ j ∈ r.2, H.Fresh r.1 j.owned) ∧
      (r.2.Pairwise (fun a c => ∀ o ∈ a.owned, ∀ q ∈ c.owned, o.Elsewhere q ∧ q.Elsewhere o)) ∧
      ∃ ws : List (TrainValue α γ ρ σ), List.Forall₂ (TrainJob.Ready addr H0 r.1) r.2 ws ∧ r.2.length = ps.length ∧
        ∀ (k : Nat) (p : Worker α γ ρ σ γ' ρ') (v : WorkerValue α γ σ) (w : TrainValue α γ ρ σ), ps[k]? = some p → vs[k]? = some v → ws[k]? = some w → p.Alone v w.st' w.g') := by
  induction hp with
  | nil => intro H he; exact Ok_ok.2 ⟨⟨Nat.le_refl _, fun _ _ => ⟨Iff.rfl, fun _ => rfl⟩⟩, fun _ h => absurd h (List.not_mem_nil), .nil, [], .nil, rfl, fun k p v w h => by simp at h⟩
  | @cons p v ps vs h1 h2 ih =>
    intro H he
    obtain ⟨st, g, ha, hprep⟩ := Worker.prepare_sim hinj h1 he
    unfold Worker.prepareAll
    refine hprep.bind (fun ⟨H1, j⟩ q => ?_)
    dsimp only at q ⊢
    obtain ⟨q1, q2, -, w, q3, q4, q5⟩ := q
    refine (ih (he.trans q1)).bind (fun ⟨H2, js⟩ r => ?_)
    dsimp only at r ⊢
    obtain ⟨r1, r2, r3, ws, r4, r6, r5⟩ := r
    refine Ok_ok.2 ⟨q1.trans r1, ?_, ?_, w :: ws, .cons (q3.extends q2 r1) r4, by simpa using r6, ?_⟩
    · intro a hm o ho
      rcases List.mem_cons.1 hm with rfl | hm
      · obtain ⟨b, b1, b2, b3⟩ := q2 o ho
        exact ⟨b, b1, b2, Nat.lt_of_lt_of_le b3 r1.1⟩
      · obtain ⟨b, b1, b2, b3⟩ := r2 a hm o ho
        exact ⟨b, b1, Nat.le_trans q1.1 b2, b3⟩
    · refine List.Pairwise.cons (fun c hc o ho q hq => ?_) r3
      obtain ⟨b, b1, b2, b3⟩ := q2 o ho
      obtain ⟨b', b1', b2', b3'⟩ := r2 c hc q hq
      constructor
      · intro pb po qb qo f1 f2
        cases f1.symm.trans b1
        cases f2.symm.trans b1'
        omega
      · intro pb po qb qo f1 f2
        cases f2.symm.trans b1
        cases f1.symm.trans b1'
        omega
    · intro k p' v' w' e1 e2 e3
      cases k with
      | zero => cases e1; cases e2; cases e3; rw [q4, q5]; exact ha
      | succ k => exact r5 k p' v' w' e1 e2 e3

/-- The whole program: the main thread builds and initialises a network and a training object for each worker, one after the other, and starts
the workers, each of which makes its training calls on data that was in memory before (and that the workers may share). Under every schedule
the program is free of undefined behaviour and of data races, the data is unchanged, every worker ends, and every worker's parameters,
outputs, gradients, optimizer and generator are those of the worker's program executed alone on values. -/
theorem C96_program (hinj : Distinct addr) (H0 : Heap α) (ps : List (Worker α γ ρ σ γ' ρ')) (vs : List (WorkerValue α γ σ))
    (hp : List.Forall₂ (Worker.Sensible addr H0) ps vs) :
    Ok (Worker.prepareAll ps H0) (fun r => r.2.length = ps.length ∧ ∃ N : Nat → Nat, ∀ ks : List Nat, (∀ k ∈ ks, k < ps.length) →
      Ok (Threads.run ks ⟨r.1, r.2.map (fun j => PTrainOp.run j.upd j.gen (j.t, j.g) j.ops)⟩) (fun s => ¬ s.Race ∧ H0.Extends s.heap ∧
        ∀ (k : Nat) (p : Worker α γ ρ σ γ' ρ') (v : WorkerValue α γ σ), ps[k]? = some p → vs[k]? = some v → ∃ st g, p.Alone v st g ∧ (N k ≤ ks.count k → ∃ o, s.progs[k]? = some (.ret o)) ∧
          ∀ o, s.progs[k]? = some (.ret o) → (o.1.at s.heap).Is addr st ∧ o.2 = g)) := by
  refine (Worker.prepareAll_sim hinj hp (H := H0) ⟨Nat.le_refl _, fun _ _ => ⟨Iff.rfl, fun _ => rfl⟩⟩).mono (fun r q => ?_)
  obtain ⟨q1, q2, q3, ws, q4, q6, q5⟩ := q
  obtain ⟨N, hN⟩ := C96_training addr H0 r.1 q1 r.2 ws q4 (fun i k a c hik ea ec o ho q hq => by
    have hi := (List.getElem?_eq_some_iff.1 ea).1
    have hk := (List.getElem?_eq_some_iff.1 ec).1
    have ea' := (List.getElem?_eq_some_iff.1 ea).2
    have ec' := (List.getElem?_eq_some_iff.1 ec).2
    rcases Nat.lt_or_gt_of_ne hik with h | h
    · have := List.pairwise_iff_getElem.1 q3 i k hi hk h
      rw [ea', ec'] at this
      exact (this o ho q hq).1
    · have := List.pairwise_iff_getElem.1 q3 k i hk hi h
      rw [ea', ec'] at this
      exact (this q hq o ho).2)
  refine ⟨q6, N, fun ks hk => (hN ks (by rw [q6]; exact hk)).mono (fun s t => ⟨t.1, t.2.1, fun k p v ep ev => ?_⟩)⟩
  have hkl : k < r.2.length := by rw [q6]; exact (List.getElem?_eq_some_iff.1 ep).1
  have hkw : k < ws.length := by rw [← q4.length_eq]; exact hkl
  obtain ⟨t1, t2⟩ := t.2.2 k _ _ (List.getElem?_eq_getElem hkl) (List.getElem?_eq_getElem hkw)
  exact ⟨_, _, q5 k p v _ ep ev (List.getElem?_eq_getElem hkw), t1, t2⟩

end

/-! ### The library's classes -/

/-- The library's activation and loss classes and its two optimizers without tables, as programs: they are the objects of C86, and they access
nothing but their arguments. -/
theorem C96_library :
    (∀ k : ActKind, k.pobj.obj = k.hobj ∧ k.pobj.Local) ∧ (softMaxPAct.obj = softMaxHAct ∧ softMaxPAct.Local) ∧
    (PLosses.MSE.obj = HLosses.MSE ∧ PLosses.MSE.Local) ∧ (PLosses.MAE.obj = HLosses.MAE ∧ PLosses.MAE.Local) ∧
    (PLosses.CCE.obj = HLosses.CCE ∧ PLosses.CCE.Local) ∧ (PLosses.BCE.obj = HLosses.BCE ∧ PLosses.BCE.Local) ∧
    (PLosses.MSLE.obj = HLosses.MSLE ∧ PLosses.MSLE.Local) ∧ (PLosses.NLL.obj = HLosses.NLL ∧ PLosses.NLL.Local) ∧
    (PLosses.LC.obj = HLosses.LC ∧ PLosses.LC.Local) ∧
    (PUpd.obj (pgdUpdate (α := ℝ)) = hgdUpdate ∧ PUpd.Local (pgdUpdate (α := ℝ))) ∧
    (PUpd.obj (psgdUpdate (α := ℝ)) = hsgdUpdate ∧ PUpd.Local (psgdUpdate (α := ℝ))) :=
  ⟨fun k => ⟨k.pobj_obj, k.pobj_local⟩, ⟨softMaxPAct_obj, softMaxPAct_local⟩, ⟨PLosses.MSE_obj, PLoss.elementwise_local _ _⟩,
    ⟨PLosses.MAE_obj, PLosses.MAE_local⟩, ⟨PLosses.CCE_obj, PLoss.elementwise_local _ _⟩, ⟨PLosses.BCE_obj, PLoss.elementwise_local _ _⟩,
    ⟨PLosses.MSLE_obj, PLosses.MSLE_local⟩, ⟨PLosses.NLL_obj, PLoss.elementwise_local _ _⟩, ⟨PLosses.LC_obj, PLoss.elementwise_local _ _⟩,
    ⟨pgdUpdate_obj, pgdUpdate_local⟩, ⟨psgdUpdate_obj, psgdUpdate_local⟩⟩

/-- The programs are the functions of C86 when they run alone. -/
theorem C96_alone [Zero α] [_root_.One α] [Add α] [Mul α] [Div α] [NatCast α] [LT α] [DecidableLT α] [DecidableEq α] (H : Heap α) :
    (∀ (net : PNet α) (x : Obj), (net.feedforward x).run H = net.obj.feedforward H x) ∧
    (∀ (t : PTrain α σ) (u : PUpd σ α) (gen : Gen γ ρ Nat) (g : ρ) (ops : List (PTrainOp γ)),
      HTrainOp.run u.obj gen (t.at H, g) (ops.map PTrainOp.op) =
        (PTrainOp.run u gen (t, g) ops).run H >>= fun r => .ok (r.2.1.at r.1, r.2.2)) :=
  ⟨fun net x => net.feedforward_does x H, fun t u gen g ops => PTrainOp.run_makes u gen ops (t, g) H⟩

/-! ### The condition is needed: one network in two threads -/

theorem Prog.access_bind {β τ : Type} {p : Prog α β} {q : β → Prog α τ} {c : Bool × Nat × Nat} (h : p.access = some c) : (p >>= q).access = some c := by
  cases p with
  | ret b => cases h
  | ub u => cases h
  | load p i k => cases p with
    | null => cases h
    | «at» b o => exact h
  | store p i a k => cases p with
    | null => cases h
    | «at» b o => exact h

theorem Prog.access_forU {n : Nat} {body : Nat → Prog α Unit} {c : Bool × Nat × Nat} (h : (body 0).access = some c) (hn : 0 < n) :
    (Prog.forU n body).access = some c := by
  induction n with
  | zero => omega
  | succ n ih =>
    show (Prog.forN n () (fun i _ => body i) >>= fun _ => body n).access = _
    by_cases h0 : n = 0
    · subst h0; exact h
    · exact Prog.access_bind (ih (by omega))

section
variable [Zero α] [_root_.One α] [Add α] [Mul α] [LT α] [DecidableLT α] [DecidableEq α]

/-- Two threads that evaluate one network whose first layer is fully connected: a data race in the very first accesses, whatever the inputs are. -/
theorem C96_shared_race (H : Heap α) (l : HFC α) (a : PAct α) (net : PNet α) (x x' : Obj) (b o : Nat) (hb : l.buff.data = .at b o)
    (hs : 0 < l.buff.shape.size) :
    Threads.Race ⟨H, [PNet.feedforward (.fc l a :: net) x, PNet.feedforward (.fc l a :: net) x']⟩ := by
  have key : ∀ x, (PNet.feedforward (.fc l a :: net) x).access = some (true, b, o) := by
    intro x
    have h0 : (Prog.set1 l.buff 0 (0 : α)).access = some (true, b, o) := by
      unfold Prog.set1; rw [hb]; rfl
    have h1 : (l.forwardP a x).access = some (true, b, o) :=
      Prog.access_bind (Prog.access_bind (Prog.access_forU (body := fun i => Prog.set1 l.buff i (0 : α)) h0 hs))
    exact Prog.access_bind (p := l.forwardP a x) h1
  exact ⟨0, 1, _, _, (b, o), true, by decide, rfl, rfl, key x, key x'⟩

/-- A thread that runs until its end without the others. -/
theorem Threads.run_one {β : Type} : ∀ {p : Prog α β} {H H1 : Heap α} {r : β} {ps : List (Prog α β)} {k : Nat}, p.run H = .ok (H1, r) → ps[k]? = some p →
    Threads.run (List.replicate (p.steps H) k) ⟨H, ps⟩ = .ok ⟨H1, ps.set k (.ret r)⟩ := by
  intro p
  induction p with
  | ret b =>
    intro H H1 r ps k e ek
    cases e
    have hk := (List.getElem?_eq_some_iff.1 ek)
    show Except.ok _ = _
    rw [← hk.2, List.set_getElem_self]
  | ub u => intro H H1 r ps k e; cases e
  | load p i c ih =>
    intro H H1 r ps k e ek
    obtain ⟨a, e1, e2⟩ := res_inv e
    have hk := (List.getElem?_eq_some_iff.1 ek).1
    rw [Prog.steps.eq_3, e1]
    dsimp only
    show (Threads.step k ⟨H, ps⟩ >>= fun s => Threads.run (List.replicate ((c a).steps H) k) s) = _
    have hst : Threads.step k ⟨H, ps⟩ = .ok ⟨H, ps.set k (c a)⟩ := by
      show (lget ps k >>= fun p => p.step H >>= fun r => lset ps k r.2 >>= _) = _
      rw [show lget ps k = .ok (.load p i c) from by unfold lget; rw [ek], bind_ok]
      show ((H.load p i >>= fun a => Except.ok (H, c a)) >>= fun r => lset ps k r.2 >>= _) = _
      rw [e1, bind_ok, bind_ok]
      dsimp only
      rw [show lset ps k (c a) = .ok (ps.set k (c a)) from if_pos hk]
      rfl
    rw [hst, bind_ok, ih a e2 (List.getElem?_set_self hk), List.set_set]
  | store p i a c ih =>
    intro H H1 r ps k e ek
    obtain ⟨H2, e1, e2⟩ := res_inv e
    have hk := (List.getElem?_eq_some_iff.1 ek).1
    rw [Prog.steps.eq_4, e1]
    dsimp only
    show (Threads.step k ⟨H, ps⟩ >>= fun s => Threads.run (List.replicate (c.steps H2) k) s) = _
    have hst : Threads.step k ⟨H, ps⟩ = .ok ⟨H2, ps.set k c⟩ := by
      show (lget ps k >>= fun p => p.step H >>= fun r => lset ps k r.2 >>= _) = _
      rw [show lget ps k = .ok (.store p i a c) from by unfold lget; rw [ek], bind_ok]
      show ((H.store p i a >>= fun H => Except.ok (H, c)) >>= fun r => lset ps k r.2 >>= _) = _
      rw [e1, bind_ok, bind_ok]
      dsimp only
      rw [show lset ps k c = .ok (ps.set k c) from if_pos hk]
      rfl
    rw [hst, bind_ok, ih e2 (List.getElem?_set_self hk), List.set_set]

theorem Threads.run_append {β : Type} {ks ks' : List Nat} : ∀ {s : Threads α β}, Threads.run (ks ++ ks') s = Threads.run ks s >>= Threads.run ks' := by
  induction ks with
  | nil => intro s; rfl
  | cons k ks ih =>
    intro s
    show (s.step k >>= fun s => Threads.run (ks ++ ks') s) = (s.step k >>= fun s => Threads.run ks s) >>= _
    rw [bind_assoc]
    exact bind_congr (fun s => ih)

/-- Even when the threads take turns call by call, so that no access overlaps: two threads that evaluate one network both get a reference to
the same tensor, and after the second call the first thread's result is the second thread's. -/
theorem C96_shared_overwrites (addr : Ptr → Nat) (H : Heap α) (net : PNet α) (v v' v'' : Net α) (x x' : Obj) (t t' y y' : Ten α)
    (hn : HNet.Is addr H net.obj v) (hs : AllApart (HNet.objs net.obj)) (hx : H.KeepsT x t) (hx' : H.KeepsT x' t')
    (ha : ∀ o ∈ HNet.objs net.obj, Obj.Apart o x) (ha' : ∀ o ∈ HNet.objs net.obj, Obj.Apart o x')
    (e : Net.feedforward t v = .ok (v', y)) (e' : Net.feedforward t' v' = .ok (v'', y')) :
    ∃ ks, Ok (Threads.run ks ⟨H, [net.feedforward x, net.feedforward x']⟩) (fun s => ∃ o, s.progs = [.ret o, .ret o] ∧ s.heap.KeepsT o y') := by
  obtain ⟨⟨H1, o⟩, r1, i1, o1, k1, h, eh, eo⟩ := HNet.feedforward_sim hn hs hx
    (fun l hl q hq => ha q (HNet.mem_objs hl q (l.scratch_mem q hq))) e
  dsimp only at i1 o1 k1 eo
  have hx1 : H1.KeepsT x' t' := hx'.frame o1 (fun w hw => ha' w hw)
  obtain ⟨⟨H2, o'⟩, r2, i2, o2, k2, h', eh', eo'⟩ := HNet.feedforward_sim i1 hs hx1
    (fun l hl q hq => ha' q (HNet.mem_objs hl q (l.scratch_mem q hq))) e'
  dsimp only at i2 o2 k2 eo'
  cases eh.symm.trans eh'
  cases eo
  cases eo'
  have p1 := (net.feedforward_does x H).trans r1
  have p2 := (net.feedforward_does x' H1).trans r2
  refine ⟨List.replicate ((net.feedforward x).steps H) 0 ++ List.replicate ((net.feedforward x').steps H1) 1, ?_⟩
  rw [Threads.run_append, Threads.run_one (k := 0) p1 rfl, bind_ok]
  rw [Threads.run_one (k := 1) p2 rfl]
  exact Ok_ok.2 ⟨_, rfl, k2⟩

end

/-! ### Non-vacuity: two threads train two convolutional networks on the same image -/

noncomputable def exPArgs : List (PLayerArgs ℝ) :=
  [.conv 1 5 5 2 2 2 0 1 1, .pool 2 4 4 2 2 ActKind.relu.pobj, .fc 8 3 ActKind.tanh.pobj, .fc 3 2 softMaxPAct]
def exPOps : List (PTrainOp Unit) := [.batch [exX, exX] [exY, exY] 3, .mini [exX, exX] [exY, exY] 2 1, .sto [exX] [exY] 4 (), .eval exX]
noncomputable def exPVOps : List (TrainOp ℝ Unit) := [.batch [exx, exx] [exy, exy] 3, .mini [exx, exx] [exy, exy] 2 1, .sto [exx] [exy] 4 (), .eval exx]

theorem exPArgs_args : exPArgs.map PLayerArgs.args = exArgs := by
  unfold exPArgs exArgs
  simp only [List.map_cons, List.map_nil, PLayerArgs.args, ActKind.pobj_obj, softMaxPAct_obj]

noncomputable def exWorker (gi : Gen Unit Nat ℝ) (gen : Gen Unit Nat Nat) (rate : ℝ) (ri g : Nat) : Worker ℝ Unit Nat ℝ Unit Nat where
  layers := exPArgs
  gi := gi
  ci := ()
  ri := ri
  loss := PLosses.NLL
  opt := rate
  upd := pgdUpdate
  gen := gen
  g := g
  ops := exPOps

noncomputable def exWorkerValue : WorkerValue ℝ Unit ℝ := ⟨exSpecs, Losses.NLL, gdUpdate, exPVOps⟩

theorem exWorker_sensible (addr : Ptr → Nat) (gi : Gen Unit Nat ℝ) (gen : Gen Unit Nat Nat) (rate : ℝ) (ri g : Nat) :
    (exWorker gi gen rate ri g).Sensible addr exHeap exWorkerValue := by
  obtain ⟨f1, f2, -⟩ := C86_library
  obtain ⟨l1, l2, l3⟩ := C67_library
  have hX : exHeap.Dataset [exX] [exx] := .cons exX_keeps .nil
  have hY : exHeap.Dataset [exY] [exy] := .cons exY_keeps .nil
  have hX2 : exHeap.Dataset [exX, exX] [exx, exx] := .cons exX_keeps hX
  have hY2 : exHeap.Dataset [exY, exY] [exy, exy] := .cons exY_keeps hY
  have sx : ShapeIs exx (1, 5, 5) := ⟨rfl, rfl, rfl, _, VecIs_filled 25 1⟩
  have sy : Full exy.data (Shp.vol (1, 1, 2)) := ⟨_, VecIs_filled 2 3⟩
  have d1 : DataFits [exx] [exy] (1, 5, 5) (1, 1, 2) := ⟨by simp [sx], by simp [sy], rfl⟩
  have d2 : DataFits [exx, exx] [exy, exy] (1, 5, 5) (1, 1, 2) := ⟨by simp [sx], by simp [sy], rfl⟩
  refine ⟨?_, fun s hs => ?_, fun s hs => ?_, by decide, by decide, ⟨(1, 5, 5), (1, 1, 2), ⟨rfl, rfl, rfl, rfl, rfl, rfl, rfl, rfl⟩, l3 2 Losses.NLL (by simp), fun op hop => ?_⟩,
    ?_, ?_, ⟨fun _ => True, trivial, fun size => gd_UpdOk size⟩,
    .cons (.batch hX2 hY2) (.cons (.mini hX2 hY2) (.cons (.sto hX hY) (.cons (.eval exX_keeps.1 exX_keeps.2) .nil))), fun a ha => ?_,
    PLoss.elementwise_local _ _, pgdUpdate_local⟩
  · show List.Forall₂ LayerArgs.Same (exPArgs.map PLayerArgs.args) exSpecs
    rw [exPArgs_args]
    exact .cons .conv (.cons (.pool (f1 _)) (.cons (.fc (f1 _)) (.cons (.fc f2) .nil)))
  · simp only [exWorkerValue, exSpecs, List.mem_cons, List.not_mem_nil, or_false] at hs
    rcases hs with rfl | rfl | rfl | rfl
    · refine ⟨by decide, by decide, by decide, by decide, 4, 4, rfl, rfl, by decide, by decide⟩
    · exact ⟨by decide, by decide, by decide⟩
    · exact ⟨by decide, by decide, by decide⟩
    · exact ⟨by decide, by decide, by decide⟩
  · simp only [exWorkerValue, exSpecs, List.mem_cons, List.not_mem_nil, or_false] at hs
    rcases hs with rfl | rfl | rfl | rfl
    · exact ⟨⟨by decide, by decide, by decide, by decide, by decide, by decide⟩, by decide⟩
    · exact ⟨by decide, by decide, by decide, by decide, l1 _ _⟩
    · exact l1 _ _
    · exact l2 2 (by decide)
  · simp only [exWorkerValue, exPVOps, List.mem_cons, List.not_mem_nil, or_false] at hop
    rcases hop with rfl | rfl | rfl | rfl
    · exact ⟨d2, by simp⟩
    · exact ⟨d2, by simp⟩
    · exact ⟨d1, by simp⟩
    · exact sx
  · show PLosses.NLL.obj.Follows _
    rw [PLosses.NLL_obj]; exact HLosses.NLL_follows
  · show HUpd.Follows addr (PUpd.obj pgdUpdate) _
    rw [pgdUpdate_obj]; exact hgdUpdate_follows addr
  · have ha' : a ∈ exPArgs := ha
    simp only [exPArgs, List.mem_cons, List.not_mem_nil, or_false] at ha'
    rcases ha' with rfl | rfl | rfl | rfl
    · trivial
    · exact ActKind.pobj_local _
    · exact ActKind.pobj_local _
    · exact softMaxPAct_local

example (gi : Gen Unit Nat ℝ) (gen : Gen Unit Nat Nat) :
    List.Forall₂ (Worker.Sensible (fun p => match p with | .null => 0 | .at b o => Nat.pair b o + 1) exHeap)
      [exWorker gi gen 1 0 0, exWorker gi gen 2 7 9] [exWorkerValue, exWorkerValue] ∧
    Distinct (fun p => match p with | .null => 0 | .at b o => Nat.pair b o + 1) :=
  ⟨.cons (exWorker_sensible ..) (.cons (exWorker_sensible ..) .nil), fun b c e => by
    have : Nat.pair b 0 = Nat.pair c 0 := by simpa using e
    exact (Nat.pair_eq_pair.1 this).1⟩

/-! ### Non-vacuity: two threads evaluate two inference networks on one input; one network in two threads -/

/-- Bias 1, weight 2 and result at blocks 0, 1, 2; bias 3, weight 4 and result at blocks 3, 4, 5; inputs 5 and 7 at blocks 6 and 7. -/
def exTHeap : Heap ℤ where
  blocks := fun b => ([[some 1], [some 2], [none], [some 3], [some 4], [none], [some 5], [some 7]] : List (Buf ℤ))[b]?
  next := 8
def exT1 (k : Kind) (b : Nat) : Obj := ⟨k, .at b 0, ⟨1, 1, 1, 1⟩⟩
def exPLayer (b : Nat) : PLayer ℤ := .rawFC ⟨1, 1, exT1 .vec b, exT1 .mat (b + 1), (PAct.elementwise id id).obj, exT1 .ten (b + 2)⟩ (PAct.elementwise id id)
def exVLayer (b w : ℤ) : Layer ℤ := .rawFC ⟨1, 1, [some b], ⟨1, 1, [some w]⟩, Act.elementwise id id, ⟨1, 1, 1, [none]⟩⟩
def exVLayer' (b w y : ℤ) : Layer ℤ := .rawFC ⟨1, 1, [some b], ⟨1, 1, [some w]⟩, Act.elementwise id id, ⟨1, 1, 1, [some y]⟩⟩

theorem exT_keeps (k : Kind) (b : Nat) (c : Option ℤ) (h : exTHeap.blocks b = some [c]) : exTHeap.Keeps (exT1 k b) [c] :=
  ⟨rfl, Or.inr ⟨b, 0, rfl, fun i hi => by
    have : i = 0 := by simpa using hi
    subst this
    unfold Heap.cellAt; rw [h]; rfl⟩⟩

theorem exT_is (addr : Ptr → Nat) (b : Nat) (c w : ℤ) (h0 : exTHeap.blocks b = some [some c]) (h1 : exTHeap.blocks (b + 1) = some [some w])
    (h2 : exTHeap.blocks (b + 2) = some [none]) : HNet.Is addr exTHeap (PNet.obj [exPLayer b]) [exVLayer c w] := by
  refine .cons (.rawFC ⟨rfl, rfl, rfl, ⟨rfl, rfl, rfl⟩, ?_⟩ ?_) .nil
  · show (PAct.elementwise id id).obj.Follows _
    rw [PAct.elementwise_obj]; exact HAct.elementwise_follows _ _
  · exact .cons (exT_keeps _ _ _ h0) (.cons (exT_keeps _ _ _ h1) (.cons (exT_keeps _ _ _ h2) .nil))

theorem exT_apart (k k' : Kind) {b c : Nat} (h : b ≠ c) : Obj.Apart (exT1 k b) (exT1 k' c) := by
  unfold Obj.Apart Apart
  intros
  simp_all [exT1]

theorem exT_all (b : Nat) : AllApart (HNet.objs (PNet.obj [exPLayer b])) := by
  refine .cons (fun q hq => ?_) (.cons (fun q hq => ?_) (.cons (fun q hq => ?_) .nil))
  · rcases List.mem_cons.1 hq with rfl | hq
    · exact exT_apart _ _ (by omega)
    · rw [List.mem_singleton.1 hq]; exact exT_apart _ _ (by omega)
  · rw [List.mem_singleton.1 hq]; exact exT_apart _ _ (by omega)
  · cases hq

theorem exT_free (b c : Nat) (h : c < b ∨ b + 2 < c) : ∀ o ∈ HNet.objs (PNet.obj [exPLayer b]), Obj.Apart o (exT1 .ten c) := by
  intro o ho
  have ho' : o ∈ [exT1 .vec b, exT1 .mat (b + 1), exT1 .ten (b + 2)] := ho
  simp only [List.mem_cons, List.not_mem_nil, or_false] at ho'
  rcases ho' with rfl | rfl | rfl <;> exact exT_apart _ _ (by omega)

theorem exT_ready (addr : Ptr → Nat) (b x : Nat) (c w a y : ℤ) (h0 : exTHeap.blocks b = some [some c]) (h1 : exTHeap.blocks (b + 1) = some [some w])
    (h2 : exTHeap.blocks (b + 2) = some [none]) (hx : exTHeap.blocks x = some [some a]) (hbx : x < b ∨ b + 2 < x) 
    (e : Net.feedforward ⟨1, 1, 1, [some a]⟩ [exVLayer c w] = .ok ([exVLayer' c w y], ⟨1, 1, 1, [some y]⟩)) :
    EvalJob.Ready addr exTHeap ⟨[exPLayer b], exT1 .ten x⟩ ⟨[exVLayer c w], [exVLayer' c w y], ⟨1, 1, 1, [some y]⟩⟩ := by
  refine ⟨exT_is addr b c w h0 h1 h2, exT_all b, ⟨⟨1, 1, 1, [some a]⟩, ⟨rfl, rfl, rfl, exT_keeps _ _ _ hx⟩, e⟩, fun l hl o ho => ?_, fun l hl => ?_⟩
  · exact exT_free b x hbx o (HNet.mem_objs hl o (l.scratch_mem o ho))
  · rw [List.mem_singleton.1 hl]; exact PAct.elementwise_local _ _

example (addr : Ptr → Nat) :
    List.Forall₂ (EvalJob.Ready addr exTHeap) [⟨[exPLayer 0], exT1 .ten 6⟩, ⟨[exPLayer 3], exT1 .ten 6⟩]
      [⟨[exVLayer 1 2], [exVLayer' 1 2 11], ⟨1, 1, 1, [some 11]⟩⟩, ⟨[exVLayer 3 4], [exVLayer' 3 4 23], ⟨1, 1, 1, [some 23]⟩⟩] :=
  .cons (exT_ready addr 0 6 1 2 5 11 rfl rfl rfl rfl (Or.inr (by decide)) rfl)
    (.cons (exT_ready addr 3 6 3 4 5 23 rfl rfl rfl rfl (Or.inr (by decide)) rfl) .nil)

/-- One network, inputs 5 and 7: both threads end up with 15. -/
example (addr : Ptr → Nat) : ∃ ks, Ok (Threads.run ks ⟨exTHeap, [PNet.feedforward [exPLayer 0] (exT1 .ten 6), PNet.feedforward [exPLayer 0] (exT1 .ten 7)]⟩)
    (fun s => ∃ o, s.progs = [.ret o, .ret o] ∧ s.heap.KeepsT o ⟨1, 1, 1, [some 15]⟩) :=
  C96_shared_overwrites addr exTHeap [exPLayer 0] [exVLayer 1 2] [exVLayer' 1 2 11] [exVLayer' 1 2 15] _ _ ⟨1, 1, 1, [some 5]⟩ ⟨1, 1, 1, [some 7]⟩
    ⟨1, 1, 1, [some 11]⟩ ⟨1, 1, 1, [some 15]⟩ (exT_is addr 0 1 2 rfl rfl rfl) (exT_all 0) ⟨rfl, rfl, rfl, exT_keeps _ _ _ rfl⟩
    ⟨rfl, rfl, rfl, exT_keeps _ _ _ rfl⟩ (exT_free 0 6 (Or.inr (by decide))) (exT_free 0 7 (Or.inr (by decide))) rfl rfl

end Trixy
