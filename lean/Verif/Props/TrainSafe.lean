import Verif.Proof.TrainSafe
import Verif.Props.Optim
import Verif.Props.Conv
import Verif.Props.Fused
/- Property C67 (training never leaves defined behaviour). -/
namespace Trixy

variable {α γ ρ σ γ' ρ' : Type}

/-! ### The optimizers -/

theorem sgd_UpdOk [Mul α] [Sub α] (size : Nat → Nat) : UpdOk (sgdUpdate (α := α)) size (fun _ => True) := by
  intro s k p g _ ⟨fp, hp⟩ ⟨fg, hg⟩
  exact (sgd_spec hp hg).mono (fun r hr => ⟨trivial, hr.2.1.full, hr.2.2.full⟩)

theorem mom_UpdOk [Zero α] [Add α] [Mul α] [Sub α] (size : Nat → Nat) : UpdOk (momUpdate (α := α)) size (MomOk size) := by
  intro s k P G hI ⟨p, hp⟩ ⟨g, hg⟩
  obtain ⟨v, hv⟩ := hI.2 k
  obtain ⟨r, e, _, _, h3, h4, h5, h6⟩ := mom_spec hp hg (hI.1 k) hv
  have ho := local_mom.other s k P G r e
  simp only [Prod.mk.injEq] at ho
  refine ⟨r, e, ⟨len_of hI.1 h3 (fun k' hk' => (ho k' hk').1), hI.2.of ⟨_, h4⟩ (fun k' hk' => (ho k' hk').2.1)⟩, h5.full, ?_⟩
  rw [h6]; exact hg.full

theorem nes_UpdOk [Zero α] [Add α] [Mul α] [Sub α] (size : Nat → Nat) : UpdOk (nesUpdate (α := α)) size (MomOk size) := by
  intro s k P G hI ⟨p, hp⟩ ⟨g, hg⟩
  obtain ⟨v, hv⟩ := hI.2 k
  obtain ⟨r, e, _, _, h3, h4, h5, h6⟩ := nes_spec hp hg (hI.1 k) hv
  have ho := local_nes.other s k P G r e
  simp only [Prod.mk.injEq] at ho
  refine ⟨r, e, ⟨len_of hI.1 h3 (fun k' hk' => (ho k' hk').1), hI.2.of ⟨_, h4⟩ (fun k' hk' => (ho k' hk').2.1)⟩, h5.full, ?_⟩
  rw [h6]; exact hg.full

theorem adagrad_UpdOk [Zero α] [Add α] [Mul α] [Sub α] (isq : α → α) (size : Nat → Nat) :
    UpdOk (adagradUpdate isq) size (AdaOk size) := by
  intro s k P G hI ⟨p, hp⟩ ⟨g, hg⟩
  obtain ⟨v, hv⟩ := hI.2 k
  obtain ⟨r, e, _, h3, h4, h5, h6⟩ := adagrad_spec (isq := isq) hp hg (hI.1 k) hv
  have ho := (local_adagrad isq).other s k P G r e
  simp only [Prod.mk.injEq] at ho
  refine ⟨r, e, ⟨len_of hI.1 h3 (fun k' hk' => (ho k' hk').1), hI.2.of ⟨_, h4⟩ (fun k' hk' => (ho k' hk').2.1)⟩, h5.full, ?_⟩
  rw [h6]; exact hg.full

theorem rmsprop_UpdOk [Zero α] [Add α] [Mul α] [Sub α] (isq : α → α) (size : Nat → Nat) :
    UpdOk (rmspropUpdate isq) size (AdaOk size) := by
  intro s k P G hI ⟨p, hp⟩ ⟨g, hg⟩
  obtain ⟨v, hv⟩ := hI.2 k
  obtain ⟨r, e, _, _, _, h3, h4, h5, h6⟩ := rmsprop_spec (isq := isq) hp hg (hI.1 k) hv
  have ho := (local_rmsprop isq).other s k P G r e
  simp only [Prod.mk.injEq] at ho
  refine ⟨r, e, ⟨len_of hI.1 h3 (fun k' hk' => (ho k' hk').1), hI.2.of ⟨_, h4⟩ (fun k' hk' => (ho k' hk').2.1)⟩, h5.full, ?_⟩
  rw [h6]; exact hg.full

/-- Invariant of Adam for decay rates in [0, 1). -/
structure AdamOk [Field α] [LinearOrder α] (size : Nat → Nat) (s : AdamS α) : Prop where
  b1 : 0 ≤ s.beta1 ∧ s.beta1 < 1
  b2 : 0 ≤ s.beta2 ∧ s.beta2 < 1
  t1 : 0 ≤ s.tbeta1 ∧ s.tbeta1 ≤ 1
  t2 : 0 ≤ s.tbeta2 ∧ s.tbeta2 ≤ 1
  buff : ∀ k, (s.buff.get k (size k)).length = size k
  m : TabOk size s.m
  s : TabOk size s.s

theorem AdamOk.make [Field α] [LinearOrder α] [IsStrictOrderedRing α] (size : Nat → Nat) (lr b1 b2 : α) (h1 : 0 ≤ b1 ∧ b1 < 1)
    (h2 : 0 ≤ b2 ∧ b2 < 1) : AdamOk size (AdamS.make lr b1 b2) :=
  ⟨h1, h2, ⟨zero_le_one, le_refl _⟩, ⟨zero_le_one, le_refl _⟩, fun k => (Table.get_empty k _).length, TabOk.empty _, TabOk.empty _⟩

theorem adam_UpdOk [Field α] [LinearOrder α] [IsStrictOrderedRing α] (isq : α → α) (size : Nat → Nat) :
    UpdOk (adamUpdate isq) size (AdamOk (α := α) size) := by
  intro s k P G hI ⟨p, hp⟩ ⟨g, hg⟩
  obtain ⟨m, hm⟩ := hI.m k
  obtain ⟨v, hv⟩ := hI.s k
  have l1 : s.tbeta1 * s.beta1 < 1 := (mul_le_of_le_one_left hI.b1.1 hI.t1.2).trans_lt hI.b1.2
  have l2 : s.tbeta2 * s.beta2 < 1 := (mul_le_of_le_one_left hI.b2.1 hI.t2.2).trans_lt hI.b2.2
  obtain ⟨r, e, _, e1, e2, _, _, e3, e4, ho, h3, h4, h5, h6, h7⟩ :=
    adam_spec (isq := isq) hp hg (hI.buff k) hm hv (sub_ne_zero.2 (ne_of_gt l1)) (sub_ne_zero.2 (ne_of_gt l2))
  refine ⟨r, e, ?_, h6.full, by rw [h7]; exact hg.full⟩
  refine ⟨by rw [e1]; exact hI.b1, by rw [e2]; exact hI.b2, ?_, ?_, len_of hI.buff h3 (fun k' hk' => (ho k' hk').1),
    hI.m.of ⟨_, h4⟩ (fun k' hk' => (ho k' hk').2.1), hI.s.of ⟨_, h5⟩ (fun k' hk' => (ho k' hk').2.2)⟩
  · rw [e3]; exact ⟨mul_nonneg hI.t1.1 hI.b1.1, l1.le⟩
  · rw [e4]; exact ⟨mul_nonneg hI.t2.1 hI.b2.1, l2.le⟩

/-! ### C67 -/

section
variable [Zero α] [One α] [Add α] [Mul α] [Div α] [NatCast α] [LT α] [DecidableLT α] [DecidableEq α]

/-- From any sound training object: every sequence of sensible calls is defined behaviour and leaves a training object whose
layers have the same classes, sizes, activations and parameter addresses, all initialised. -/
theorem C67_training (upd : Upd σ α) (size : Nat → Nat) (I : σ → Prop) (hu : UpdOk upd size I) (gen : Gen γ ρ Nat)
    (ks : List (LayerKind α)) (s o : Shp) (hv : ∀ k ∈ ks, k.Valid size) (hf : Fits s ks o) (h2 : 2 ≤ ks.length) (hw : ks.length < W64)
    (s0 : σ) (hs : I s0) (t : Train α) (ht : t.Safe ks o) (g : ρ) (ops : List (TrainOp α γ)) (hops : ∀ op ∈ ops, op.Good s o) :
    Ok (TrainOp.run upd gen ((s0, t), g) ops) (fun r => I r.1.1 ∧ r.1.2.Safe ks o) :=
  TrainOp.run_safe ⟨hv, hf, h2, hw⟩ hu gen ops hops hs ht

/-- From construction: build the layers, initialise them with any generator, make a training object, set a loss, then any
sequence of sensible calls. The network at the end can also be evaluated. -/
theorem C67_from_construction (upd : Upd σ α) (size : Nat → Nat) (I : σ → Prop) (hu : UpdOk upd size I) (gen : Gen γ ρ Nat)
    (gi : Gen γ' ρ' α) (ci : γ') (ri : ρ')
    (ks : List (LayerKind α)) (s o : Shp) (hv : ∀ k ∈ ks, k.Valid size) (hf : Fits s ks o) (h2 : 2 ≤ ks.length) (hw : ks.length < W64)
    (s0 : σ) (hs : I s0) (g : ρ) (l : Loss α) (L : (Nat → α) → (Nat → α) → α) (dL : (Nat → α) → (Nat → α) → Nat → α)
    (hl : l.Is o.vol L dL) (ops : List (TrainOp α γ)) (hops : ∀ op ∈ ops, op.Good s o) :
    Ok (do let net ← LayerKind.makeAll ks
           let (net, _) ← Net.init gi ci ri net
           let t ← Train.make net
           TrainOp.run upd gen ((s0, t), g) (.setLoss l :: ops))
      (fun r => I r.1.1 ∧ List.Forall₂ Layer.Sound r.1.2.net ks ∧
        ∀ x, ShapeIs x s → Ok (Net.feedforward x r.1.2.net) (fun q => List.Forall₂ Layer.Sound q.1 ks ∧ ShapeIs q.2 o)) := by
  have hS : Static size ks s o := ⟨hv, hf, h2, hw⟩
  refine (LayerKind.makeAll_sound hv).bind (fun net hn => ?_)
  refine Ok.bind (P := fun r : Net α × ρ' => List.Forall₂ Layer.Sound r.1 ks) ?_ (fun r hr => ?_)
  · unfold Net.init
    refine (forN_spec (fun _ (r : Net α × ρ') => List.Forall₂ Layer.Sound r.1 ks) hn (fun i hi r hr => ?_))
    have e1 : r.1.length = ks.length := hr.length_eq
    have e2 : net.length = ks.length := hn.length_eq
    have a1 : i < r.1.length := by omega
    have a2 : i < ks.length := by omega
    have g1 : lget r.1 i = .ok (r.1[i]'a1) := by unfold lget; rw [List.getElem?_eq_getElem a1]
    rw [g1, bind_ok]
    refine ((hr.get a1 a2).init gi ci r.2).bind (fun q hq => ?_)
    have hset : lset r.1 i q.1 = .ok (r.1.set i q.1) := by unfold lset; rw [if_pos a1]
    show Ok (lset r.1 i q.1 >>= _) _
    rw [hset]
    refine Ok_ok.2 ?_
    have a1' := a1
    refine List.forall₂_iff_get.2 ⟨by simp [e1], fun j h1 h2 => ?_⟩
    rw [List.get_eq_getElem, List.get_eq_getElem, List.getElem_set]
    split
    · next e => subst e; exact hq
    · exact hr.get (by simpa using h1) h2
  · obtain ⟨net, ri'⟩ := r
    have e1 : net.length = ks.length := List.Forall₂.length_eq hr
    have a1 : net.length - 1 < net.length := by omega
    have a2 : net.length - 1 < ks.length := by omega
    have g1 : lget net (wsub net.length 1) = .ok (net[net.length - 1]'a1) := by
      rw [wsub_eq (by omega) (by omega)]; unfold lget; rw [List.getElem?_eq_getElem a1]
    have hl1 : Layer.Sound (net[net.length - 1]'a1) (ks[net.length - 1]'a2) := List.Forall₂.get hr a1 a2
    have ho := Fits.last hf (ks[net.length - 1]'a2) (by
      rw [List.getLast?_eq_getElem?, ← e1, List.getElem?_eq_getElem a2])
    have hos := hl1.osize
    rw [ho] at hos
    have ht : Ok (Train.make net) (fun t => List.Forall₂ Layer.Sound t.net ks ∧ t.delta = Ten.alloc o.1 o.2.1 o.2.2) := by
      unfold Train.make
      rw [g1, bind_ok, hos]
      exact Ok_ok.2 ⟨hr, rfl⟩
    refine ht.bind (fun t ht => ?_)
    have hsafe : ({ t with loss := some l } : Train α).Safe ks o :=
      ⟨ht.1, by rw [show ({ t with loss := some l } : Train α).delta = t.delta from rfl, ht.2]; simp [Ten.alloc, Buf.alloc, Shp.vol],
        ⟨l, L, dL, rfl, hl⟩⟩
    show Ok (TrainOp.run upd gen ((s0, { t with loss := some l }), g) ops) _
    refine (C67_training upd size I hu gen ks s o hv hf h2 hw s0 hs _ hsafe g ops hops).mono (fun r hr => ⟨hr.1, hr.2.net, ?_⟩)
    exact fun x hx => Net.feedforward_sound hS hr.2.net hx

end

/-! ### What the library supplies meets the hypotheses -/

/-- The library's activation classes (on non-empty ranges for `SoftMax`) and the losses `MSE`, `MAE`, `CCE`, `BCE`, `NLL`, `LC`
are defined on every output vector, so they can be used in C67. -/
theorem C67_library :
    (∀ (k : ActKind) n, ∃ F D, k.obj.Is n F D) ∧ (∀ n, 0 < n → ∃ F D, softMaxAct.Is n F D) ∧
    (∀ m, ∀ l ∈ [Losses.MSE, Losses.MAE, Losses.CCE, Losses.BCE, Losses.NLL, Losses.LC], ∃ L dL, l.Is m L dL) := by
  refine ⟨fun k n => ⟨_, _, by rw [k.obj_eq]; exact Act.Is.elementwise _ _ n⟩, fun n hn => ⟨_, _, softMaxAct_Is n hn⟩, fun m l hl => ?_⟩
  obtain ⟨v1, v2, _, v4, v5, v6, v7⟩ := C52_values m
  simp only [List.mem_cons, List.not_mem_nil, or_false] at hl
  rcases hl with rfl | rfl | rfl | rfl | rfl | rfl
  · exact ⟨_, _, fun t y vt vy ht hy => v1 t y vt vy ht hy trivial, fun _ _ _ _ _ hr ht hy => mseD_writes hr ht hy⟩
  · exact ⟨_, fun vt vp i => if vt i - vp i < 0 then -1 else if vt i - vp i > 0 then 1 else 0,
      fun t y vt vy ht hy => v2 t y vt vy ht hy trivial, fun _ _ _ _ _ hr ht hy => maeD_writes hr ht hy⟩
  · exact ⟨_, _, CCE_Is m⟩
  · exact ⟨_, fun vt vp i => vt i * (vp i - 1) + vp i * (1 - vt i), fun t y vt vy ht hy => v6 t y vt vy ht hy trivial,
      fun _ _ _ _ _ hr ht hy => write_loop hr _ _ (fun i hi s g hg => by rw [ht.get hi, bind_ok, hy.get hi, bind_ok]; exact hg.set hi _)⟩
  · exact ⟨_, _, NLL_Is m⟩
  · exact ⟨_, fun vt vp i => Real.tanh (vp i - vt i), fun t y vt vy ht hy => v4 t y vt vy ht hy trivial,
      fun _ _ _ _ _ hr ht hy => write_loop hr _ _ (fun i hi s g hg => by rw [hy.get hi, bind_ok, ht.get hi, bind_ok]; exact hg.set hi _)⟩

/-- What the library's `MSLE` needs is not implied by the shapes: a target of -1 is a division by zero. -/
theorem C67_msle_not_total (p : ℝ) : Losses.MSLE.f (Buf.of [-1]) (Buf.of [p]) = .error .divByZero := by
  show Losses.msle _ _ = _
  have e1 : (Buf.of [-1] : Buf ℝ).get 0 = .ok (-1) := rfl
  have e2 : (Buf.of [p] : Buf ℝ).get 0 = .ok p := rfl
  unfold Losses.msle
  rw [show (Buf.of [-1] : Buf ℝ).length = 0 + 1 from rfl, forN_succ]
  show (_ >>= _) >>= _ = _
  rw [show forN 0 (0 : ℝ) _ = .ok (0 : ℝ) from rfl, bind_ok, e2, bind_ok, e1, bind_ok]
  unfold fdiv
  rw [if_pos (by norm_num)]
  rfl

/-! ### Non-vacuity: convolution → max pooling → dense → dense on 5×5 images -/

def exStack : List (LayerKind Int) :=
  [.conv 1 5 5 2 2 2 0 1 1 0 (fun f => f + 1), .pool 2 2 2 2 2 exAct, .dense 8 3 exAct 10 11, .dense 3 2 exAct 12 13]
def exSize (a : Nat) : Nat := [2, 4, 4, 0, 0, 0, 0, 0, 0, 0, 3, 24, 2, 6].getD a 0
def exImage : Ten Int := ⟨1, 5, 5, Buf.of ((List.range 25).map fun i => ((i * 7 % 5 : Nat) : Int))⟩
def exOps : List (TrainOp Int Unit) :=
  [.batch [exImage, exImage] [exRow [1, 2], exRow [0, 1]] 1, .mini [exImage, exImage, exImage] [exRow [1, 2], exRow [0, 1], exRow [5, 5]] 1 2,
   .sto [exImage] [exRow [3, 4]] 2 (), .lossOf [exImage] [exRow [1, 1]], .eval exImage]

theorem exImage_Is : ShapeIs exImage (1, 5, 5) := ⟨rfl, rfl, rfl, _, VecIs_of _ (fun i => ((i * 7 % 5 : Nat) : Int)) (by simp)⟩
theorem exRow_Full (a b : Int) : Full (exRow [a, b]).data 2 := by
  refine ⟨fun i => if i = 0 then a else b, VecIs_of _ _ (fun i hi => ?_)⟩
  have : i < 2 := hi
  interval_cases i <;> rfl

example : (∀ k ∈ exStack, k.Valid exSize) ∧ Fits (1, 5, 5) exStack (1, 1, 2) ∧ 2 ≤ exStack.length ∧ exStack.length < W64 ∧
    UpdOk (gdUpdate (α := Int)) exSize (fun _ => True) ∧ (∃ L dL, (sqLoss 1 2 : Loss Int).Is (Shp.vol (1, 1, 2)) L dL) ∧
    (∀ op ∈ exOps, op.Good (1, 5, 5) (1, 1, 2)) := by
  have ha : ∀ n, ∃ F D, exAct.Is n F D := fun n => ⟨_, _, Act.Is.elementwise _ _ n⟩
  refine ⟨fun k hk => ?_, ?_, by decide, by show 4 < W64; decide, gd_UpdOk _, ⟨_, _, sqLoss_Is 1 2⟩, fun op hop => ?_⟩
  · simp only [exStack, List.mem_cons, List.not_mem_nil, or_false] at hk
    rcases hk with rfl | rfl | rfl | rfl
    · refine ⟨⟨by decide, by decide, by decide, by decide, by decide, by decide⟩, by decide, rfl, fun f hf => ?_⟩
      interval_cases f <;> rfl
    · exact ⟨by decide, by decide, ha _⟩
    · exact ⟨ha _, rfl, rfl⟩
    · exact ⟨ha _, rfl, rfl⟩
  · exact ⟨rfl, rfl, rfl, rfl, rfl, rfl, rfl, rfl⟩
  · simp only [exOps, List.mem_cons, List.not_mem_nil, or_false] at hop
    rcases hop with rfl | rfl | rfl | rfl | rfl
    · refine ⟨⟨?_, ?_, rfl⟩, by simp⟩
      · simp [exImage_Is]
      · simp only [List.mem_cons, List.not_mem_nil, or_false]; rintro y (rfl | rfl) <;> exact exRow_Full _ _
    · refine ⟨⟨?_, ?_, rfl⟩, by simp⟩
      · simp [exImage_Is]
      · simp only [List.mem_cons, List.not_mem_nil, or_false]; rintro y (rfl | rfl | rfl) <;> exact exRow_Full _ _
    · refine ⟨⟨?_, ?_, rfl⟩, by simp⟩
      · simp [exImage_Is]
      · simp only [List.mem_cons, List.not_mem_nil, or_false]; rintro y rfl; exact exRow_Full _ _
    · refine ⟨⟨?_, ?_, rfl⟩, by simp⟩
      · simp [exImage_Is]
      · simp only [List.mem_cons, List.not_mem_nil, or_false]; rintro y rfl; exact exRow_Full _ _
    · exact exImage_Is

end Trixy
