import Verif.Proof.HeapOptTrain
import Verif.Props.HeapLife
import Verif.Props.TrainSafe
/- Property C98 (training with optimizers whose state is in memory). -/
namespace Trixy
set_option linter.unusedSectionVars false

variable {α γ ρ σ τ γ' ρ' : Type}

/-! ### The end of the program -/

def HTrain.partObjs (t : HTrain α τ) (tabs : OptMem.Tables) : Part → List Obj
  | .network => HNet.objs t.net
  | .training => [t.delta]
  | .optimizer => tabs.map (·.2.view)

theorem release_eq (tabs : OptMem.Tables) : ∀ H : Heap α, OptMem.release H tabs = Obj.destroyAll H (tabs.map (·.2.view)) := by
  induction tabs with
  | nil => intro H; rfl
  | cons e tabs ih => intro H; exact bind_congr (fun H => ih H)

theorem drop_freed {t : HTrain α τ} {tabs : OptMem.Tables} {H : Heap α} (p : Part) (h : Owns H (t.partObjs tabs p)) :
    Ok (t.drop tabs H p) (fun H' => Freed H H' (t.partObjs tabs p)) := by
  cases p with
  | network => exact HNet.destroy_freed h
  | training => exact Trixy.destroy_freed h
  | optimizer =>
    show Ok (OptMem.release H tabs) _
    rw [release_eq]
    exact destroyAll_freed h

theorem dropAll_freed {t : HTrain α τ} {tabs : OptMem.Tables} (ps : List Part) : ∀ {H : Heap α}, Owns H (ps.flatMap (t.partObjs tabs)) →
    Ok (t.dropAll tabs H ps) (fun H' => Freed H H' (ps.flatMap (t.partObjs tabs))) := by
  induction ps with
  | nil => intro H _; exact Ok_ok.2 (Freed.nil H)
  | cons p ps ih =>
    intro H h
    rw [List.flatMap_cons] at h ⊢
    exact Freed.seq h (drop_freed p) (fun H' h' => ih h')

theorem HTrain.InMemory.dropped {addr : Ptr → Nat} {N : Nat} {H0 : Heap α} {t : HTrain α τ} {tabs : OptMem.Tables} {w : Train α}
    (h : HTrain.InMemory addr N H0 t tabs w) (hd : t.owned.Pairwise (fun a c => a.data ≠ c.data))
    (hs : tabs.Pairwise (fun (e f : (Nat × Nat) × OptMem.Rng) => e.2.first ≠ f.2.first)) (hH : ∀ b, H0.live b → b < H0.next) {ps : List Part}
    (hp : ps.Perm [.network, .training, .optimizer]) : Ok (t.dropAll tabs t.heap ps) (fun H' => ∀ b, H'.blocks b = H0.blocks b) := by
  have hle : H0.next ≤ N := by
    obtain ⟨b, -, b2, b3⟩ := h.place t.delta HTrain.owned_delta
    omega
  have hperm : (ps.flatMap (t.partObjs tabs)).Perm (t.owned ++ tabs.map (·.2.view)) := by
    refine (hp.flatMap_right _).trans ?_
    show ((HNet.objs t.net) ++ ([t.delta] ++ (tabs.map (fun e : (Nat × Nat) × OptMem.Rng => e.2.view) ++ []))).Perm _
    rw [List.append_nil, ← List.append_assoc]
    exact List.Perm.refl _
  have ho : Owns t.heap (t.owned ++ tabs.map (·.2.view)) := by
    refine ⟨fun o ho => ?_, List.pairwise_append.2 ⟨hd, List.pairwise_map.2 hs, fun a ha c hc => ?_⟩⟩
    · rcases List.mem_append.1 ho with ho | ho
      · obtain ⟨b, b1, -⟩ := h.place o ho
        exact ⟨b, b1, (h.alloc b).2 (Or.inr (Or.inl ⟨o, ho, b1⟩))⟩
      · obtain ⟨e, he, rfl⟩ := List.mem_map.1 ho
        obtain ⟨b, b1, -⟩ := h.tables e he
        exact ⟨b, b1, (h.alloc b).2 (Or.inr (Or.inr ⟨e, he, b1⟩))⟩
    · obtain ⟨e, he, rfl⟩ := List.mem_map.1 hc
      obtain ⟨b, b1, b2⟩ := h.tables e he
      obtain ⟨c, c1, c2, c3⟩ := h.place a ha
      rw [c1, show e.2.view.data = .at b 0 from b1]
      intro hbc
      have := (Ptr.at.inj hbc).1
      omega
  refine (dropAll_freed ps (ho.perm hperm.symm)).mono (fun H' q b => ?_)
  have q' := q.perm hperm
  by_cases hb : Blks (t.owned ++ tabs.map (·.2.view)) b
  · have h2 := q'.gone b hb
    have h1 : ¬ H0.live b := fun hl => by
      have := hH b hl
      obtain ⟨o, ho, i, e⟩ := hb
      rcases List.mem_append.1 ho with ho | ho
      · obtain ⟨c, c1, c2, -⟩ := h.place o ho
        have := (Ptr.at.inj (c1.symm.trans e)).1
        omega
      · obtain ⟨f, hf, rfl⟩ := List.mem_map.1 ho
        obtain ⟨c, c1, c2⟩ := h.tables f hf
        have := (Ptr.at.inj (c1.symm.trans e)).1
        omega
    unfold Heap.live at h1 h2
    simp only [Bool.not_eq_true, Option.isSome_eq_false_iff, Option.isNone_iff_eq_none] at h1 h2
    rw [h1, h2]
  · rw [q'.rest b hb]
    by_cases hbn : b < H0.next
    · exact h.data.blocks hbn
    · have h1 : ¬ H0.live b := fun h => hbn (hH b h)
      have h2 : ¬ t.heap.live b := fun hl => by
        rcases (h.alloc b).1 hl with h | ⟨o, ho, e⟩ | ⟨f, hf, e⟩
        · exact h1 h
        · exact hb ⟨o, List.mem_append_left _ ho, 0, e⟩
        · exact hb ⟨_, List.mem_append_right _ (List.mem_map.2 ⟨f, hf, rfl⟩), 0, e⟩
      unfold Heap.live at h1 h2
      simp only [Bool.not_eq_true, Option.isSome_eq_false_iff, Option.isNone_iff_eq_none] at h1 h2
      rw [h1, h2]

/-! ### Programs -/

/-- No optimizer. -/
def hidle : HUpd τ α := fun H s _ _ => .ok (H, s)
def idle : Upd τ α := fun s _ p g => .ok (s, p, g)

section
variable [Zero α] [_root_.One α] [Add α] [Mul α] [Div α] [NatCast α] [LT α] [DecidableLT α] [DecidableEq α]

theorem program_split (as : List (LayerArgs α)) (gi : Gen γ' ρ' α) (ci : γ') (ri : ρ') (loss : HLoss α) (opt : τ) (upd : HUpd τ α)
    (gen : Gen γ ρ Nat) (g : ρ) (ops : List (HTrainOp α γ)) (H : Heap α) :
    HTrain.program as gi ci ri loss opt upd gen g ops H =
      HTrain.program as gi ci ri loss opt hidle gen g [] H >>= fun st => HTrainOp.run upd gen st ops := by
  unfold HTrain.program
  simp only [bind_assoc]
  rfl

theorem HUpd.follows_idle (addr : Ptr → Nat) : HUpd.Follows addr (hidle (τ := τ) (α := α)) idle := by
  intro H s s' p g bp bg bp' bg' hp hg _ e
  cases e
  exact Ok_ok.2 ⟨rfl, hp, hg, Heap.Only.refl _ _⟩

/-- A program with an optimizer whose state is in memory; `t0` is the training object before the first call. -/
theorem program_from (addr : Ptr → Nat) (hinj : Distinct addr) {R : Nat → Heap α → τ → σ → Prop} (tab : τ → OptMem.Tables) {hu : HUpd τ α} {u : Upd σ α}
    (hfo : ∀ N, HUpd.FollowsIn addr N (R N) hu u) (hst : ∀ N, Steady N (R N)) (hR : ∀ N H s v, R N H s v → ∃ T, (tab s).Is N H T)
    {I : (Nat → Nat) → σ → Prop} (hok : ∀ size, UpdOk u size (I size)) {s0' : τ} {s0 : σ} (hs0 : ∀ size, I size s0)
    (hinit : ∀ (N : Nat) (H : Heap α), H.next = N → (∀ b, H.live b → b < N) → R N H s0' s0)
    {as : List (LayerArgs α)} {ss : List (LayerSpec α)} {s o : Shp} {hl : HLoss α} {l : Loss α} {H0 : Heap α}
    {hops : List (HTrainOp α γ)} {ops : List (TrainOp α γ)} (hp : HTrain.Sensible as ss s o hl l H0 hops ops)
    (gi : Gen γ' ρ' α) (ci : γ') (ri : ρ') (gen : Gen γ ρ Nat) (g : ρ) :
    ∃ (ks : List (LayerKind α)) (st : σ × Train α) (g' : ρ), List.Forall₂ (fun k s => ∃ kB kW, k = LayerSpec.kind kB kW s) ks ss ∧
      Train.program ks gi ci ri l s0 u gen g ops = .ok (st, g') ∧ List.Forall₂ Layer.Sound st.2.net ks ∧
      ∃ t0, HTrain.program as gi ci ri hl s0' hu gen g [] H0 = .ok (t0, g) ∧
      Ok (HTrain.program as gi ci ri hl s0' hu gen g hops H0) (fun r => r.2 = g' ∧ ∃ N, N = t0.heap.next ∧ R N r.1.heap r.1.opt st.1 ∧
        HTrain.InMemory addr N H0 r.1 (tab r.1.opt) st.2 ∧ ∀ ps : List Part, ps.Perm [.network, .training, .optimizer] →
          Ok (r.1.dropAll (tab r.1.opt) r.1.heap ps) (fun H' => ∀ b, H'.blocks b = H0.blocks b)) := by
  obtain ⟨⟨H1, net⟩, eb, ⟨v, hm, hi⟩, hsep, hfr, hnd, hex⟩ := C86_build addr as ss hp.layers hp.room H0
  dsimp only at hm hi hsep hfr hnd hex
  have hz := sizeAt_eq (addr := addr) (os := HNet.objs net) (fun o ho q hq e => by
    obtain ⟨b, e1, -⟩ := hfr o ho
    obtain ⟨c, e2, -⟩ := hfr q hq
    rw [e1, e2] at e
    have hbc := hinj b c e
    have : o = q := List.inj_on_of_nodup_map hnd ho hq (by rw [e1, e2, hbc])
    rw [this])
  obtain ⟨L, dL, hlis⟩ := hp.lossIs
  obtain ⟨⟨st, g'⟩, ep, -, hsound⟩ := value_program hm hi hp.sensible hp.fits hp.two hp.few hz (hok _) (hs0 _) gi ci ri gen g hlis hp.good
  refine ⟨HNet.kinds addr net ss, st, g', ?_, ep, hsound, ?_⟩
  · refine List.forall₂_iff_get.2 ⟨by unfold HNet.kinds; rw [List.length_zipWith, hm.length, Nat.min_self], fun i a b => ?_⟩
    have hn : i < net.length := by rw [hm.length]; exact b
    refine ⟨(net[i]'hn).biasAddr addr, (net[i]'hn).weightAddr addr, ?_⟩
    simp only [HNet.kinds, List.get_eq_getElem, List.getElem_zipWith]
  obtain ⟨n1, e1, ep⟩ := res_inv ep
  obtain ⟨⟨n2, r2⟩, e2, ep⟩ := res_inv ep
  obtain ⟨w0, e3, ep⟩ := res_inv ep
  have e0 : Train.program (HNet.kinds addr net ss) gi ci ri l s0' (idle (α := α)) gen g [] = .ok ((s0', { w0 with loss := some l }), g) := by
    unfold Train.program
    rw [e1, bind_ok, e2, bind_ok]
    show (Train.make n2 >>= _) = _
    rw [e3]
    rfl
  have ep' : TrainOp.run u gen ((s0, { w0 with loss := some l }), g) ops = .ok (st, g') := ep
  obtain ⟨⟨t, g1⟩, et, q⟩ := start_spec (HUpd.follows_idle addr) hp.layers hp.room hp.sensible hp.loss eb e0
  dsimp only at q
  obtain ⟨q1, rfl, q3, q4, q5⟩ := q
  refine ⟨t, by rw [program_split, et]; rfl, ?_⟩
  rw [program_split, et, bind_ok]
  have hopt : t.opt = s0' := q1.is.opt
  have hnx : H0.next ≤ t.heap.next := q1.ext.1
  have hl0 : HTrain.LiveIn addr t.heap.next (R t.heap.next) H0 t (s0, { w0 with loss := some l }) := by
    refine ⟨by rw [hopt]; exact q1.is, ?_, q1.sep, q1.ext, fun o ho => ?_, Nat.le_refl _, fun b _ => q3 b, q5⟩
    · rw [hopt]
      refine hinit _ _ rfl (fun b hb => ?_)
      rcases (q3 b).1 hb with h | ⟨o, ho, e⟩
      · exact Nat.lt_of_lt_of_le (hp.memory b h) hnx
      · obtain ⟨c, c1, c2⟩ := q4 o ho
        cases c1.symm.trans e
        exact c2
    · obtain ⟨b, b1, b2⟩ := q1.fresh o ho
      obtain ⟨c, c1, c2⟩ := q4 o ho
      cases c1.symm.trans b1
      exact ⟨b, b1, b2, c2⟩
  refine (HTrainOp.run_in (hfo _) (hst _) hp.calls hl0 ep').mono (fun r h => ⟨h.2, t.heap.next, rfl, h.1.rel, ?_⟩)
  obtain ⟨T, hT⟩ := hR _ _ _ _ h.1.rel
  have hmem : HTrain.InMemory addr t.heap.next H0 r.1 (tab r.1.opt) st.2 := by
    refine ⟨h.1.is, h.1.sep, h.1.ext, h.1.place, fun e he => ?_, fun b => ?_⟩
    · obtain ⟨b, b1, b2, _⟩ := hT.place e he
      exact ⟨b, b1, b2⟩
    · by_cases hb : b < t.heap.next
      · rw [h.1.alloc b hb]
        refine or_congr Iff.rfl ⟨Or.inl, fun h => h.elim id (fun ⟨e, he, e'⟩ => ?_)⟩
        obtain ⟨c, c1, c2, _⟩ := hT.place e he
        cases c1.symm.trans e'
        omega
      · rw [hT.live b (by omega)]
        refine ⟨fun h => Or.inr (Or.inr h), fun hh => ?_⟩
        rcases hh with hh | ⟨o, ho, e⟩ | hh
        · exact absurd (Nat.lt_of_lt_of_le (hp.memory b hh) hnx) hb
        · obtain ⟨c, c1, -, c3⟩ := h.1.place o ho
          cases c1.symm.trans e
          exact absurd c3 hb
        · exact hh
  exact ⟨hmem, fun ps hps => hmem.dropped h.1.dist (hT.sep.imp (fun h => h.2)) hp.memory hps⟩

/-- A program with an optimizer whose state is in memory. -/
theorem program_in (addr : Ptr → Nat) (hinj : Distinct addr) {R : Nat → Heap α → τ → σ → Prop} (tab : τ → OptMem.Tables) {hu : HUpd τ α} {u : Upd σ α}
    (hfo : ∀ N, HUpd.FollowsIn addr N (R N) hu u) (hst : ∀ N, Steady N (R N)) (hR : ∀ N H s v, R N H s v → ∃ T, (tab s).Is N H T)
    {I : (Nat → Nat) → σ → Prop} (hok : ∀ size, UpdOk u size (I size)) {s0' : τ} {s0 : σ} (hs0 : ∀ size, I size s0)
    (hinit : ∀ (N : Nat) (H : Heap α), (∀ b, H.live b → b < N) → R N H s0' s0)
    {as : List (LayerArgs α)} {ss : List (LayerSpec α)} {s o : Shp} {hl : HLoss α} {l : Loss α} {H0 : Heap α}
    {hops : List (HTrainOp α γ)} {ops : List (TrainOp α γ)} (hp : HTrain.Sensible as ss s o hl l H0 hops ops)
    (gi : Gen γ' ρ' α) (ci : γ') (ri : ρ') (gen : Gen γ ρ Nat) (g : ρ) :
    ∃ (ks : List (LayerKind α)) (st : σ × Train α) (g' : ρ), List.Forall₂ (fun k s => ∃ kB kW, k = LayerSpec.kind kB kW s) ks ss ∧
      Train.program ks gi ci ri l s0 u gen g ops = .ok (st, g') ∧
      Ok (HTrain.program as gi ci ri hl s0' hu gen g hops H0) (fun r => r.2 = g' ∧ ∃ N, R N r.1.heap r.1.opt st.1 ∧
        HTrain.InMemory addr N H0 r.1 (tab r.1.opt) st.2 ∧ ∀ ps : List Part, ps.Perm [.network, .training, .optimizer] →
          Ok (r.1.dropAll (tab r.1.opt) r.1.heap ps) (fun H' => ∀ b, H'.blocks b = H0.blocks b)) := by
  obtain ⟨ks, st, g', h1, h2, -, t0, -, h⟩ := program_from addr hinj tab hfo hst hR hok hs0 (fun N H _ => hinit N H) hp gi ci ri gen g
  exact ⟨ks, st, g', h1, h2, h.mono (fun r q => by obtain ⟨q1, N, -, q2⟩ := q; exact ⟨q1, N, q2⟩)⟩

theorem tables_none {N : Nat} {H : Heap α} (hN : ∀ b, H.live b → b < N) {T : Nat → Table α} (hT : ∀ k key, T k key = none) :
    OptMem.Tables.Is N H [] T := by
  refine ⟨fun e he => absurd he (List.not_mem_nil), .nil, fun b hb => ⟨fun h => absurd (hN b h) (by omega), fun ⟨e, he, _⟩ => absurd he (List.not_mem_nil)⟩,
    fun k key _ e he => absurd he (List.not_mem_nil), fun k key b e => ?_⟩
  rw [hT] at e
  cases e

end

/-! ### The optimizers of the library -/

section
variable [Field α] [LinearOrder α] [IsStrictOrderedRing α]

/-- Training with Momentum, its two tables in memory, from the constructors to the destructors: defined behaviour, the values of the program on
values — the network, the tables, the generator — the memory from before unchanged, exactly the memory of the three objects in use at the end,
and none of it after their destructors, which may run in any order. -/
theorem C98_momentum (addr : Ptr → Nat) (hinj : Distinct addr) (lr mu : α)
    {as : List (LayerArgs α)} {ss : List (LayerSpec α)} {s o : Shp} {hl : HLoss α} {l : Loss α} {H0 : Heap α}
    {hops : List (HTrainOp α γ)} {ops : List (TrainOp α γ)} (hp : HTrain.Sensible as ss s o hl l H0 hops ops)
    (gi : Gen γ' ρ' α) (ci : γ') (ri : ρ') (gen : Gen γ ρ Nat) (g : ρ) :
    ∃ (ks : List (LayerKind α)) (st : Mom α × Train α) (g' : ρ), List.Forall₂ (fun k s => ∃ kB kW, k = LayerSpec.kind kB kW s) ks ss ∧
      Train.program ks gi ci ri l (Mom.make lr mu) momUpdate gen g ops = .ok (st, g') ∧
      Ok (HTrain.program as gi ci ri hl (HMom.make lr mu) (hmomUpdate addr) gen g hops H0) (fun r => r.2 = g' ∧ ∃ N, HMom.Is N r.1.heap r.1.opt st.1 ∧
        HTrain.InMemory addr N H0 r.1 r.1.opt.tabs st.2 ∧ ∀ ps : List Part, ps.Perm [.network, .training, .optimizer] →
          Ok (r.1.dropAll r.1.opt.tabs r.1.heap ps) (fun H' => ∀ b, H'.blocks b = H0.blocks b)) :=
  program_in addr hinj HMom.tabs (fun N => hmom_followsIn addr N) HMom.steady (fun _ _ _ _ h => ⟨_, h.tabs⟩) (fun size => mom_UpdOk size)
    (fun size => ⟨fun k => (Table.get_empty k _).length, TabOk.empty _⟩)
    (fun N H h => ⟨tables_none h (fun k key => by match k with | 0 => rfl | 1 => rfl | _ + 2 => rfl), rfl, rfl⟩) hp gi ci ri gen g

/-- The same for Nestorov. -/
theorem C98_nestorov (addr : Ptr → Nat) (hinj : Distinct addr) (lr mu : α)
    {as : List (LayerArgs α)} {ss : List (LayerSpec α)} {s o : Shp} {hl : HLoss α} {l : Loss α} {H0 : Heap α}
    {hops : List (HTrainOp α γ)} {ops : List (TrainOp α γ)} (hp : HTrain.Sensible as ss s o hl l H0 hops ops)
    (gi : Gen γ' ρ' α) (ci : γ') (ri : ρ') (gen : Gen γ ρ Nat) (g : ρ) :
    ∃ (ks : List (LayerKind α)) (st : Mom α × Train α) (g' : ρ), List.Forall₂ (fun k s => ∃ kB kW, k = LayerSpec.kind kB kW s) ks ss ∧
      Train.program ks gi ci ri l (Mom.make lr mu) nesUpdate gen g ops = .ok (st, g') ∧
      Ok (HTrain.program as gi ci ri hl (HMom.make lr mu) (hnesUpdate addr) gen g hops H0) (fun r => r.2 = g' ∧ ∃ N, HMom.Is N r.1.heap r.1.opt st.1 ∧
        HTrain.InMemory addr N H0 r.1 r.1.opt.tabs st.2 ∧ ∀ ps : List Part, ps.Perm [.network, .training, .optimizer] →
          Ok (r.1.dropAll r.1.opt.tabs r.1.heap ps) (fun H' => ∀ b, H'.blocks b = H0.blocks b)) :=
  program_in addr hinj HMom.tabs (fun N => hnes_followsIn addr N) HMom.steady (fun _ _ _ _ h => ⟨_, h.tabs⟩) (fun size => nes_UpdOk size)
    (fun size => ⟨fun k => (Table.get_empty k _).length, TabOk.empty _⟩)
    (fun N H h => ⟨tables_none h (fun k key => by match k with | 0 => rfl | 1 => rfl | _ + 2 => rfl), rfl, rfl⟩) hp gi ci ri gen g

/-- The same for AdaGrad. -/
theorem C98_adagrad (addr : Ptr → Nat) (hinj : Distinct addr) (isq : α → α) (lr : α)
    {as : List (LayerArgs α)} {ss : List (LayerSpec α)} {s o : Shp} {hl : HLoss α} {l : Loss α} {H0 : Heap α}
    {hops : List (HTrainOp α γ)} {ops : List (TrainOp α γ)} (hp : HTrain.Sensible as ss s o hl l H0 hops ops)
    (gi : Gen γ' ρ' α) (ci : γ') (ri : ρ') (gen : Gen γ ρ Nat) (g : ρ) :
    ∃ (ks : List (LayerKind α)) (st : Ada α × Train α) (g' : ρ), List.Forall₂ (fun k s => ∃ kB kW, k = LayerSpec.kind kB kW s) ks ss ∧
      Train.program ks gi ci ri l (Ada.make lr 0) (adagradUpdate isq) gen g ops = .ok (st, g') ∧
      Ok (HTrain.program as gi ci ri hl (HAda.make lr 0) (hadagradUpdate isq addr) gen g hops H0) (fun r => r.2 = g' ∧ ∃ N, HAda.Is N r.1.heap r.1.opt st.1 ∧
        HTrain.InMemory addr N H0 r.1 r.1.opt.tabs st.2 ∧ ∀ ps : List Part, ps.Perm [.network, .training, .optimizer] →
          Ok (r.1.dropAll r.1.opt.tabs r.1.heap ps) (fun H' => ∀ b, H'.blocks b = H0.blocks b)) :=
  program_in addr hinj HAda.tabs (fun N => hadagrad_followsIn isq addr N) HAda.steady (fun _ _ _ _ h => ⟨_, h.tabs⟩) (fun size => adagrad_UpdOk isq size)
    (fun size => ⟨fun k => (Table.get_empty k _).length, TabOk.empty _⟩)
    (fun N H h => ⟨tables_none h (fun k key => by match k with | 0 => rfl | 1 => rfl | _ + 2 => rfl), rfl, rfl, rfl⟩) hp gi ci ri gen g

/-- The same for RMSProp. -/
theorem C98_rmsprop (addr : Ptr → Nat) (hinj : Distinct addr) (isq : α → α) (lr beta : α)
    {as : List (LayerArgs α)} {ss : List (LayerSpec α)} {s o : Shp} {hl : HLoss α} {l : Loss α} {H0 : Heap α}
    {hops : List (HTrainOp α γ)} {ops : List (TrainOp α γ)} (hp : HTrain.Sensible as ss s o hl l H0 hops ops)
    (gi : Gen γ' ρ' α) (ci : γ') (ri : ρ') (gen : Gen γ ρ Nat) (g : ρ) :
    ∃ (ks : List (LayerKind α)) (st : Ada α × Train α) (g' : ρ), List.Forall₂ (fun k s => ∃ kB kW, k = LayerSpec.kind kB kW s) ks ss ∧
      Train.program ks gi ci ri l (Ada.make lr beta) (rmspropUpdate isq) gen g ops = .ok (st, g') ∧
      Ok (HTrain.program as gi ci ri hl (HAda.make lr beta) (hrmspropUpdate isq addr) gen g hops H0) (fun r => r.2 = g' ∧ ∃ N, HAda.Is N r.1.heap r.1.opt st.1 ∧
        HTrain.InMemory addr N H0 r.1 r.1.opt.tabs st.2 ∧ ∀ ps : List Part, ps.Perm [.network, .training, .optimizer] →
          Ok (r.1.dropAll r.1.opt.tabs r.1.heap ps) (fun H' => ∀ b, H'.blocks b = H0.blocks b)) :=
  program_in addr hinj HAda.tabs (fun N => hrmsprop_followsIn isq addr N) HAda.steady (fun _ _ _ _ h => ⟨_, h.tabs⟩) (fun size => rmsprop_UpdOk isq size)
    (fun size => ⟨fun k => (Table.get_empty k _).length, TabOk.empty _⟩)
    (fun N H h => ⟨tables_none h (fun k key => by match k with | 0 => rfl | 1 => rfl | _ + 2 => rfl), rfl, rfl, rfl⟩) hp gi ci ri gen g

/-- The same for Adam, with its three tables. -/
theorem C98_adam (addr : Ptr → Nat) (hinj : Distinct addr) (isq : α → α) (lr beta1 beta2 : α) (h1 : 0 ≤ beta1 ∧ beta1 < 1) (h2 : 0 ≤ beta2 ∧ beta2 < 1)
    {as : List (LayerArgs α)} {ss : List (LayerSpec α)} {s o : Shp} {hl : HLoss α} {l : Loss α} {H0 : Heap α}
    {hops : List (HTrainOp α γ)} {ops : List (TrainOp α γ)} (hp : HTrain.Sensible as ss s o hl l H0 hops ops)
    (gi : Gen γ' ρ' α) (ci : γ') (ri : ρ') (gen : Gen γ ρ Nat) (g : ρ) :
    ∃ (ks : List (LayerKind α)) (st : AdamS α × Train α) (g' : ρ), List.Forall₂ (fun k s => ∃ kB kW, k = LayerSpec.kind kB kW s) ks ss ∧
      Train.program ks gi ci ri l (AdamS.make lr beta1 beta2) (adamUpdate isq) gen g ops = .ok (st, g') ∧
      Ok (HTrain.program as gi ci ri hl (HAdam.make lr beta1 beta2) (hadamUpdate isq addr) gen g hops H0) (fun r => r.2 = g' ∧
        ∃ N, HAdam.Is N r.1.heap r.1.opt st.1 ∧
        HTrain.InMemory addr N H0 r.1 r.1.opt.tabs st.2 ∧ ∀ ps : List Part, ps.Perm [.network, .training, .optimizer] →
          Ok (r.1.dropAll r.1.opt.tabs r.1.heap ps) (fun H' => ∀ b, H'.blocks b = H0.blocks b)) :=
  program_in addr hinj HAdam.tabs (fun N => hadam_followsIn isq addr N) HAdam.steady (fun _ _ _ _ h => ⟨_, h.tabs⟩) (fun size => adam_UpdOk isq size)
    (fun size => AdamOk.make size lr beta1 beta2 h1 h2)
    (fun N H h => ⟨tables_none h (fun k key => by match k with | 0 => rfl | 1 => rfl | 2 => rfl | _ + 3 => rfl), rfl, rfl, rfl, rfl, rfl, rfl, rfl⟩)
    hp gi ci ri gen g

end

/-! ### Non-vacuity: a convolutional network of four layers, all training methods, the mean loss and an evaluation -/

theorem exSensible : HTrain.Sensible exArgs exSpecs (1, 5, 5) (1, 1, 2) HLosses.NLL Losses.NLL exHeap exHOps exVOps := by
  obtain ⟨f1, f2, -⟩ := C86_library
  obtain ⟨l1, l2, l3⟩ := C67_library
  have hX : exHeap.Dataset [exX] [exx] := .cons exX_keeps .nil
  have hY : exHeap.Dataset [exY] [exy] := .cons exY_keeps .nil
  have hX2 : exHeap.Dataset [exX, exX] [exx, exx] := .cons exX_keeps hX
  have hY2 : exHeap.Dataset [exY, exY] [exy, exy] := .cons exY_keeps hY
  have sx : ShapeIs exx (1, 5, 5) := ⟨rfl, rfl, rfl, _, VecIs_filled 25 1⟩
  have sy : Full exy.data (Shp.vol (1, 1, 2)) := ⟨_, VecIs_filled 2 3⟩
  have d1 : DataFits [exx] [exy] (1, 5, 5) (1, 1, 2) := ⟨by simp [sx], by simp [sy], rfl⟩
  have d2 : DataFits [exx, exx] [exy, exy] (1, 5, 5) (1, 1, 2) := ⟨by simp [sx], by simp [sy], rfl⟩
  refine ⟨.cons .conv (.cons (.pool (f1 _)) (.cons (.fc (f1 _)) (.cons (.fc f2) .nil))), fun s hs => ?_, fun s hs => ?_,
    ⟨rfl, rfl, rfl, rfl, rfl, rfl, rfl, rfl⟩, by decide, by decide, HLosses.NLL_follows, l3 2 _ (by simp), .cons (.batch hX2 hY2)
      (.cons (.mini hX2 hY2) (.cons (.sto hX hY) (.cons (.lossOf hX hY) (.cons (.eval exX_keeps.1 exX_keeps.2) .nil)))), fun op hop => ?_, fun b hb => ?_⟩
  · simp only [exSpecs, List.mem_cons, List.not_mem_nil, or_false] at hs
    rcases hs with rfl | rfl | rfl | rfl
    · refine ⟨by decide, by decide, by decide, by decide, 4, 4, rfl, rfl, by decide, by decide⟩
    · exact ⟨by decide, by decide, by decide⟩
    · exact ⟨by decide, by decide, by decide⟩
    · exact ⟨by decide, by decide, by decide⟩
  · simp only [exSpecs, List.mem_cons, List.not_mem_nil, or_false] at hs
    rcases hs with rfl | rfl | rfl | rfl
    · exact ⟨⟨by decide, by decide, by decide, by decide, by decide, by decide⟩, by decide⟩
    · exact ⟨by decide, by decide, by decide, by decide, l1 _ _⟩
    · exact l1 _ _
    · exact l2 2 (by decide)
  · simp only [exVOps, List.mem_cons, List.not_mem_nil, or_false] at hop
    rcases hop with rfl | rfl | rfl | rfl | rfl
    · exact ⟨d2, by simp⟩
    · exact ⟨d2, by simp⟩
    · exact ⟨d1, by simp⟩
    · exact ⟨d1, by simp⟩
    · exact sx
  · have : ¬ b < 2 → exHeap.blocks b = none := fun h => by
      show (if b = 0 then _ else if b = 1 then _ else none) = none
      rw [if_neg (by omega), if_neg (by omega)]
    by_contra hlt
    unfold Heap.live at hb
    rw [this hlt] at hb
    cases hb

/-- Adam on this program, with the addresses of a machine. -/
example (isq : ℝ → ℝ) (gi : Gen Unit Nat ℝ) (gen : Gen Unit Nat Nat) :
    Ok (HTrain.program exArgs gi () 0 HLosses.NLL (HAdam.make 1 (1/2) (1/4))
      (hadamUpdate isq (fun p => match p with | .null => 0 | .at b o => Nat.pair b o + 1)) gen 0 exHOps exHeap)
      (fun r => ∀ ps : List Part, ps.Perm [.network, .training, .optimizer] →
          Ok (r.1.dropAll r.1.opt.tabs r.1.heap ps) (fun H' => ∀ b, H'.blocks b = exHeap.blocks b)) := by
  obtain ⟨ks, st, g', -, -, h⟩ := C98_adam (fun p => match p with | .null => 0 | .at b o => Nat.pair b o + 1) (fun b c e => by
    have : Nat.pair b 0 = Nat.pair c 0 := by simpa using e
    exact (Nat.pair_eq_pair.1 this).1) isq (1 : ℝ) (1/2) (1/4) (by norm_num) (by norm_num) exSensible gi () 0 gen 0
  exact h.mono (fun r q => by obtain ⟨-, N, -, -, q⟩ := q; exact q)

end Trixy
