import Verif.Spec.Demand
import Verif.Proof.Demand
/- C109: how much memory training asks for, and what happens when it is not there. -/
namespace Trixy
set_option linter.unusedSectionVars false

variable {α γ ρ γ' ρ' σ τ : Type}

section
variable [Zero α] [_root_.One α] [Add α] [Mul α] [Div α] [NatCast α] [LT α] [DecidableLT α] [DecidableEq α]

theorem keys_length {net : Net α} {ks : List (LayerKind α)} {ss : List (LayerSpec α)} (h1 : List.Forall₂ Layer.Sound net ks)
    (h2 : List.Forall₂ (fun k s => ∃ kB kW, k = LayerSpec.kind kB kW s) ks ss) : (Net.keys net).length = arraysOf ss := by
  induction h1 generalizing ss with
  | nil => cases h2; rfl
  | @cons l k net ks hl _ ih =>
    cases h2 with
    | @cons _ s _ ss hk h2 =>
      have e : l.keys.length = s.arrays := by
        obtain ⟨kB, kW, rfl⟩ := hk
        cases s with
        | fc i o a =>
          cases l <;> first | rfl | exact hl.elim
        | conv d h w c fh fw p sv sh =>
          cases l with
          | conv l =>
            obtain ⟨⟨b, W, gb, gW, hw⟩, -⟩ := hl
            simp only [Layer.keys, List.length_cons, List.length_map, List.length_range, LayerSpec.arrays, hw.Ws.1]
            omega
          | _ => exact hl.elim
        | pool d h w sv sh a =>
          cases l <;> first | rfl | exact hl.elim
      show (l.keys ++ Net.keys net).length = s.arrays + arraysOf ss
      rw [List.length_append, e, ih h2]

/-- Entries with different keys, all among `n` tables and the addresses `K`. -/
theorem tabs_length {N : Nat} {H : Heap α} {tabs : OptMem.Tables} {T : Nat → Table α} (h : tabs.Is N H T) {n : Nat} {K : List Nat}
    (hn : ∀ k key, n ≤ k → T k key = none) (hK : ∀ k key, key ∉ K → T k key = none) : tabs.length ≤ n * K.length := by
  have hnd : (tabs.map (fun e : (Nat × Nat) × OptMem.Rng => e.1)).Nodup := List.pairwise_map.2 (h.sep.imp (fun h => h.1))
  have hsub : tabs.map (fun e : (Nat × Nat) × OptMem.Rng => e.1) ⊆ (List.range n) ×ˢ K := by
    intro x hx
    obtain ⟨e, he, rfl⟩ := List.mem_map.1 hx
    refine List.mem_product.2 ⟨List.mem_range.2 ?_, ?_⟩
    · by_contra hc
      exact h.absent e.1.1 e.1.2 (hn _ _ (Nat.le_of_not_lt hc)) e he rfl
    · by_contra hc
      exact h.absent e.1.1 e.1.2 (hK _ _ hc) e he rfl
  have := (hnd.subperm hsub).length_le
  rw [List.length_map, List.length_product, List.length_range] at this
  exact this

theorem demand (addr : Ptr → Nat) (hinj : Distinct addr) {R : Nat → Heap α → τ → σ → Prop} (tab : τ → OptMem.Tables) {hu : HUpd τ α} {u : Upd σ α}
    (hfo : ∀ N, HUpd.FollowsIn addr N (R N) hu u) (hst : ∀ N, Steady N (R N)) (T : σ → Nat → Table α) (hR : ∀ N H s v, R N H s v → (tab s).Is N H (T v))
    {I : (Nat → Nat) → σ → Prop} (hok : ∀ size, UpdOk u size (I size)) {s0' : τ} {s0 : σ} (hs0 : ∀ size, I size s0)
    (hinit : ∀ (N : Nat) (H : Heap α), (∀ b, H.live b → b < N) → R N H s0' s0) (htab : tab s0' = [])
    (hcount : ∀ H s p g r, hu H s p g = .ok r → r.1.next + (tab s).length = H.next + (tab r.2).length)
    (hother : ∀ s key P G r, u s key P G = .ok r → ∀ k key', key' ≠ key → T r.1 k key' = T s k key') (hT0 : ∀ k key, T s0 k key = none)
    (n : Nat) (hn : ∀ v k key, n ≤ k → T v k key = none)
    {as : List (LayerArgs α)} {ss : List (LayerSpec α)} {s o : Shp} {hl : HLoss α} {l : Loss α} {H0 : Heap α}
    {hops : List (HTrainOp α γ)} {ops : List (TrainOp α γ)} (hp : HTrain.Sensible as ss s o hl l H0 hops ops)
    (gi : Gen γ' ρ' α) (ci : γ') (ri : ρ') (gen : Gen γ ρ Nat) (g : ρ) :
    ∃ t0 r, HTrain.program as gi ci ri hl s0' hu gen g [] H0 = .ok (t0, g) ∧ HTrain.program as gi ci ri hl s0' hu gen g hops H0 = .ok r ∧
      r.1.heap.next = t0.heap.next + (tab r.1.opt).length ∧ (tab r.1.opt).length ≤ n * arraysOf ss := by
  obtain ⟨ks, st, g', h1, h2, h3, t0, h4, r, h5, -, N, hN, h6, -⟩ := program_from addr hinj tab (R := Counted tab R)
    (fun N => Counted.followsIn (hfo N) hcount) (fun N => Counted.steady (hst N)) (fun N H s v h => ⟨_, hR N H s v h.1⟩) hok hs0
    (fun N H e h => ⟨hinit N H h, by rw [htab, e]; rfl⟩) hp gi ci ri gen g
  refine ⟨t0, r, h4, h5, by rw [← hN]; exact h6.2, ?_⟩
  rw [← keys_length h3 h1]
  exact tabs_length (hR _ _ _ _ h6.1) (fun k key => hn st.1 k key) (Train.program_confined hother hT0 h2)

end

/-! ### The optimizers of the library -/

section
variable [Field α] [LinearOrder α] [IsStrictOrderedRing α]

/-- Training with GradDescent allocates nothing: after any sequence of training calls, loss evaluations and feed-forwards as many arrays have
been allocated as before the first of them. -/
theorem C109_gd (addr : Ptr → Nat) (hinj : Distinct addr) (lr : α)
    {as : List (LayerArgs α)} {ss : List (LayerSpec α)} {s o : Shp} {hl : HLoss α} {l : Loss α} {H0 : Heap α}
    {hops : List (HTrainOp α γ)} {ops : List (TrainOp α γ)} (hp : HTrain.Sensible as ss s o hl l H0 hops ops)
    (gi : Gen γ' ρ' α) (ci : γ') (ri : ρ') (gen : Gen γ ρ Nat) (g : ρ) :
    ∃ t0 r, HTrain.program as gi ci ri hl lr hgdUpdate gen g [] H0 = .ok (t0, g) ∧
      HTrain.program as gi ci ri hl lr hgdUpdate gen g hops H0 = .ok r ∧ r.1.heap.next = t0.heap.next := by
  obtain ⟨t0, r, h1, h2, h3, -⟩ := demand addr hinj (R := fun N H s v => s = v ∧ OptMem.Tables.Is N H [] (fun _ _ => none)) (fun _ => [])
    (hu := hgdUpdate) (u := gdUpdate)
    (fun N H s v v' p g bp bg bp' bg' hR _ hp' hg' a b c e => by
      obtain ⟨rfl, hR⟩ := hR
      refine (hgdUpdate_follows addr H s v' p g bp bg bp' bg' a b c e).mono (fun r q => ?_)
      exact ⟨⟨q.1, hR.frame q.2.2.2 (by
        intro w hw
        simp only [List.mem_cons, List.not_mem_nil, or_false] at hw
        rcases hw with rfl | rfl
        · exact hp'
        · exact hg')⟩, q.2.1, q.2.2.1, q.2.2.2.below N⟩)
    (fun N H H' s v ws h ho hw => ⟨h.1, h.2.frame ho hw⟩) (fun _ _ _ => none) (fun N H s v h => h.2) (I := fun _ _ => True)
    (fun size => gd_UpdOk size) (s0' := lr) (s0 := lr) (fun _ => trivial) (fun N H h => ⟨rfl, tables_none h (fun _ _ => rfl)⟩) rfl
    (fun H s p g r h => by
      obtain ⟨H1, h1, h⟩ := res_bind_inv h
      obtain ⟨H2, h2, h⟩ := res_bind_inv h
      cases h
      have := assignConst_next h1
      have := assignPtr_next h2
      show H2.next + 0 = H.next + 0
      omega)
    (fun _ _ _ _ _ _ _ _ _ => rfl) (fun _ _ => rfl) 0 (fun _ _ _ _ => rfl) hp gi ci ri gen g
  exact ⟨t0, r, h1, h2, h3⟩

/-- The same for StoGradDescent. -/
theorem C109_sgd (addr : Ptr → Nat) (hinj : Distinct addr) (lr decay : α)
    {as : List (LayerArgs α)} {ss : List (LayerSpec α)} {s o : Shp} {hl : HLoss α} {l : Loss α} {H0 : Heap α}
    {hops : List (HTrainOp α γ)} {ops : List (TrainOp α γ)} (hp : HTrain.Sensible as ss s o hl l H0 hops ops)
    (gi : Gen γ' ρ' α) (ci : γ') (ri : ρ') (gen : Gen γ ρ Nat) (g : ρ) :
    ∃ t0 r, HTrain.program as gi ci ri hl (Sgd.make lr decay) hsgdUpdate gen g [] H0 = .ok (t0, g) ∧
      HTrain.program as gi ci ri hl (Sgd.make lr decay) hsgdUpdate gen g hops H0 = .ok r ∧ r.1.heap.next = t0.heap.next := by
  obtain ⟨t0, r, h1, h2, h3, -⟩ := demand addr hinj (R := fun N H s v => s = v ∧ OptMem.Tables.Is N H [] (fun _ _ => none)) (fun _ => [])
    (hu := hsgdUpdate) (u := sgdUpdate)
    (fun N H s v v' p g bp bg bp' bg' hR _ hp' hg' a b c e => by
      obtain ⟨rfl, hR⟩ := hR
      refine (hsgdUpdate_follows addr H s v' p g bp bg bp' bg' a b c e).mono (fun r q => ?_)
      exact ⟨⟨q.1, hR.frame q.2.2.2 (by
        intro w hw
        simp only [List.mem_cons, List.not_mem_nil, or_false] at hw
        rcases hw with rfl | rfl
        · exact hp'
        · exact hg')⟩, q.2.1, q.2.2.1, q.2.2.2.below N⟩)
    (fun N H H' s v ws h ho hw => ⟨h.1, h.2.frame ho hw⟩) (fun _ _ _ => none) (fun N H s v h => h.2) (I := fun _ _ => True)
    (fun size => sgd_UpdOk size) (s0' := Sgd.make lr decay) (s0 := Sgd.make lr decay) (fun _ => trivial)
    (fun N H h => ⟨rfl, tables_none h (fun _ _ => rfl)⟩) rfl
    (fun H s p g r h => by
      obtain ⟨H1, h1, h⟩ := res_bind_inv h
      obtain ⟨H2, h2, h⟩ := res_bind_inv h
      obtain ⟨H3, h3, h⟩ := res_bind_inv h
      cases h
      have := assignConst_next h1
      have := assignConst_next h2
      have := assignPtr_next h3
      show H3.next + 0 = H.next + 0
      omega)
    (fun _ _ _ _ _ _ _ _ _ => rfl) (fun _ _ => rfl) 0 (fun _ _ _ _ => rfl) hp gi ci ri gen g
  exact ⟨t0, r, h1, h2, h3⟩

/-- Training with Momentum allocates, in any sequence of calls of any length, at most two arrays for every parameter array of the network. -/
theorem C109_momentum (addr : Ptr → Nat) (hinj : Distinct addr) (lr mu : α)
    {as : List (LayerArgs α)} {ss : List (LayerSpec α)} {s o : Shp} {hl : HLoss α} {l : Loss α} {H0 : Heap α}
    {hops : List (HTrainOp α γ)} {ops : List (TrainOp α γ)} (hp : HTrain.Sensible as ss s o hl l H0 hops ops)
    (gi : Gen γ' ρ' α) (ci : γ') (ri : ρ') (gen : Gen γ ρ Nat) (g : ρ) :
    ∃ t0 r, HTrain.program as gi ci ri hl (HMom.make lr mu) (hmomUpdate addr) gen g [] H0 = .ok (t0, g) ∧
      HTrain.program as gi ci ri hl (HMom.make lr mu) (hmomUpdate addr) gen g hops H0 = .ok r ∧
      r.1.heap.next = t0.heap.next + r.1.opt.tabs.length ∧ r.1.opt.tabs.length ≤ 2 * arraysOf ss :=
  demand addr hinj (s0' := HMom.make lr mu) (s0 := Mom.make lr mu) HMom.tabs (fun N => hmom_followsIn addr N) HMom.steady Mom.tables (fun _ _ _ _ h => h.tabs) (fun size => mom_UpdOk size)
    (fun size => ⟨fun k => (Table.get_empty k _).length, TabOk.empty _⟩)
    (fun N H h => ⟨tables_none h (fun k key => by match k with | 0 => rfl | 1 => rfl | _ + 2 => rfl), rfl, rfl⟩) rfl
    (fun _ _ _ _ _ h => hmom_next h)
    (fun s key P G r h k key' hk => by
      have := local_mom.other s key P G r h key' hk
      simp only [Prod.mk.injEq] at this
      match k with | 0 => exact this.1 | 1 => exact this.2.1 | _ + 2 => rfl)
    (fun k key => by match k with | 0 => rfl | 1 => rfl | _ + 2 => rfl) 2
    (fun v k key hk => by match k, hk with | k + 2, _ => rfl) hp gi ci ri gen g

/-- The same for Nestorov. -/
theorem C109_nestorov (addr : Ptr → Nat) (hinj : Distinct addr) (lr mu : α)
    {as : List (LayerArgs α)} {ss : List (LayerSpec α)} {s o : Shp} {hl : HLoss α} {l : Loss α} {H0 : Heap α}
    {hops : List (HTrainOp α γ)} {ops : List (TrainOp α γ)} (hp : HTrain.Sensible as ss s o hl l H0 hops ops)
    (gi : Gen γ' ρ' α) (ci : γ') (ri : ρ') (gen : Gen γ ρ Nat) (g : ρ) :
    ∃ t0 r, HTrain.program as gi ci ri hl (HMom.make lr mu) (hnesUpdate addr) gen g [] H0 = .ok (t0, g) ∧
      HTrain.program as gi ci ri hl (HMom.make lr mu) (hnesUpdate addr) gen g hops H0 = .ok r ∧
      r.1.heap.next = t0.heap.next + r.1.opt.tabs.length ∧ r.1.opt.tabs.length ≤ 2 * arraysOf ss :=
  demand addr hinj (s0' := HMom.make lr mu) (s0 := Mom.make lr mu) HMom.tabs (fun N => hnes_followsIn addr N) HMom.steady Mom.tables (fun _ _ _ _ h => h.tabs) (fun size => nes_UpdOk size)
    (fun size => ⟨fun k => (Table.get_empty k _).length, TabOk.empty _⟩)
    (fun N H h => ⟨tables_none h (fun k key => by match k with | 0 => rfl | 1 => rfl | _ + 2 => rfl), rfl, rfl⟩) rfl
    (fun _ _ _ _ _ h => hnes_next h)
    (fun s key P G r h k key' hk => by
      have := local_nes.other s key P G r h key' hk
      simp only [Prod.mk.injEq] at this
      match k with | 0 => exact this.1 | 1 => exact this.2.1 | _ + 2 => rfl)
    (fun k key => by match k with | 0 => rfl | 1 => rfl | _ + 2 => rfl) 2
    (fun v k key hk => by match k, hk with | k + 2, _ => rfl) hp gi ci ri gen g

/-- The same for AdaGrad. -/
theorem C109_adagrad (addr : Ptr → Nat) (hinj : Distinct addr) (isq : α → α) (lr : α)
    {as : List (LayerArgs α)} {ss : List (LayerSpec α)} {s o : Shp} {hl : HLoss α} {l : Loss α} {H0 : Heap α}
    {hops : List (HTrainOp α γ)} {ops : List (TrainOp α γ)} (hp : HTrain.Sensible as ss s o hl l H0 hops ops)
    (gi : Gen γ' ρ' α) (ci : γ') (ri : ρ') (gen : Gen γ ρ Nat) (g : ρ) :
    ∃ t0 r, HTrain.program as gi ci ri hl (HAda.make lr 0) (hadagradUpdate isq addr) gen g [] H0 = .ok (t0, g) ∧
      HTrain.program as gi ci ri hl (HAda.make lr 0) (hadagradUpdate isq addr) gen g hops H0 = .ok r ∧
      r.1.heap.next = t0.heap.next + r.1.opt.tabs.length ∧ r.1.opt.tabs.length ≤ 2 * arraysOf ss :=
  demand addr hinj (s0' := HAda.make lr 0) (s0 := Ada.make lr 0) HAda.tabs (fun N => hadagrad_followsIn isq addr N) HAda.steady Ada.tables (fun _ _ _ _ h => h.tabs) (fun size => adagrad_UpdOk isq size)
    (fun size => ⟨fun k => (Table.get_empty k _).length, TabOk.empty _⟩)
    (fun N H h => ⟨tables_none h (fun k key => by match k with | 0 => rfl | 1 => rfl | _ + 2 => rfl), rfl, rfl, rfl⟩) rfl
    (fun _ _ _ _ _ h => hadagrad_next h)
    (fun s key P G r h k key' hk => by
      have := (local_adagrad isq).other s key P G r h key' hk
      simp only [Prod.mk.injEq] at this
      match k with | 0 => exact this.1 | 1 => exact this.2.1 | _ + 2 => rfl)
    (fun k key => by match k with | 0 => rfl | 1 => rfl | _ + 2 => rfl) 2
    (fun v k key hk => by match k, hk with | k + 2, _ => rfl) hp gi ci ri gen g

/-- The same for RMSProp. -/
theorem C109_rmsprop (addr : Ptr → Nat) (hinj : Distinct addr) (isq : α → α) (lr beta : α)
    {as : List (LayerArgs α)} {ss : List (LayerSpec α)} {s o : Shp} {hl : HLoss α} {l : Loss α} {H0 : Heap α}
    {hops : List (HTrainOp α γ)} {ops : List (TrainOp α γ)} (hp : HTrain.Sensible as ss s o hl l H0 hops ops)
    (gi : Gen γ' ρ' α) (ci : γ') (ri : ρ') (gen : Gen γ ρ Nat) (g : ρ) :
    ∃ t0 r, HTrain.program as gi ci ri hl (HAda.make lr beta) (hrmspropUpdate isq addr) gen g [] H0 = .ok (t0, g) ∧
      HTrain.program as gi ci ri hl (HAda.make lr beta) (hrmspropUpdate isq addr) gen g hops H0 = .ok r ∧
      r.1.heap.next = t0.heap.next + r.1.opt.tabs.length ∧ r.1.opt.tabs.length ≤ 2 * arraysOf ss :=
  demand addr hinj (s0' := HAda.make lr beta) (s0 := Ada.make lr beta) HAda.tabs (fun N => hrmsprop_followsIn isq addr N) HAda.steady Ada.tables (fun _ _ _ _ h => h.tabs) (fun size => rmsprop_UpdOk isq size)
    (fun size => ⟨fun k => (Table.get_empty k _).length, TabOk.empty _⟩)
    (fun N H h => ⟨tables_none h (fun k key => by match k with | 0 => rfl | 1 => rfl | _ + 2 => rfl), rfl, rfl, rfl⟩) rfl
    (fun _ _ _ _ _ h => hrmsprop_next h)
    (fun s key P G r h k key' hk => by
      have := (local_rmsprop isq).other s key P G r h key' hk
      simp only [Prod.mk.injEq] at this
      match k with | 0 => exact this.1 | 1 => exact this.2.1 | _ + 2 => rfl)
    (fun k key => by match k with | 0 => rfl | 1 => rfl | _ + 2 => rfl) 2
    (fun v k key hk => by match k, hk with | k + 2, _ => rfl) hp gi ci ri gen g

theorem adam_other (isq : α → α) (s : AdamS α) (key : Nat) (P G : Buf α) (r : AdamS α × Buf α × Buf α) (h : adamUpdate isq s key P G = .ok r)
    (k key' : Nat) (hk : key' ≠ key) : r.1.tables k key' = s.tables k key' := by
  unfold adamUpdate at h
  dsimp only at h
  iterate 14 obtain ⟨_, _, h⟩ := res_bind_inv h
  cases h
  match k with
  | 0 => exact if_neg hk
  | 1 => exact if_neg hk
  | 2 => exact if_neg hk
  | _ + 3 => rfl

/-- The same for Adam, with three arrays for every parameter array. -/
theorem C109_adam (addr : Ptr → Nat) (hinj : Distinct addr) (isq : α → α) (lr beta1 beta2 : α) (h1 : 0 ≤ beta1 ∧ beta1 < 1) (h2 : 0 ≤ beta2 ∧ beta2 < 1)
    {as : List (LayerArgs α)} {ss : List (LayerSpec α)} {s o : Shp} {hl : HLoss α} {l : Loss α} {H0 : Heap α}
    {hops : List (HTrainOp α γ)} {ops : List (TrainOp α γ)} (hp : HTrain.Sensible as ss s o hl l H0 hops ops)
    (gi : Gen γ' ρ' α) (ci : γ') (ri : ρ') (gen : Gen γ ρ Nat) (g : ρ) :
    ∃ t0 r, HTrain.program as gi ci ri hl (HAdam.make lr beta1 beta2) (hadamUpdate isq addr) gen g [] H0 = .ok (t0, g) ∧
      HTrain.program as gi ci ri hl (HAdam.make lr beta1 beta2) (hadamUpdate isq addr) gen g hops H0 = .ok r ∧
      r.1.heap.next = t0.heap.next + r.1.opt.tabs.length ∧ r.1.opt.tabs.length ≤ 3 * arraysOf ss :=
  demand addr hinj (s0' := HAdam.make lr beta1 beta2) (s0 := AdamS.make lr beta1 beta2) HAdam.tabs (fun N => hadam_followsIn isq addr N) HAdam.steady AdamS.tables (fun _ _ _ _ h => h.tabs) (fun size => adam_UpdOk isq size)
    (fun size => AdamOk.make size lr beta1 beta2 h1 h2)
    (fun N H h => ⟨tables_none h (fun k key => by match k with | 0 => rfl | 1 => rfl | 2 => rfl | _ + 3 => rfl), rfl, rfl, rfl, rfl, rfl, rfl, rfl⟩) rfl
    (fun _ _ _ _ _ h => hadam_next h) (adam_other isq)
    (fun k key => by match k with | 0 => rfl | 1 => rfl | 2 => rfl | _ + 3 => rfl) 3
    (fun v k key hk => by match k, hk with | k + 3, _ => rfl) hp gi ci ri gen g

end

/-! ### When memory runs out -/

section
variable [Zero α]

theorem entriesIn_returns (limit : Nat) (key size : Nat) : ∀ (n k : Nat) (H : Heap α) (t : OptMem.Tables), H.next + n ≤ limit →
    ∃ r, OptMem.entriesIn limit 0 key size n k H t = .ok (.returns r)
  | 0, _, _, _, _ => ⟨_, rfl⟩
  | n + 1, k, H, t, hl => by
    unfold OptMem.entriesIn OptMem.getIn
    rw [if_neg (by omega)]
    obtain ⟨r, hr⟩ : ∃ r, OptMem.get H (0 : α) t (k, key) size = .ok r := by
      unfold OptMem.get
      split
      · exact ⟨_, rfl⟩
      · obtain ⟨H1, e, -⟩ := fillNew_spec H size (0 : α)
        unfold OptMem.Rng.resize
        show ∃ r, ((fillLoop (H.new size).1 (H.new size).2 size (0 : α) >>= _) >>= _) = Except.ok r
        rw [e]
        exact ⟨_, rfl⟩
    have hx := OptMem.get_next hr
    have hle : r.1.next ≤ H.next + 1 := by
      unfold OptMem.get at hr
      split at hr
      · cases hr; exact Nat.le_succ _
      · obtain ⟨⟨H1, r1⟩, h1, h2⟩ := res_bind_inv hr
        cases h2
        simp only [List.length_append, List.length_singleton] at hx
        dsimp only
        omega
    rw [hr]
    exact entriesIn_returns limit key size n (k + 1) r.1 r.2.1 (by omega)

/-- With room for one more array per table the call of `update` never ends the program: it does what it does when memory is unlimited. -/
theorem C109_enough (limit n : Nat) (tabs : τ → OptMem.Tables) (addr : Ptr → Nat) (upd : HUpd τ α) (H : Heap α) (s : τ) (p g : Obj)
    (hl : H.next + n ≤ limit) : updateIn limit n tabs addr upd H s p g = upd H s p g >>= fun r => .ok (.returns r) := by
  obtain ⟨r, hr⟩ := entriesIn_returns limit (addr p.data) p.shape.size n 0 H (tabs s) hl
  unfold updateIn
  rw [hr]
  rfl

/-- Violated: when no memory is left for the state of a parameter that is updated for the first time, `update` neither returns nor lets
`std::bad_alloc` reach the caller: the program ends. -/
theorem C109_terminates_violated (limit n : Nat) (tabs : τ → OptMem.Tables) (addr : Ptr → Nat) (upd : HUpd τ α) (H : Heap α) (s : τ) (p g : Obj)
    (hn : 0 < n) (hnew : ∀ e ∈ tabs s, e.1 ≠ (0, addr p.data)) (hl : limit ≤ H.next) :
    updateIn limit n tabs addr upd H s p g = .ok .terminates := by
  obtain ⟨n, rfl⟩ : ∃ m, n = m + 1 := ⟨n - 1, by omega⟩
  have hf : (tabs s).find? (fun e => e.1 == (0, addr p.data)) = none := by
    rw [List.find?_eq_none]
    intro e he h
    exact hnew e he (by simpa using h)
  unfold updateIn OptMem.entriesIn OptMem.getIn
  rw [hf, if_pos ⟨rfl, hl⟩]
  rfl

end

/-! ### Non-vacuity: the program of C98, and an optimizer that has not seen any parameter yet -/

example (addr : Ptr → Nat) (hinj : Distinct addr) (gi : Gen γ' ρ' ℝ) (ci : γ') (ri : ρ') (gen : Gen Unit ρ Nat) (g : ρ) :
    ∃ t0 r, HTrain.program exArgs gi ci ri HLosses.NLL (HAdam.make 0.1 0.9 0.999) (hadamUpdate (fun x => 1 / Real.sqrt x) addr) gen g [] exHeap = .ok (t0, g) ∧
      HTrain.program exArgs gi ci ri HLosses.NLL (HAdam.make 0.1 0.9 0.999) (hadamUpdate (fun x => 1 / Real.sqrt x) addr) gen g exHOps exHeap = .ok r ∧
      r.1.heap.next = t0.heap.next + r.1.opt.tabs.length ∧ r.1.opt.tabs.length ≤ 3 * arraysOf exSpecs :=
  C109_adam addr hinj _ 0.1 0.9 0.999 (by norm_num) (by norm_num) exSensible gi ci ri gen g

example (addr : Ptr → Nat) (lr mu : ℝ) (H : Heap ℝ) (p g : Obj) :
    updateIn H.next 2 HMom.tabs addr (hmomUpdate addr) H (HMom.make lr mu) p g = .ok .terminates :=
  C109_terminates_violated H.next 2 HMom.tabs addr (hmomUpdate addr) H (HMom.make lr mu) p g (by decide) (fun e he => absurd he List.not_mem_nil) (Nat.le_refl _)

end Trixy
