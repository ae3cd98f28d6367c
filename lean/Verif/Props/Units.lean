import Verif.Proof.Units
import Verif.Props.TrainSafe
import Verif.Props.Checkpoint
import Verif.Props.Feedback
import Verif.Proof.Init
import Verif.Props.NaN
/- Property C101 (units that are copies of each other stay copies). -/
namespace Trixy

variable {α γ ρ σ γ' ρ' : Type}
set_option linter.unusedSectionVars false

/-! ### The optimizers -/

/-- Table entries agree where they are compared. -/
def TabSame [Zero α] (size : Nat → Nat) (E : Nat → Nat → Nat → Prop) (t : Table α) : Prop := ∀ k, SameCells (E k) (t.get k (size k))

theorem TabSame.empty [Zero α] (size : Nat → Nat) (E : Nat → Nat → Nat → Prop) : TabSame size E (fun _ => none : Table α) :=
  fun k => (SameCells.iff (Table.get_empty k _)).2 (fun _ _ _ _ _ => rfl)

theorem TabSame.of [Zero α] {size : Nat → Nat} {E : Nat → Nat → Nat → Prop} {t t' : Table α} (h : TabSame size E t) {k : Nat}
    (hk : SameCells (E k) (t'.get k (size k))) (ho : ∀ k', k' ≠ k → t' k' = t k') : TabSame size E t' := by
  intro k'
  by_cases e : k' = k
  · subst e; exact hk
  · rw [getTab_congr (ho k' e)]; exact h k'

theorem alike_gd [Mul α] [Sub α] (size : Nat → Nat) (lr : α) : TreatsAlike gdUpdate size lr := by
  intro E
  refine ⟨fun _ => True, ?_, trivial⟩
  intro s k p g _ ⟨fp, hp⟩ ⟨fg, hg⟩ sp sg
  have c1 := (SameCells.iff hp).1 sp
  have c2 := (SameCells.iff hg).1 sg
  refine (gd_spec (k := k) hp hg).mono (fun r hr => ⟨trivial, hr.2.1.full, hr.2.2.full, ?_, ?_⟩)
  · exact (SameCells.iff hr.2.1).2 (fun i j hi hj h => by rw [c1 i j hi hj h, c2 i j hi hj h])
  · exact (SameCells.iff hr.2.2).2 (fun i j hi hj h => by rw [c2 i j hi hj h])

theorem alike_sgd [Mul α] [Sub α] (size : Nat → Nat) (s : Sgd α) : TreatsAlike sgdUpdate size s := by
  intro E
  refine ⟨fun _ => True, ?_, trivial⟩
  intro s k p g _ ⟨fp, hp⟩ ⟨fg, hg⟩ sp sg
  have c1 := (SameCells.iff hp).1 sp
  have c2 := (SameCells.iff hg).1 sg
  refine (sgd_spec (k := k) hp hg).mono (fun r hr => ⟨trivial, hr.2.1.full, hr.2.2.full, ?_, ?_⟩)
  · exact (SameCells.iff hr.2.1).2 (fun i j hi hj h => by rw [c1 i j hi hj h, c2 i j hi hj h])
  · exact (SameCells.iff hr.2.2).2 (fun i j hi hj h => by rw [c2 i j hi hj h])

theorem alike_mom [Zero α] [Add α] [Mul α] [Sub α] (size : Nat → Nat) (lr mu : α) : TreatsAlike momUpdate size (Mom.make lr mu) := by
  intro E
  refine ⟨fun s => MomOk size s ∧ TabSame size E s.opt, ?_, ⟨fun k => (Table.get_empty k _).length, TabOk.empty _⟩, TabSame.empty _ _⟩
  intro s k P G ⟨hI, hT⟩ ⟨p, hp⟩ ⟨g, hg⟩ sp sg
  obtain ⟨v, hv⟩ := hI.2 k
  have c1 := (SameCells.iff hp).1 sp
  have c2 := (SameCells.iff hg).1 sg
  have c3 := (SameCells.iff hv).1 (hT k)
  obtain ⟨r, e, _, _, h3, h4, h5, h6⟩ := mom_spec hp hg (hI.1 k) hv
  have ho := local_mom.other s k P G r e
  simp only [Prod.mk.injEq] at ho
  refine ⟨r, e, ⟨⟨len_of hI.1 h3 (fun k' hk' => (ho k' hk').1), hI.2.of ⟨_, h4⟩ (fun k' hk' => (ho k' hk').2.1)⟩,
    hT.of ((SameCells.iff h4).2 ?_) (fun k' hk' => (ho k' hk').2.1)⟩, h5.full, by rw [h6]; exact hg.full, (SameCells.iff h5).2 ?_, by rw [h6]; exact sg⟩
  · exact fun i j hi hj h => by rw [c2 i j hi hj h, c3 i j hi hj h]
  · exact fun i j hi hj h => by rw [c1 i j hi hj h, c2 i j hi hj h, c3 i j hi hj h]

theorem alike_nes [Zero α] [Add α] [Mul α] [Sub α] (size : Nat → Nat) (lr mu : α) : TreatsAlike nesUpdate size (Mom.make lr mu) := by
  intro E
  refine ⟨fun s => MomOk size s ∧ TabSame size E s.opt, ?_, ⟨fun k => (Table.get_empty k _).length, TabOk.empty _⟩, TabSame.empty _ _⟩
  intro s k P G ⟨hI, hT⟩ ⟨p, hp⟩ ⟨g, hg⟩ sp sg
  obtain ⟨v, hv⟩ := hI.2 k
  have c1 := (SameCells.iff hp).1 sp
  have c2 := (SameCells.iff hg).1 sg
  have c3 := (SameCells.iff hv).1 (hT k)
  obtain ⟨r, e, _, _, h3, h4, h5, h6⟩ := nes_spec hp hg (hI.1 k) hv
  have ho := local_nes.other s k P G r e
  simp only [Prod.mk.injEq] at ho
  refine ⟨r, e, ⟨⟨len_of hI.1 h3 (fun k' hk' => (ho k' hk').1), hI.2.of ⟨_, h4⟩ (fun k' hk' => (ho k' hk').2.1)⟩,
    hT.of ((SameCells.iff h4).2 ?_) (fun k' hk' => (ho k' hk').2.1)⟩, h5.full, by rw [h6]; exact hg.full, (SameCells.iff h5).2 ?_, by rw [h6]; exact sg⟩
  · exact fun i j hi hj h => by rw [c2 i j hi hj h, c3 i j hi hj h]
  · exact fun i j hi hj h => by rw [c1 i j hi hj h, c2 i j hi hj h, c3 i j hi hj h]

theorem alike_adagrad [Zero α] [_root_.One α] [Add α] [Mul α] [Sub α] (isq : α → α) (size : Nat → Nat) (lr beta : α) :
    TreatsAlike (adagradUpdate isq) size (Ada.make lr beta) := by
  intro E
  refine ⟨fun s => AdaOk size s ∧ TabSame size E s.opt, ?_, ⟨fun k => (Table.get_empty k _).length, TabOk.empty _⟩, TabSame.empty _ _⟩
  intro s k P G ⟨hI, hT⟩ ⟨p, hp⟩ ⟨g, hg⟩ sp sg
  obtain ⟨v, hv⟩ := hI.2 k
  have c1 := (SameCells.iff hp).1 sp
  have c2 := (SameCells.iff hg).1 sg
  have c3 := (SameCells.iff hv).1 (hT k)
  obtain ⟨r, e, _, h3, h4, h5, h6⟩ := adagrad_spec (isq := isq) hp hg (hI.1 k) hv
  have ho := (local_adagrad isq).other s k P G r e
  simp only [Prod.mk.injEq] at ho
  refine ⟨r, e, ⟨⟨len_of hI.1 h3 (fun k' hk' => (ho k' hk').1), hI.2.of ⟨_, h4⟩ (fun k' hk' => (ho k' hk').2.1)⟩,
    hT.of ((SameCells.iff h4).2 ?_) (fun k' hk' => (ho k' hk').2.1)⟩, h5.full, by rw [h6]; exact hg.full, (SameCells.iff h5).2 ?_, by rw [h6]; exact sg⟩
  · exact fun i j hi hj h => by rw [c2 i j hi hj h, c3 i j hi hj h]
  · exact fun i j hi hj h => by rw [c1 i j hi hj h, c2 i j hi hj h, c3 i j hi hj h]

theorem alike_rmsprop [Zero α] [_root_.One α] [Add α] [Mul α] [Sub α] (isq : α → α) (size : Nat → Nat) (lr beta : α) :
    TreatsAlike (rmspropUpdate isq) size (Ada.make lr beta) := by
  intro E
  refine ⟨fun s => AdaOk size s ∧ TabSame size E s.opt, ?_, ⟨fun k => (Table.get_empty k _).length, TabOk.empty _⟩, TabSame.empty _ _⟩
  intro s k P G ⟨hI, hT⟩ ⟨p, hp⟩ ⟨g, hg⟩ sp sg
  obtain ⟨v, hv⟩ := hI.2 k
  have c1 := (SameCells.iff hp).1 sp
  have c2 := (SameCells.iff hg).1 sg
  have c3 := (SameCells.iff hv).1 (hT k)
  obtain ⟨r, e, _, _, _, h3, h4, h5, h6⟩ := rmsprop_spec (isq := isq) hp hg (hI.1 k) hv
  have ho := (local_rmsprop isq).other s k P G r e
  simp only [Prod.mk.injEq] at ho
  refine ⟨r, e, ⟨⟨len_of hI.1 h3 (fun k' hk' => (ho k' hk').1), hI.2.of ⟨_, h4⟩ (fun k' hk' => (ho k' hk').2.1)⟩,
    hT.of ((SameCells.iff h4).2 ?_) (fun k' hk' => (ho k' hk').2.1)⟩, h5.full, by rw [h6]; exact hg.full, (SameCells.iff h5).2 ?_, by rw [h6]; exact sg⟩
  · exact fun i j hi hj h => by rw [c2 i j hi hj h, c3 i j hi hj h]
  · exact fun i j hi hj h => by rw [c1 i j hi hj h, c2 i j hi hj h, c3 i j hi hj h]

theorem alike_adam [Field α] [LinearOrder α] [IsStrictOrderedRing α] (isq : α → α) (size : Nat → Nat) (lr b1 b2 : α) (h1 : 0 ≤ b1 ∧ b1 < 1)
    (h2 : 0 ≤ b2 ∧ b2 < 1) : TreatsAlike (adamUpdate isq) size (AdamS.make lr b1 b2) := by
  intro E
  refine ⟨fun s => AdamOk size s ∧ TabSame size E s.m ∧ TabSame size E s.s, ?_, AdamOk.make size lr b1 b2 h1 h2, TabSame.empty _ _, TabSame.empty _ _⟩
  intro s k P G ⟨hI, hTm, hTs⟩ ⟨p, hp⟩ ⟨g, hg⟩ sp sg
  obtain ⟨r, e, hI', h6, h7⟩ := adam_UpdOk isq size s k P G hI ⟨p, hp⟩ ⟨g, hg⟩
  obtain ⟨m, hm⟩ := hI.m k
  obtain ⟨v, hv⟩ := hI.s k
  have c1 := (SameCells.iff hp).1 sp
  have c2 := (SameCells.iff hg).1 sg
  have c3 := (SameCells.iff hm).1 (hTm k)
  have c4 := (SameCells.iff hv).1 (hTs k)
  have l1 : s.tbeta1 * s.beta1 < 1 := (mul_le_of_le_one_left hI.b1.1 hI.t1.2).trans_lt hI.b1.2
  have l2 : s.tbeta2 * s.beta2 < 1 := (mul_le_of_le_one_left hI.b2.1 hI.t2.2).trans_lt hI.b2.2
  obtain ⟨r', e', _, _, _, _, _, _, _, ho, _, q4, q5, q6, q7⟩ :=
    adam_spec (isq := isq) hp hg (hI.buff k) hm hv (sub_ne_zero.2 (ne_of_gt l1)) (sub_ne_zero.2 (ne_of_gt l2))
  cases e.symm.trans e'
  refine ⟨r, e, ⟨hI', hTm.of ((SameCells.iff q4).2 ?_) (fun k' hk' => (ho k' hk').2.1), hTs.of ((SameCells.iff q5).2 ?_) (fun k' hk' => (ho k' hk').2.2)⟩,
    h6, h7, (SameCells.iff q6).2 ?_, by rw [q7]; exact sg⟩
  · exact fun i j hi hj h => by rw [c2 i j hi hj h, c3 i j hi hj h]
  · exact fun i j hi hj h => by rw [c2 i j hi hj h, c4 i j hi hj h]
  · exact fun i j hi hj h => by rw [c1 i j hi hj h, c2 i j hi hj h, c3 i j hi hj h, c4 i j hi hj h]

/-! ### Which cells an optimizer should treat alike -/

/-- The cells of the parameter at address `a` that `R` connects. -/
def cellRel : (Nat → Nat → Nat → Prop) → List (LayerKind α) → Nat → Nat → Nat → Prop
  | _, [], _, _, _ => False
  | R, k :: ks, a, i, j => (match k with
      | .dense _ m _ kB kW => (a = kB ∧ R 1 i j) ∨ (a = kW ∧ gridRel m (R 0) (R 1) i j)
      | _ => False) ∨ cellRel (fun l => R (l + 1)) ks a i j

theorem cellRel_mem : ∀ {R : Nat → Nat → Nat → Prop} {ks : List (LayerKind α)} {a i j : Nat}, cellRel R ks a i j → a ∈ ks.flatMap LayerKind.addrs := by
  intro R ks
  induction ks generalizing R with
  | nil => intro a i j h; exact absurd h id
  | cons k ks ih =>
    intro a i j h
    rw [List.flatMap_cons, List.mem_append]
    rcases h with h | h
    · left
      cases k with
      | dense n m act kB kW =>
        rcases h with h | h
        · rw [h.1]; simp [LayerKind.addrs]
        · rw [h.1]; simp [LayerKind.addrs]
      | conv => exact absurd h id
      | pool => exact absurd h id
    · right; exact ih h

theorem kindsOk_of {E : Nat → Nat → Nat → Prop} : ∀ {R : Nat → Nat → Nat → Prop} {ks : List (LayerKind α)},
    (∀ (l : Nat) (k : LayerKind α), ks[l]? = some k → k.Allows (R l) (R (l + 1))) → (ks.flatMap LayerKind.addrs).Nodup →
    (∀ a ∈ ks.flatMap LayerKind.addrs, ∀ i j, E a i j ↔ cellRel R ks a i j) → KindsOk E R ks := by
  intro R ks
  induction ks generalizing R with
  | nil => intro _ _ _; exact trivial
  | cons k ks ih =>
    intro hA hN hE
    rw [List.flatMap_cons, List.nodup_append] at hN
    obtain ⟨n1, n2, n3⟩ := hN
    have hout : ∀ a ∈ k.addrs, ∀ i j, ¬ cellRel (fun l => R (l + 1)) ks a i j := fun a ha i j h => n3 a ha a (cellRel_mem h) rfl
    refine ⟨?_, ih (R := fun l => R (l + 1)) (fun l k h => hA (l + 1) k (by simpa using h)) n2 (fun a ha i j => ?_)⟩
    · have h0 := hA 0 k rfl
      have hE' : ∀ a ∈ k.addrs, ∀ i j, E a i j ↔ cellRel R (k :: ks) a i j := fun a ha => hE a (by
        rw [List.flatMap_cons, List.mem_append]; exact Or.inl ha)
      cases k with
      | dense n m act kB kW =>
        have hne : kB ≠ kW := by
          intro e; subst e
          simp [LayerKind.addrs] at n1
        refine ⟨h0, fun i j => ?_, fun i j => ?_⟩
        · rw [hE' kB (by simp [LayerKind.addrs]) i j]
          constructor
          · rintro ((h | h) | h)
            · exact h.2
            · exact absurd h.1 hne
            · exact absurd h (hout kB (by simp [LayerKind.addrs]) i j)
          · intro h; exact Or.inl (Or.inl ⟨rfl, h⟩)
        · rw [hE' kW (by simp [LayerKind.addrs]) i j]
          constructor
          · rintro ((h | h) | h)
            · exact absurd h.1.symm hne
            · exact h.2
            · exact absurd h (hout kW (by simp [LayerKind.addrs]) i j)
          · intro h; exact Or.inl (Or.inr ⟨rfl, h⟩)
      | conv d h w fc fh fw pad sv sh kB kW =>
        have key : ∀ a ∈ LayerKind.addrs (LayerKind.conv d h w fc fh fw pad sv sh kB kW : LayerKind α), ∀ i j, E a i j → i = j := by
          intro a ha i j he
          rcases (hE' a ha i j).1 he with h | h
          · exact absurd h id
          · exact absurd h (hout a ha i j)
        exact ⟨h0, key kB (by simp [LayerKind.addrs]), fun f hf => key (kW f) (by
          simp only [LayerKind.addrs, List.mem_cons, List.mem_map, List.mem_range]; exact Or.inr ⟨f, hf, rfl⟩)⟩
      | pool => exact h0
    · rw [hE a (by rw [List.flatMap_cons, List.mem_append]; exact Or.inr ha) i j]
      constructor
      · rintro (h | h)
        · exfalso
          cases k with
          | dense n m act kB kW =>
            rcases h with h | h
            · exact n3 kB (by simp [LayerKind.addrs]) a ha h.1.symm
            · exact n3 kW (by simp [LayerKind.addrs]) a ha h.1.symm
          | conv => exact h
          | pool => exact h
        · exact h
      · intro h; exact Or.inr h

/-! ### C101 -/

section
variable [Zero α] [_root_.One α] [Add α] [Mul α] [Div α] [NatCast α] [LT α] [DecidableLT α] [DecidableEq α]

/-- Whatever is asked of the units (`R`): if the network has the copies and the samples have them at the input, then every sequence of
calls on the training object keeps them, in any arithmetic; and for every input related units then have the same output. -/
theorem C101_copies (upd : Upd σ α) (size : Nat → Nat) (s0 : σ) (hu : TreatsAlike upd size s0) (gen : Gen γ ρ Nat)
    (ks : List (LayerKind α)) (s o : Shp) (hv : ∀ k ∈ ks, k.Valid size) (hf : Fits s ks o) (h2 : 2 ≤ ks.length) (hw : ks.length < W64)
    (hN : (ks.flatMap LayerKind.addrs).Nodup) (R : Nat → Nat → Nat → Prop) (hR : ∀ l i, R l i i)
    (hA : ∀ (l : Nat) (k : LayerKind α), ks[l]? = some k → k.Allows (R l) (R (l + 1))) (hout : ∀ i j, R ks.length i j → i = j)
    (t : Train α) (ht : t.Safe ks o) (hc : t.net.Copies R) (g : ρ) (ops : List (TrainOp α γ)) (hops : ∀ op ∈ ops, op.Good s o)
    (hx : ∀ op ∈ ops, op.Copies (R 0)) :
    Ok (TrainOp.run upd gen ((s0, t), g) ops) (fun r => r.1.2.Safe ks o ∧ r.1.2.net.Copies R ∧
      ∀ x, ShapeIs x s → Ok (Net.feedforward x r.1.2.net) (fun q => ∀ (k : Nat) (f : FC α), q.1[k]? = some (.fc f) →
        SameCells (R (k + 1)) f.value.data)) := by
  obtain ⟨I, hI, hs⟩ := hu (cellRel R ks)
  have hP : PlanOk size (cellRel R ks) R ks s o := ⟨⟨hv, hf, h2, hw⟩, hR, kindsOk_of hA hN (fun _ _ _ _ => Iff.rfl), hout⟩
  refine (TrainOp.run_ev hP hI gen ops hops hx (st := ((s0, t), g)) hs ⟨ht, EvNet.iff.2 ⟨ht.net, hc⟩⟩).mono (fun r hr => ?_)
  refine ⟨hr.2.1, (EvNet.iff.1 hr.2.2).2, fun x hx => ?_⟩
  exact (Net.feedforward_ev hP hr.2.2 hx).mono (fun q hq k f e => (hq.2.2.at e).1)

/-! ### Two units -/

/-- Only units `p` and `q` of layer `k` are compared. -/
def twinRel (k p q : Nat) : Nat → Nat → Nat → Prop := fun l i j => i = j ∨ (l = k + 1 ∧ ((i = p ∧ j = q) ∨ (i = q ∧ j = p)))

theorem twinRel_eq {k p q l : Nat} (h : l ≠ k + 1) {i j : Nat} (hr : twinRel k p q l i j) : i = j := by
  rcases hr with h' | h'
  · exact h'
  · exact absurd h'.1 h

theorem sameCells_twin {b : Buf α} {k p q : Nat} (h : b[p]? = b[q]?) : SameCells (twinRel k p q (k + 1)) b := by
  rintro i j _ _ (h' | ⟨_, ⟨rfl, rfl⟩ | ⟨rfl, rfl⟩⟩)
  · rw [h']
  · exact h
  · exact h.symm

theorem divmod_ext {a b w : Nat} (h1 : a / w = b / w) (h2 : a % w = b % w) : a = b := by
  rw [← Nat.div_add_mod a w, ← Nat.div_add_mod b w, h1, h2]

theorem grid_other {b : Buf α} {k p q l w : Nat} (h1 : l ≠ k) (h2 : l ≠ k + 1) :
    SameCells (gridRel w (twinRel k p q l) (twinRel k p q (l + 1))) b := by
  rintro i j _ _ ⟨r1, r2⟩
  rw [divmod_ext (twinRel_eq h2 r1) (twinRel_eq (by omega) r2)]

theorem grid_ins {b : Buf α} {k p q n w : Nat} (hb : b.length = n * w) (h : ∀ i, i < n → b[i * w + p]? = b[i * w + q]?) :
    SameCells (gridRel w (twinRel k p q k) (twinRel k p q (k + 1))) b := by
  rintro i j hi hj ⟨r1, r2⟩
  have e := twinRel_eq (by omega) r1
  have hw : i / w < n := Nat.div_lt_of_lt_mul (by rw [Nat.mul_comm]; omega)
  have di := Nat.div_add_mod i w
  have dj := Nat.div_add_mod j w
  rw [Nat.mul_comm] at di dj
  rcases r2 with h' | ⟨_, ⟨h1, h2⟩ | ⟨h1, h2⟩⟩
  · rw [divmod_ext e h']
  · have := h (i / w) hw
    rw [← di, ← dj, ← e, h1, h2]; exact this
  · have := h (i / w) hw
    rw [← di, ← dj, ← e, h1, h2]; exact this.symm

theorem grid_outs {b : Buf α} {k p q n w : Nat} (hb : b.length = n * w) (h : ∀ j, j < w → b[p * w + j]? = b[q * w + j]?) :
    SameCells (gridRel w (twinRel k p q (k + 1)) (twinRel k p q (k + 1 + 1))) b := by
  rintro i j hi hj ⟨r1, r2⟩
  have e := twinRel_eq (by omega) r2
  have hw : i % w < w := Nat.mod_lt _ (Nat.pos_of_ne_zero (fun h => by subst h; rw [Nat.mul_zero] at hb; omega))
  have di := Nat.div_add_mod i w
  have dj := Nat.div_add_mod j w
  rw [Nat.mul_comm] at di dj
  rcases r1 with h' | ⟨_, ⟨h1, h2⟩ | ⟨h1, h2⟩⟩
  · rw [divmod_ext h' e]
  · have := h (i % w) hw
    rw [← di, ← dj, ← e, h1, h2]; exact this
  · have := h (i % w) hw
    rw [← di, ← dj, ← e, h1, h2]; exact this.symm

/-- Two hidden units that are copies of each other stay copies: after any sequence of calls on the training object they still have the
same bias, incoming and outgoing weights, bit for bit, and for every input they have the same output. -/
theorem C101_twins (upd : Upd σ α) (size : Nat → Nat) (s0 : σ) (hu : TreatsAlike upd size s0) (gen : Gen γ ρ Nat)
    (ks : List (LayerKind α)) (s o : Shp) (hv : ∀ k ∈ ks, k.Valid size) (hf : Fits s ks o) (hw : ks.length < W64)
    (hN : (ks.flatMap LayerKind.addrs).Nodup) (t : Train α) (ht : t.Safe ks o) (k p q : Nat) (f g : FC α) (hT : Twins t.net k p q f g)
    (hp : p < f.osize) (hq : q < f.osize) (ha : ∀ R, f.act.Respects f.osize R)
    (e : ρ) (ops : List (TrainOp α γ)) (hops : ∀ op ∈ ops, op.Good s o) :
    Ok (TrainOp.run upd gen ((s0, t), e) ops) (fun r => (∃ f' g', Twins r.1.2.net k p q f' g') ∧
      ∀ x, ShapeIs x s → Ok (Net.feedforward x r.1.2.net) (fun y => ∃ f', y.1[k]? = some (.fc f') ∧ f'.value.data[p]? = f'.value.data[q]?)) := by
  have hk1 : k + 1 < t.net.length := by
    by_contra hc
    have := hT.next
    rw [List.getElem?_eq_none (by omega)] at this
    cases this
  have hlen : t.net.length = ks.length := ht.net.length_eq
  have get : ∀ {net : Net α}, List.Forall₂ Layer.Sound net ks → ∀ (l : Nat) (a : Layer α), net[l]? = some a → ∃ κ, ks[l]? = some κ ∧ a.Sound κ := by
    intro net hn l a ha
    obtain ⟨a1, rfl⟩ := List.getElem?_eq_some_iff.1 ha
    have a2 : l < ks.length := by have : net.length = ks.length := hn.length_eq; omega
    exact ⟨ks[l], List.getElem?_eq_getElem a2, hn.get a1 a2⟩
  have dense : ∀ {f : FC α} {κ : LayerKind α}, Layer.Sound (.fc f) κ → ∃ n m act kB kW b W, κ = .dense n m act kB kW ∧ f.Wf n m b W ∧ f.act = act := by
    intro f κ h
    cases κ with
    | dense n m act kB kW => obtain ⟨⟨b, W, h1⟩, h2, _⟩ := h; exact ⟨n, m, act, kB, kW, b, W, rfl, h1, h2⟩
    | conv => exact absurd h id
    | pool => exact absurd h id
  obtain ⟨κ, hκ, hs1⟩ := get ht.net k _ hT.this
  obtain ⟨κ', hκ', hs2⟩ := get ht.net (k + 1) _ hT.next
  obtain ⟨n, m, act, kB, kW, b, W, rfl, hwf, eact⟩ := dense hs1
  obtain ⟨n', m', act', kB', kW', b', W', rfl, hwf', eact'⟩ := dense hs2
  -- the widths agree
  have hnm : n' = m := by
    have : ∀ (ks : List (LayerKind α)) (s : Shp), Fits s ks o → ∀ k, ks[k]? = some (.dense n m act kB kW) →
        ks[k + 1]? = some (.dense n' m' act' kB' kW') → n' = m := by
      intro ks
      induction ks with
      | nil => intro s h; exact absurd h id
      | cons a ks ih =>
        intro s h k e1 e2
        cases ks with
        | nil => simp at e2
        | cons a' ks =>
          cases k with
          | zero =>
            simp at e1 e2
            subst e1 e2
            have := h.2.1
            simp [LayerKind.Accepts, LayerKind.inShape, Shp.vol] at this
            exact this
          | succ k => exact ih _ h.2.2 k (by simpa using e1) (by simpa using e2)
    exact this ks s hf k hκ hκ'
  subst hnm
  have mlen : ∀ {M : Mat α} {a b : Nat}, MFull M a b → M.data.length = a * b := fun ⟨_, h⟩ => h.2.2.1
  have hA : ∀ (l : Nat) (a : LayerKind α), ks[l]? = some a → a.Allows (twinRel k p q l) (twinRel k p q (l + 1)) := by
    intro l a hl
    by_cases e1 : l = k
    · subst e1
      rw [hκ] at hl
      cases hl
      rw [← eact, ← hwf.osize]; exact ha _
    · have hR : ∀ i j, twinRel k p q (l + 1) i j → i = j := fun i j h => twinRel_eq (by omega) h
      cases a with
      | dense a1 a2 a3 a4 a5 =>
        obtain ⟨⟨F, D, hD⟩, _⟩ := hv _ (List.mem_of_getElem? hl)
        exact ⟨F, D, hD, fun v hv i j hi hj h => by rw [hR i j h]; exact ⟨rfl, rfl⟩⟩
      | conv =>
        refine ⟨fun i j h => ?_, hR⟩
        by_cases e2 : l = k + 1
        · rw [e2, hκ'] at hl; cases hl
        · exact twinRel_eq e2 h
      | pool =>
        refine ⟨fun i j h => ?_, hR⟩
        by_cases e2 : l = k + 1
        · rw [e2, hκ'] at hl; cases hl
        · exact twinRel_eq e2 h
  have hc : t.net.Copies (twinRel k p q) := by
    intro l f0 e0
    obtain ⟨κ0, hκ0, hs0⟩ := get ht.net l _ e0
    obtain ⟨n0, m0, act0, kB0, kW0, b0, W0, rfl, hwf0, _⟩ := dense hs0
    have tr : ∀ (b : Buf α), l ≠ k → SameCells (twinRel k p q (l + 1)) b := fun b h =>
      .trivial (fun i j hr => twinRel_eq (by omega) hr) b
    by_cases e1 : l = k
    · subst e1
      rw [hT.this] at e0
      cases e0
      have hbi := hT.bias
      have hin := hT.ins
      rw [hwf.isize, hwf.osize] at hin
      refine ⟨sameCells_twin (hbi _ (by simp)), ?_, sameCells_twin (hbi _ (by simp)), ?_, sameCells_twin (hbi _ (by simp)), ?_⟩
      · rw [hwf.osize]; exact grid_ins hwf.W.2.2.1 (hin _ (by simp))
      · rw [hwf.osize]; exact grid_ins (mlen hwf.gradW) (hin _ (by simp))
      · rw [hwf.osize]; exact grid_ins (mlen hwf.gradWs) (hin _ (by simp))
    · by_cases e2 : l = k + 1
      · subst e2
        rw [hT.next] at e0
        cases e0
        have hou := hT.outs
        rw [hwf'.osize] at hou
        refine ⟨tr _ e1, ?_, tr _ e1, ?_, tr _ e1, ?_⟩
        · rw [hwf'.osize]; exact grid_outs hwf'.W.2.2.1 (hou _ (by simp))
        · rw [hwf'.osize]; exact grid_outs (mlen hwf'.gradW) (hou _ (by simp))
        · rw [hwf'.osize]; exact grid_outs (mlen hwf'.gradWs) (hou _ (by simp))
      · exact ⟨tr _ e1, grid_other e1 e2, tr _ e1, grid_other e1 e2, tr _ e1, grid_other e1 e2⟩
  have hx : ∀ op ∈ ops, op.Copies (twinRel k p q 0) := by
    have hz : ∀ (b : Buf α), SameCells (twinRel k p q 0) b := fun b => .trivial (fun i j hr => twinRel_eq (by omega) hr) b
    intro op _
    cases op <;> simp [TrainOp.Copies, hz]
  have hpm : p < n' := hwf.osize ▸ hp
  have hqm : q < n' := hwf.osize ▸ hq
  refine (C101_copies upd size s0 hu gen ks s o hv hf (by omega) hw hN (twinRel k p q) (fun _ _ => Or.inl rfl) hA
    (fun i j h => twinRel_eq (by omega) h) t ht hc e ops hops hx).mono (fun r hr => ?_)
  obtain ⟨hS, hC, hV⟩ := hr
  have isfc : ∀ {net : Net α}, List.Forall₂ Layer.Sound net ks → ∀ {l n m : Nat} {act : Act α} {kB kW : Nat}, ks[l]? = some (LayerKind.dense n m act kB kW) →
      ∃ f : FC α, net[l]? = some (Layer.fc f) ∧ ∃ b W, f.Wf n m b W := by
    intro net hn l n m act kB kW hl
    obtain ⟨a2, hk2⟩ := List.getElem?_eq_some_iff.1 hl
    have a1 : l < net.length := by have : net.length = ks.length := hn.length_eq; omega
    have hg := hn.get a1 a2
    rw [List.get_eq_getElem, List.get_eq_getElem, hk2] at hg
    cases hl2 : net[l] with
    | fc f => rw [hl2] at hg; exact ⟨f, by rw [List.getElem?_eq_getElem a1, hl2], hg.1⟩
    | rawFC | conv | rawConv | pool | rawPool => rw [hl2] at hg; exact absurd hg id
  obtain ⟨f1, ef1, _, _, w1⟩ := isfc hS.net hκ
  obtain ⟨g1, eg1, _, _, w2⟩ := isfc hS.net hκ'
  have tw : twinRel k p q (k + 1) p q := Or.inr ⟨rfl, Or.inl ⟨rfl, rfl⟩⟩
  have c1 := hC k f1 ef1
  have c2 := hC (k + 1) g1 eg1
  refine ⟨⟨f1, g1, ef1, eg1, ?_, ?_, ?_⟩, fun x hx => ?_⟩
  · intro b hb
    have hl : b.length = n' ∧ SameCells (twinRel k p q (k + 1)) b := by
      simp only [List.mem_cons, List.not_mem_nil, or_false] at hb
      rcases hb with rfl | rfl | rfl
      · exact ⟨w1.B.length, c1.B⟩
      · exact ⟨w1.gradB.len, c1.gradB⟩
      · exact ⟨w1.gradBs.len, c1.gradBs⟩
    exact hl.2 p q (by omega) (by omega) tw
  · intro M hM i hi
    rw [w1.isize] at hi
    have hl : M.data.length = n * n' ∧ SameCells (gridRel f1.osize (twinRel k p q k) (twinRel k p q (k + 1))) M.data := by
      simp only [List.mem_cons, List.not_mem_nil, or_false] at hM
      rcases hM with rfl | rfl | rfl
      · exact ⟨w1.W.2.2.1, c1.W⟩
      · exact ⟨mlen w1.gradW, c1.gradW⟩
      · exact ⟨mlen w1.gradWs, c1.gradWs⟩
    rw [w1.osize] at hl ⊢
    refine hl.2 _ _ (by rw [hl.1]; exact idx2_lt hi hpm) (by rw [hl.1]; exact idx2_lt hi hqm) ⟨?_, ?_⟩
    · rw [idx2_div hpm, idx2_div hqm]; exact Or.inl rfl
    · rw [idx2_mod hpm, idx2_mod hqm]; exact tw
  · intro M hM j hj
    rw [w2.osize] at hj
    have hl : M.data.length = n' * m' ∧ SameCells (gridRel g1.osize (twinRel k p q (k + 1)) (twinRel k p q (k + 1 + 1))) M.data := by
      simp only [List.mem_cons, List.not_mem_nil, or_false] at hM
      rcases hM with rfl | rfl | rfl
      · exact ⟨w2.W.2.2.1, c2.W⟩
      · exact ⟨mlen w2.gradW, c2.gradW⟩
      · exact ⟨mlen w2.gradWs, c2.gradWs⟩
    rw [w2.osize] at hl ⊢
    refine hl.2 _ _ (by rw [hl.1]; exact idx2_lt hpm hj) (by rw [hl.1]; exact idx2_lt hqm hj) ⟨?_, ?_⟩
    · rw [idx2_div hj, idx2_div hj]; exact tw
    · rw [idx2_mod hj, idx2_mod hj]; exact Or.inl rfl
  · have hsound := Net.feedforward_sound ⟨hv, hf, by omega, hw⟩ hS.net hx
    obtain ⟨y, ey, hy, _⟩ := hsound
    obtain ⟨y', ey', hy'⟩ := hV x hx
    cases ey.symm.trans ey'
    obtain ⟨f2, ef2, _, _, w3⟩ := isfc hy hκ
    refine ⟨y, ey, f2, ef2, ?_⟩
    obtain ⟨v, hv3⟩ := w3.value
    exact hy' k f2 ef2 p q (by rw [hv3.2.2.2.length]; exact hpm) (by rw [hv3.2.2.2.length]; exact hqm) tw

/-! ### Networks that start uniform -/

theorem SameCells.weaken {R : Nat → Nat → Prop} {b : Buf α} (h : SameCells (fun _ _ => True) b) : SameCells R b := fun i j hi hj _ => h i j hi hj True.intro

theorem okVal_of {β : Type} {r : Res β} {P : β → Prop} {b : β} (h : Ok r P) (e : r = .ok b) : P b := by
  obtain ⟨b', e', h⟩ := h
  cases e.symm.trans e'
  exact h

theorem same_const {b : Buf α} {n : Nat} {a : α} (h : VecIs b n (fun _ => a)) : SameCells (fun _ _ => True) b := (SameCells.iff h).2 (fun _ _ _ _ _ => rfl)

/-- All cells of all parameters and gradients of the dense layers agree, buffer by buffer. -/
def UniformLayer (l : Layer α) : Prop := ∀ f, l = .fc f → ∀ b ∈ [f.B, f.W.data, f.gradB, f.gradW.data, f.gradBs, f.gradWs.data], SameCells (fun _ _ => True) b

theorem LayerKind.make_uniform (k : LayerKind α) {l : Layer α} (h : k.make = .ok l) : UniformLayer l := by
  intro f hf
  subst hf
  cases k with
  | dense n m act kB kW =>
    cases h
    have h1 := same_const (VecIs_filled m (0 : α))
    have h2 := same_const (VecIs_filled (n * m) (0 : α))
    intro b hb
    simp only [List.mem_cons, List.not_mem_nil, or_false] at hb
    rcases hb with rfl | rfl | rfl | rfl | rfl | rfl
    · exact h1
    · exact h2
    · exact h1
    · exact h2
    · exact h1
    · exact h2
  | conv d h' w fc fh fw pad sv sh kB kW =>
    unfold LayerKind.make at h
    dsimp only at h
    cases e : (Conv.make d h' w fc fh fw pad sv sh kB kW : Res (Conv α)) <;> rw [e] at h <;> cases h
  | pool d oh ow sv sh act =>
    unfold LayerKind.make at h
    dsimp only at h
    cases e : (Pool.make d (oh * sv) (ow * sh) sv sh act : Res (Pool α)) <;> rw [e] at h <;> cases h

theorem makeAll_uniform : ∀ (ks : List (LayerKind α)) {net : Net α}, LayerKind.makeAll ks = .ok net → ∀ l ∈ net, UniformLayer l := by
  intro ks
  induction ks with
  | nil => intro net h; cases h; intro l hl; cases hl
  | cons k ks ih =>
    intro net h
    unfold LayerKind.makeAll at h
    obtain ⟨l, e1, h⟩ := units_inv h
    obtain ⟨ls, e2, h⟩ := units_inv h
    cases h
    intro a ha
    rcases List.mem_cons.1 ha with rfl | ha
    · exact k.make_uniform e1
    · exact ih e2 a ha

theorem fillBy_const {gi : Gen γ' ρ' α} {a : α} (hg : ∀ c g, (gi c g).1 = a) (c : γ') (g : ρ') (b : Buf α) :
    Ok (fillBy gi c g b) (fun r => SameCells (fun _ _ => True) r.1) := by
  rw [fillBy_eq]
  refine Ok_ok.2 ?_
  have : ∀ n c g, draws gi n c g = List.replicate n a := by
    intro n
    induction n with
    | zero => intro c g; rfl
    | succ n ih => intro c g; rw [draws, hg, ih]; rfl
  rw [this]
  intro i j hi hj _
  simp [Buf.of] at hi hj ⊢
  simp [hi, hj]

theorem Layer.init_uniform {gi : Gen γ' ρ' α} {a : α} (hg : ∀ c g, (gi c g).1 = a) (c : γ') (g : ρ') {l : Layer α} (hl : UniformLayer l)
    {r : Layer α × ρ'} (e : l.init gi c g = .ok r) : UniformLayer r.1 := by
  cases l with
  | fc f =>
    unfold Layer.init at e
    dsimp only at e
    obtain ⟨⟨f1, g1⟩, e1, e⟩ := units_inv e
    cases e
    unfold FC.init at e1
    obtain ⟨⟨b, g2⟩, e2, e1⟩ := units_inv e1
    dsimp only at e1
    obtain ⟨⟨w, g3⟩, e3, e1⟩ := units_inv e1
    cases e1
    have h1 := okVal_of (fillBy_const hg c g f.B) e2
    have h2 := okVal_of (fillBy_const hg c g2 f.W.data) e3
    have h0 := hl f rfl
    intro f' hf'
    cases hf'
    intro b hb
    simp only [List.mem_cons, List.not_mem_nil, or_false] at hb
    rcases hb with rfl | rfl | rfl | rfl | rfl | rfl
    · exact h1
    · exact h2
    · exact h0 _ (by simp)
    · exact h0 _ (by simp)
    · exact h0 _ (by simp)
    · exact h0 _ (by simp)
  | conv f =>
    unfold Layer.init at e
    dsimp only at e
    obtain ⟨⟨f1, g1⟩, e1, e⟩ := units_inv e
    cases e
    intro f' hf'; cases hf'
  | rawConv f =>
    unfold Layer.init at e
    dsimp only at e
    obtain ⟨⟨f1, g1⟩, e1, e⟩ := units_inv e
    cases e
    intro f' hf'; cases hf'
  | pool f => cases e; exact hl
  | rawPool f => cases e; exact hl
  | rawFC f => cases e; exact hl

theorem forN_pres {β : Type} {P : β → Prop} {body : Nat → β → Res β} (hb : ∀ i s s', P s → body i s = .ok s' → P s') :
    ∀ {n : Nat} {s s' : β}, P s → forN n s body = .ok s' → P s' := by
  intro n
  induction n with
  | zero => intro s s' h e; rw [forN_zero] at e; cases e; exact h
  | succ n ih =>
    intro s s' h e
    rw [forN_succ] at e
    obtain ⟨a, e1, e2⟩ := units_inv e
    exact hb _ _ _ (ih h e1) e2

theorem Net.init_uniform {gi : Gen γ' ρ' α} {a : α} (hg : ∀ c g, (gi c g).1 = a) (c : γ') (g : ρ') {net : Net α} (hn : ∀ l ∈ net, UniformLayer l)
    {r : Net α × ρ'} (e : Net.init gi c g net = .ok r) : ∀ l ∈ r.1, UniformLayer l := by
  unfold Net.init at e
  refine forN_pres (P := fun r : Net α × ρ' => ∀ l ∈ r.1, UniformLayer l) (fun i s s' hs e => ?_) hn e
  obtain ⟨l, e1, e⟩ := units_inv e
  obtain ⟨⟨l', g'⟩, e2, e⟩ := units_inv e
  dsimp only at e
  obtain ⟨net', e3, e⟩ := units_inv e
  cases e
  have hl : UniformLayer l := by
    unfold lget at e1
    split at e1
    · cases e1
    · rename_i h; cases e1; exact hs _ (List.mem_of_getElem? h)
  unfold lset at e3
  split at e3
  · cases e3
    intro b hb
    rcases List.mem_or_eq_of_mem_set hb with h | h
    · exact hs _ h
    · subst h; exact Layer.init_uniform hg c s.2 hl e2
  · cases e3

/-- The units behind layer `k` are hidden units between two dense layers. -/
theorem uniform_run (upd : Upd σ α) (size : Nat → Nat) (s0 : σ) (hu : TreatsAlike upd size s0) (gen : Gen γ ρ Nat)
    (ks : List (LayerKind α)) (s o : Shp) (hv : ∀ k ∈ ks, k.Valid size) (hf : Fits s ks o) (h2 : 2 ≤ ks.length) (hw : ks.length < W64)
    (hN : (ks.flatMap LayerKind.addrs).Nodup)
    (ha : ∀ n m act kB kW, LayerKind.dense n m act kB kW ∈ ks → ∀ R, act.Respects m R)
    (l : Loss α) (L : (Nat → α) → (Nat → α) → α) (dL : (Nat → α) → (Nat → α) → Nat → α) (hl : l.Is o.vol L dL)
    (g : ρ) (ops : List (TrainOp α γ)) (hops : ∀ op ∈ ops, op.Good s o) (net : Net α) (hn : List.Forall₂ Layer.Sound net ks)
    (hun : ∀ l ∈ net, UniformLayer l) :
    Ok (Train.make net >>= fun t => TrainOp.run upd gen ((s0, t), g) (.setLoss l :: ops)) (fun r =>
      ∀ k, BetweenDense ks (k + 1) → ∃ f, r.1.2.net[k]? = some (.fc f) ∧ SameCells (fun _ _ => True) f.B ∧
        ∀ x, ShapeIs x s → Ok (Net.feedforward x r.1.2.net) (fun q => ∃ f, q.1[k]? = some (.fc f) ∧ SameCells (fun _ _ => True) f.value.data)) := by
  have e1 : net.length = ks.length := hn.length_eq
  have a1 : net.length - 1 < net.length := by omega
  have a2 : net.length - 1 < ks.length := by omega
  have g1 : lget net (wsub net.length 1) = .ok (net[net.length - 1]'a1) := by
    rw [wsub_eq (by omega) (by omega)]; unfold lget; rw [List.getElem?_eq_getElem a1]
  have hl1 : Layer.Sound (net[net.length - 1]'a1) (ks[net.length - 1]'a2) := hn.get a1 a2
  have ho := Fits.last hf (ks[net.length - 1]'a2) (by rw [List.getLast?_eq_getElem?, ← e1, List.getElem?_eq_getElem a2])
  have hos := hl1.osize
  rw [ho] at hos
  have ht : Ok (Train.make net) (fun t => t.net = net ∧ t.delta = Ten.alloc o.1 o.2.1 o.2.2) := by
    unfold Train.make
    rw [g1, bind_ok, hos]
    exact Ok_ok.2 ⟨rfl, rfl⟩
  refine ht.bind (fun t ht => ?_)
  have hsafe : ({ t with loss := some l } : Train α).Safe ks o :=
    ⟨by show List.Forall₂ _ t.net _; rw [ht.1]; exact hn, by
      rw [show ({ t with loss := some l } : Train α).delta = t.delta from rfl, ht.2]; simp [Ten.alloc, Buf.alloc, Shp.vol], ⟨l, L, dL, rfl, hl⟩⟩
  show Ok (TrainOp.run upd gen ((s0, { t with loss := some l }), g) ops) _
  let R : Nat → Nat → Nat → Prop := fun l i j => i = j ∨ BetweenDense ks l
  have hA : ∀ (l : Nat) (k : LayerKind α), ks[l]? = some k → k.Allows (R l) (R (l + 1)) := by
    intro l k hk
    cases k with
    | dense n m act kB kW => exact ha n m act kB kW (List.mem_of_getElem? hk) _
    | conv =>
      refine ⟨fun i j h => ?_, fun i j h => ?_⟩
      · rcases h with h | ⟨k', n, m, a, b, c, n', m', a', b', c', rfl, h1, h2⟩
        · exact h
        · rw [hk] at h2; cases h2
      · rcases h with h | ⟨k', n, m, a, b, c, n', m', a', b', c', h0, h1, h2⟩
        · exact h
        · have : l = k' := by omega
          subst this; rw [hk] at h1; cases h1
    | pool =>
      refine ⟨fun i j h => ?_, fun i j h => ?_⟩
      · rcases h with h | ⟨k', n, m, a, b, c, n', m', a', b', c', rfl, h1, h2⟩
        · exact h
        · rw [hk] at h2; cases h2
      · rcases h with h | ⟨k', n, m, a, b, c, n', m', a', b', c', h0, h1, h2⟩
        · exact h
        · have : l = k' := by omega
          subst this; rw [hk] at h1; cases h1
  have hc : ({ t with loss := some l } : Train α).net.Copies R := by
    intro k f hk
    have hk : net[k]? = some (.fc f) := by rw [← ht.1]; exact hk
    have h0 := hun _ (List.mem_of_getElem? hk) f rfl
    exact ⟨(h0 _ (by simp)).weaken, (h0 _ (by simp)).weaken, (h0 _ (by simp)).weaken, (h0 _ (by simp)).weaken, (h0 _ (by simp)).weaken,
      (h0 _ (by simp)).weaken⟩
  have hnob : ∀ l, l = 0 ∨ l = ks.length → ∀ i j, R l i j → i = j := by
    intro l hl i j h
    rcases h with h | ⟨k', n, m, a, b, c, n', m', a', b', c', h0, h1, h2⟩
    · exact h
    · obtain ⟨h3, _⟩ := List.getElem?_eq_some_iff.1 h2
      omega
  have hx : ∀ op ∈ ops, op.Copies (R 0) := by
    have hz : ∀ (b : Buf α), SameCells (R 0) b := fun b => .trivial (hnob 0 (Or.inl rfl)) b
    intro op _
    cases op <;> simp [TrainOp.Copies, hz]
  refine (C101_copies upd size s0 hu gen ks s o hv hf h2 hw hN R (fun _ _ => Or.inl rfl) hA (hnob _ (Or.inr rfl)) _ hsafe hc g ops hops hx).mono
    (fun r hr k hb => ?_)
  obtain ⟨hS, hC, hV⟩ := hr
  have isfc : ∀ {net : Net α}, List.Forall₂ Layer.Sound net ks → ∃ f : FC α, net[k]? = some (Layer.fc f) := by
    intro net hn
    obtain ⟨k', n, m, a, b, c, n', m', a', b', c', h0, h1, h2⟩ := hb
    have : k = k' := by omega
    subst this
    obtain ⟨a2, hk2⟩ := List.getElem?_eq_some_iff.1 h1
    have a1 : k < net.length := by have : net.length = ks.length := hn.length_eq; omega
    have hg := hn.get a1 a2
    rw [List.get_eq_getElem, List.get_eq_getElem, hk2] at hg
    cases hl2 : net[k] with
    | fc f => exact ⟨f, by rw [List.getElem?_eq_getElem a1, hl2]⟩
    | rawFC | conv | rawConv | pool | rawPool => rw [hl2] at hg; exact absurd hg id
  obtain ⟨f, ef⟩ := isfc hS.net
  refine ⟨f, ef, fun i j hi hj _ => (hC k f ef).B i j hi hj (Or.inr hb), fun x hx => ?_⟩
  obtain ⟨y, ey, hy, _⟩ := Net.feedforward_sound ⟨hv, hf, h2, hw⟩ hS.net hx
  obtain ⟨y', ey', hy'⟩ := hV x hx
  cases ey.symm.trans ey'
  obtain ⟨f2, ef2⟩ := isfc hy
  exact ⟨y, ey, f2, ef2, fun i j hi hj _ => hy' k f2 ef2 i j hi hj (Or.inr hb)⟩

/-- A network that was never initialised (its constructors set everything to zero): whatever is trained, the hidden units between two
dense layers are all the same, in their biases and in their outputs. -/
theorem C101_uninitialised (upd : Upd σ α) (size : Nat → Nat) (s0 : σ) (hu : TreatsAlike upd size s0) (gen : Gen γ ρ Nat)
    (ks : List (LayerKind α)) (s o : Shp) (hv : ∀ k ∈ ks, k.Valid size) (hf : Fits s ks o) (h2 : 2 ≤ ks.length) (hw : ks.length < W64)
    (hN : (ks.flatMap LayerKind.addrs).Nodup)
    (ha : ∀ n m act kB kW, LayerKind.dense n m act kB kW ∈ ks → ∀ R, act.Respects m R)
    (l : Loss α) (L : (Nat → α) → (Nat → α) → α) (dL : (Nat → α) → (Nat → α) → Nat → α) (hl : l.Is o.vol L dL)
    (g : ρ) (ops : List (TrainOp α γ)) (hops : ∀ op ∈ ops, op.Good s o) :
    Ok (do let net ← LayerKind.makeAll ks
           let t ← Train.make net
           TrainOp.run upd gen ((s0, t), g) (.setLoss l :: ops))
      (fun r => ∀ k, BetweenDense ks (k + 1) → ∃ f, r.1.2.net[k]? = some (.fc f) ∧ SameCells (fun _ _ => True) f.B ∧
        ∀ x, ShapeIs x s → Ok (Net.feedforward x r.1.2.net) (fun q => ∃ f, q.1[k]? = some (.fc f) ∧ SameCells (fun _ _ => True) f.value.data)) := by
  obtain ⟨net, e, hn⟩ := LayerKind.makeAll_sound hv
  rw [e, bind_ok]
  exact uniform_run upd size s0 hu gen ks s o hv hf h2 hw hN ha l L dL hl g ops hops net hn (makeAll_uniform ks e)

/-- The same for a network initialised by a generator that returns one value all the time. -/
theorem C101_constant (upd : Upd σ α) (size : Nat → Nat) (s0 : σ) (hu : TreatsAlike upd size s0) (gen : Gen γ ρ Nat)
    (gi : Gen γ' ρ' α) (ci : γ') (ri : ρ') (a : α) (hgi : ∀ c r, (gi c r).1 = a)
    (ks : List (LayerKind α)) (s o : Shp) (hv : ∀ k ∈ ks, k.Valid size) (hf : Fits s ks o) (h2 : 2 ≤ ks.length) (hw : ks.length < W64)
    (hN : (ks.flatMap LayerKind.addrs).Nodup)
    (ha : ∀ n m act kB kW, LayerKind.dense n m act kB kW ∈ ks → ∀ R, act.Respects m R)
    (l : Loss α) (L : (Nat → α) → (Nat → α) → α) (dL : (Nat → α) → (Nat → α) → Nat → α) (hl : l.Is o.vol L dL)
    (g : ρ) (ops : List (TrainOp α γ)) (hops : ∀ op ∈ ops, op.Good s o) :
    Ok (do let net ← LayerKind.makeAll ks
           let (net, _) ← Net.init gi ci ri net
           let t ← Train.make net
           TrainOp.run upd gen ((s0, t), g) (.setLoss l :: ops))
      (fun r => ∀ k, BetweenDense ks (k + 1) → ∃ f, r.1.2.net[k]? = some (.fc f) ∧ SameCells (fun _ _ => True) f.B ∧
        ∀ x, ShapeIs x s → Ok (Net.feedforward x r.1.2.net) (fun q => ∃ f, q.1[k]? = some (.fc f) ∧ SameCells (fun _ _ => True) f.value.data)) := by
  obtain ⟨net, e, hn⟩ := LayerKind.makeAll_sound hv
  rw [e, bind_ok]
  obtain ⟨⟨net', r'⟩, e', hn'⟩ := Net.init_sound hn gi ci ri
  rw [e', bind_ok]
  exact uniform_run upd size s0 hu gen ks s o hv hf h2 hw hN ha l L dL hl g ops hops net' hn' (Net.init_uniform hgi ci ri (makeAll_uniform ks e) e')

end

/-! ### The library -/

/-- Element-wise activations treat equal arguments equally, and so does `SoftMax`. -/
theorem respects_elementwise (g g' : α → α) (m : Nat) (R : Nat → Nat → Prop) : (Act.elementwise g g').Respects m R :=
  ⟨_, _, Act.Is.elementwise g g' m, fun v hv i j hi hj h => by rw [hv i j hi hj h]; exact ⟨rfl, rfl⟩⟩

/-- What the library supplies meets the hypotheses: its seven optimizers treat cells alike, whatever the parameters of their
constructors (for `Adam` the decay rates must lie in `[0, 1)`), and its activations respect every comparison. -/
theorem C101_library (size : Nat → Nat) (lr mu : ℝ) (isq : ℝ → ℝ) :
    TreatsAlike gdUpdate size lr ∧ (∀ s : Sgd ℝ, TreatsAlike sgdUpdate size s) ∧ TreatsAlike momUpdate size (Mom.make lr mu) ∧
    TreatsAlike nesUpdate size (Mom.make lr mu) ∧ TreatsAlike (adagradUpdate isq) size (Ada.make lr mu) ∧
    TreatsAlike (rmspropUpdate isq) size (Ada.make lr mu) ∧
    (∀ b1 b2, 0 ≤ b1 ∧ b1 < 1 → 0 ≤ b2 ∧ b2 < 1 → TreatsAlike (adamUpdate isq) size (AdamS.make lr b1 b2)) ∧
    (∀ (k : ActKind) m R, k.obj.Respects m R) ∧ (∀ m R, 0 < m → softMaxAct.Respects m R) :=
  ⟨alike_gd size lr, alike_sgd size, alike_mom size lr mu, alike_nes size lr mu, alike_adagrad isq size lr mu, alike_rmsprop isq size lr mu,
    fun b1 b2 h1 h2 => alike_adam isq size lr b1 b2 h1 h2,
    fun k m R => by rw [k.obj_eq]; exact respects_elementwise _ _ m R,
    fun m R hm => ⟨_, _, softMaxAct_Is m hm, fun v hv i j hi hj h => ⟨by unfold softmaxFn; rw [hv i j hi hj h], rfl⟩⟩⟩

/-- The same for the floating-point classes of the library, in any arithmetic. -/
theorem C101_library_floats [Flt α] [NaNs α] (m : Nat)
    (R : Nat → Nat → Prop) : (∀ (k : ActKind) (g' : α → α), (Act.elementwise k.flt g').Respects m R) ∧ (0 < m → (fltSoftMax : Act α).Respects m R) :=
  ⟨fun k g' => respects_elementwise _ _ m R,
    fun hm => ⟨_, _, fltSoftMax_Is m hm, fun v hv i j hi hj h => ⟨by unfold fltSm; rw [hv i j hi hj h], rfl⟩⟩⟩

/-! ### Non-vacuity -/

/-- A network 1 → 2 → 1 with linear units whose two hidden units are copies. -/
def unKinds : List (LayerKind ℚ) :=
  [.dense 1 2 (Act.elementwise (fun x => x) (fun _ => 1)) 10 11, .dense 2 1 (Act.elementwise (fun x => x) (fun _ => 1)) 12 13]

def unF : FC ℚ := { FC.make 1 2 (Act.elementwise (fun x => x) (fun _ => 1)) 10 11 with W := ⟨1, 2, [some (1/2), some (1/2)]⟩ }
def unG : FC ℚ := { FC.make 2 1 (Act.elementwise (fun x => x) (fun _ => 1)) 12 13 with W := ⟨2, 1, [some 1, some 1]⟩ }

def unTrain : Train ℚ := ⟨[.fc unF, .fc unG], ⟨1, 1, 1, [none]⟩, some (sqLoss 1 1)⟩

def unOps : List (TrainOp ℚ Unit) :=
  [.batch [⟨1, 1, 1, [some 1]⟩, ⟨1, 1, 1, [some 3]⟩] [⟨1, 1, 1, [some 2]⟩, ⟨1, 1, 1, [some 1]⟩] 2, .mini [⟨1, 1, 1, [some 1]⟩] [⟨1, 1, 1, [some 2]⟩] 1 1]

def unSize (k : Nat) : Nat := if k = 12 then 1 else 2

example : (∀ k ∈ unKinds, k.Valid unSize) ∧ Fits (1, 1, 1) unKinds (1, 1, 1) ∧ (unKinds.flatMap LayerKind.addrs).Nodup ∧
    unTrain.Safe unKinds (1, 1, 1) ∧ Twins unTrain.net 0 0 1 unF unG ∧ (∀ R, unF.act.Respects unF.osize R) ∧
    (∀ op ∈ unOps, op.Good (1, 1, 1) (1, 1, 1)) ∧ BetweenDense unKinds 1 := by
  have wf : unF.Wf 1 2 (fun _ => 0) (fun _ _ => 1/2) := by
    refine { FC.Wf_make 1 2 (Act.elementwise (fun x : ℚ => x) (fun _ => 1)) 10 11 with W := ⟨rfl, rfl, rfl, ?_⟩ }
    intro i j hi hj
    obtain rfl : i = 0 := by omega
    obtain rfl | rfl : j = 0 ∨ j = 1 := by omega
    · rfl
    · rfl
  have wg : unG.Wf 2 1 (fun _ => 0) (fun _ _ => 1) := by
    refine { FC.Wf_make 2 1 (Act.elementwise (fun x : ℚ => x) (fun _ => 1)) 12 13 with W := ⟨rfl, rfl, rfl, ?_⟩ }
    intro i j hi hj
    obtain rfl : j = 0 := by omega
    obtain rfl | rfl : i = 0 ∨ i = 1 := by omega
    · rfl
    · rfl
  have full : ∀ a : ℚ, Full [some a] 1 := fun a => ⟨fun _ => a, rfl, fun i hi => by
    obtain rfl : i = 0 := by omega
    rfl⟩
  refine ⟨?_, ?_, by decide, ?_, ?_, fun R => respects_elementwise _ _ _ R, ?_, ?_⟩
  · intro k hk
    simp only [unKinds, List.mem_cons, List.not_mem_nil, or_false] at hk
    rcases hk with rfl | rfl
    · exact ⟨⟨_, _, Act.Is.elementwise _ _ 2⟩, rfl, rfl⟩
    · exact ⟨⟨_, _, Act.Is.elementwise _ _ 1⟩, rfl, rfl⟩
  · exact ⟨rfl, rfl, rfl, rfl⟩
  · exact ⟨.cons ⟨⟨_, _, wf⟩, rfl, rfl, rfl⟩ (.cons ⟨⟨_, _, wg⟩, rfl, rfl, rfl⟩ .nil), ⟨rfl, rfl, rfl, rfl⟩, ⟨_, _, _, rfl, sqLoss_Is 1 1⟩⟩
  · refine ⟨rfl, rfl, by decide, ?_, ?_⟩
    · intro M hM i hi
      obtain rfl : i = 0 := by have : i < 1 := hi; omega
      simp only [List.mem_cons, List.not_mem_nil, or_false] at hM
      rcases hM with rfl | rfl | rfl <;> rfl
    · intro M hM i hi
      obtain rfl : i = 0 := by have : i < 1 := hi; omega
      simp only [List.mem_cons, List.not_mem_nil, or_false] at hM
      rcases hM with rfl | rfl | rfl <;> rfl
  · intro op hop
    simp only [unOps, List.mem_cons, List.not_mem_nil, or_false] at hop
    rcases hop with rfl | rfl
    · refine ⟨⟨?_, ?_, rfl⟩, by simp⟩
      · intro x hx
        simp only [List.mem_cons, List.not_mem_nil, or_false] at hx
        rcases hx with rfl | rfl <;> exact ⟨rfl, rfl, rfl, full _⟩
      · intro x hx
        simp only [List.mem_cons, List.not_mem_nil, or_false] at hx
        rcases hx with rfl | rfl <;> exact full _
    · refine ⟨⟨?_, ?_, rfl⟩, by simp⟩
      · intro x hx
        simp only [List.mem_cons, List.not_mem_nil, or_false] at hx
        subst hx; exact ⟨rfl, rfl, rfl, full _⟩
      · intro x hx
        simp only [List.mem_cons, List.not_mem_nil, or_false] at hx
        subst hx; exact full _
  · exact ⟨0, _, _, _, _, _, _, _, _, _, _, rfl, rfl, rfl⟩

/-- The biases of the first layer are equal and not zero, its weights are equal and not 1/2. -/
def unMoved (t : Train ℚ) : Bool := match t.net with
  | Layer.fc f :: _ => match f.B, f.W.data with
    | [some b, some b'], [some w, some w'] => b = b' ∧ b ≠ 0 ∧ w = w' ∧ w ≠ 1/2
    | _, _ => false
  | _ => false

/-- The run does something: the two hidden units of the example have moved, and are still equal. -/
example : ((TrainOp.run momUpdate (fun (_ : Unit) (_ : Unit) => (0, (), ())) ((Mom.make (1/16 : ℚ) (1/2), unTrain), ()) unOps).map
    (fun r => unMoved r.1.2)) = .ok true := by decide +kernel

end Trixy
