import Verif.Proof.Relabel
import Verif.Props.Still
import Verif.Props.TrainSafe
import Verif.Props.Library
/- Property C105 (the order of the units of a network is immaterial). -/
namespace Trixy
set_option linter.unusedSectionVars false
open Finset

variable {α σ : Type}

/-! ### Optimizers treat the elements of an array alike -/

/-- Corresponding entries of two tables. -/
def TabRenamed [Zero α] (Q : Pairing) (T T' : Table α) : Prop := ∀ a b n e, Q a b n e → BufRenamed n e (T.get a n) (T'.get b n)

/-- Work buffers of the right size. -/
def LenRenamed [Zero α] (Q : Pairing) (T T' : Table α) : Prop := ∀ a b n e, Q a b n e → (T.get a n).length = n ∧ (T'.get b n).length = n

theorem TabRenamed.empty [Zero α] (Q : Pairing) : TabRenamed Q (fun _ => none : Table α) (fun _ => none) :=
  fun a b n _ _ => ⟨_, _, Table.get_empty a n, Table.get_empty b n, fun _ _ => rfl⟩

theorem LenRenamed.empty [Zero α] (Q : Pairing) : LenRenamed Q (fun _ => none : Table α) (fun _ => none) :=
  fun a b n _ _ => ⟨(Table.get_empty a n).length, (Table.get_empty b n).length⟩

theorem TabRenamed.of [Zero α] {Q : Pairing} (hQ : Q.Exact) {T T' U U' : Table α} (h : TabRenamed Q T T') {a b n : Nat} {e : Nat → Nat}
    (hq : Q a b n e) (hab : BufRenamed n e (U.get a n) (U'.get b n)) (h1 : ∀ k, k ≠ a → U k = T k) (h2 : ∀ k, k ≠ b → U' k = T' k) :
    TabRenamed Q U U' := by
  intro a' b' n' e' hq'
  by_cases k : a' = a
  · subst k
    have kb : b' = b := (hQ.one hq' hq).1 rfl
    subst kb
    obtain ⟨rfl, rfl⟩ := hQ.same hq hq'
    exact hab
  · rw [getTab_congr (h1 _ k), getTab_congr (h2 _ (fun kb => k ((hQ.one hq' hq).2 kb)))]
    exact h _ _ _ _ hq'

theorem LenRenamed.of [Zero α] {Q : Pairing} (hQ : Q.Exact) {T T' U U' : Table α} (h : LenRenamed Q T T') {a b n : Nat} {e : Nat → Nat}
    (hq : Q a b n e) (hab : (U.get a n).length = n ∧ (U'.get b n).length = n) (h1 : ∀ k, k ≠ a → U k = T k) (h2 : ∀ k, k ≠ b → U' k = T' k) :
    LenRenamed Q U U' := by
  intro a' b' n' e' hq'
  by_cases k : a' = a
  · subst k
    have kb : b' = b := (hQ.one hq' hq).1 rfl
    subst kb
    obtain ⟨rfl, rfl⟩ := hQ.same hq hq'
    exact hab
  · rw [getTab_congr (h1 _ k), getTab_congr (h2 _ (fun kb => k ((hQ.one hq' hq).2 kb)))]
    exact h _ _ _ _ hq'

section
variable [Field α] [DecidableEq α] (Q : Pairing)

theorem rename_gd : RenameOpt (gdUpdate (α := α)) Q Eq := by
  intro s₁ s₂ k₁ k₂ n e p₁ p₂ g₁ g₂ hs _ ⟨f, f', hp, hp', hf⟩ ⟨d, d', hg, hg', hd⟩
  subst hs
  obtain ⟨⟨q1, q2, q3⟩, e1, w1, w2, w3⟩ := gd_spec (lr := s₁) (k := k₁) hp hg
  obtain ⟨⟨r1, r2, r3⟩, e2, v1, v2, v3⟩ := gd_spec (lr := s₁) (k := k₂) hp' hg'
  exact ⟨q1, r1, q2, r2, q3, r3, e1, e2, w1.trans v1.symm, ⟨_, _, w2, v2, fun i hi => by rw [hf i hi, hd i hi]⟩, w3.full, v3.full⟩

theorem rename_sgd : RenameOpt (sgdUpdate (α := α)) Q Eq := by
  intro s₁ s₂ k₁ k₂ n e p₁ p₂ g₁ g₂ hs _ ⟨f, f', hp, hp', hf⟩ ⟨d, d', hg, hg', hd⟩
  subst hs
  obtain ⟨⟨q1, q2, q3⟩, e1, w1, w2, w3⟩ := sgd_spec (s := s₁) (k := k₁) hp hg
  obtain ⟨⟨r1, r2, r3⟩, e2, v1, v2, v3⟩ := sgd_spec (s := s₁) (k := k₂) hp' hg'
  exact ⟨q1, r1, q2, r2, q3, r3, e1, e2, w1.trans v1.symm, ⟨_, _, w2, v2, fun i hi => by rw [hf i hi, hd i hi]⟩, w3.full, v3.full⟩

/-- Corresponding states of the momentum optimizers. -/
def MomRenamed (s s' : Mom α) : Prop := s.lr = s'.lr ∧ s.mu = s'.mu ∧ LenRenamed Q s.buff s'.buff ∧ TabRenamed Q s.opt s'.opt

theorem rename_mom (hQ : Q.Exact) : RenameOpt (momUpdate (α := α)) Q (MomRenamed Q) := by
  intro s₁ s₂ k₁ k₂ n e p₁ p₂ g₁ g₂ ⟨h1, h2, h3, h4⟩ hq ⟨f, f', hp, hp', hf⟩ ⟨d, d', hg, hg', hd⟩
  obtain ⟨v, v', hv, hv', hvv⟩ := h4 _ _ _ _ hq
  obtain ⟨b1, b2⟩ := h3 _ _ _ _ hq
  obtain ⟨⟨q1, q2, q3⟩, e1, w1, w2, w3, w4, w5, w6⟩ := mom_spec hp hg b1 hv
  obtain ⟨⟨r1, r2, r3⟩, e2, z1, z2, z3, z4, z5, z6⟩ := mom_spec hp' hg' b2 hv'
  have o1 := local_mom.other s₁ k₁ p₁ g₁ _ e1
  have o2 := local_mom.other s₂ k₂ p₂ g₂ _ e2
  simp only [Prod.mk.injEq] at o1 o2
  dsimp only at w1 w2 w3 w4 w5 w6 z1 z2 z3 z4 z5 z6
  subst w6 z6
  have key : ∀ i, i < n → v' (e i) * s₂.mu - s₂.lr * d' (e i) = v i * s₁.mu - s₁.lr * d i := fun i hi => by rw [hvv i hi, hd i hi, h1, h2]
  refine ⟨q1, r1, q2, r2, _, _, e1, e2, ⟨by rw [w1, z1, h1], by rw [w2, z2, h2], h3.of hQ hq ⟨w3, z3⟩ (fun k hk => (o1 k hk).1) (fun k hk => (o2 k hk).1),
    h4.of hQ hq ⟨_, _, w4, z4, key⟩ (fun k hk => (o1 k hk).2.1) (fun k hk => (o2 k hk).2.1)⟩, ⟨_, _, w5, z5, fun i hi => ?_⟩, hg.full, hg'.full⟩
  dsimp only
  rw [key i hi, hf i hi]

theorem rename_nes (hQ : Q.Exact) : RenameOpt (nesUpdate (α := α)) Q (MomRenamed Q) := by
  intro s₁ s₂ k₁ k₂ n e p₁ p₂ g₁ g₂ ⟨h1, h2, h3, h4⟩ hq ⟨f, f', hp, hp', hf⟩ ⟨d, d', hg, hg', hd⟩
  obtain ⟨v, v', hv, hv', hvv⟩ := h4 _ _ _ _ hq
  obtain ⟨b1, b2⟩ := h3 _ _ _ _ hq
  obtain ⟨⟨q1, q2, q3⟩, e1, w1, w2, w3, w4, w5, w6⟩ := nes_spec hp hg b1 hv
  obtain ⟨⟨r1, r2, r3⟩, e2, z1, z2, z3, z4, z5, z6⟩ := nes_spec hp' hg' b2 hv'
  have o1 := local_nes.other s₁ k₁ p₁ g₁ _ e1
  have o2 := local_nes.other s₂ k₂ p₂ g₂ _ e2
  simp only [Prod.mk.injEq] at o1 o2
  dsimp only at w1 w2 w3 w4 w5 w6 z1 z2 z3 z4 z5 z6
  subst w6 z6
  have key : ∀ i, i < n → v' (e i) * s₂.mu - s₂.lr * d' (e i) = v i * s₁.mu - s₁.lr * d i := fun i hi => by rw [hvv i hi, hd i hi, h1, h2]
  refine ⟨q1, r1, q2, r2, _, _, e1, e2, ⟨by rw [w1, z1, h1], by rw [w2, z2, h2], h3.of hQ hq ⟨w3, z3⟩ (fun k hk => (o1 k hk).1) (fun k hk => (o2 k hk).1),
    h4.of hQ hq ⟨_, _, w4, z4, key⟩ (fun k hk => (o1 k hk).2.1) (fun k hk => (o2 k hk).2.1)⟩, ⟨_, _, w5, z5, fun i hi => ?_⟩, hg.full, hg'.full⟩
  dsimp only
  rw [key i hi, hf i hi, hd i hi, h1, h2]

/-- Corresponding states of AdaGrad and RMSProp. -/
def AdaRenamed (s s' : Ada α) : Prop :=
  (s.lr = s'.lr ∧ s.beta = s'.beta ∧ s.rbeta = s'.rbeta) ∧ LenRenamed Q s.buff s'.buff ∧ TabRenamed Q s.opt s'.opt

theorem rename_adagrad (isq : α → α) (hQ : Q.Exact) : RenameOpt (adagradUpdate isq) Q (AdaRenamed Q) := by
  intro s₁ s₂ k₁ k₂ n e p₁ p₂ g₁ g₂ ⟨⟨h1, h2, h2'⟩, h3, h4⟩ hq ⟨f, f', hp, hp', hf⟩ ⟨d, d', hg, hg', hd⟩
  obtain ⟨v, v', hv, hv', hvv⟩ := h4 _ _ _ _ hq
  obtain ⟨b1, b2⟩ := h3 _ _ _ _ hq
  obtain ⟨⟨q1, q2, q3⟩, e1, w1, w3, w4, w5, w6⟩ := adagrad_spec (isq := isq) hp hg b1 hv
  obtain ⟨⟨r1, r2, r3⟩, e2, z1, z3, z4, z5, z6⟩ := adagrad_spec (isq := isq) hp' hg' b2 hv'
  have o1 := (local_adagrad isq).other s₁ k₁ p₁ g₁ _ e1
  have o2 := (local_adagrad isq).other s₂ k₂ p₂ g₂ _ e2
  have same : ∀ (s : Ada α) (k : Nat) (p g : Buf α) (r : Ada α × Buf α × Buf α), adagradUpdate isq s k p g = .ok r →
      r.1.beta = s.beta ∧ r.1.rbeta = s.rbeta := by
    intro s k p g r h
    unfold adagradUpdate at h
    dsimp only at h
    obtain ⟨_, _, h⟩ := res_bind_inv h
    obtain ⟨_, _, h⟩ := res_bind_inv h
    obtain ⟨_, _, h⟩ := res_bind_inv h
    obtain ⟨_, _, h⟩ := res_bind_inv h
    obtain ⟨_, _, h⟩ := res_bind_inv h
    obtain ⟨_, _, h⟩ := res_bind_inv h
    cases h
    exact ⟨rfl, rfl⟩
  have m1 := same _ _ _ _ _ e1
  have m2 := same _ _ _ _ _ e2
  simp only [Prod.mk.injEq] at o1 o2
  dsimp only at w1 w3 w4 w5 w6 z1 z3 z4 z5 z6 m1 m2
  subst w6 z6
  have key : ∀ i, i < n → v' (e i) + d' (e i) * d' (e i) = v i + d i * d i := fun i hi => by rw [hvv i hi, hd i hi]
  refine ⟨q1, r1, q2, r2, _, _, e1, e2, ⟨⟨by rw [w1, z1, h1], by rw [m1.1, m2.1, h2], by rw [m1.2, m2.2, h2']⟩,
    h3.of hQ hq ⟨w3, z3⟩ (fun k hk => (o1 k hk).1) (fun k hk => (o2 k hk).1),
    h4.of hQ hq ⟨_, _, w4, z4, key⟩ (fun k hk => (o1 k hk).2.1) (fun k hk => (o2 k hk).2.1)⟩, ⟨_, _, w5, z5, fun i hi => ?_⟩, hg.full, hg'.full⟩
  dsimp only
  rw [key i hi, hf i hi, hd i hi, h1]

theorem rename_rmsprop (isq : α → α) (hQ : Q.Exact) : RenameOpt (rmspropUpdate isq) Q (AdaRenamed Q) := by
  intro s₁ s₂ k₁ k₂ n e p₁ p₂ g₁ g₂ ⟨⟨h1, h2, h2'⟩, h3, h4⟩ hq ⟨f, f', hp, hp', hf⟩ ⟨d, d', hg, hg', hd⟩
  obtain ⟨v, v', hv, hv', hvv⟩ := h4 _ _ _ _ hq
  obtain ⟨b1, b2⟩ := h3 _ _ _ _ hq
  obtain ⟨⟨q1, q2, q3⟩, e1, w1, w2, w2', w3, w4, w5, w6⟩ := rmsprop_spec (isq := isq) hp hg b1 hv
  obtain ⟨⟨r1, r2, r3⟩, e2, z1, z2, z2', z3, z4, z5, z6⟩ := rmsprop_spec (isq := isq) hp' hg' b2 hv'
  have o1 := (local_rmsprop isq).other s₁ k₁ p₁ g₁ _ e1
  have o2 := (local_rmsprop isq).other s₂ k₂ p₂ g₂ _ e2
  simp only [Prod.mk.injEq] at o1 o2
  dsimp only at w1 w2 w2' w3 w4 w5 w6 z1 z2 z2' z3 z4 z5 z6
  subst w6 z6
  have key : ∀ i, i < n → v' (e i) * s₂.beta + d' (e i) * d' (e i) * s₂.rbeta = v i * s₁.beta + d i * d i * s₁.rbeta :=
    fun i hi => by rw [hvv i hi, hd i hi, h2, h2']
  refine ⟨q1, r1, q2, r2, _, _, e1, e2, ⟨⟨by rw [w1, z1, h1], by rw [w2, z2, h2], by rw [w2', z2', h2']⟩,
    h3.of hQ hq ⟨w3, z3⟩ (fun k hk => (o1 k hk).1) (fun k hk => (o2 k hk).1),
    h4.of hQ hq ⟨_, _, w4, z4, key⟩ (fun k hk => (o1 k hk).2.1) (fun k hk => (o2 k hk).2.1)⟩, ⟨_, _, w5, z5, fun i hi => ?_⟩, hg.full, hg'.full⟩
  dsimp only
  rw [key i hi, hf i hi, hd i hi, h1]

end

/-- Corresponding states of Adam. -/
structure AdamRenamed [Field α] [LinearOrder α] (Q : Pairing) (s s' : AdamS α) : Prop where
  b1 : 0 ≤ s.beta1 ∧ s.beta1 < 1
  b2 : 0 ≤ s.beta2 ∧ s.beta2 < 1
  t1 : 0 ≤ s.tbeta1 ∧ s.tbeta1 ≤ 1
  t2 : 0 ≤ s.tbeta2 ∧ s.tbeta2 ≤ 1
  same : s.lr = s'.lr ∧ s.beta1 = s'.beta1 ∧ s.beta2 = s'.beta2 ∧ s.rbeta1 = s'.rbeta1 ∧ s.rbeta2 = s'.rbeta2 ∧ s.tbeta1 = s'.tbeta1 ∧ s.tbeta2 = s'.tbeta2
  buff : LenRenamed Q s.buff s'.buff
  m : TabRenamed Q s.m s'.m
  s : TabRenamed Q s.s s'.s

theorem rename_adam [Field α] [LinearOrder α] [IsStrictOrderedRing α] (isq : α → α) (Q : Pairing) (hQ : Q.Exact) :
    RenameOpt (adamUpdate isq) Q (AdamRenamed (α := α) Q) := by
  intro s₁ s₂ k₁ k₂ n e p₁ p₂ g₁ g₂ hS hq ⟨f, f', hp, hp', hf⟩ ⟨d, d', hg, hg', hd⟩
  obtain ⟨v, v', hv, hv', hvv⟩ := hS.m _ _ _ _ hq
  obtain ⟨u, u', hu, hu', huu⟩ := hS.s _ _ _ _ hq
  obtain ⟨b1, b2⟩ := hS.buff _ _ _ _ hq
  obtain ⟨c1, c2, c3, c4, c5, c6, c7⟩ := hS.same
  have l1 : s₁.tbeta1 * s₁.beta1 < 1 := (mul_le_of_le_one_left hS.b1.1 hS.t1.2).trans_lt hS.b1.2
  have l2 : s₁.tbeta2 * s₁.beta2 < 1 := (mul_le_of_le_one_left hS.b2.1 hS.t2.2).trans_lt hS.b2.2
  have n1 : 1 - s₁.tbeta1 * s₁.beta1 ≠ 0 := sub_ne_zero.2 (ne_of_gt l1)
  have n2 : 1 - s₁.tbeta2 * s₁.beta2 ≠ 0 := sub_ne_zero.2 (ne_of_gt l2)
  obtain ⟨⟨q1, q2, q3⟩, e1, w1, w2, w3, w4, w5, w6, w7, o1, w8, w9, w10, w11, w12⟩ := adam_spec (isq := isq) hp hg b1 hv hu n1 n2
  obtain ⟨⟨r1, r2, r3⟩, e2, z1, z2, z3, z4, z5, z6, z7, o2, z8, z9, z10, z11, z12⟩ :=
    adam_spec (isq := isq) hp' hg' b2 hv' hu' (by rw [← c6, ← c2]; exact n1) (by rw [← c7, ← c3]; exact n2)
  dsimp only at w1 w2 w3 w4 w5 w6 w7 o1 w8 w9 w10 w11 w12 z1 z2 z3 z4 z5 z6 z7 o2 z8 z9 z10 z11 z12
  subst w12 z12
  have key1 : ∀ i, i < n → v' (e i) * s₂.beta1 + s₂.rbeta1 * d' (e i) = v i * s₁.beta1 + s₁.rbeta1 * d i :=
    fun i hi => by rw [hvv i hi, hd i hi, c2, c4]
  have key2 : ∀ i, i < n → u' (e i) * s₂.beta2 + d' (e i) * d' (e i) * s₂.rbeta2 = u i * s₁.beta2 + d i * d i * s₁.rbeta2 :=
    fun i hi => by rw [huu i hi, hd i hi, c3, c5]
  refine ⟨q1, r1, q2, r2, _, _, e1, e2,
    ⟨by rw [w2]; exact hS.b1, by rw [w3]; exact hS.b2, ?_, ?_, ⟨by rw [w1, z1, c1], by rw [w2, z2, c2], by rw [w3, z3, c3], by rw [w4, z4, c4],
      by rw [w5, z5, c5], by rw [w6, z6, c6, c2], by rw [w7, z7, c7, c3]⟩,
    hS.buff.of hQ hq ⟨w8, z8⟩ (fun k hk => (o1 k hk).1) (fun k hk => (o2 k hk).1),
    hS.m.of hQ hq ⟨_, _, w9, z9, key1⟩ (fun k hk => (o1 k hk).2.1) (fun k hk => (o2 k hk).2.1),
    hS.s.of hQ hq ⟨_, _, w10, z10, key2⟩ (fun k hk => (o1 k hk).2.2) (fun k hk => (o2 k hk).2.2)⟩,
    ⟨_, _, w11, z11, fun i hi => ?_⟩, hg.full, hg'.full⟩
  · rw [w6]; exact ⟨mul_nonneg hS.t1.1 hS.b1.1, l1.le⟩
  · rw [w7]; exact ⟨mul_nonneg hS.t2.1 hS.b2.1, l2.le⟩
  · dsimp only
    rw [key1 i hi, key2 i hi, hf i hi, c1, c2, c3, c6, c7]

/-! ### Addresses -/

/-- Which parameter arrays of the two networks correspond to each other. -/
def Net.pairs : (Nat → Nat → Nat) → Net α → Net α → List (Nat × Nat × Nat × (Nat → Nat))
  | e, .fc f :: ls, .fc g :: ms => (f.keyB, g.keyB, f.osize, e 1) :: (f.keyW, g.keyW, f.isize * f.osize, cellMove f.osize (e 0) (e 1)) ::
      Net.pairs (fun k => e (k + 1)) ls ms
  | _, _, _ => []

/-- The pairing they define. -/
def Net.pairing (e : Nat → Nat → Nat) (net net' : Net α) : Pairing := fun a b n e' => (a, b, n, e') ∈ Net.pairs e net net'

theorem pairs_keys : ∀ (e : Nat → Nat → Nat) {A B : List (DSt α)} {net net' : Net α}, net.At A → net'.At B → A.length = B.length →
    (Net.pairs e net net').map (·.1) = net.flatMap Layer.addrs ∧ (Net.pairs e net net').map (·.2.1) = net'.flatMap Layer.addrs := by
  intro e A B net net' h₁
  induction h₁ generalizing B net' e with
  | nil =>
    intro h₂ hl
    cases h₂ with
    | nil => exact ⟨rfl, rfl⟩
    | cons => simp at hl
  | @cons l a ls A h _ ih =>
    intro h₂ hl
    cases h₂ with
    | nil => simp at hl
    | @cons l2 b ls2 B k h₂ =>
      obtain ⟨f, rfl, hf⟩ := h
      obtain ⟨g, rfl, hg⟩ := k
      obtain ⟨i1, i2⟩ := ih (fun k => e (k + 1)) h₂ (by simpa using hl)
      rw [List.flatMap_cons, List.flatMap_cons, ← i1, ← i2]
      exact ⟨rfl, rfl⟩

theorem pairing_exact (e : Nat → Nat → Nat) {A B : List (DSt α)} {net net' : Net α} (h₁ : net.At A) (h₂ : net'.At B) (hl : A.length = B.length)
    (a₁ : net.Apart) (a₂ : net'.Apart) : (Net.pairing e net net').Exact := by
  obtain ⟨k1, k2⟩ := pairs_keys e h₁ h₂ hl
  unfold Net.Apart at a₁ a₂
  rw [← k1] at a₁
  rw [← k2] at a₂
  have i1 := List.inj_on_of_nodup_map a₁
  have i2 := List.inj_on_of_nodup_map a₂
  refine ⟨fun hx hy => ⟨fun h => ?_, fun h => ?_⟩, fun hx hy => ?_⟩
  · have := i1 hx hy h
    simp only [Prod.mk.injEq] at this
    exact this.2.1
  · have := i2 hx hy h
    simp only [Prod.mk.injEq] at this
    exact this.1
  · have := i1 hx hy rfl
    simp only [Prod.mk.injEq] at this
    exact this.2.2

theorem sts_renamed {Q : Pairing} : ∀ {e : Nat → Nat → Nat} {A B : List (DSt α)} {net net' : Net α}, net.At A → net'.At B →
    NetRenamed e (A.map (·.p)) (B.map (·.p)) → (∀ x ∈ Net.pairs e net net', Q x.1 x.2.1 x.2.2.1 x.2.2.2) → StsRenamed Q e A B := by
  intro e A B net net' h₁
  induction h₁ generalizing B net' e with
  | nil =>
    intro h₂ hr _
    cases h₂ with
    | nil => trivial
    | cons => exact hr.elim
  | @cons l a ls A h _ ih =>
    intro h₂ hr hQ
    cases h₂ with
    | nil => exact hr.elim
    | @cons l2 b ls2 B k h₂ =>
      obtain ⟨f, rfl, hf⟩ := h
      obtain ⟨g, rfl, hg⟩ := k
      have q1 := hQ (f.keyB, g.keyB, f.osize, e 1) (by simp [Net.pairs])
      have q2 := hQ (f.keyW, g.keyW, f.isize * f.osize, cellMove f.osize (e 0) (e 1)) (by simp [Net.pairs])
      dsimp only at q1 q2
      rw [hf.kB, hg.kB, hf.wf.osize] at q1
      rw [hf.kW, hg.kW, hf.wf.osize, hf.wf.isize] at q2
      exact ⟨⟨hr.1, q1, q2⟩, ih (e := fun k => e (k + 1)) h₂ hr.2 (fun x hx => hQ x (by unfold Net.pairs; simp [hx]))⟩

/-! ### Training -/

section
variable [Field α] [LT α] [DecidableLT α] [DecidableEq α]

theorem RenamedT.renamed {Q : Pairing} {S : σ → σ → Prop} {e : Nat → Nat → Nat} {n m : Nat} {dL dL' : (Nat → α) → (Nat → α) → Nat → α} {L : Nat}
    (hl : LossRenamed m (e L) dL dL') {cl : Bool} {x y : σ × Train α} (h : RenamedT Q S e n m dL dL' L cl x y) : Train.Renamed e L n m x.2 y.2 := by
  obtain ⟨_, A, B, hA, hB, hT, hL, _⟩ := h
  exact ⟨_, _, dL, dL', by rw [List.length_map, hL], hA.is, hB.is, hT.net, hl⟩

theorem clean_at {net : Net α} {A : List (DSt α)} (hn : net.At A) (hcl : net.Clean) : ∀ a ∈ A, a.acc = false := by
  induction hn with
  | nil => simp
  | @cons l a ls A h _ ih =>
    obtain ⟨f, rfl, hf⟩ := h
    intro b hb
    rcases List.mem_cons.1 hb with rfl | hb
    · rw [← hf.acc]; exact hcl _ (by simp) f rfl
    · exact ih (fun l hl => hcl l (by simp [hl])) b hb

/-- Every way of training a renamed network on renamed data gives the renamed result, with every optimizer that treats the elements of an
array alike. -/
theorem renamed_training (upd : Upd σ α) (Q : Pairing) (S : σ → σ → Prop) (ho : RenameOpt upd Q S) (s s' : σ) (hs : S s s')
    (e : Nat → Nat → Nat) (n m : Nat) (t u : Train α) (ps qs : List (Dense α)) (dL dL' : (Nat → α) → (Nat → α) → Nat → α) (h₁ : t.Is ps n m dL) (h₂ : u.Is qs n m dL')
    (hr : NetRenamed e ps qs) (hl : LossRenamed m (e ps.length) dL dL') (hQ : ∀ x ∈ Net.pairs e t.net u.net, Q x.1 x.2.1 x.2.2.1 x.2.2.2)
    (idata odata idata' odata' : List (Ten α)) (hd : DataRenamed n m (e 0) (e ps.length) idata odata idata' odata') (hne : idata ≠ []) :
    TrainTogether upd idata odata idata' odata' (s, t) (s', u) (Train.Renamed e ps.length n m) := by
  obtain ⟨vs, ws, hv, hw, hvw⟩ := hd
  obtain ⟨A, hA, eA⟩ := h₁.at
  obtain ⟨B, hB, eB⟩ := h₂.at
  have hlen : idata.length = vs.length := hv.1.length_eq
  have hlen' : idata'.length = vs.length := hw.1.length_eq.trans hvw.length_eq.symm
  have hpos : 1 ≤ idata.length := List.length_pos_iff.2 hne
  have hT : StsRenamed Q e A B := sts_renamed hA.net hB.net (by rw [eA, eB]; exact hr) hQ
  have hL : A.length = ps.length := by rw [← eA]; simp
  have start : ∀ cl : Bool, (cl = true → t.net.Clean ∧ u.net.Clean) → RenamedT Q S e n m dL dL' ps.length cl (s, t) (s', u) :=
    fun cl hc => ⟨hs, A, B, hA, hB, hT, hL, fun h => ⟨clean_at hA.net (hc h).1, clean_at hB.net (hc h).2⟩⟩
  have run : ∀ (a : α) (zs : List (Nat × Nat)), (∀ z ∈ zs, z.1 + z.2 ≤ vs.length ∧ 1 ≤ z.2) →
      ∃ x' y', TEv.run upd idata odata (s, t) (zs.flatMap (fun w => stepTrace a w.1 w.2)) = .ok x' ∧
        TEv.run upd idata' odata' (s', u) (zs.flatMap (fun w => stepTrace a w.1 w.2)) = .ok y' ∧ Train.Renamed e ps.length n m x'.2 y'.2 := by
    intro a zs hz
    obtain ⟨x, y, e1, e2, q⟩ := RenamedT.steps ho hl hv hw hvw a zs hz (start false (fun h => by simp at h))
    exact ⟨x, y, e1, e2, q.renamed hl⟩
  refine ⟨fun epochs => ?_, fun k epochs hk => ?_, fun hc1 hc2 γ ρ gen g0 r0 iterations => ?_⟩
  · rw [batch_run upd idata odata _ _ (by omega), batch_run upd idata' odata' _ _ (by omega), hlen, hlen', batchTrace_steps]
    refine run _ _ (fun w hw => ?_)
    rw [List.mem_replicate] at hw
    rw [hw.2]; dsimp only; omega
  · rw [miniBatch_run upd idata odata _ _ _ (by omega), miniBatch_run upd idata' odata' _ _ _ (by omega), hlen, hlen', miniTrace_steps]
    refine run _ _ (fun w hw => ?_)
    obtain ⟨l, h1, h2⟩ := List.mem_flatten.1 hw
    rw [List.mem_replicate] at h1
    rw [h1.2] at h2
    obtain ⟨b, h3, rfl⟩ := List.mem_map.1 h2
    rw [List.mem_range] at h3
    have h4 : (b + 1) * k ≤ vs.length / k * k := Nat.mul_le_mul_right k h3
    have h5 := Nat.div_mul_le_self vs.length k
    rw [Nat.succ_mul] at h4
    dsimp only; omega
  · obtain ⟨x, y, e1, e2, q⟩ := RenamedT.stos ho hl hv hw hvw ((draws gen iterations g0 r0).map (· % vs.length))
      (by
        intro i hi
        obtain ⟨a, _, rfl⟩ := List.mem_map.1 hi
        exact Nat.mod_lt _ (by omega))
      (start true (fun _ => ⟨hc1, hc2⟩))
    rw [stochastic_run _ _ _ _ (by omega), stochastic_run _ _ _ _ (by omega), hlen, hlen', e1, e2]
    exact ⟨_, _, rfl, rfl, q.renamed hl⟩

/-- Renamed networks predict the same up to the renaming. -/
theorem C105_predict (e : Nat → Nat → Nat) (L n m : Nat) (t u : Train α) (h : Train.Renamed e L n m t u) (x x' : Ten α) (v w : Nat → α)
    (hx : VecIs x.data n v) (hx' : VecIs x'.data n w) (hvw : Renamed n (e 0) v w) :
    ∃ r r' y y', Net.feedforward x t.net = .ok r ∧ Net.feedforward x' u.net = .ok r' ∧ RowIs r.2 m y ∧ RowIs r'.2 m y' ∧
      Renamed m (e L) y y' := by
  obtain ⟨ps, qs, dL, dL', rfl, h₁, h₂, hr, _⟩ := h
  have key : ∀ {t : Train α} {ps : List (Dense α)} {dL : (Nat → α) → (Nat → α) → Nat → α}, t.Is ps n m dL → ∀ {x : Ten α} {v : Nat → α},
      VecIs x.data n v → Ok (Net.feedforward x t.net) (fun r => RowIs r.2 m (netOut ps v)) := by
    intro t ps dL h x v hx
    obtain ⟨A, hA, e⟩ := h.at
    have hl := hA.net.length
    have h2 := hA.two
    have hw := hA.word
    have hne : t.net ≠ [] := by intro e; rw [e] at hl; simp at hl; omega
    rw [Net.feedforward_eq x t.net hne (by rw [hl]; exact hw)]
    refine (ff_dense hA.net hA.chain hx).bind (fun net' q => ?_)
    have hl' := q.1.length
    have hne' : net' ≠ [] := by intro e; rw [e] at hl'; simp at hl'; omega
    obtain ⟨l, el, hr⟩ := q.2.last hA.chain hne'
    rw [el, bind_ok]
    refine Ok_ok.2 ?_
    rw [e] at hr
    exact hr
  obtain ⟨r, e1, q1⟩ := key h₁ hx
  obtain ⟨r', e2, q2⟩ := key h₂ hx'
  exact ⟨r, r', _, _, e1, e2, q1, q2, netOut_renamed hr h₁.chain hvw⟩

/-- Gradient descent. -/
theorem C105_gd (lr : α) (e : Nat → Nat → Nat) (L n m : Nat) (t u : Train α) (h : Train.Renamed e L n m t u)
    (idata odata idata' odata' : List (Ten α)) (hd : DataRenamed n m (e 0) (e L) idata odata idata' odata') (hne : idata ≠ []) :
    TrainTogether gdUpdate idata odata idata' odata' (lr, t) (lr, u) (Train.Renamed e L n m) := by
  obtain ⟨ps, qs, dL, dL', rfl, h₁, h₂, hr, hl⟩ := h
  exact renamed_training _ (fun _ _ _ _ => True) _ (rename_gd _) lr lr rfl e n m t u ps qs dL dL' h₁ h₂ hr hl (fun _ _ => trivial) _ _ _ _ hd hne

/-- Gradient descent with weight decay. -/
theorem C105_sgd (lr decay : α) (e : Nat → Nat → Nat) (L n m : Nat) (t u : Train α) (h : Train.Renamed e L n m t u)
    (idata odata idata' odata' : List (Ten α)) (hd : DataRenamed n m (e 0) (e L) idata odata idata' odata') (hne : idata ≠ []) :
    TrainTogether sgdUpdate idata odata idata' odata' (Sgd.make lr decay, t) (Sgd.make lr decay, u) (Train.Renamed e L n m) := by
  obtain ⟨ps, qs, dL, dL', rfl, h₁, h₂, hr, hl⟩ := h
  exact renamed_training _ (fun _ _ _ _ => True) _ (rename_sgd _) _ _ rfl e n m t u ps qs dL dL' h₁ h₂ hr hl (fun _ _ => trivial) _ _ _ _ hd hne

/-- The optimizers with tables, for networks whose parameter arrays have different addresses. -/
theorem tables_training (upd : Upd σ α) (S : Pairing → σ → σ → Prop) (ho : ∀ Q : Pairing, Q.Exact → RenameOpt upd Q (S Q)) (s : σ) (hs : ∀ Q, S Q s s)
    (e : Nat → Nat → Nat) (L n m : Nat) (t u : Train α) (h : Train.Renamed e L n m t u) (a₁ : t.net.Apart) (a₂ : u.net.Apart)
    (idata odata idata' odata' : List (Ten α)) (hd : DataRenamed n m (e 0) (e L) idata odata idata' odata') (hne : idata ≠ []) :
    TrainTogether upd idata odata idata' odata' (s, t) (s, u) (Train.Renamed e L n m) := by
  obtain ⟨ps, qs, dL, dL', rfl, h₁, h₂, hr, hl⟩ := h
  obtain ⟨A, hA, eA⟩ := h₁.at
  obtain ⟨B, hB, eB⟩ := h₂.at
  have hab : A.length = B.length := by
    have : ∀ {e : Nat → Nat → Nat} {ps qs : List (Dense α)}, NetRenamed e ps qs → ps.length = qs.length := by
      intro e ps
      induction ps generalizing e with
      | nil => intro qs h; cases qs with
        | nil => rfl
        | cons => exact h.elim
      | cons p ps ih => intro qs h; cases qs with
        | nil => exact h.elim
        | cons q qs => exact congrArg (· + 1) (ih h.2)
    have := this hr
    rw [← eA, ← eB] at this
    simpa using this
  exact renamed_training _ _ _ (ho _ (pairing_exact e hA.net hB.net hab a₁ a₂)) s s (hs _) e n m t u ps qs dL dL' h₁ h₂ hr hl (fun _ hx => hx) _ _ _ _ hd hne

/-- Momentum. -/
theorem C105_momentum (lr mu : α) (e : Nat → Nat → Nat) (L n m : Nat) (t u : Train α) (h : Train.Renamed e L n m t u) (a₁ : t.net.Apart) (a₂ : u.net.Apart)
    (idata odata idata' odata' : List (Ten α)) (hd : DataRenamed n m (e 0) (e L) idata odata idata' odata') (hne : idata ≠ []) :
    TrainTogether momUpdate idata odata idata' odata' (Mom.make lr mu, t) (Mom.make lr mu, u) (Train.Renamed e L n m) :=
  tables_training _ (fun Q => MomRenamed Q) (fun Q => rename_mom Q) _ (fun Q => ⟨rfl, rfl, .empty Q, .empty Q⟩) e L n m t u h a₁ a₂ _ _ _ _ hd hne

/-- Nestorov momentum. -/
theorem C105_nestorov (lr mu : α) (e : Nat → Nat → Nat) (L n m : Nat) (t u : Train α) (h : Train.Renamed e L n m t u) (a₁ : t.net.Apart) (a₂ : u.net.Apart)
    (idata odata idata' odata' : List (Ten α)) (hd : DataRenamed n m (e 0) (e L) idata odata idata' odata') (hne : idata ≠ []) :
    TrainTogether nesUpdate idata odata idata' odata' (Mom.make lr mu, t) (Mom.make lr mu, u) (Train.Renamed e L n m) :=
  tables_training _ (fun Q => MomRenamed Q) (fun Q => rename_nes Q) _ (fun Q => ⟨rfl, rfl, .empty Q, .empty Q⟩) e L n m t u h a₁ a₂ _ _ _ _ hd hne

/-- AdaGrad. -/
theorem C105_adagrad (isq : α → α) (lr b : α) (e : Nat → Nat → Nat) (L n m : Nat) (t u : Train α) (h : Train.Renamed e L n m t u) (a₁ : t.net.Apart) (a₂ : u.net.Apart)
    (idata odata idata' odata' : List (Ten α)) (hd : DataRenamed n m (e 0) (e L) idata odata idata' odata') (hne : idata ≠ []) :
    TrainTogether (adagradUpdate isq) idata odata idata' odata' (Ada.make lr b, t) (Ada.make lr b, u) (Train.Renamed e L n m) :=
  tables_training _ (fun Q => AdaRenamed Q) (fun Q => rename_adagrad Q isq) _ (fun Q => ⟨⟨rfl, rfl, rfl⟩, .empty Q, .empty Q⟩) e L n m t u h a₁ a₂ _ _ _ _ hd hne

/-- RMSProp. -/
theorem C105_rmsprop (isq : α → α) (lr b : α) (e : Nat → Nat → Nat) (L n m : Nat) (t u : Train α) (h : Train.Renamed e L n m t u) (a₁ : t.net.Apart) (a₂ : u.net.Apart)
    (idata odata idata' odata' : List (Ten α)) (hd : DataRenamed n m (e 0) (e L) idata odata idata' odata') (hne : idata ≠ []) :
    TrainTogether (rmspropUpdate isq) idata odata idata' odata' (Ada.make lr b, t) (Ada.make lr b, u) (Train.Renamed e L n m) :=
  tables_training _ (fun Q => AdaRenamed Q) (fun Q => rename_rmsprop Q isq) _ (fun Q => ⟨⟨rfl, rfl, rfl⟩, .empty Q, .empty Q⟩) e L n m t u h a₁ a₂ _ _ _ _ hd hne

end

/-- Adam. -/
theorem C105_adam [Field α] [LinearOrder α] [IsStrictOrderedRing α] (isq : α → α) (lr b1 b2 : α) (h1 : 0 ≤ b1 ∧ b1 < 1) (h2 : 0 ≤ b2 ∧ b2 < 1)
    (e : Nat → Nat → Nat) (L n m : Nat) (t u : Train α) (h : Train.Renamed e L n m t u) (a₁ : t.net.Apart) (a₂ : u.net.Apart)
    (idata odata idata' odata' : List (Ten α)) (hd : DataRenamed n m (e 0) (e L) idata odata idata' odata') (hne : idata ≠ []) :
    TrainTogether (adamUpdate isq) idata odata idata' odata' (AdamS.make lr b1 b2, t) (AdamS.make lr b1 b2, u) (Train.Renamed e L n m) :=
  tables_training _ (fun Q => AdamRenamed Q) (fun Q => rename_adam isq Q) _
    (fun Q => ⟨h1, h2, ⟨zero_le_one, le_refl _⟩, ⟨zero_le_one, le_refl _⟩, ⟨rfl, rfl, rfl, rfl, rfl, rfl, rfl⟩, .empty Q, .empty Q, .empty Q⟩)
    e L n m t u h a₁ a₂ _ _ _ _ hd hne

/-! ### Renaming hidden units only -/

section
variable [Field α] [LT α] [DecidableLT α] [DecidableEq α]

theorem TrainTogether.mono {upd : Upd σ α} {idata odata idata' odata' : List (Ten α)} {x y : σ × Train α} {R R' : Train α → Train α → Prop}
    (h : TrainTogether upd idata odata idata' odata' x y R) (hR : ∀ t u, R t u → R' t u) : TrainTogether upd idata odata idata' odata' x y R' := by
  refine ⟨fun ep => ?_, fun k ep hk => ?_, fun h1 h2 γ ρ gen c g it => ?_⟩
  · obtain ⟨x', y', e1, e2, q⟩ := h.1 ep
    exact ⟨x', y', e1, e2, hR _ _ q⟩
  · obtain ⟨x', y', e1, e2, q⟩ := h.2.1 k ep hk
    exact ⟨x', y', e1, e2, hR _ _ q⟩
  · obtain ⟨x', y', e1, e2, q⟩ := h.2.2 h1 h2 γ ρ gen c g it
    exact ⟨x', y', e1, e2, hR _ _ q⟩

/-- The first and the last renaming of `e` do nothing: only hidden units are renamed. -/
def HiddenOnly (e : Nat → Nat → Nat) (L n m : Nat) : Prop := (∀ i, i < n → e 0 i = i) ∧ ∀ j, j < m → e L j = j

/-- Networks that differ in the order of their hidden units make the same predictions. -/
theorem C105_hidden (e : Nat → Nat → Nat) (L n m : Nat) (he : HiddenOnly e L n m) (t u : Train α) (h : Train.Renamed e L n m t u) :
    SamePredictions n m t u := by
  intro x v hx
  obtain ⟨r, r', y, y', e1, e2, q1, q2, q⟩ := C105_predict e L n m t u h x x v v hx hx (fun i hi => by rw [he.1 i hi])
  exact ⟨r, r', y, e1, e2, q1, q2.1, q2.2.1, q2.2.2.1, q2.2.2.2.congr (fun i hi => by have := q i hi; rwa [he.2 i hi] at this)⟩

/-- The data themselves are renamed data when only hidden units are renamed. -/
theorem data_hidden (e : Nat → Nat → Nat) (L n m : Nat) (he : HiddenOnly e L n m) (idata odata : List (Ten α)) (vs : List ((Nat → α) × (Nat → α)))
    (hd : DataIs idata odata n m vs) : DataRenamed n m (e 0) (e L) idata odata idata odata :=
  ⟨vs, vs, hd, hd, List.forall₂_same.2 (fun _ _ => ⟨fun i hi => by rw [he.1 i hi], fun i hi => by rw [he.2 i hi]⟩)⟩

/-- … and still do so after any training, with the same optimizer on the same data. -/
theorem C105_hidden_training (e : Nat → Nat → Nat) (L n m : Nat) (he : HiddenOnly e L n m) (t u : Train α) (h : Train.Renamed e L n m t u)
    (a₁ : t.net.Apart) (a₂ : u.net.Apart) (idata odata : List (Ten α)) (vs : List ((Nat → α) × (Nat → α))) (hd : DataIs idata odata n m vs) (hne : idata ≠ [])
    (isq : α → α) (lr b : α) :
    TrainTogether gdUpdate idata odata idata odata (lr, t) (lr, u) (SamePredictions n m) ∧
    TrainTogether sgdUpdate idata odata idata odata (Sgd.make lr b, t) (Sgd.make lr b, u) (SamePredictions n m) ∧
    TrainTogether momUpdate idata odata idata odata (Mom.make lr b, t) (Mom.make lr b, u) (SamePredictions n m) ∧
    TrainTogether nesUpdate idata odata idata odata (Mom.make lr b, t) (Mom.make lr b, u) (SamePredictions n m) ∧
    TrainTogether (adagradUpdate isq) idata odata idata odata (Ada.make lr b, t) (Ada.make lr b, u) (SamePredictions n m) ∧
    TrainTogether (rmspropUpdate isq) idata odata idata odata (Ada.make lr b, t) (Ada.make lr b, u) (SamePredictions n m) := by
  have hD := data_hidden e L n m he idata odata vs hd
  have hR := fun t' u' => C105_hidden (α := α) e L n m he t' u'
  exact ⟨(C105_gd lr e L n m t u h _ _ _ _ hD hne).mono hR, (C105_sgd lr b e L n m t u h _ _ _ _ hD hne).mono hR,
    (C105_momentum lr b e L n m t u h a₁ a₂ _ _ _ _ hD hne).mono hR, (C105_nestorov lr b e L n m t u h a₁ a₂ _ _ _ _ hD hne).mono hR,
    (C105_adagrad isq lr b e L n m t u h a₁ a₂ _ _ _ _ hD hne).mono hR, (C105_rmsprop isq lr b e L n m t u h a₁ a₂ _ _ _ _ hD hne).mono hR⟩

end

/-! ### The classes of the library -/

theorem LibAct.fn_renamed (a : LibAct) {m : Nat} {τ : Nat → Nat} (hτ : Reorders m τ) {v w : Nat → ℝ} (h : Renamed m τ v w) :
    Renamed m τ (a.fn m v) (a.fn m w) := by
  intro i hi
  cases a with
  | elem k => show k.fn (w (τ i)) = k.fn (v i); rw [h i hi]
  | softmax =>
    show Real.exp (w (τ i)) / _ = Real.exp (v i) / _
    rw [h i hi]
    congr 1
    rw [← hτ.sum (fun j => Real.exp (w j))]
    exact sum_congr rfl (fun j hj => by rw [h j (mem_range.1 hj)])

theorem LibAct.D_renamed (a : LibAct) {m : Nat} {τ : Nat → Nat} {v w : Nat → ℝ} (h : Renamed m τ v w) : Renamed m τ (a.D v) (a.D w) := by
  intro i hi
  cases a with
  | elem k => show k.cd (w (τ i)) = k.cd (v i); rw [h i hi]
  | softmax => rfl

theorem LibRenamed.net {e : Nat → Nat → Nat} {ls ls' : List LibLayer} (h : LibRenamed e ls ls') :
    NetRenamed e (ls.map LibLayer.dense) (ls'.map LibLayer.dense) := by
  induction ls generalizing e ls' with
  | nil => cases ls' with
    | nil => trivial
    | cons => exact h.elim
  | cons p ps ih => cases ls' with
    | nil => exact h.elim
    | cons q qs =>
      obtain ⟨⟨h1, h2, h3, h4, h5, h6, h7⟩, hr⟩ := h
      refine ⟨⟨h1, h2, h4, h5, h6, h7, fun v w hvw => ?_, fun v w hvw => ?_⟩, ih hr⟩
      · show Renamed p.m (e 1) (p.act.fn p.m v) (q.act.fn q.m w)
        rw [h2, h3]; exact p.act.fn_renamed h5 hvw
      · show Renamed p.m (e 1) (p.act.D v) (q.act.D w)
        rw [h3]; exact p.act.D_renamed hvw

/-- Networks of the activation classes of the library, with any of six of its seven loss classes, are renamed networks as soon as their biases
and weights are. -/
theorem C105_library (loss : Loss ℝ) (hl : loss ∈ [Losses.MSE, Losses.MAE, Losses.CCE, Losses.BCE, Losses.NLL, Losses.LC])
    (e : Nat → Nat → Nat) (n m : Nat) (t u : Train ℝ) (ls ls' : List LibLayer) (ht : t.IsLib ls n m loss) (hu : u.IsLib ls' n m loss)
    (h : LibRenamed e ls ls') : Train.Renamed e ls.length n m t u := by
  have key : ∃ (L : (Nat → ℝ) → (Nat → ℝ) → ℝ) (g : ℝ → ℝ → ℝ), loss.Is m L (fun t y i => g (t i) (y i)) := by
    obtain ⟨v1, v2, _, v4, v5, v6, v7⟩ := C52_values m
    simp only [List.mem_cons, List.not_mem_nil, or_false] at hl
    rcases hl with rfl | rfl | rfl | rfl | rfl | rfl
    · exact ⟨_, fun t y => y - t, MSE_Is m⟩
    · exact ⟨_, fun t y => if t - y < 0 then -1 else if t - y > 0 then 1 else 0,
        fun t y vt vy ht hy => v2 t y vt vy ht hy trivial, fun _ _ _ _ _ hr ht hy => maeD_writes hr ht hy⟩
    · exact ⟨_, fun t y => y - t, CCE_Is m⟩
    · exact ⟨_, fun t y => t * (y - 1) + y * (1 - t), fun t y vt vy ht hy => v6 t y vt vy ht hy trivial,
        fun _ _ _ _ _ hr ht hy => write_loop hr _ _ (fun i hi s g hg => by rw [ht.get hi, bind_ok, hy.get hi, bind_ok]; exact hg.set hi _)⟩
    · exact ⟨_, fun t y => y - t, NLL_Is m⟩
    · exact ⟨_, fun t y => Real.tanh (y - t), LC_Is m⟩
  obtain ⟨L, g, hL⟩ := key
  exact ⟨_, _, _, _, by simp, IsLib.toIs ht hL, IsLib.toIs hu hL, h.net, fun t t' y y' h1 h2 i hi => by show g _ _ = g _ _; rw [h1 i hi, h2 i hi]⟩

/-! ### Non-vacuity: `1 → 2 → 1` with the two hidden units exchanged -/

/-- Exchanges the two hidden units. -/
def reSwap (k i : Nat) : Nat := if k = 1 then (if i = 0 then 1 else if i = 1 then 0 else i) else i

def reId : Act ℚ := Act.elementwise (fun x => x) (fun _ => 1)

def reTrain (b1 b2 w1 w2 v1 v2 : ℚ) : Train ℚ :=
  ⟨[.fc { FC.make 1 2 reId 10 11 with W := ⟨1, 2, [some w1, some w2]⟩, B := [some b1, some b2] },
    .fc { FC.make 2 1 reId 12 13 with W := ⟨2, 1, [some v1, some v2]⟩ }], ⟨1, 1, 1, [none]⟩, some (sqLoss 1 1)⟩

def reDense (b1 b2 w1 w2 v1 v2 : ℚ) : List (Dense ℚ) :=
  [⟨1, 2, fun j => if j = 0 then b1 else b2, fun _ j => if j = 0 then w1 else w2, fun v i => v i, fun _ _ => 1⟩,
   ⟨2, 1, fun _ => 0, fun i _ => if i = 0 then v1 else v2, fun v i => v i, fun _ _ => 1⟩]

theorem reTrain_Is (b1 b2 w1 w2 v1 v2 : ℚ) : (reTrain b1 b2 w1 w2 v1 v2).Is (reDense b1 b2 w1 w2 v1 v2) 1 1 (fun t y i => (1 + 1) * (y i - t i)) := by
  refine ⟨.cons ⟨_, rfl, { FC.Wf_make 1 2 reId 10 11 with W := ⟨rfl, rfl, rfl, ?_⟩, B := ⟨rfl, ?_⟩ }, Act.Is.elementwise (fun x => x) (fun _ => 1) 2⟩
    (.cons ⟨_, rfl, { FC.Wf_make 2 1 reId 12 13 with W := ⟨rfl, rfl, rfl, ?_⟩ }, Act.Is.elementwise (fun x => x) (fun _ => 1) 1⟩ .nil),
    by simp [reDense], by show 2 < W64; decide, ⟨rfl, rfl, rfl⟩, rfl, _, _, rfl, sqLoss_Is 1 1⟩
  · intro i hi
    have hi : i < 2 := hi
    interval_cases i <;> rfl
  · intro i j hi hj
    have hi : i < 1 := hi
    have hj : j < 2 := hj
    interval_cases i; interval_cases j <;> rfl
  · intro i j hi hj
    have hi : i < 2 := hi
    have hj : j < 1 := hj
    interval_cases j; interval_cases i <;> rfl

theorem reSwap_reorders (k h : Nat) (hk : k = 1 → h = 2) : Reorders h (reSwap k) := by
  have hi : ∀ i, reSwap k (reSwap k i) = i := by
    intro i; unfold reSwap; split <;> [(split <;> [simp_all; (split <;> simp_all)]); rfl]
  have hm : ∀ i, i < h → reSwap k i < h := by
    intro i h'; unfold reSwap; split
    · next e => have := hk e; split <;> [omega; (split <;> omega)]
    · exact h'
  refine ⟨fun i h' => hm i h', fun i _ j _ e => ?_, fun i h' => ⟨reSwap k i, hm i h', hi i⟩⟩
  rw [← hi i, ← hi j]; exact congrArg _ e

theorem reTrain_renamed (b1 b2 w1 w2 v1 v2 : ℚ) :
    Train.Renamed reSwap 2 1 1 (reTrain b1 b2 w1 w2 v1 v2) (reTrain b2 b1 w2 w1 v2 v1) := by
  refine ⟨_, _, _, _, rfl, reTrain_Is _ _ _ _ _ _, reTrain_Is _ _ _ _ _ _, ⟨⟨rfl, rfl, reSwap_reorders 0 1 (by simp), reSwap_reorders 1 2 (by simp), ?_, ?_,
    fun v w h i hi => h i hi, fun v w h i hi => rfl⟩, ⟨rfl, rfl, reSwap_reorders 1 2 (by simp), reSwap_reorders 2 1 (by simp), fun _ _ => rfl, ?_,
    fun v w h i hi => h i hi, fun v w h i hi => rfl⟩, trivial⟩, fun t t' y y' h1 h2 i hi => ?_⟩
  · intro j hj
    have hj : j < 2 := hj
    interval_cases j <;> rfl
  · intro i j _ hj
    have hj : j < 2 := hj
    interval_cases j <;> rfl
  · intro i j hi _
    have hi : i < 2 := hi
    interval_cases i <;> rfl
  · show (1 + 1) * (y' (reSwap 2 i) - t' (reSwap 2 i)) = (1 + 1) * (y i - t i)
    rw [h1 i hi, h2 i hi]

example : HiddenOnly reSwap 2 1 1 ∧ Train.Renamed reSwap 2 1 1 (reTrain 0 1 1 3 1 2) (reTrain 1 0 3 1 2 1) ∧ (reTrain 0 1 1 3 1 2).net.Apart ∧
    (reTrain 1 0 3 1 2 1).net.Apart ∧ DataIs (α := ℚ) [⟨1, 1, 1, [some 1]⟩] [⟨1, 1, 1, [some 2]⟩] 1 1 [(fun _ => 1, fun _ => 2)] := by
  refine ⟨⟨fun _ _ => rfl, fun _ _ => rfl⟩, reTrain_renamed _ _ _ _ _ _, ?_, ?_, ?_⟩
  · show [10, 11, 12, 13].Nodup
    decide
  · show [10, 11, 12, 13].Nodup
    decide
  · exact ⟨.cons (VecIs_of [1] _ (fun i hi => by simp at hi; subst hi; rfl)) .nil, .cons (VecIs_of [2] _ (fun i hi => by simp at hi; subst hi; rfl)) .nil⟩

/-- Momentum, two epochs: the hidden biases and weights end exchanged. -/
example : trained (Train.batch momUpdate [⟨1, 1, 1, [some 1]⟩] [⟨1, 1, 1, [some 2]⟩] 2 (Mom.make (1/8 : ℚ) (1/2), reTrain 0 1 1 3 1 2)) =
      .ok [[[some (-21/128), some (389/32)], [some (107/128), some (453/32)]], [[some (-189/32)], [some (421/64), some (43/32)]]] ∧
    trained (Train.batch momUpdate [⟨1, 1, 1, [some 1]⟩] [⟨1, 1, 1, [some 2]⟩] 2 (Mom.make (1/8 : ℚ) (1/2), reTrain 1 0 3 1 2 1)) =
      .ok [[[some (389/32), some (-21/128)], [some (453/32), some (107/128)]], [[some (-189/32)], [some (43/32), some (421/64)]]] := by
  refine ⟨?_, ?_⟩ <;> decide +kernel

/-- Library layers: `tanh` units exchanged, softmax outputs exchanged as well. -/
example (b1 b2 w1 w2 p q r s : ℝ) : LibRenamed (fun k i => if k = 0 then i else if i = 0 then 1 else if i = 1 then 0 else i)
    [⟨1, 2, fun j => if j = 0 then b1 else b2, fun _ j => if j = 0 then w1 else w2, .elem .tanh⟩,
     ⟨2, 2, fun _ => 0, fun i j => if i = 0 then (if j = 0 then p else q) else (if j = 0 then r else s), .softmax⟩]
    [⟨1, 2, fun j => if j = 0 then b2 else b1, fun _ j => if j = 0 then w2 else w1, .elem .tanh⟩,
     ⟨2, 2, fun _ => 0, fun i j => if i = 0 then (if j = 0 then s else r) else (if j = 0 then q else p), .softmax⟩] := by
  have h1 : Reorders 1 (fun i => i) := ⟨fun _ h => h, fun _ _ _ _ e => e, fun i h => ⟨i, h, rfl⟩⟩
  have h2 : Reorders 2 (fun i => if i = 0 then 1 else if i = 1 then 0 else i) := reSwap_reorders 1 2 (by simp)
  refine ⟨⟨rfl, rfl, rfl, h1, h2, ?_, ?_⟩, ⟨rfl, rfl, rfl, h2, h2, fun _ _ => rfl, ?_⟩, trivial⟩
  · intro j (hj : j < 2)
    interval_cases j <;> simp
  · intro i j _ (hj : j < 2)
    interval_cases j <;> simp
  · intro i j (hi : i < 2) (hj : j < 2)
    interval_cases i <;> interval_cases j <;> simp

end Trixy
