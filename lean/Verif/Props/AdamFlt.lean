import Verif.Model.AdamFlt
import Verif.Props.NaN
import Verif.Props.TrainSafe
import Verif.Props.Reproduce
/- Adam with floating-point division: properties C67, C80 and C89. -/
set_option linter.unusedSectionVars false
namespace Trixy

variable {α : Type}

/-- Where the exact model of Adam is defined, the two agree. -/
theorem adamFlt_exact [Field α] [DecidableEq α] (isq : α → α) (st : AdamS α) (k : Nat) (P G : Buf α) (r : AdamS α × Buf α × Buf α)
    (h : adamUpdate isq st k P G = .ok r) : adamFlt isq st k P G = .ok r := by
  unfold adamUpdate at h
  unfold adamFlt
  dsimp only at h ⊢
  obtain ⟨z1, q, h⟩ := res_bind_inv h; rw [q, bind_ok]
  obtain ⟨z2, q, h⟩ := res_bind_inv h; rw [q, bind_ok]
  obtain ⟨z3, q, h⟩ := res_bind_inv h; rw [q, bind_ok]
  obtain ⟨z4, q, h⟩ := res_bind_inv h; rw [q, bind_ok]
  obtain ⟨z5, q, h⟩ := res_bind_inv h; rw [q, bind_ok]
  obtain ⟨z6, q, h⟩ := res_bind_inv h; rw [q, bind_ok]
  obtain ⟨z7, q, h⟩ := res_bind_inv h; rw [q, bind_ok]
  obtain ⟨c2, hc, h⟩ := res_bind_inv h
  have e : c2 = 1 / (1 - st.tbeta2 * st.beta2) := by unfold fdiv at hc; split at hc <;> cases hc; rfl
  subst e
  obtain ⟨z8, q, h⟩ := res_bind_inv h; rw [q, bind_ok]
  obtain ⟨z9, q, h⟩ := res_bind_inv h; rw [q, bind_ok]
  obtain ⟨z10, q, h⟩ := res_bind_inv h; rw [q, bind_ok]
  obtain ⟨c1, hc, h⟩ := res_bind_inv h
  have e : c1 = st.lr / (1 - st.tbeta1 * st.beta1) := by unfold fdiv at hc; split at hc <;> cases hc; rfl
  subst e
  obtain ⟨z11, q, h⟩ := res_bind_inv h; rw [q, bind_ok]
  obtain ⟨z12, q, h⟩ := res_bind_inv h; rw [q, bind_ok]
  exact h

section
variable [Zero α] [_root_.One α] [Add α] [Sub α] [Mul α] [Div α]

theorem adamFlt_spec {isq : α → α} {st : AdamS α} {k n : Nat} {P G : Buf α} {p g m s : Nat → α}
    (hp : VecIs P n p) (hg : VecIs G n g) (hb : (st.buff.get k n).length = n) (hm : VecIs (st.m.get k n) n m)
    (hs : VecIs (st.s.get k n) n s) :
    Ok (adamFlt isq st k P G) (fun r =>
      (∀ k', k' ≠ k → r.1.buff k' = st.buff k' ∧ r.1.m k' = st.m k' ∧ r.1.s k' = st.s k') ∧
      (r.1.buff.get k n).length = n ∧
      VecIs (r.1.m.get k n) n (fun i => m i * st.beta1 + st.rbeta1 * g i) ∧
      VecIs (r.1.s.get k n) n (fun i => s i * st.beta2 + g i * g i * st.rbeta2) ∧
      VecIs r.2.1 n (fun i => p i - isq (1 / (1 - st.tbeta2 * st.beta2) * (s i * st.beta2 + g i * g i * st.rbeta2)) *
        (m i * st.beta1 + st.rbeta1 * g i) * (st.lr / (1 - st.tbeta1 * st.beta1))) ∧ r.2.2 = G) := by
  unfold adamFlt
  rw [hp.length]
  refine (scaleInto_spec hm st.beta1).bind (fun m1 hm1 => ?_)
  refine (scaleTo_spec hb hg (Nat.le_refl _) st.rbeta1).bind (fun b1 hb1 => ?_)
  refine (zipInto_spec hm1 hb1 (Nat.le_refl _)).bind (fun m2 hm2 => ?_)
  refine (scaleInto_spec hs st.beta2).bind (fun s1 hs1 => ?_)
  refine (zip2Into_spec hb1.length hg hg (Nat.le_refl _) (Nat.le_refl _)).bind (fun b2 hb2 => ?_)
  refine (scaleInto_spec hb2 st.rbeta2).bind (fun b3 hb3 => ?_)
  refine (zipInto_spec hs1 hb3 (Nat.le_refl _)).bind (fun s2 hs2 => ?_)
  refine (scaleTo_spec hb3.length hs2 (Nat.le_refl _) _).bind (fun b4 hb4 => ?_)
  refine (mapSelf_spec hb4).bind (fun b5 hb5 => ?_)
  refine (zipInto_spec hb5 hm2 (Nat.le_refl _)).bind (fun b6 hb6 => ?_)
  refine (scaleInto_spec hb6 _).bind (fun b7 hb7 => ?_)
  refine (zipInto_spec hp hb7 (Nat.le_refl _)).bind (fun P2 hP2 => ?_)
  refine Ok_ok.2 ⟨fun k' hk' => ⟨?_, ?_, ?_⟩, ?_, ?_, ?_, hP2, rfl⟩
  · exact Table.put_ne _ hk' _
  · exact Table.put_ne _ hk' _
  · exact Table.put_ne _ hk' _
  · show (Table.get (Table.put _ _ _) _ _).length = _; rw [Table.get_put]; exact hb7.length
  · show VecIs (Table.get (Table.put _ _ _) _ _) _ _; rw [Table.get_put]; exact hm2
  · show VecIs (Table.get (Table.put _ _ _) _ _) _ _; rw [Table.get_put]; exact hs2

/-- The invariant of Adam over a floating-point type: for any rates. -/
structure AdamFltOk (size : Nat → Nat) (s : AdamS α) : Prop where
  buff : ∀ k, (s.buff.get k (size k)).length = size k
  m : TabOk size s.m
  s : TabOk size s.s

theorem AdamFltOk.make (size : Nat → Nat) (lr b1 b2 : α) : AdamFltOk size (AdamS.make lr b1 b2) :=
  ⟨fun k => (Table.get_empty k _).length, TabOk.empty _, TabOk.empty _⟩

/-- The premise of C67 holds of Adam with floating-point division for any learning rate and decay rates whatsoever. -/
theorem C67_adam (isq : α → α) (size : Nat → Nat) : UpdOk (adamFlt isq) size (AdamFltOk (α := α) size) := by
  intro s k P G hI ⟨p, hp⟩ ⟨g, hg⟩
  obtain ⟨m, hm⟩ := hI.m k
  obtain ⟨v, hv⟩ := hI.s k
  obtain ⟨r, e, ho, h3, h4, h5, h6, h7⟩ := adamFlt_spec (isq := isq) hp hg (hI.buff k) hm hv
  refine ⟨r, e, ?_, h6.full, by rw [h7]; exact hg.full⟩
  exact ⟨len_of hI.buff h3 (fun k' hk' => (ho k' hk').1),
    hI.m.of ⟨_, h4⟩ (fun k' hk' => (ho k' hk').2.1), hI.s.of ⟨_, h5⟩ (fun k' hk' => (ho k' hk').2.2)⟩

/-- The premise of C80. -/
theorem C80_adam (isq : α → α) (lr beta1 beta2 : α) : AddressFree (adamFlt isq) (AdamS.make lr beta1 beta2) := by
  intro K hK
  refine ⟨fun s s' => AddrTab K s.buff s'.buff ∧ AddrTab K s.m s'.m ∧ AddrTab K s.s s'.s ∧
    (s'.lr, s'.beta1, s'.beta2, s'.rbeta1, s'.rbeta2, s'.tbeta1, s'.tbeta2) = (s.lr, s.beta1, s.beta2, s.rbeta1, s.rbeta2, s.tbeta1, s.tbeta2),
    ?_, fun _ _ _ => rfl, fun _ _ _ => rfl, fun _ _ _ => rfl, rfl⟩
  rintro ⟨b1, m1, s1, x1, x2, x3, x4, x5, x6, x7⟩ ⟨b2, m2, s2, y1, y2, y3, y4, y5, y6, y7⟩ k₁ k₂ p g r ⟨h1, h2, h3, e⟩ k h
  dsimp only at h1 h2 h3 e
  simp only [Prod.mk.injEq] at e
  obtain ⟨rfl, rfl, rfl, rfl, rfl, rfl, rfl⟩ := e
  unfold adamFlt at h ⊢
  dsimp only at h ⊢
  rw [h1.get k, h2.get k, h3.get k]
  obtain ⟨z1, q, h⟩ := res_bind_inv h; rw [q, bind_ok]
  obtain ⟨z2, q, h⟩ := res_bind_inv h; rw [q, bind_ok]
  obtain ⟨z3, q, h⟩ := res_bind_inv h; rw [q, bind_ok]
  obtain ⟨z4, q, h⟩ := res_bind_inv h; rw [q, bind_ok]
  obtain ⟨z5, q, h⟩ := res_bind_inv h; rw [q, bind_ok]
  obtain ⟨z6, q, h⟩ := res_bind_inv h; rw [q, bind_ok]
  obtain ⟨z7, q, h⟩ := res_bind_inv h; rw [q, bind_ok]
  obtain ⟨z8, q, h⟩ := res_bind_inv h; rw [q, bind_ok]
  obtain ⟨z9, q, h⟩ := res_bind_inv h; rw [q, bind_ok]
  obtain ⟨z10, q, h⟩ := res_bind_inv h; rw [q, bind_ok]
  obtain ⟨z11, q, h⟩ := res_bind_inv h; rw [q, bind_ok]
  obtain ⟨z12, q, h⟩ := res_bind_inv h; rw [q, bind_ok]
  cases h
  exact ⟨_, rfl, h1.put hK k _, h2.put hK k _, h3.put hK k _, rfl⟩

end

section
open NaNs
variable [Flt α] [NaNs α]

/-- Adam does not repair NaN either (see `C89_optimizers` for the other six). -/
theorem C89_adam (lr beta1 beta2 : α) (isq : α → α) : KeepsNaN (adamFlt isq) (AdamS.make lr beta1 beta2) := by
  have emp : ∀ k n, VecIs (Table.get (fun _ => none : Table α) k n) n (fun _ => 0) := Table.get_empty
  exact keepsNaN_of (fun k n s => (s.buff.get k n).length = n ∧ (∃ v, VecIs (s.m.get k n) n v) ∧ ∃ v, VecIs (s.s.get k n) n v)
    (fun k n => ⟨(emp k n).length, ⟨_, emp k n⟩, _, emp k n⟩)
    (fun k n s P G p g ⟨h1, ⟨m, h2⟩, v, h3⟩ hp hg => (adamFlt_spec hp hg h1 h2 h3).mono (fun r q =>
      ⟨⟨q.2.1, ⟨_, q.2.2.1⟩, _, q.2.2.2.1⟩, _, q.2.2.2.2.1, fun i _ h => sub _ _
        (h.imp id (fun h => mul _ _ (.inl (mul _ _ (.inr (add _ _ (.inr (mul _ _ (.inr h)))))))))⟩))

end

/-! A concrete run: one NaN gradient among numbers, and the parameter it belongs to is NaN from then on; the other one is not. -/

def adamNaNRun : Res (AdamS RatNaN × (Nat → Buf RatNaN)) :=
  runUpd (adamFlt (fun x => x)) (AdamS.make (.num 1) (.num (1/2)) (.num (1/2))) (fun _ => [some (.num 3), some (.num 4)])
    [(0, [some (.num 1), some (.num 1)]), (0, [some .nan, some (.num 1)]), (0, [some (.num 1), some (.num 0)])]

example : adamNaNRun.map (fun r => (r.2 0).map (fun c => c.map (fun v => decide (v = RatNaN.nan)))) =
    .ok [some true, some false] := by decide +kernel

end Trixy
