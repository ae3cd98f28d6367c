import Verif.Model.Optim
import Verif.Proof.Elem
/- One step of each optimizer; locality of table based optimizers. -/
namespace Trixy

variable {α : Type _}

theorem gd_spec [Mul α] [Sub α] {lr : α} {k n : Nat} {P G : Buf α} {p g : Nat → α} (hp : VecIs P n p) (hg : VecIs G n g) :
    Ok (gdUpdate lr k P G) (fun r => r.1 = lr ∧ VecIs r.2.1 n (fun i => p i - g i * lr) ∧
      VecIs r.2.2 n (fun i => g i * lr)) := by
  unfold gdUpdate
  refine (scaleInto_spec hg lr).bind (fun G' hG' => ?_)
  refine (zipInto_spec hp hG' (Nat.le_refl _)).bind (fun P' hP' => ?_)
  exact Ok_ok.2 ⟨rfl, hP', hG'⟩

theorem sgd_spec [Mul α] [Sub α] {s : Sgd α} {k n : Nat} {P G : Buf α} {p g : Nat → α} (hp : VecIs P n p) (hg : VecIs G n g) :
    Ok (sgdUpdate s k P G) (fun r => r.1 = s ∧ VecIs r.2.1 n (fun i => p i * s.alpha - g i * s.lr) ∧
      VecIs r.2.2 n (fun i => g i * s.lr)) := by
  unfold sgdUpdate
  refine (scaleInto_spec hg s.lr).bind (fun G' hG' => ?_)
  refine (scaleInto_spec hp s.alpha).bind (fun P' hP' => ?_)
  refine (zipInto_spec hP' hG' (Nat.le_refl _)).bind (fun P'' hP'' => ?_)
  exact Ok_ok.2 ⟨rfl, hP'', hG'⟩

theorem Table.get_put [Zero α] (t : Table α) (k n : Nat) (b : Buf α) : (t.put k b).get k n = b := by
  simp [Table.get, Table.put]

theorem Table.put_ne (t : Table α) {k k' : Nat} (h : k' ≠ k) (b : Buf α) : t.put k b k' = t k' := by
  simp [Table.put, h]

theorem Table.get_empty [Zero α] (k n : Nat) : VecIs (Table.get (fun _ => none : Table α) k n) n (fun _ => 0) :=
  VecIs_filled n 0

theorem mom_spec [Zero α] [Add α] [Mul α] [Sub α] {s : Mom α} {k n : Nat} {P G : Buf α} {p g v : Nat → α}
    (hp : VecIs P n p) (hg : VecIs G n g) (hb : (s.buff.get k n).length = n) (hv : VecIs (s.opt.get k n) n v) :
    Ok (momUpdate s k P G) (fun r => r.1.lr = s.lr ∧ r.1.mu = s.mu ∧ (r.1.buff.get k n).length = n ∧
      VecIs (r.1.opt.get k n) n (fun i => v i * s.mu - s.lr * g i) ∧
      VecIs r.2.1 n (fun i => p i + (v i * s.mu - s.lr * g i)) ∧ r.2.2 = G) := by
  unfold momUpdate
  rw [hp.length]
  refine (scaleInto_spec hv s.mu).bind (fun o ho => ?_)
  refine (scaleTo_spec hb hg (Nat.le_refl _) s.lr).bind (fun b hb' => ?_)
  refine (zipInto_spec ho hb' (Nat.le_refl _)).bind (fun o' ho' => ?_)
  refine (zipInto_spec hp ho' (Nat.le_refl _)).bind (fun P' hP' => ?_)
  refine Ok_ok.2 ⟨rfl, rfl, ?_, ?_, hP', rfl⟩
  · show (Table.get (Table.put _ _ _) _ _).length = _; rw [Table.get_put]; exact hb'.length
  · show VecIs (Table.get (Table.put _ _ _) _ _) _ _; rw [Table.get_put]; exact ho'

theorem nes_spec [Zero α] [Add α] [Mul α] [Sub α] {s : Mom α} {k n : Nat} {P G : Buf α} {p g v : Nat → α}
    (hp : VecIs P n p) (hg : VecIs G n g) (hb : (s.buff.get k n).length = n) (hv : VecIs (s.opt.get k n) n v) :
    Ok (nesUpdate s k P G) (fun r => r.1.lr = s.lr ∧ r.1.mu = s.mu ∧ (r.1.buff.get k n).length = n ∧
      VecIs (r.1.opt.get k n) n (fun i => v i * s.mu - s.lr * g i) ∧
      VecIs r.2.1 n (fun i => p i - s.lr * g i + s.mu * (v i * s.mu - s.lr * g i)) ∧ r.2.2 = G) := by
  unfold nesUpdate
  rw [hp.length]
  refine (scaleInto_spec hv s.mu).bind (fun o ho => ?_)
  refine (scaleTo_spec hb hg (Nat.le_refl _) s.lr).bind (fun b hb' => ?_)
  refine (zipInto_spec ho hb' (Nat.le_refl _)).bind (fun o' ho' => ?_)
  refine (zipInto_spec hp hb' (Nat.le_refl _)).bind (fun P' hP' => ?_)
  refine (scaleTo_spec hb'.length ho' (Nat.le_refl _) s.mu).bind (fun b2 hb2 => ?_)
  refine (zipInto_spec hP' hb2 (Nat.le_refl _)).bind (fun P2 hP2 => ?_)
  refine Ok_ok.2 ⟨rfl, rfl, ?_, ?_, hP2, rfl⟩
  · show (Table.get (Table.put _ _ _) _ _).length = _; rw [Table.get_put]; exact hb2.length
  · show VecIs (Table.get (Table.put _ _ _) _ _) _ _; rw [Table.get_put]; exact ho'

theorem adagrad_spec [Zero α] [Add α] [Mul α] [Sub α] {isq : α → α} {s : Ada α} {k n : Nat} {P G : Buf α} {p g v : Nat → α}
    (hp : VecIs P n p) (hg : VecIs G n g) (hb : (s.buff.get k n).length = n) (hv : VecIs (s.opt.get k n) n v) :
    Ok (adagradUpdate isq s k P G) (fun r => r.1.lr = s.lr ∧ (r.1.buff.get k n).length = n ∧
      VecIs (r.1.opt.get k n) n (fun i => v i + g i * g i) ∧
      VecIs r.2.1 n (fun i => p i - isq (v i + g i * g i) * g i * s.lr) ∧ r.2.2 = G) := by
  unfold adagradUpdate
  rw [hp.length]
  refine (zip2Into_spec hb hg hg (Nat.le_refl _) (Nat.le_refl _)).bind (fun b hb1 => ?_)
  refine (zipInto_spec hv hb1 (Nat.le_refl _)).bind (fun o ho => ?_)
  refine (mapInto_spec hb1.length ho (Nat.le_refl _)).bind (fun b2 hb2 => ?_)
  refine (zipInto_spec hb2 hg (Nat.le_refl _)).bind (fun b3 hb3 => ?_)
  refine (scaleInto_spec hb3 s.lr).bind (fun b4 hb4 => ?_)
  refine (zipInto_spec hp hb4 (Nat.le_refl _)).bind (fun P2 hP2 => ?_)
  refine Ok_ok.2 ⟨rfl, ?_, ?_, hP2, rfl⟩
  · show (Table.get (Table.put _ _ _) _ _).length = _; rw [Table.get_put]; exact hb4.length
  · show VecIs (Table.get (Table.put _ _ _) _ _) _ _; rw [Table.get_put]; exact ho

theorem rmsprop_spec [Zero α] [Add α] [Mul α] [Sub α] {isq : α → α} {s : Ada α} {k n : Nat} {P G : Buf α} {p g v : Nat → α}
    (hp : VecIs P n p) (hg : VecIs G n g) (hb : (s.buff.get k n).length = n) (hv : VecIs (s.opt.get k n) n v) :
    Ok (rmspropUpdate isq s k P G) (fun r => r.1.lr = s.lr ∧ r.1.beta = s.beta ∧ r.1.rbeta = s.rbeta ∧
      (r.1.buff.get k n).length = n ∧
      VecIs (r.1.opt.get k n) n (fun i => v i * s.beta + g i * g i * s.rbeta) ∧
      VecIs r.2.1 n (fun i => p i - isq (v i * s.beta + g i * g i * s.rbeta) * g i * s.lr) ∧ r.2.2 = G) := by
  unfold rmspropUpdate
  rw [hp.length]
  refine (scaleInto_spec hv s.beta).bind (fun o0 ho0 => ?_)
  refine (zip2Into_spec hb hg hg (Nat.le_refl _) (Nat.le_refl _)).bind (fun b hb1 => ?_)
  refine (scaleInto_spec hb1 s.rbeta).bind (fun b1 hb1' => ?_)
  refine (zipInto_spec ho0 hb1' (Nat.le_refl _)).bind (fun o ho => ?_)
  refine (mapInto_spec hb1'.length ho (Nat.le_refl _)).bind (fun b2 hb2 => ?_)
  refine (zipInto_spec hb2 hg (Nat.le_refl _)).bind (fun b3 hb3 => ?_)
  refine (scaleInto_spec hb3 s.lr).bind (fun b4 hb4 => ?_)
  refine (zipInto_spec hp hb4 (Nat.le_refl _)).bind (fun P2 hP2 => ?_)
  refine Ok_ok.2 ⟨rfl, rfl, rfl, ?_, ?_, hP2, rfl⟩
  · show (Table.get (Table.put _ _ _) _ _).length = _; rw [Table.get_put]; exact hb4.length
  · show VecIs (Table.get (Table.put _ _ _) _ _) _ _; rw [Table.get_put]; exact ho

theorem fdiv_ok [Zero α] [DecidableEq α] [Div α] {a b : α} (h : b ≠ 0) : fdiv a b = .ok (a / b) := by
  simp [fdiv, h]

theorem adam_spec [Field α] [DecidableEq α] {isq : α → α} {st : AdamS α} {k n : Nat} {P G : Buf α} {p g m s : Nat → α}
    (hp : VecIs P n p) (hg : VecIs G n g) (hb : (st.buff.get k n).length = n) (hm : VecIs (st.m.get k n) n m)
    (hs : VecIs (st.s.get k n) n s) (h1 : 1 - st.tbeta1 * st.beta1 ≠ 0) (h2 : 1 - st.tbeta2 * st.beta2 ≠ 0) :
    Ok (adamUpdate isq st k P G) (fun r => r.1.lr = st.lr ∧ r.1.beta1 = st.beta1 ∧ r.1.beta2 = st.beta2 ∧
      r.1.rbeta1 = st.rbeta1 ∧ r.1.rbeta2 = st.rbeta2 ∧
      r.1.tbeta1 = st.tbeta1 * st.beta1 ∧ r.1.tbeta2 = st.tbeta2 * st.beta2 ∧
      (∀ k', k' ≠ k → r.1.buff k' = st.buff k' ∧ r.1.m k' = st.m k' ∧ r.1.s k' = st.s k') ∧
      (r.1.buff.get k n).length = n ∧
      VecIs (r.1.m.get k n) n (fun i => m i * st.beta1 + st.rbeta1 * g i) ∧
      VecIs (r.1.s.get k n) n (fun i => s i * st.beta2 + g i * g i * st.rbeta2) ∧
      VecIs r.2.1 n (fun i => p i - isq (1 / (1 - st.tbeta2 * st.beta2) * (s i * st.beta2 + g i * g i * st.rbeta2)) *
        (m i * st.beta1 + st.rbeta1 * g i) * (st.lr / (1 - st.tbeta1 * st.beta1))) ∧ r.2.2 = G) := by
  unfold adamUpdate
  rw [hp.length]
  refine (scaleInto_spec hm st.beta1).bind (fun m1 hm1 => ?_)
  refine (scaleTo_spec hb hg (Nat.le_refl _) st.rbeta1).bind (fun b1 hb1 => ?_)
  refine (zipInto_spec hm1 hb1 (Nat.le_refl _)).bind (fun m2 hm2 => ?_)
  refine (scaleInto_spec hs st.beta2).bind (fun s1 hs1 => ?_)
  refine (zip2Into_spec hb1.length hg hg (Nat.le_refl _) (Nat.le_refl _)).bind (fun b2 hb2 => ?_)
  refine (scaleInto_spec hb2 st.rbeta2).bind (fun b3 hb3 => ?_)
  refine (zipInto_spec hs1 hb3 (Nat.le_refl _)).bind (fun s2 hs2 => ?_)
  rw [fdiv_ok h2, bind_ok]
  refine (scaleTo_spec hb3.length hs2 (Nat.le_refl _) _).bind (fun b4 hb4 => ?_)
  refine (mapSelf_spec hb4).bind (fun b5 hb5 => ?_)
  refine (zipInto_spec hb5 hm2 (Nat.le_refl _)).bind (fun b6 hb6 => ?_)
  rw [fdiv_ok h1, bind_ok]
  refine (scaleInto_spec hb6 _).bind (fun b7 hb7 => ?_)
  refine (zipInto_spec hp hb7 (Nat.le_refl _)).bind (fun P2 hP2 => ?_)
  refine Ok_ok.2 ⟨rfl, rfl, rfl, rfl, rfl, rfl, rfl, fun k' hk' => ⟨?_, ?_, ?_⟩, ?_, ?_, ?_, hP2, rfl⟩
  · exact Table.put_ne _ hk' _
  · exact Table.put_ne _ hk' _
  · exact Table.put_ne _ hk' _
  · show (Table.get (Table.put _ _ _) _ _).length = _; rw [Table.get_put]; exact hb7.length
  · show VecIs (Table.get (Table.put _ _ _) _ _) _ _; rw [Table.get_put]; exact hm2
  · show VecIs (Table.get (Table.put _ _ _) _ _) _ _; rw [Table.get_put]; exact hs2

/-! ### Locality -/

/-- Two computations fail alike or return related results. -/
inductive RelRes {β γ : Type _} (R : β → γ → Prop) : Res β → Res γ → Prop
  | err (e : UB) : RelRes R (.error e) (.error e)
  | ok {b c} (h : R b c) : RelRes R (.ok b) (.ok c)

theorem RelRes.bind {β γ δ : Type _} {R : γ → δ → Prop} (x : Res β) {k : β → Res γ} {k' : β → Res δ}
    (h : ∀ a, RelRes R (k a) (k' a)) : RelRes R (x >>= k) (x >>= k') := by
  cases x with
  | error e => exact .err e
  | ok a => exact h a

/-- The part of the optimizer state an update of address `k` may look at is `view s k`, and it changes no other part. -/
structure LocalUpd {σ ε : Type _} (upd : Upd σ α) (view : σ → Nat → ε) : Prop where
  dep : ∀ s s' k P G, view s k = view s' k →
    RelRes (fun r r' => view r.1 k = view r'.1 k ∧ r.2 = r'.2) (upd s k P G) (upd s' k P G)
  other : ∀ s k P G r, upd s k P G = .ok r → ∀ k', k' ≠ k → view r.1 k' = view s k'

theorem local_run {σ ε : Type _} {upd : Upd σ α} {view : σ → Nat → ε} (L : LocalUpd upd view) (k : Nat)
    (ops : List (Nat × Buf α)) : ∀ (s s' : σ) (P P' : Nat → Buf α) (r : σ × (Nat → Buf α)),
    view s k = view s' k → P k = P' k → runUpd upd s P ops = .ok r →
    ∃ r', runUpd upd s' P' (ops.filter (fun o => o.1 == k)) = .ok r' ∧ r'.2 k = r.2 k ∧ view r'.1 k = view r.1 k := by
  induction ops with
  | nil => intro s s' P P' r hv hP h; cases h; exact ⟨_, rfl, hP.symm, hv.symm⟩
  | cons op ops ih =>
    obtain ⟨k0, g⟩ := op
    intro s s' P P' r hv hP h
    unfold runUpd at h
    cases e : upd s k0 (P k0) g with
    | error u => rw [e] at h; cases h
    | ok q =>
      rw [e, bind_ok] at h
      by_cases hk : k0 = k
      · subst hk
        have hrel := L.dep s s' k0 (P k0) g hv
        rw [e] at hrel
        rw [List.filter_cons_of_pos (by simp)]
        cases e' : upd s' k0 (P k0) g with
        | error u => rw [e'] at hrel; cases hrel
        | ok q' =>
          rw [e'] at hrel
          cases hrel with
          | ok hq =>
          unfold runUpd
          rw [← hP, e', bind_ok]
          exact ih q.1 q'.1 _ _ r hq.1 (by simp [hq.2]) h
      · rw [List.filter_cons_of_neg (by simpa using hk)]
        refine ih q.1 s' _ P' r ((L.other s k0 _ _ _ e k (Ne.symm hk)).trans hv) ?_ h
        rw [if_neg (Ne.symm hk)]; exact hP

theorem getTab_congr [Zero α] {t t' : Table α} {k : Nat} (h : t k = t' k) (n : Nat) : t.get k n = t'.get k n := by
  unfold Table.get; rw [h]

/-- Partial correctness: if the computation returns, the result satisfies `Q`. -/
def Post {β : Type _} (r : Res β) (Q : β → Prop) : Prop := ∀ a, r = .ok a → Q a

theorem Post.bind {β γ : Type _} {r : Res β} {k : β → Res γ} {Q : γ → Prop} (h : ∀ a, Post (k a) Q) : Post (r >>= k) Q := by
  intro c hc
  cases r with
  | error e => cases hc
  | ok a => exact h a c hc

theorem Post.ok {β : Type _} {b : β} {Q : β → Prop} (h : Q b) : Post (.ok b) Q := by
  intro c hc; cases hc; exact h

theorem local_mom [Zero α] [Add α] [Mul α] [Sub α] :
    LocalUpd (momUpdate (α := α)) (fun s k => (s.buff k, s.opt k, s.lr, s.mu)) where
  dep s s' k P G h := by
    simp only [Prod.mk.injEq] at h
    obtain ⟨h1, h2, h3, h4⟩ := h
    unfold momUpdate
    dsimp only
    rw [getTab_congr h1, getTab_congr h2, h3, h4]
    refine .bind _ (fun a => .bind _ (fun b => .bind _ (fun c => .bind _ (fun d => .ok ⟨?_, rfl⟩))))
    simp [Table.put]
  other s k P G r h k' hk' := by
    refine (?_ : Post (momUpdate s k P G) (fun r => (r.1.buff k', r.1.opt k', r.1.lr, r.1.mu) = (s.buff k', s.opt k', s.lr, s.mu))) r h
    unfold momUpdate
    refine .bind (fun a => .bind (fun b => .bind (fun c => .bind (fun d => .ok ?_))))
    simp [Table.put, hk']

theorem local_nes [Zero α] [Add α] [Mul α] [Sub α] :
    LocalUpd (nesUpdate (α := α)) (fun s k => (s.buff k, s.opt k, s.lr, s.mu)) where
  dep s s' k P G h := by
    simp only [Prod.mk.injEq] at h
    obtain ⟨h1, h2, h3, h4⟩ := h
    unfold nesUpdate
    dsimp only
    rw [getTab_congr h1, getTab_congr h2, h3, h4]
    refine .bind _ (fun a => .bind _ (fun b => .bind _ (fun c => .bind _ (fun d => .bind _ (fun e => .bind _ (fun f =>
      .ok ⟨?_, rfl⟩))))))
    simp [Table.put]
  other s k P G r h k' hk' := by
    refine (?_ : Post (nesUpdate s k P G) (fun r => (r.1.buff k', r.1.opt k', r.1.lr, r.1.mu) = (s.buff k', s.opt k', s.lr, s.mu))) r h
    unfold nesUpdate
    refine .bind (fun a => .bind (fun b => .bind (fun c => .bind (fun d => .bind (fun e => .bind (fun f => .ok ?_))))))
    simp [Table.put, hk']

theorem local_adagrad [Zero α] [Add α] [Mul α] [Sub α] (isq : α → α) :
    LocalUpd (adagradUpdate (α := α) isq) (fun s k => (s.buff k, s.opt k, s.lr)) where
  dep s s' k P G h := by
    simp only [Prod.mk.injEq] at h
    obtain ⟨h1, h2, h3⟩ := h
    unfold adagradUpdate
    dsimp only
    rw [getTab_congr h1, getTab_congr h2, h3]
    refine .bind _ (fun a => .bind _ (fun b => .bind _ (fun c => .bind _ (fun d => .bind _ (fun e => .bind _ (fun f =>
      .ok ⟨?_, rfl⟩))))))
    simp [Table.put]
  other s k P G r h k' hk' := by
    refine (?_ : Post (adagradUpdate isq s k P G) (fun r => (r.1.buff k', r.1.opt k', r.1.lr) = (s.buff k', s.opt k', s.lr))) r h
    unfold adagradUpdate
    refine .bind (fun a => .bind (fun b => .bind (fun c => .bind (fun d => .bind (fun e => .bind (fun f => .ok ?_))))))
    simp [Table.put, hk']

theorem local_rmsprop [Zero α] [Add α] [Mul α] [Sub α] (isq : α → α) :
    LocalUpd (rmspropUpdate (α := α) isq) (fun s k => (s.buff k, s.opt k, s.lr, s.beta, s.rbeta)) where
  dep s s' k P G h := by
    simp only [Prod.mk.injEq] at h
    obtain ⟨h1, h2, h3, h4, h5⟩ := h
    unfold rmspropUpdate
    dsimp only
    rw [getTab_congr h1, getTab_congr h2, h3, h4, h5]
    refine .bind _ (fun a => .bind _ (fun b => .bind _ (fun c => .bind _ (fun d => .bind _ (fun e => .bind _ (fun f =>
      .bind _ (fun g => .bind _ (fun h => .ok ⟨?_, rfl⟩))))))))
    simp [Table.put]
  other s k P G r h k' hk' := by
    refine (?_ : Post (rmspropUpdate isq s k P G) (fun r => (r.1.buff k', r.1.opt k', r.1.lr, r.1.beta, r.1.rbeta) =
      (s.buff k', s.opt k', s.lr, s.beta, s.rbeta))) r h
    unfold rmspropUpdate
    refine .bind (fun a => .bind (fun b => .bind (fun c => .bind (fun d => .bind (fun e => .bind (fun f =>
      .bind (fun g => .bind (fun h => .ok ?_))))))))
    simp [Table.put, hk']

end Trixy
