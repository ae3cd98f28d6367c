import Verif.Spec.OptRate
import Verif.Props.Optim
/- Property C90 (changing the learning rate). -/
set_option linter.unusedSectionVars false
namespace Trixy
open Finset

variable {α σ : Type}

/-- What an optimizer has to satisfy for the induction over programs. -/
structure RateInv (o : RateOpt σ α) (size : Nat → Nat) (k : Nat) (tr : List (Applied α)) (Inv : σ → Prop)
    (Q : Nat → Nat → σ → Buf α → Prop) : Prop where
  rateSet : ∀ v s, o.rate (o.setRate v s) = v
  invSet : ∀ v s, Inv s → Inv (o.setRate v s)
  set : ∀ t c v s p, Q t c s p → Q t c (o.setRate v s) p
  upd : ∀ s k P G p g, Inv s → VecIs P (size k) p → VecIs G (size k) g →
    Ok (o.upd s k P G) (fun r => Inv r.1 ∧ o.rate r.1 = o.rate s ∧ ∃ p', VecIs r.2.1 (size k) p')
  mine : ∀ t (h : t < tr.length) c s p r, Inv s → Q t c s p → o.rate s = tr[t].rate → c + 1 = tr[t].call →
    o.upd s k p tr[t].grad = .ok r → Q (t + 1) (c + 1) r.1 r.2.1
  other : ∀ t c s p k' p' G q g r, k' ≠ k → Inv s → VecIs p' (size k') q → VecIs G (size k') g → Q t c s p → o.upd s k' p' G = .ok r → Q t (c + 1) r.1 p

theorem optBind_inv {β δ : Type} {x : Res β} {f : β → Res δ} {b : δ} (h : x >>= f = .ok b) : ∃ a, x = .ok a ∧ f a = .ok b := by
  cases x with
  | error e => cases h
  | ok a => exact ⟨a, rfl, h⟩

theorem runCalls_key {o : RateOpt σ α} {size : Nat → Nat} {k : Nat} (cs : List (OptCall α)) :
    ∀ {Inv : σ → Prop} {Q : Nat → Nat → σ → Buf α → Prop} {s : σ} {P : Nat → Buf α} {c : Nat},
    RateInv o size k (applied k (o.rate s) c cs) Inv Q → Inv s → Q 0 c s (P k) →
    (∀ k', ∃ p, VecIs (P k') (size k') p) → CallsFit size cs →
    Ok (runCalls o s P cs) (fun r => o.rate r.1 = lastRate (o.rate s) cs ∧
      ∃ c', Q (applied k (o.rate s) c cs).length c' r.1 (r.2 k)) := by
  induction cs with
  | nil => intro Inv Q s P c _ _ h0 _ _; exact Ok_ok.2 ⟨rfl, c, h0⟩
  | cons x cs ih =>
    intro Inv Q s P c R hI h0 hP hf
    have hf' : CallsFit size cs := fun k G h => hf k G (List.mem_cons_of_mem _ h)
    cases x with
    | setRate v =>
      unfold runCalls lastRate applied
      have e := R.rateSet v s
      have R' : RateInv o size k (applied k (o.rate (o.setRate v s)) c cs) Inv Q := by rw [e]; exact R
      have := ih R' (R.invSet v s hI) (R.set 0 c v s _ h0) hP hf'
      rw [e] at this
      exact this
    | update k' G =>
      unfold runCalls lastRate
      obtain ⟨p, hp⟩ := hP k'
      obtain ⟨g, hg⟩ := hf k' G List.mem_cons_self
      obtain ⟨r, er, hr1, hr2, p', hp'⟩ := R.upd s k' (P k') G p g hI hp hg
      rw [er, bind_ok]
      dsimp only
      have hP' : ∀ q, ∃ p, VecIs ((fun q => if q = k' then r.2.1 else P q) q) (size q) p := by
        intro q
        by_cases e : q = k'
        · subst e; exact ⟨p', by simpa using hp'⟩
        · simpa [e] using hP q
      by_cases e : k' = k
      · subst e
        have et : applied k' (o.rate s) c (.update k' G :: cs) = ⟨o.rate s, c + 1, G⟩ :: applied k' (o.rate r.1) (c + 1) cs := by
          rw [hr2]
          show (if k' = k' then _ else _) = _
          rw [if_pos rfl]
        rw [et] at R ⊢
        have h1 := R.mine 0 (by simp) c s (P k') r hI h0 rfl rfl er
        refine (ih (s := r.1) (c := c + 1) (Q := fun t => Q (t + 1)) ⟨R.rateSet, R.invSet, fun t => R.set (t + 1), R.upd,
          fun t ht => R.mine (t + 1) (by simpa using ht), fun t => R.other (t + 1)⟩ hr1 (by simpa using h1) hP' hf').mono (fun q hq => ⟨hq.1.trans (by rw [hr2]), hq.2⟩)
      · have et : applied k (o.rate s) c (.update k' G :: cs) = applied k (o.rate r.1) (c + 1) cs := by
          rw [hr2]
          show (if k' = k then _ else _) = _
          rw [if_neg e]
        rw [et] at R ⊢
        refine (ih (s := r.1) (c := c + 1) R hr1 ?_ hP' hf').mono (fun q hq => ⟨hq.1.trans (by rw [hr2]), hq.2⟩)
        show Q 0 (c + 1) r.1 (if k = k' then r.2.1 else P k)
        rw [if_neg (Ne.symm e)]
        exact R.other 0 c s (P k) k' (P k') G p g r e hI hp hg h0 er

/-- The claim for one optimizer: whatever the program does, it succeeds, `learning_rate()` is the last rate set, and the tensor
at `k` is `F η c g T`, where `T` is the number of its updates and `η t`, `c t`, `g t` are rate in force, call number and
gradient of the `t`-th. -/
def Follows (o : RateOpt σ α) (fresh : σ) (F : (Nat → α) → (Nat → α) → (Nat → Nat) → (Nat → Nat → α) → Nat → Nat → α) : Prop :=
  ∀ (size : Nat → Nat) (P : Nat → Buf α) (cs : List (OptCall α)) (k : Nat) (p η : Nat → α) (c : Nat → Nat) (g : Nat → Nat → α),
    (∀ k', ∃ q, VecIs (P k') (size k') q) → CallsFit size cs → VecIs (P k) (size k) p →
    Sched (applied k (o.rate fresh) 0 cs) (size k) η c g →
    Ok (runCalls o fresh P cs) (fun r => o.rate r.1 = lastRate (o.rate fresh) cs ∧
      VecIs (r.2 k) (size k) (fun i => F p η c g (applied k (o.rate fresh) 0 cs).length i))

theorem C90_grad_descent {K : Type} [CommRing K] (lr : K) :
    Follows gdOpt lr (fun p η _ g T i => p i - ∑ τ ∈ range T, η τ * g τ i) := by
  intro size P cs k p η c g hP hf hp hs
  refine (runCalls_key (Inv := fun _ => True) (Q := fun t _ _ b => VecIs b (size k) (fun i => p i - ∑ τ ∈ range t, η τ * g τ i)) cs
    ⟨fun _ _ => rfl, fun _ _ _ => trivial, fun _ _ _ _ _ h => h, fun s k P G p g _ hp hg => ?_, ?_, fun t c s p k' p' G _ _ r _ _ _ _ h _ => h⟩
    trivial (hp.congr (fun i _ => by simp)) hP hf).mono (fun r h => ⟨h.1, h.2.choose_spec⟩)
  · exact (gd_spec (k := k) hp hg).mono (fun r q => ⟨trivial, q.1, _, q.2.1⟩)
  · intro t ht c' s b r _ hb hr _ e
    obtain ⟨e1, _, e3⟩ := hs t ht
    obtain ⟨r', er, q⟩ := gd_spec (k := k) (lr := s) hb e3
    cases e.symm.trans er
    have e0 : s = η t := hr.trans e1
    refine q.2.1.congr (fun i _ => ?_)
    rw [sum_range_succ, e0]; ring

/-- StoGradDescent: the weight decay factor `1 - lr·decay` is that of the constructor, whatever rate is set later. -/
theorem C90_sto_grad_descent {K : Type} [CommRing K] (lr decay : K) :
    Follows sgdOpt (Sgd.make lr decay) (fun p η _ g T i =>
      (1 - lr * decay) ^ T * p i - ∑ τ ∈ range T, (1 - lr * decay) ^ (T - 1 - τ) * (η τ * g τ i)) := by
  intro size P cs k p η c g hP hf hp hs
  refine (runCalls_key (Inv := fun _ => True) (Q := fun t _ s b => s.alpha = 1 - lr * decay ∧ VecIs b (size k) (fun i =>
    (1 - lr * decay) ^ t * p i - ∑ τ ∈ range t, (1 - lr * decay) ^ (t - 1 - τ) * (η τ * g τ i))) cs
    ⟨fun _ _ => rfl, fun _ _ _ => trivial, fun _ _ _ _ _ h => h, fun s k P G p g _ hp hg => ?_, ?_, ?_⟩
    trivial ⟨rfl, hp.congr (fun i _ => by simp)⟩ hP hf).mono (fun r h => ⟨h.1, h.2.choose_spec.2⟩)
  · exact (sgd_spec (k := k) hp hg).mono (fun r q => ⟨trivial, congrArg Sgd.lr q.1, _, q.2.1⟩)
  · intro t ht c' s b r _ hb hr _ e
    obtain ⟨e1, _, e3⟩ := hs t ht
    obtain ⟨r', er, q⟩ := sgd_spec (k := k) (s := s) hb.2 e3
    cases e.symm.trans er
    have e0 : s.lr = η t := hr.trans e1
    refine ⟨(congrArg Sgd.alpha q.1).trans hb.1, q.2.1.congr (fun i _ => ?_)⟩
    have : ∑ τ ∈ range (t + 1), (1 - lr * decay) ^ (t + 1 - 1 - τ) * (η τ * g τ i) =
        (1 - lr * decay) * ∑ τ ∈ range t, (1 - lr * decay) ^ (t - 1 - τ) * (η τ * g τ i) + η t * g t i := by
      rw [sum_range_succ, mul_sum]
      congr 1
      · refine sum_congr rfl (fun τ hτ => ?_)
        have := mem_range.1 hτ
        rw [show t + 1 - 1 - τ = t - 1 - τ + 1 by omega, pow_succ]; ring
      · simp
    rw [this, e0, hb.1]; ring
  · intro t c' s b k' p' G _ _ r _ _ _ _ hb e
    -- the optimizer object is not changed by an update
    have : r.1 = s := by
      unfold sgdOpt sgdUpdate at e
      dsimp only at e
      obtain ⟨_, _, e⟩ := optBind_inv e
      obtain ⟨_, _, e⟩ := optBind_inv e
      obtain ⟨_, _, e⟩ := optBind_inv e
      cases e; rfl
    rw [this]; exact hb

theorem velocityS_succ {K : Type} [CommRing K] (η : Nat → K) (mu : K) (g : Nat → Nat → K) (t i : Nat) :
    velocityS η mu g (t + 1) i = velocityS η mu g t i * mu - η t * g t i := by
  unfold velocityS
  have : ∑ τ ∈ range (t + 1), mu ^ (t + 1 - 1 - τ) * (η τ * g τ i) = mu * ∑ τ ∈ range t, mu ^ (t - 1 - τ) * (η τ * g τ i) + η t * g t i := by
    rw [sum_range_succ, mul_sum]
    congr 1
    · refine sum_congr rfl (fun τ hτ => ?_)
      have := mem_range.1 hτ
      rw [show t + 1 - 1 - τ = t - 1 - τ + 1 by omega, pow_succ]; ring
    · simp
  rw [this]; ring

theorem C90_momentum {K : Type} [CommRing K] (lr mu : K) :
    Follows momOpt (Mom.make lr mu) (fun p η _ g T i => p i + ∑ τ ∈ range T, velocityS η mu g (τ + 1) i) := by
  intro size P cs k p η c g hP hf hp hs
  refine (runCalls_key (Inv := MomOk size) (Q := fun t _ s b => s.mu = mu ∧ VecIs (s.opt.get k (size k)) (size k) (velocityS η mu g t) ∧
    VecIs b (size k) (fun i => p i + ∑ τ ∈ range t, velocityS η mu g (τ + 1) i)) cs
    ⟨fun _ _ => rfl, fun _ _ h => h, fun _ _ _ _ _ h => h, ?_, ?_, ?_⟩
    ⟨fun k => (Table.get_empty k _).length, TabOk.empty _⟩
    ⟨rfl, (Table.get_empty k _).congr (fun i _ => by simp [velocityS]), hp.congr (fun i _ => by simp)⟩ hP hf).mono
      (fun r h => ⟨h.1, h.2.choose_spec.2.2⟩)
  · intro s k P G p g hI hp hg
    obtain ⟨v, hv⟩ := hI.2 k
    obtain ⟨r, e, h1, _, h3, h4, h5, _⟩ := mom_spec hp hg (hI.1 k) hv
    have ho := local_mom.other s k P G r e
    simp only [Prod.mk.injEq] at ho
    exact ⟨r, e, ⟨len_of hI.1 h3 (fun k' hk' => (ho k' hk').1), hI.2.of ⟨_, h4⟩ (fun k' hk' => (ho k' hk').2.1)⟩, h1, _, h5⟩
  · intro t ht c' s b r hI ⟨hm, hv, hb⟩ hr _ e
    obtain ⟨e1, _, e3⟩ := hs t ht
    obtain ⟨r', er, q⟩ := mom_spec hb e3 (hI.1 k) hv
    cases e.symm.trans er
    have e0 : s.lr = η t := hr.trans e1
    refine ⟨q.2.1.trans hm, q.2.2.2.1.congr (fun i _ => ?_), q.2.2.2.2.1.congr (fun i _ => ?_)⟩
    · rw [velocityS_succ, e0, hm]
    · rw [sum_range_succ, velocityS_succ, e0, hm]; ring
  · intro t c' s b k' p' G _ _ r hk _ _ _ ⟨hm, hv, hb⟩ e
    have ho := local_mom.other s k' p' G r e k (Ne.symm hk)
    simp only [Prod.mk.injEq] at ho
    exact ⟨ho.2.2.2.trans hm, by rw [getTab_congr ho.2.1]; exact hv, hb⟩

theorem C90_nestorov {K : Type} [CommRing K] (lr mu : K) :
    Follows nesOpt (Mom.make lr mu) (fun p η _ g T i =>
      p i + ∑ τ ∈ range T, (mu * velocityS η mu g (τ + 1) i - η τ * g τ i)) := by
  intro size P cs k p η c g hP hf hp hs
  refine (runCalls_key (Inv := MomOk size) (Q := fun t _ s b => s.mu = mu ∧ VecIs (s.opt.get k (size k)) (size k) (velocityS η mu g t) ∧
    VecIs b (size k) (fun i => p i + ∑ τ ∈ range t, (mu * velocityS η mu g (τ + 1) i - η τ * g τ i))) cs
    ⟨fun _ _ => rfl, fun _ _ h => h, fun _ _ _ _ _ h => h, ?_, ?_, ?_⟩
    ⟨fun k => (Table.get_empty k _).length, TabOk.empty _⟩
    ⟨rfl, (Table.get_empty k _).congr (fun i _ => by simp [velocityS]), hp.congr (fun i _ => by simp)⟩ hP hf).mono
      (fun r h => ⟨h.1, h.2.choose_spec.2.2⟩)
  · intro s k P G p g hI hp hg
    obtain ⟨v, hv⟩ := hI.2 k
    obtain ⟨r, e, h1, _, h3, h4, h5, _⟩ := nes_spec hp hg (hI.1 k) hv
    have ho := local_nes.other s k P G r e
    simp only [Prod.mk.injEq] at ho
    exact ⟨r, e, ⟨len_of hI.1 h3 (fun k' hk' => (ho k' hk').1), hI.2.of ⟨_, h4⟩ (fun k' hk' => (ho k' hk').2.1)⟩, h1, _, h5⟩
  · intro t ht c' s b r hI ⟨hm, hv, hb⟩ hr _ e
    obtain ⟨e1, _, e3⟩ := hs t ht
    obtain ⟨r', er, q⟩ := nes_spec hb e3 (hI.1 k) hv
    cases e.symm.trans er
    have e0 : s.lr = η t := hr.trans e1
    refine ⟨q.2.1.trans hm, q.2.2.2.1.congr (fun i _ => ?_), q.2.2.2.2.1.congr (fun i _ => ?_)⟩
    · rw [velocityS_succ, e0, hm]
    · rw [sum_range_succ, velocityS_succ, e0, hm]; ring
  · intro t c' s b k' p' G _ _ r hk _ _ _ ⟨hm, hv, hb⟩ e
    have ho := local_nes.other s k' p' G r e k (Ne.symm hk)
    simp only [Prod.mk.injEq] at ho
    exact ⟨ho.2.2.2.trans hm, by rw [getTab_congr ho.2.1]; exact hv, hb⟩

theorem C90_adagrad (lr beta : ℝ) :
    Follows (adagradOpt invertSqrt) (Ada.make lr beta) (fun p η _ g T i =>
      p i - ∑ τ ∈ range T, η τ * g τ i / Real.sqrt (1e-9 + sumSq g (τ + 1) i)) := by
  intro size P cs k p η c g hP hf hp hs
  refine (runCalls_key (Inv := AdaOk size) (Q := fun t _ s b => VecIs (s.opt.get k (size k)) (size k) (sumSq g t) ∧
    VecIs b (size k) (fun i => p i - ∑ τ ∈ range t, η τ * g τ i / Real.sqrt (1e-9 + sumSq g (τ + 1) i))) cs
    ⟨fun _ _ => rfl, fun _ _ h => h, fun _ _ _ _ _ h => h, ?_, ?_, ?_⟩
    ⟨fun k => (Table.get_empty k _).length, TabOk.empty _⟩
    ⟨(Table.get_empty k _).congr (fun i _ => by simp [sumSq]), hp.congr (fun i _ => by simp)⟩ hP hf).mono
      (fun r h => ⟨h.1, h.2.choose_spec.2⟩)
  · intro s k P G p g hI hp hg
    obtain ⟨v, hv⟩ := hI.2 k
    obtain ⟨r, e, h1, h3, h4, h5, _⟩ := adagrad_spec (isq := invertSqrt) hp hg (hI.1 k) hv
    have ho := (local_adagrad invertSqrt).other s k P G r e
    simp only [Prod.mk.injEq] at ho
    exact ⟨r, e, ⟨len_of hI.1 h3 (fun k' hk' => (ho k' hk').1), hI.2.of ⟨_, h4⟩ (fun k' hk' => (ho k' hk').2.1)⟩, h1, _, h5⟩
  · intro t ht c' s b r hI ⟨hv, hb⟩ hr _ e
    obtain ⟨e1, _, e3⟩ := hs t ht
    obtain ⟨r', er, q⟩ := adagrad_spec (isq := invertSqrt) hb e3 (hI.1 k) hv
    cases e.symm.trans er
    have e0 : s.lr = η t := hr.trans e1
    have hsq : ∀ i, sumSq g (t + 1) i = sumSq g t i + g t i * g t i := fun i => by
      unfold sumSq; rw [sum_range_succ]; ring
    refine ⟨q.2.2.1.congr (fun i _ => ?_), q.2.2.2.1.congr (fun i _ => ?_)⟩
    · rw [hsq]
    · rw [sum_range_succ, hsq, invertSqrt, e0]; ring
  · intro t c' s b k' p' G _ _ r hk _ _ _ ⟨hv, hb⟩ e
    have ho := (local_adagrad invertSqrt).other s k' p' G r e k (Ne.symm hk)
    simp only [Prod.mk.injEq] at ho
    exact ⟨by rw [getTab_congr ho.2.1]; exact hv, hb⟩

theorem C90_rmsprop (lr beta : ℝ) :
    Follows (rmspropOpt invertSqrt) (Ada.make lr beta) (fun p η _ g T i =>
      p i - ∑ τ ∈ range T, η τ * g τ i / Real.sqrt (1e-9 + ewma beta (fun τ => g τ i ^ 2) (τ + 1))) := by
  intro size P cs k p η c g hP hf hp hs
  refine (runCalls_key (Inv := AdaOk size) (Q := fun t _ s b => s.beta = beta ∧ s.rbeta = 1 - beta ∧
    VecIs (s.opt.get k (size k)) (size k) (fun i => ewma beta (fun τ => g τ i ^ 2) t) ∧
    VecIs b (size k) (fun i => p i - ∑ τ ∈ range t, η τ * g τ i / Real.sqrt (1e-9 + ewma beta (fun τ => g τ i ^ 2) (τ + 1)))) cs
    ⟨fun _ _ => rfl, fun _ _ h => h, fun _ _ _ _ _ h => h, ?_, ?_, ?_⟩
    ⟨fun k => (Table.get_empty k _).length, TabOk.empty _⟩
    ⟨rfl, rfl, (Table.get_empty k _).congr (fun i _ => by simp [ewma]), hp.congr (fun i _ => by simp)⟩ hP hf).mono
      (fun r h => ⟨h.1, h.2.choose_spec.2.2.2⟩)
  · intro s k P G p g hI hp hg
    obtain ⟨v, hv⟩ := hI.2 k
    obtain ⟨r, e, h1, _, _, h3, h4, h5, _⟩ := rmsprop_spec (isq := invertSqrt) hp hg (hI.1 k) hv
    have ho := (local_rmsprop invertSqrt).other s k P G r e
    simp only [Prod.mk.injEq] at ho
    exact ⟨r, e, ⟨len_of hI.1 h3 (fun k' hk' => (ho k' hk').1), hI.2.of ⟨_, h4⟩ (fun k' hk' => (ho k' hk').2.1)⟩, h1, _, h5⟩
  · intro t ht c' s b r hI ⟨h1, h2, hv, hb⟩ hr _ e
    obtain ⟨e1, _, e3⟩ := hs t ht
    obtain ⟨r', er, q⟩ := rmsprop_spec (isq := invertSqrt) hb e3 (hI.1 k) hv
    cases e.symm.trans er
    have e0 : s.lr = η t := hr.trans e1
    refine ⟨q.2.1.trans h1, q.2.2.1.trans h2, q.2.2.2.2.1.congr (fun i _ => ?_), q.2.2.2.2.2.1.congr (fun i _ => ?_)⟩
    · rw [ewma_succ, h1, h2]; ring
    · rw [sum_range_succ, ewma_succ, invertSqrt, h1, h2, e0,
        show ewma beta (fun τ => g τ i ^ 2) t * beta + g t i * g t i * (1 - beta) =
          ewma beta (fun τ => g τ i ^ 2) t * beta + (1 - beta) * g t i ^ 2 by ring]
      ring
  · intro t c' s b k' p' G _ _ r hk _ _ _ ⟨h1, h2, hv, hb⟩ e
    have ho := (local_rmsprop invertSqrt).other s k' p' G r e k (Ne.symm hk)
    simp only [Prod.mk.injEq] at ho
    exact ⟨ho.2.2.2.1.trans h1, ho.2.2.2.2.trans h2, by rw [getTab_congr ho.2.1]; exact hv, hb⟩

/-- Invariant of Adam on all tensors. -/
def AdamAll (size : Nat → Nat) (b1 b2 : ℝ) (s : AdamS ℝ) : Prop :=
  (∀ k, (s.buff.get k (size k)).length = size k) ∧ TabOk size s.m ∧ TabOk size s.s ∧ s.beta1 = b1 ∧ s.beta2 = b2 ∧
  s.rbeta1 = 1 - b1 ∧ s.rbeta2 = 1 - b2 ∧ ∃ c, s.tbeta1 = b1 ^ c ∧ s.tbeta2 = b2 ^ c

/-- Adam, any number of tensors: the bias corrections of the `t`-th update of the tensor are those of its call number. -/
theorem C90_adam (lr b1 b2 : ℝ) (h1 : 0 ≤ b1) (h1' : b1 < 1) (h2 : 0 ≤ b2) (h2' : b2 < 1) :
    Follows (adamOpt invertSqrt) (AdamS.make lr b1 b2) (fun p η c g T i =>
      p i - ∑ τ ∈ range T, η τ * (ewma b1 (fun τ => g τ i) (τ + 1) / (1 - b1 ^ c τ)) /
        Real.sqrt (1e-9 + ewma b2 (fun τ => g τ i ^ 2) (τ + 1) / (1 - b2 ^ c τ))) := by
  intro size P cs k p η c g hP hf hp hs
  have ne : ∀ {s : AdamS ℝ} {c : Nat}, s.beta1 = b1 → s.beta2 = b2 → s.tbeta1 = b1 ^ c → s.tbeta2 = b2 ^ c →
      s.tbeta1 * s.beta1 = b1 ^ (c + 1) ∧ s.tbeta2 * s.beta2 = b2 ^ (c + 1) ∧
      1 - s.tbeta1 * s.beta1 ≠ 0 ∧ 1 - s.tbeta2 * s.beta2 ≠ 0 := by
    intro s c e1 e2 e3 e4
    have a1 : s.tbeta1 * s.beta1 = b1 ^ (c + 1) := by rw [e1, e3, pow_succ]
    have a2 : s.tbeta2 * s.beta2 = b2 ^ (c + 1) := by rw [e2, e4, pow_succ]
    have l1 : b1 ^ (c + 1) < 1 := pow_lt_one₀ h1 h1' (by omega)
    have l2 : b2 ^ (c + 1) < 1 := pow_lt_one₀ h2 h2' (by omega)
    exact ⟨a1, a2, by rw [a1]; linarith, by rw [a2]; linarith⟩
  have oth : ∀ (s : AdamS ℝ) k P G r p g, AdamAll size b1 b2 s → VecIs P (size k) p → VecIs G (size k) g →
      adamUpdate invertSqrt s k P G = .ok r → AdamAll size b1 b2 r.1 := by
    intro s k P G r p g ⟨i1, i2, i3, i4, i5, i6, i7, c, i8, i9⟩ hp hg e
    obtain ⟨m, hm⟩ := i2 k
    obtain ⟨v, hv⟩ := i3 k
    obtain ⟨a1, a2, n1, n2⟩ := ne i4 i5 i8 i9
    obtain ⟨r', e', q1, q2, q3, q4, q5, q6, q7, qo, q8, q9, q10, q11, _⟩ := adam_spec (isq := invertSqrt) hp hg (i1 k) hm hv n1 n2
    cases e.symm.trans e'
    exact ⟨len_of i1 q8 (fun k' hk' => (qo k' hk').1), i2.of ⟨_, q9⟩ (fun k' hk' => (qo k' hk').2.1),
      i3.of ⟨_, q10⟩ (fun k' hk' => (qo k' hk').2.2), q2.trans i4, q3.trans i5, q4.trans i6, q5.trans i7, c + 1, q6.trans a1, q7.trans a2⟩
  refine (runCalls_key (Inv := AdamAll size b1 b2) (Q := fun t c' s b => s.tbeta1 = b1 ^ c' ∧ s.tbeta2 = b2 ^ c' ∧
    VecIs (s.m.get k (size k)) (size k) (fun i => ewma b1 (fun τ => g τ i) t) ∧
    VecIs (s.s.get k (size k)) (size k) (fun i => ewma b2 (fun τ => g τ i ^ 2) t) ∧
    VecIs b (size k) (fun i => p i - ∑ τ ∈ range t, η τ * (ewma b1 (fun τ => g τ i) (τ + 1) / (1 - b1 ^ c τ)) /
        Real.sqrt (1e-9 + ewma b2 (fun τ => g τ i ^ 2) (τ + 1) / (1 - b2 ^ c τ)))) cs
    ⟨fun _ _ => rfl, fun _ _ h => h, fun _ _ _ _ _ h => h, ?_, ?_, ?_⟩
    ⟨fun k => (Table.get_empty k _).length, TabOk.empty _, TabOk.empty _, rfl, rfl, rfl, rfl, 0, by simp [AdamS.make], by simp [AdamS.make]⟩
    ⟨by simp [AdamS.make], by simp [AdamS.make], (Table.get_empty k _).congr (fun i _ => by simp [ewma]),
      (Table.get_empty k _).congr (fun i _ => by simp [ewma]), hp.congr (fun i _ => by simp)⟩ hP hf).mono
      (fun r h => ⟨h.1, h.2.choose_spec.2.2.2.2⟩)
  · intro s k P G p g hI hp hg
    have hI0 := hI
    obtain ⟨i1, i2, i3, i4, i5, i6, i7, c, i8, i9⟩ := hI
    obtain ⟨m, hm⟩ := i2 k
    obtain ⟨v, hv⟩ := i3 k
    obtain ⟨a1, a2, n1, n2⟩ := ne i4 i5 i8 i9
    obtain ⟨r, e, q⟩ := adam_spec (isq := invertSqrt) hp hg (i1 k) hm hv n1 n2
    exact ⟨r, e, oth s k P G r p g hI0 hp hg e, q.1, _, q.2.2.2.2.2.2.2.2.2.2.2.1⟩
  · intro t ht c' s b r hI ⟨t1, t2, hm, hv, hb⟩ hr hc e
    obtain ⟨i1, i2, i3, i4, i5, i6, i7, _⟩ := hI
    obtain ⟨e1, e2, e3⟩ := hs t ht
    obtain ⟨a1, a2, n1, n2⟩ := ne i4 i5 t1 t2
    obtain ⟨r', e', q1, q2, q3, q4, q5, q6, q7, qo, q8, q9, q10, q11, _⟩ := adam_spec (isq := invertSqrt) hb e3 (i1 k) hm hv n1 n2
    cases e.symm.trans e'
    have e0 : s.lr = η t := hr.trans e1
    have ec : c' + 1 = c t := hc.trans e2
    refine ⟨q6.trans a1, q7.trans a2, q9.congr (fun i _ => ?_), q10.congr (fun i _ => ?_), q11.congr (fun i _ => ?_)⟩
    · rw [ewma_succ, i4, i6]
    · rw [ewma_succ, i5, i7]; ring
    · rw [sum_range_succ, a1, a2, ec, i4, i5, i6, i7, e0, invertSqrt,
        show ewma b2 (fun τ => g τ i ^ 2) t * b2 + g t i * g t i * (1 - b2) = ewma b2 (fun τ => g τ i ^ 2) (t + 1) by rw [ewma_succ]; ring,
        show ewma b1 (fun τ => g τ i) t * b1 + (1 - b1) * g t i = ewma b1 (fun τ => g τ i) (t + 1) by rw [ewma_succ]]
      rw [one_div_mul_eq_div]
      ring_nf
  · intro t c' s b k' p' G q' g' r hk hI hp' hG ⟨t1, t2, hm, hv, hb⟩ e
    obtain ⟨i1, i2, i3, i4, i5, i6, i7, _⟩ := hI
    obtain ⟨m, hm'⟩ := i2 k'
    obtain ⟨v, hv'⟩ := i3 k'
    obtain ⟨a1, a2, n1, n2⟩ := ne i4 i5 t1 t2
    obtain ⟨r', e', q1, q2, q3, q4, q5, q6, q7, qo, _⟩ := adam_spec (isq := invertSqrt) hp' hG (i1 k') hm' hv' n1 n2
    cases e.symm.trans e'
    have ho := qo k (Ne.symm hk)
    exact ⟨q6.trans a1, q7.trans a2, by rw [getTab_congr ho.2.1]; exact hm, by rw [getTab_congr ho.2.2]; exact hv, hb⟩

/-- Setting the rate of a fresh optimizer is the same as constructing it with that rate, for every class but StoGradDescent. -/
theorem C90_fresh {K : Type} [Field K] [DecidableEq K] (isq : K → K) (lr v mu beta b1 b2 : K) :
    gdOpt.setRate v lr = v ∧ momOpt.setRate v (Mom.make lr mu) = Mom.make v mu ∧ nesOpt.setRate v (Mom.make lr mu) = Mom.make v mu ∧
    (adagradOpt isq).setRate v (Ada.make lr beta) = Ada.make v beta ∧ (rmspropOpt isq).setRate v (Ada.make lr beta) = Ada.make v beta ∧
    (adamOpt isq).setRate v (AdamS.make lr b1 b2) = AdamS.make v b1 b2 := ⟨rfl, rfl, rfl, rfl, rfl, rfl⟩

/-- StoGradDescent: after `learning_rate(v)` the next update decays the weights with the old rate. It differs from the update of
`StoGradDescent(v, decay)` on every parameter that is not 0, whenever the decay is not 0 and the rate really changes. -/
theorem C90_sto_grad_descent_violated {K : Type} [Field K] (lr v decay : K) (hv : v ≠ lr) (hd : decay ≠ 0) (k n : Nat) (P G : Buf K)
    (p g : Nat → K) (hp : VecIs P n p) (hg : VecIs G n g) :
    Ok (sgdOpt.upd (sgdOpt.setRate v (Sgd.make lr decay)) k P G) (fun r => VecIs r.2.1 n (fun i => (1 - lr * decay) * p i - v * g i)) ∧
    Ok (sgdOpt.upd (Sgd.make v decay) k P G) (fun r => VecIs r.2.1 n (fun i => (1 - v * decay) * p i - v * g i)) ∧
    ∀ i, p i ≠ 0 → (1 - lr * decay) * p i - v * g i ≠ (1 - v * decay) * p i - v * g i := by
  refine ⟨(sgd_spec (k := k) hp hg).mono (fun r q => q.2.1.congr (fun i _ => ?_)), (sgd_spec (k := k) hp hg).mono (fun r q => q.2.1.congr (fun i _ => ?_)),
    fun i hi h => ?_⟩
  · show p i * (1 - lr * decay) - g i * v = _; ring
  · show p i * (1 - v * decay) - g i * v = _; ring
  · have : (v - lr) * decay * p i = 0 := by linear_combination h
    rcases mul_eq_zero.1 this with h | h
    · rcases mul_eq_zero.1 h with h | h
      · exact hv (sub_eq_zero.1 h)
      · exact hd h
    · exact hi h

/-! ### The hypotheses can be met -/

/-- Two tensors, the rate changed between the updates. -/
def exCalls : List (OptCall Int) := [.update 7 (Buf.of [1, 2]), .setRate 3, .update 8 (Buf.of [5]), .setRate 10, .update 7 (Buf.of [1, 0])]

example : (runCalls momOpt (Mom.make 2 1) (fun k => if k = 8 then Buf.of [0] else Buf.of [0, 0]) exCalls).toOption.map
    (fun r => (momOpt.rate r.1, r.2 7, r.2 8)) = some (10, Buf.of [-14, -8], Buf.of [-15]) := by decide
example : applied 7 2 0 exCalls = [⟨2, 1, Buf.of [1, 2]⟩, ⟨10, 3, Buf.of [1, 0]⟩] := rfl
example : CallsFit (fun k => if k = 8 then 1 else 2) exCalls := by
  intro k G h
  simp only [exCalls, List.mem_cons, OptCall.update.injEq, reduceCtorEq, List.not_mem_nil, or_false, false_or] at h
  rcases h with ⟨rfl, rfl⟩ | ⟨rfl, rfl⟩ | ⟨rfl, rfl⟩
  · exact ⟨fun i => if i = 0 then 1 else 2, rfl, fun i hi => by
      match i, hi with
      | 0, _ => rfl
      | 1, _ => rfl⟩
  · exact ⟨fun _ => 5, rfl, fun i hi => by
      match i, hi with
      | 0, _ => rfl⟩
  · exact ⟨fun i => if i = 0 then 1 else 0, rfl, fun i hi => by
      match i, hi with
      | 0, _ => rfl
      | 1, _ => rfl⟩
/-- Stochastic descent: rate 1 with decay 1/2, then rate 1/10: weights are still halved. -/
example : (sgdOpt.upd (sgdOpt.setRate (1/10) (Sgd.make 1 (1/2 : Rat))) 0 (Buf.of [4]) (Buf.of [0])).toOption.map (fun r => r.2.1) =
    some (Buf.of [2]) := by decide +kernel

end Trixy
