import Verif.Props.Checkpoint
/-
C80: training is reproducible: the result does not depend on addresses or on what the objects were used for before.
-/
namespace Trixy
set_option linter.unusedSectionVars false

variable {α β γ ρ σ : Type}

/-! ### The library's optimizers -/

/-- Tables that agree up to the renaming. -/
def AddrTab (K : Nat → Nat → Prop) (T T' : Table α) : Prop := ∀ a b, K a b → T' b = T a

theorem AddrTab.get [Zero α] {K : Nat → Nat → Prop} {T T' : Table α} (h : AddrTab K T T') {a b : Nat} (k : K a b) (n : Nat) :
    T'.get b n = T.get a n := by
  unfold Table.get
  rw [h a b k]

theorem AddrTab.put {K : Nat → Nat → Prop} (hK : OneToOne K) {T T' : Table α} (h : AddrTab K T T') {a b : Nat} (k : K a b) (x : Buf α) :
    AddrTab K (T.put a x) (T'.put b x) := by
  intro a' b' k'
  unfold Table.put
  have := hK a' b' a b k' k
  by_cases e : a' = a
  · rw [if_pos e, if_pos (this.1 e)]
  · rw [if_neg e, if_neg (fun h => e (this.2 h))]; exact h a' b' k'

theorem Oblivious.addressFree {upd : Upd σ α} (h : Oblivious upd) (s : σ) : AddressFree upd s := by
  intro K _
  refine ⟨fun a b => a = b, ?_, rfl⟩
  rintro s₁ s₂ k₁ k₂ p g r rfl _ e
  exact ⟨r.1, by rw [h.key _ k₂ k₁, e], rfl⟩

section
variable [Zero α] [Add α] [Mul α] [Sub α]

theorem mom_addressFree (lr mu : α) : AddressFree momUpdate (Mom.make lr mu) := by
  intro K hK
  refine ⟨fun s s' => s'.lr = s.lr ∧ s'.mu = s.mu ∧ AddrTab K s.buff s'.buff ∧ AddrTab K s.opt s'.opt, ?_, rfl, rfl, fun _ _ _ => rfl, fun _ _ _ => rfl⟩
  rintro ⟨b1, o1, l1, m1⟩ ⟨b2, o2, l2, m2⟩ k₁ k₂ p g r ⟨e1, e2, h1, h2⟩ k h
  dsimp only at e1 e2 h1 h2
  subst e1 e2
  unfold momUpdate at h ⊢
  dsimp only at h ⊢
  rw [h1.get k, h2.get k]
  obtain ⟨x1, q, h⟩ := res_bind_inv h; rw [q, bind_ok]
  obtain ⟨x2, q, h⟩ := res_bind_inv h; rw [q, bind_ok]
  obtain ⟨x3, q, h⟩ := res_bind_inv h; rw [q, bind_ok]
  obtain ⟨x4, q, h⟩ := res_bind_inv h; rw [q, bind_ok]
  cases h
  exact ⟨_, rfl, rfl, rfl, h1.put hK k _, h2.put hK k _⟩

theorem nes_addressFree (lr mu : α) : AddressFree nesUpdate (Mom.make lr mu) := by
  intro K hK
  refine ⟨fun s s' => s'.lr = s.lr ∧ s'.mu = s.mu ∧ AddrTab K s.buff s'.buff ∧ AddrTab K s.opt s'.opt, ?_, rfl, rfl, fun _ _ _ => rfl, fun _ _ _ => rfl⟩
  rintro ⟨b1, o1, l1, m1⟩ ⟨b2, o2, l2, m2⟩ k₁ k₂ p g r ⟨e1, e2, h1, h2⟩ k h
  dsimp only at e1 e2 h1 h2
  subst e1 e2
  unfold nesUpdate at h ⊢
  dsimp only at h ⊢
  rw [h1.get k, h2.get k]
  obtain ⟨x1, q, h⟩ := res_bind_inv h; rw [q, bind_ok]
  obtain ⟨x2, q, h⟩ := res_bind_inv h; rw [q, bind_ok]
  obtain ⟨x3, q, h⟩ := res_bind_inv h; rw [q, bind_ok]
  obtain ⟨x4, q, h⟩ := res_bind_inv h; rw [q, bind_ok]
  obtain ⟨x5, q, h⟩ := res_bind_inv h; rw [q, bind_ok]
  obtain ⟨x6, q, h⟩ := res_bind_inv h; rw [q, bind_ok]
  cases h
  exact ⟨_, rfl, rfl, rfl, h1.put hK k _, h2.put hK k _⟩

theorem adagrad_addressFree [One α] (isq : α → α) (lr beta : α) : AddressFree (adagradUpdate isq) (Ada.make lr beta) := by
  intro K hK
  refine ⟨fun s s' => s'.lr = s.lr ∧ AddrTab K s.buff s'.buff ∧ AddrTab K s.opt s'.opt, ?_, rfl, fun _ _ _ => rfl, fun _ _ _ => rfl⟩
  rintro ⟨b1, o1, l1, m1, n1⟩ ⟨b2, o2, l2, m2, n2⟩ k₁ k₂ p g r ⟨e1, h1, h2⟩ k h
  dsimp only at e1 h1 h2
  subst e1
  unfold adagradUpdate at h ⊢
  dsimp only at h ⊢
  rw [h1.get k, h2.get k]
  obtain ⟨x1, q, h⟩ := res_bind_inv h; rw [q, bind_ok]
  obtain ⟨x2, q, h⟩ := res_bind_inv h; rw [q, bind_ok]
  obtain ⟨x3, q, h⟩ := res_bind_inv h; rw [q, bind_ok]
  obtain ⟨x4, q, h⟩ := res_bind_inv h; rw [q, bind_ok]
  obtain ⟨x5, q, h⟩ := res_bind_inv h; rw [q, bind_ok]
  obtain ⟨x6, q, h⟩ := res_bind_inv h; rw [q, bind_ok]
  cases h
  exact ⟨_, rfl, rfl, h1.put hK k _, h2.put hK k _⟩

theorem rmsprop_addressFree [One α] (isq : α → α) (lr beta : α) : AddressFree (rmspropUpdate isq) (Ada.make lr beta) := by
  intro K hK
  refine ⟨fun s s' => s'.lr = s.lr ∧ s'.beta = s.beta ∧ s'.rbeta = s.rbeta ∧ AddrTab K s.buff s'.buff ∧ AddrTab K s.opt s'.opt, ?_, rfl, rfl, rfl,
    fun _ _ _ => rfl, fun _ _ _ => rfl⟩
  rintro ⟨b1, o1, l1, m1, n1⟩ ⟨b2, o2, l2, m2, n2⟩ k₁ k₂ p g r ⟨e1, e2, e3, h1, h2⟩ k h
  dsimp only at e1 e2 e3 h1 h2
  subst e1 e2 e3
  unfold rmspropUpdate at h ⊢
  dsimp only at h ⊢
  rw [h1.get k, h2.get k]
  obtain ⟨x1, q, h⟩ := res_bind_inv h; rw [q, bind_ok]
  obtain ⟨x2, q, h⟩ := res_bind_inv h; rw [q, bind_ok]
  obtain ⟨x3, q, h⟩ := res_bind_inv h; rw [q, bind_ok]
  obtain ⟨x4, q, h⟩ := res_bind_inv h; rw [q, bind_ok]
  obtain ⟨x5, q, h⟩ := res_bind_inv h; rw [q, bind_ok]
  obtain ⟨x6, q, h⟩ := res_bind_inv h; rw [q, bind_ok]
  obtain ⟨x7, q, h⟩ := res_bind_inv h; rw [q, bind_ok]
  obtain ⟨x8, q, h⟩ := res_bind_inv h; rw [q, bind_ok]
  cases h
  exact ⟨_, rfl, rfl, rfl, rfl, h1.put hK k _, h2.put hK k _⟩

end

theorem adam_addressFree [Field α] [DecidableEq α] (isq : α → α) (lr beta1 beta2 : α) :
    AddressFree (adamUpdate isq) (AdamS.make lr beta1 beta2) := by
  intro K hK
  refine ⟨fun s s' => AddrTab K s.buff s'.buff ∧ AddrTab K s.m s'.m ∧ AddrTab K s.s s'.s ∧
    (s'.lr, s'.beta1, s'.beta2, s'.rbeta1, s'.rbeta2, s'.tbeta1, s'.tbeta2) = (s.lr, s.beta1, s.beta2, s.rbeta1, s.rbeta2, s.tbeta1, s.tbeta2),
    ?_, fun _ _ _ => rfl, fun _ _ _ => rfl, fun _ _ _ => rfl, rfl⟩
  rintro ⟨b1, m1, s1, x1, x2, x3, x4, x5, x6, x7⟩ ⟨b2, m2, s2, y1, y2, y3, y4, y5, y6, y7⟩ k₁ k₂ p g r ⟨h1, h2, h3, e⟩ k h
  dsimp only at h1 h2 h3 e
  simp only [Prod.mk.injEq] at e
  obtain ⟨rfl, rfl, rfl, rfl, rfl, rfl, rfl⟩ := e
  unfold adamUpdate at h ⊢
  dsimp only at h ⊢
  rw [h1.get k, h2.get k, h3.get k]
  obtain ⟨z1, q, h⟩ := res_bind_inv h; rw [q, bind_ok]
  obtain ⟨z2, q, h⟩ := res_bind_inv h; rw [q, bind_ok]
  obtain ⟨z3, q, h⟩ := res_bind_inv h; rw [q, bind_ok]
  obtain ⟨z4, q, h⟩ := res_bind_inv h; rw [q, bind_ok]
  obtain ⟨z5, q, h⟩ := res_bind_inv h; rw [q, bind_ok]
  obtain ⟨z6, q, h⟩ := res_bind_inv h; rw [q, bind_ok]
  obtain ⟨z7, q, h⟩ := res_bind_inv h; rw [q, bind_ok]
  obtain ⟨z8, q, h⟩ := res_bind_inv h; rw [q, bind_ok]
  obtain ⟨z9, q, h⟩ := res_bind_inv h; rw [q, bind_ok]
  obtain ⟨z10, q, h⟩ := res_bind_inv h; rw [q, bind_ok]
  obtain ⟨z11, q, h⟩ := res_bind_inv h; rw [q, bind_ok]
  obtain ⟨z12, q, h⟩ := res_bind_inv h; rw [q, bind_ok]
  obtain ⟨z13, q, h⟩ := res_bind_inv h; rw [q, bind_ok]
  obtain ⟨z14, q, h⟩ := res_bind_inv h; rw [q, bind_ok]
  cases h
  exact ⟨_, rfl, h1.put hK k _, h2.put hK k _, h3.put hK k _, rfl⟩

/-- All seven optimizers of the library, freshly constructed, are address-free. -/
theorem C80_optimizers [Field α] [DecidableEq α] (isq : α → α) (lr a b : α) :
    AddressFree gdUpdate lr ∧ AddressFree sgdUpdate (Sgd.make lr a) ∧ AddressFree momUpdate (Mom.make lr a) ∧
    AddressFree nesUpdate (Mom.make lr a) ∧ AddressFree (adagradUpdate isq) (Ada.make lr a) ∧
    AddressFree (rmspropUpdate isq) (Ada.make lr a) ∧ AddressFree (adamUpdate isq) (AdamS.make lr a b) :=
  ⟨gd_oblivious.addressFree _, sgd_oblivious.addressFree _, mom_addressFree _ _, nes_addressFree _ _, adagrad_addressFree _ _ _,
    rmsprop_addressFree _ _ _, adam_addressFree _ _ _ _⟩

/-! ### Twins from disjoint addresses -/

theorem zip_oneToOne : ∀ {l l' : List Nat}, l.Nodup → l'.Nodup → OneToOne (fun a b => (a, b) ∈ l.zip l') := by
  intro l
  induction l with
  | nil => intro l' _ _ a b a' b' h; simp at h
  | cons x l ih =>
    intro l' h1 h2 a b a' b' h h'
    cases l' with
    | nil => simp at h
    | cons y l' =>
      rw [List.nodup_cons] at h1 h2
      simp only [List.zip_cons_cons, List.mem_cons, Prod.mk.injEq] at h h'
      rcases h with ⟨rfl, rfl⟩ | h <;> rcases h' with ⟨rfl, rfl⟩ | h'
      · simp
      · have k := List.of_mem_zip h'
        exact ⟨fun e => absurd k.1 (e ▸ h1.1), fun e => absurd k.2 (e ▸ h2.1)⟩
      · have k := List.of_mem_zip h
        exact ⟨fun e => absurd k.1 (e ▸ h1.1), fun e => absurd k.2 (e ▸ h2.1)⟩
      · exact ih h1.2 h2.2 a b a' b' h h'

section
variable [Zero α] [One α] [Add α] [Mul α] [Sub α] [LT α] [DecidableLT α] [DecidableEq α]

theorem twin_zip {K : Nat → Nat → Prop} {size : Nat → Nat} : ∀ {A B : List (DSt α)} {net₁ net₂ : Net α}, net₁.At A → net₂.At B →
    A.map (·.p) = B.map (·.p) → net₁.Sized size → (∀ q ∈ (net₁.flatMap Layer.addrs).zip (net₂.flatMap Layer.addrs), K q.1 q.2) →
    List.Forall₂ (Twin K (fun k n => size k = n)) A B := by
  intro A B net₁ net₂ h₁
  induction h₁ generalizing B net₂ with
  | nil =>
    intro h₂ e _ _
    cases h₂ with
    | nil => exact .nil
    | cons => simp at e
  | @cons l a ls A h _ ih =>
    intro h₂ e hz hK
    cases h₂ with
    | nil => simp at e
    | @cons l2 b ls2 B k h₂ =>
      rw [List.map_cons, List.map_cons] at e
      injection e with e e'
      obtain ⟨f, rfl, hf⟩ := h
      obtain ⟨g, rfl, hg⟩ := k
      have hz' := hz f (by simp)
      rw [List.flatMap_cons, List.flatMap_cons] at hK
      simp only [Layer.addrs, List.cons_append, List.nil_append, List.zip_cons_cons, List.mem_cons, forall_eq_or_imp] at hK
      refine .cons ⟨e, ?_, ?_, ?_, ?_⟩ (ih h₂ e' (fun f hf => hz f (by simp [hf])) hK.2.2)
      · rw [← hf.kB, ← hg.kB]; exact hK.1
      · rw [← hf.kW, ← hg.kW]; exact hK.2.1
      · rw [← hf.kB, hz'.1, hf.wf.osize]
      · rw [← hf.kW, hz'.2, hf.wf.osize, hf.wf.isize]

theorem UpdOk.twin {upd : Upd σ α} {size : Nat → Nat} {I : σ → Prop} (hu : UpdOk upd size I) {K : Nat → Nat → Prop} {S : σ → σ → Prop}
    (hS : Equivariant upd K S) : TwinOpt upd K S (fun k n => size k = n) I :=
  ⟨hS, fun s k p g n hI hV hp hg => by subst hV; exact hu s k p g hI hp hg⟩

/-- What is fixed in the statements below: two training objects on networks with the same parameters, sizes, activation functions and
loss; addresses, caches, stored gradients and accumulators are arbitrary. -/
structure SameTask (t₁ t₂ : Train α) (size : Nat → Nat) (ps : List (Dense α)) (n m : Nat) (dL : (Nat → α) → (Nat → α) → Nat → α) : Prop where
  one : t₁.Is ps n m dL
  two : t₂.Is ps n m dL
  apart₁ : t₁.net.Apart
  apart₂ : t₂.net.Apart
  sized : t₁.net.Sized size

theorem SameTask.twin {upd : Upd σ α} {size : Nat → Nat} {I : σ → Prop} (hu : UpdOk upd size I) {s : σ} (hI : I s) (ha : AddressFree upd s)
    {t₁ t₂ : Train α} {ps : List (Dense α)} {n m : Nat} {dL : (Nat → α) → (Nat → α) → Nat → α} (h : SameTask t₁ t₂ size ps n m dL) :
    ∃ K S, TwinOpt upd K S (fun k n => size k = n) I ∧ S s s ∧
      ∀ A B : List (DSt α), t₁.At A n m dL → t₂.At B n m dL → A.map (·.p) = B.map (·.p) → List.Forall₂ (Twin K (fun k n => size k = n)) A B := by
  obtain ⟨S, h1, h2⟩ := ha _ (zip_oneToOne h.apart₁ h.apart₂)
  exact ⟨_, S, hu.twin h1, h2, fun A B hA hB e => twin_zip hA.net hB.net e h.sized (fun q hq => hq)⟩

variable [Div α] [NatCast α]

/-- batch: same parameters in, same parameters out. -/
theorem C80_batch (upd : Upd σ α) (size : Nat → Nat) (I : σ → Prop) (hu : UpdOk upd size I) (s : σ) (hI : I s) (ha : AddressFree upd s)
    (t₁ t₂ : Train α) (ps : List (Dense α)) (n m : Nat) (dL : (Nat → α) → (Nat → α) → Nat → α) (h : SameTask t₁ t₂ size ps n m dL)
    (idata odata : List (Ten α)) (vs : List ((Nat → α) × (Nat → α))) (hd : DataIs idata odata n m vs) (hne : vs ≠ []) (epochs : Nat) :
    ∃ r, trained (Train.batch upd idata odata epochs (s, t₁)) = .ok r ∧ trained (Train.batch upd idata odata epochs (s, t₂)) = .ok r := by
  have hlen : idata.length = vs.length := hd.1.length_eq
  have hpos : 1 ≤ vs.length := List.length_pos_iff.2 hne
  have hn : idata.length ≠ 0 := by omega
  obtain ⟨K, S, hT, hs, tw⟩ := h.twin hu hI ha
  obtain ⟨A, hA, eA⟩ := h.one.at
  obtain ⟨B, hB, eB⟩ := h.two.at
  obtain ⟨x, y, e1, e2, q⟩ := TwinT.steps hT hd (1 / (idata.length : α)) (List.replicate epochs (0, idata.length))
    (by intro w hw; rw [List.mem_replicate] at hw; rw [hw.2]; dsimp only; omega)
    (⟨hs, hI, A, B, hA, hB, tw A B hA hB (eA.trans eB.symm)⟩ : TwinT K _ S I n m dL (s, t₁) (s, t₂))
  simp only [batch_run upd idata odata _ _ hn, batchTrace_steps]
  rw [e1, e2]
  exact ⟨_, rfl, by unfold trained; rw [bind_ok, ← q.params]; rfl⟩

/-- mini_batch. -/
theorem C80_mini_batch (upd : Upd σ α) (size : Nat → Nat) (I : σ → Prop) (hu : UpdOk upd size I) (s : σ) (hI : I s) (ha : AddressFree upd s)
    (t₁ t₂ : Train α) (ps : List (Dense α)) (n m : Nat) (dL : (Nat → α) → (Nat → α) → Nat → α) (h : SameTask t₁ t₂ size ps n m dL)
    (idata odata : List (Ten α)) (vs : List ((Nat → α) × (Nat → α))) (hd : DataIs idata odata n m vs) (k : Nat) (hk : 1 ≤ k) (epochs : Nat) :
    ∃ r, trained (Train.miniBatch upd idata odata epochs k (s, t₁)) = .ok r ∧
      trained (Train.miniBatch upd idata odata epochs k (s, t₂)) = .ok r := by
  have hlen : idata.length = vs.length := hd.1.length_eq
  obtain ⟨K, S, hT, hs, tw⟩ := h.twin hu hI ha
  obtain ⟨A, hA, eA⟩ := h.one.at
  obtain ⟨B, hB, eB⟩ := h.two.at
  obtain ⟨x, y, e1, e2, q⟩ := TwinT.steps hT hd (1 / (k : α))
    ((List.replicate epochs ((List.range (idata.length / k)).map (fun b => (b * k, k)))).flatten)
    (by
      intro w hw
      obtain ⟨l, h1, h2⟩ := List.mem_flatten.1 hw
      rw [List.mem_replicate] at h1
      rw [h1.2] at h2
      obtain ⟨b, h3, rfl⟩ := List.mem_map.1 h2
      rw [List.mem_range] at h3
      dsimp only
      refine ⟨?_, hk⟩
      have : (b + 1) * k ≤ idata.length / k * k := Nat.mul_le_mul_right k h3
      have := Nat.div_mul_le_self idata.length k
      rw [← hlen]
      calc b * k + k = (b + 1) * k := by rw [Nat.succ_mul]
        _ ≤ idata.length := by omega)
    (⟨hs, hI, A, B, hA, hB, tw A B hA hB (eA.trans eB.symm)⟩ : TwinT K _ S I n m dL (s, t₁) (s, t₂))
  simp only [miniBatch_run upd idata odata _ _ _ (show k ≠ 0 by omega), miniTrace_steps]
  rw [e1, e2]
  exact ⟨_, rfl, by unfold trained; rw [bind_ok, ← q.params]; rfl⟩

/-- stochastic, from networks without pending accumulated gradients (otherwise the result depends on them, C29). -/
theorem C80_stochastic (upd : Upd σ α) (size : Nat → Nat) (I : σ → Prop) (hu : UpdOk upd size I) (s : σ) (hI : I s) (ha : AddressFree upd s)
    (t₁ t₂ : Train α) (ps : List (Dense α)) (n m : Nat) (dL : (Nat → α) → (Nat → α) → Nat → α) (h : SameTask t₁ t₂ size ps n m dL)
    (c₁ : t₁.net.Clean) (c₂ : t₂.net.Clean) (idata odata : List (Ten α)) (vs : List ((Nat → α) × (Nat → α)))
    (hd : DataIs idata odata n m vs) (hne : vs ≠ []) (gen : Gen γ ρ Nat) (c : γ) (g : ρ) (iterations : Nat) :
    ∃ r, trained (do let r ← Train.stochastic upd idata odata iterations gen c g (s, t₁); return r.1) = .ok r ∧
      trained (do let r ← Train.stochastic upd idata odata iterations gen c g (s, t₂); return r.1) = .ok r := by
  have hlen : idata.length = vs.length := hd.1.length_eq
  have hpos : 1 ≤ vs.length := List.length_pos_iff.2 hne
  have hn : idata.length ≠ 0 := by omega
  obtain ⟨K, S, hT, hs, tw⟩ := h.twin hu hI ha
  obtain ⟨x, y, e1, e2, q⟩ := TwinC.steps hT hd ((draws gen iterations c g).map (· % idata.length))
    (by
      intro i hi
      obtain ⟨a, _, rfl⟩ := List.mem_map.1 hi
      rw [← hlen]; exact Nat.mod_lt _ (by omega))
    (TwinC.of_is (s₁ := s) (s₂ := s) h.one h.two c₁ c₂ tw hs hI)
  refine ⟨x.2.net.params, ?_, ?_⟩
  · rw [stochastic_run _ _ _ _ hn, e1]; rfl
  · rw [stochastic_run _ _ _ _ hn, e2]
    have := q.params
    unfold Net.params
    rw [this]; rfl

end

/-- The hypotheses are met: two copies of a network at different addresses. -/
example : SameTask (ckTrain 10 11 12 13) (ckTrain 23 22 5 7) (fun _ => 1) [ckDense, ckDense] 1 1 (fun t y i => (1 + 1) * (y i - t i)) := by
  refine ⟨ckTrain_Is _ _ _ _, ckTrain_Is _ _ _ _, ?_, ?_, ?_⟩
  · show [10, 11, 12, 13].Nodup
    decide
  · show [23, 22, 5, 7].Nodup
    decide
  · intro f hf
    simp only [ckTrain, List.mem_cons, List.not_mem_nil, or_false, Layer.fc.injEq] at hf
    rcases hf with rfl | rfl <;> exact ⟨rfl, rfl⟩

/-- … and the trainings do something: Momentum at both addresses, two epochs. -/
example : trained (Train.batch momUpdate [⟨1, 1, 1, [some 1]⟩] [⟨1, 1, 1, [some 2]⟩] 2 (Mom.make (1/8 : ℚ) (1/2), ckTrain 10 11 12 13)) =
      trained (Train.batch momUpdate [⟨1, 1, 1, [some 1]⟩] [⟨1, 1, 1, [some 2]⟩] 2 (Mom.make (1/8 : ℚ) (1/2), ckTrain 23 22 5 7)) ∧
    trained (Train.batch momUpdate [⟨1, 1, 1, [some 1]⟩] [⟨1, 1, 1, [some 2]⟩] 2 (Mom.make (1/8 : ℚ) (1/2), ckTrain 10 11 12 13)) ≠
      .ok (ckTrain 10 11 12 13).net.params := by
  decide +kernel

/-- Without distinct addresses it fails: the two layers would share their velocities. -/
example : trained (Train.batch momUpdate [⟨1, 1, 1, [some 1]⟩] [⟨1, 1, 1, [some 2]⟩] 2 (Mom.make (1/8 : ℚ) (1/2), ckTrain 10 11 12 13)) ≠
      trained (Train.batch momUpdate [⟨1, 1, 1, [some 1]⟩] [⟨1, 1, 1, [some 2]⟩] 2 (Mom.make (1/8 : ℚ) (1/2), ckTrain 10 11 10 11)) := by
  decide +kernel

end Trixy
