import Verif.Proof.Twin
import Verif.Props.TrainSafe
/-
C79: stopping, saving, loading and resuming a training.
-/
namespace Trixy
set_option linter.unusedSectionVars false

variable {α β γ ρ σ : Type}

/-! ### Which optimizers look at addresses -/

theorem gd_oblivious [Mul α] [Sub α] : Oblivious (gdUpdate (α := α)) :=
  ⟨fun _ _ _ _ _ => rfl, fun s k p g n ⟨fp, hp⟩ ⟨fg, hg⟩ => (gd_spec (k := k) hp hg).mono (fun r hr => ⟨hr.2.1.full, hr.2.2.full⟩)⟩

theorem sgd_oblivious [Mul α] [Sub α] : Oblivious (sgdUpdate (α := α)) :=
  ⟨fun _ _ _ _ _ => rfl, fun s k p g n ⟨fp, hp⟩ ⟨fg, hg⟩ => (sgd_spec (k := k) hp hg).mono (fun r hr => ⟨hr.2.1.full, hr.2.2.full⟩)⟩

theorem Oblivious.twin {upd : Upd σ α} (h : Oblivious upd) : TwinOpt upd (fun _ _ => True) (fun a b => a = b) (fun _ _ => True) (fun _ => True) where
  same := by
    rintro s₁ s₂ k₁ k₂ p g r rfl _ e
    exact ⟨r.1, by rw [h.key _ k₂ k₁, e], rfl⟩
  total s k p g n _ _ hp hg := (h.total s k p g n hp hg).mono (fun r hr => ⟨trivial, hr⟩)

section
variable [Zero α] [One α] [Add α] [Mul α] [Sub α] [LT α] [DecidableLT α] [DecidableEq α]

theorem Storable.keep {R : Registry α} {net net' : Net α} (h : net.Storable R) (e : net'.map Layer.fixed = net.map Layer.fixed) :
    net'.Storable R := by
  intro l hl
  have : l.fixed ∈ net'.map Layer.fixed := List.mem_map_of_mem hl
  rw [e] at this
  obtain ⟨l0, h0, e0⟩ := List.mem_map.1 this
  obtain ⟨f0, rfl, h1, h2⟩ := h l0 h0
  cases l with
  | fc f =>
    unfold Layer.fixed at e0
    simp only [Option.some.injEq, Prod.mk.injEq] at e0
    refine ⟨f, rfl, ?_, ?_⟩
    · rw [← e0.2.2.1]; exact h1
    · rw [← e0.1, ← e0.2.1]; exact h2
  | conv => cases e0
  | pool => cases e0
  | rawFC => cases e0
  | rawConv => cases e0
  | rawPool => cases e0

theorem Train.make_dense {net : Net α} {ps : List (Dense α)} {n m : Nat} (h : net.IsDense ps) (h2 : 2 ≤ ps.length) (hw : ps.length < W64)
    (hc : Chain n ps m) {loss : Loss α} {L : (Nat → α) → (Nat → α) → α} {dL : (Nat → α) → (Nat → α) → Nat → α} (hl : loss.Is m L dL) :
    Ok (Train.make net) (fun t => ({ t with loss := some loss } : Train α).Is ps n m dL ∧ t.net = net) := by
  have hlen : net.length = ps.length := List.Forall₂.length_eq h
  have key : ∀ {net : Net α} {ps : List (Dense α)} {n : Nat}, net.IsDense ps → 1 ≤ ps.length → Chain n ps m →
      ∃ f : FC α, lget net (net.length - 1) = .ok (.fc f) ∧ f.osize = m := by
    intro net ps n h
    induction h generalizing n with
    | nil => intro h; exact absurd h (by simp)
    | @cons l p ls ps h hs ih =>
      intro _ hc
      obtain ⟨f, rfl, hf, _⟩ := h
      obtain ⟨_, hc⟩ := hc
      cases hs with
      | nil => cases hc; exact ⟨f, rfl, hf.osize⟩
      | cons k hs =>
        obtain ⟨g, e, q⟩ := ih (by simp) hc
        exact ⟨g, by rw [← e]; rfl, q⟩
  obtain ⟨f, e, q⟩ := key h (by omega) hc
  unfold Train.make
  rw [wsub_eq (by omega) (by omega), e, bind_ok]
  refine Ok_ok.2 ⟨⟨h, h2, hw, hc, ?_, loss, L, rfl, hl⟩, rfl⟩
  show (Ten.alloc (α := α) 1 1 f.osize).data.length = m
  rw [q]
  show (List.replicate (1 * 1 * m) none).length = m
  simp

theorem reload_is {c : Codec α β} (hc : c.Lawful) {R : Registry α} (addr : Nat → Nat × (Nat → Nat)) (rest : List β) {t : Train α}
    {ps : List (Dense α)} {n m : Nat} {dL : (Nat → α) → (Nat → α) → Nat → α} (h : t.Is ps n m dL) (hs : t.net.Storable R)
    {loss : Loss α} {L : (Nat → α) → (Nat → α) → α} (hl : loss.Is m L dL) :
    Ok (reload c R addr rest loss t.net) (fun t' => t'.Is ps n m dL ∧ t'.net.Clean ∧ t'.loss = some loss) := by
  have hlen : t.net.length = ps.length := List.Forall₂.length_eq h.net
  have hd : ∀ {net : Net α} {ps : List (Dense α)}, net.IsDense ps → ∀ l ∈ net, ∃ p, Layer.IsDense l p := by
    intro net ps h
    induction h with
    | nil => intro l hl; cases hl
    | cons h _ ih =>
      intro l hl
      cases hl with
      | head => exact ⟨_, h⟩
      | tail _ hl => exact ih l hl
  obtain ⟨bs, net', e1, e2, q⟩ := read_denseNet hc (by rw [hlen]; exact h.word) hs addr (hd h.net)
  have h' : net'.IsDense ps := by
    have : ∀ {net net' : Net α} {ps : List (Dense α)}, net.IsDense ps → List.Forall₂ (fun l l' => (∀ p, Layer.IsDense l p → Layer.IsDense l' p) ∧
        (∀ f : FC α, l' = .fc f → f.accumulated = false)) net net' → net'.IsDense ps := by
      intro net net' ps h k
      induction k generalizing ps with
      | nil => exact h
      | cons k _ ih => cases h with
        | cons a b => exact .cons (k.1 _ a) (ih b)
    exact this h.net q
  have hcl : net'.Clean := by
    intro l hl f hf
    have : ∀ {net net' : Net α}, List.Forall₂ (fun l l' => (∀ p, Layer.IsDense l p → Layer.IsDense l' p) ∧
        (∀ f : FC α, l' = .fc f → f.accumulated = false)) net net' → ∀ l ∈ net', ∀ f : FC α, l = .fc f → f.accumulated = false := by
      intro net net' k
      induction k with
      | nil => intro l hl; cases hl
      | cons k _ ih =>
        intro l hl
        cases hl with
        | head => exact k.2
        | tail _ hl => exact ih l hl
    exact this q l hl f hf
  obtain ⟨t', e3, q3, q4⟩ := Train.make_dense h' h.two h.word h.chain hl
  refine ⟨{ t' with loss := some loss }, ?_, q3, by show t'.net.Clean; rw [q4]; exact hcl, rfl⟩
  unfold reload
  rw [e1, bind_ok, e2, bind_ok]; dsimp only
  rw [e3]; rfl

theorem twin_true : ∀ {A B : List (DSt α)}, A.map (·.p) = B.map (·.p) → List.Forall₂ (Twin (fun _ _ => True) (fun _ _ => True)) A B := by
  intro A
  induction A with
  | nil => intro B h; cases B with
    | nil => exact .nil
    | cons => simp at h
  | cons a A ih =>
    intro B h
    cases B with
    | nil => simp at h
    | cons b B =>
      rw [List.map_cons, List.map_cons] at h
      injection h with h h'
      exact .cons ⟨h, trivial, trivial, trivial, trivial⟩ (ih h')

theorem clean_acc : ∀ {net : Net α} {A : List (DSt α)}, net.At A → net.Clean → ∀ a ∈ A, a.acc = false := by
  intro net A h
  induction h with
  | nil => intro _ a ha; cases ha
  | @cons l st ls A h _ ih =>
    intro hc a ha
    cases ha with
    | head =>
      obtain ⟨f, rfl, hf⟩ := h
      rw [← hf.acc]; exact hc _ (by simp) f rfl
    | tail _ ha => exact ih (fun l hl => hc l (by simp [hl])) a ha

theorem acc_clean : ∀ {net : Net α} {A : List (DSt α)}, net.At A → (∀ a ∈ A, a.acc = false) → net.Clean := by
  intro net A h
  induction h with
  | nil => intro _ l hl; cases hl
  | @cons l st ls A h _ ih =>
    intro hc l' hl f hf
    cases hl with
    | head =>
      obtain ⟨f', e, hf'⟩ := h
      rw [hf] at e; cases e
      rw [hf'.acc]; exact hc _ (by simp)
    | tail _ hl => exact ih (fun a ha => hc a (by simp [ha])) l' hl f hf

/-- Two training objects with the same parameters are twins for an optimizer that ignores addresses. -/
theorem TwinT.of_is {t₁ t₂ : Train α} {ps : List (Dense α)} {n m : Nat} {dL : (Nat → α) → (Nat → α) → Nat → α} (h₁ : t₁.Is ps n m dL)
    (h₂ : t₂.Is ps n m dL) (s : σ) : TwinT (fun _ _ => True) (fun _ _ => True) (fun a b => a = b) (fun _ => True) n m dL (s, t₁) (s, t₂) := by
  obtain ⟨A, hA, eA⟩ := h₁.at
  obtain ⟨B, hB, eB⟩ := h₂.at
  refine ⟨rfl, trivial, A, B, hA, hB, ?_⟩
  exact twin_true (eA.trans eB.symm)

end

section
variable [Zero α] [One α] [Add α] [Mul α] [Sub α] [Div α] [NatCast α] [LT α] [DecidableLT α] [DecidableEq α]

/-- Steps, reload, more steps: the same outcome as all steps in one go. -/
theorem resume_steps {upd : Upd σ α} (hu : Oblivious upd) {c : Codec α β} (hc : c.Lawful) {R : Registry α} (addr : Nat → Nat × (Nat → Nat))
    (rest : List β) {t : Train α} {ps : List (Dense α)} {n m : Nat} {dL : (Nat → α) → (Nat → α) → Nat → α} (h : t.Is ps n m dL)
    (hs : t.net.Storable R) {loss : Loss α} {L : (Nat → α) → (Nat → α) → α} (hl : loss.Is m L dL) (s : σ)
    {idata odata : List (Ten α)} {vs : List ((Nat → α) × (Nat → α))} (hd : DataIs idata odata n m vs) (alpha : α)
    (ws ws' : List (Nat × Nat)) (hw : ∀ w ∈ ws, w.1 + w.2 ≤ vs.length ∧ 1 ≤ w.2) (hw' : ∀ w ∈ ws', w.1 + w.2 ≤ vs.length ∧ 1 ≤ w.2) :
    ∃ r, outcome (TEv.run upd idata odata (s, t) ((ws ++ ws').flatMap (fun w => stepTrace alpha w.1 w.2))) = .ok r ∧
      outcome (do let r ← TEv.run upd idata odata (s, t) (ws.flatMap (fun w => stepTrace alpha w.1 w.2))
                  let t' ← reload c R addr rest loss r.2.net
                  TEv.run upd idata odata (r.1, t') (ws'.flatMap (fun w => stepTrace alpha w.1 w.2))) = .ok r := by
  obtain ⟨x, _, e1, _, ⟨_, _, A, _, hA, _, _⟩⟩ := TwinT.steps hu.twin hd alpha ws hw (TwinT.of_is h h s)
  have hk := TEv.run_keeps e1
  obtain ⟨t', e2, q, _, _⟩ := reload_is hc addr rest hA.is (Storable.keep hs hk) hl
  obtain ⟨x', y', e3, e4, hT⟩ := TwinT.steps hu.twin hd alpha ws' hw' (TwinT.of_is hA.is q x.1)
  refine ⟨(x'.1, x'.2.net.params), ?_, ?_⟩
  · rw [List.flatMap_append, TEv.run_append, e1, bind_ok]
    show outcome (TEv.run upd idata odata (x.1, x.2) _) = _
    rw [e3]; rfl
  · rw [e1, bind_ok, e2, bind_ok, e4, hT.params, hT.1]; rfl

/-- batch for `E₁` epochs, save, load, batch for `E₂` epochs gives exactly the optimizer and parameters of batch for `E₁ + E₂`
epochs — over any arithmetic, for every optimizer that ignores addresses. -/
theorem C79_batch_partial (upd : Upd σ α) (hu : Oblivious upd) (c : Codec α β) (hc : c.Lawful) (R : Registry α) (addr : Nat → Nat × (Nat → Nat))
    (rest : List β) (t : Train α) (ps : List (Dense α)) (n m : Nat) (dL : (Nat → α) → (Nat → α) → Nat → α) (h : t.Is ps n m dL)
    (hs : t.net.Storable R) (loss : Loss α) (L : (Nat → α) → (Nat → α) → α) (hl : loss.Is m L dL) (s : σ)
    (idata odata : List (Ten α)) (vs : List ((Nat → α) × (Nat → α))) (hd : DataIs idata odata n m vs) (hne : vs ≠ []) (E₁ E₂ : Nat) :
    ∃ r, outcome (Train.batch upd idata odata (E₁ + E₂) (s, t)) = .ok r ∧
      outcome (do let r ← Train.batch upd idata odata E₁ (s, t)
                  let t' ← reload c R addr rest loss r.2.net
                  Train.batch upd idata odata E₂ (r.1, t')) = .ok r := by
  have hlen : idata.length = vs.length := hd.1.length_eq
  have hpos : 1 ≤ vs.length := List.length_pos_iff.2 hne
  have hn : idata.length ≠ 0 := by omega
  simp only [batch_run upd idata odata _ _ hn, batchTrace_steps, List.replicate_add]
  refine resume_steps hu hc addr rest h hs hl s hd _ _ _ ?_ ?_ <;>
  · intro w hw
    rw [List.mem_replicate] at hw
    rw [hw.2]; dsimp only; omega

/-- The same for mini_batch. -/
theorem C79_mini_batch_partial (upd : Upd σ α) (hu : Oblivious upd) (c : Codec α β) (hc : c.Lawful) (R : Registry α)
    (addr : Nat → Nat × (Nat → Nat)) (rest : List β) (t : Train α) (ps : List (Dense α)) (n m : Nat)
    (dL : (Nat → α) → (Nat → α) → Nat → α) (h : t.Is ps n m dL) (hs : t.net.Storable R) (loss : Loss α)
    (L : (Nat → α) → (Nat → α) → α) (hl : loss.Is m L dL) (s : σ) (idata odata : List (Ten α))
    (vs : List ((Nat → α) × (Nat → α))) (hd : DataIs idata odata n m vs) (k : Nat) (hk : 1 ≤ k) (E₁ E₂ : Nat) :
    ∃ r, outcome (Train.miniBatch upd idata odata (E₁ + E₂) k (s, t)) = .ok r ∧
      outcome (do let r ← Train.miniBatch upd idata odata E₁ k (s, t)
                  let t' ← reload c R addr rest loss r.2.net
                  Train.miniBatch upd idata odata E₂ k (r.1, t')) = .ok r := by
  have hlen : idata.length = vs.length := hd.1.length_eq
  simp only [miniBatch_run upd idata odata _ _ _ (show k ≠ 0 by omega), miniTrace_steps, List.replicate_add, List.flatten_append]
  refine resume_steps hu hc addr rest h hs hl s hd _ _ _ ?_ ?_ <;>
  · intro w hw
    obtain ⟨l, h1, h2⟩ := List.mem_flatten.1 hw
    rw [List.mem_replicate] at h1
    rw [h1.2] at h2
    obtain ⟨b, h3, rfl⟩ := List.mem_map.1 h2
    rw [List.mem_range] at h3
    dsimp only
    refine ⟨?_, hk⟩
    have : (b + 1) * k ≤ idata.length / k * k := Nat.mul_le_mul_right k h3
    have := Nat.div_mul_le_self idata.length k
    rw [← hlen]
    calc b * k + k = (b + 1) * k := by rw [Nat.succ_mul]
      _ ≤ idata.length := by omega

/-- Clean training objects with the same parameters are clean twins. -/
theorem TwinC.of_is {t₁ t₂ : Train α} {ps : List (Dense α)} {n m : Nat} {dL : (Nat → α) → (Nat → α) → Nat → α} (h₁ : t₁.Is ps n m dL)
    (h₂ : t₂.Is ps n m dL) (c₁ : t₁.net.Clean) (c₂ : t₂.net.Clean) {K V : Nat → Nat → Prop} {S : σ → σ → Prop} {I : σ → Prop} {s₁ s₂ : σ}
    (h : ∀ A B : List (DSt α), t₁.At A n m dL → t₂.At B n m dL → A.map (·.p) = B.map (·.p) → List.Forall₂ (Twin K V) A B) (hs : S s₁ s₂) (hI : I s₁) :
    TwinC K V S I n m dL (s₁, t₁) (s₂, t₂) := by
  obtain ⟨A, hA, eA⟩ := h₁.at
  obtain ⟨B, hB, eB⟩ := h₂.at
  refine ⟨hs, hI, A, B, hA, hB, h A B hA hB (eA.trans eB.symm), ?_, ?_⟩
  · exact clean_acc hA.net c₁
  · exact clean_acc hB.net c₂

theorem draws_add (gen : Gen γ ρ Nat) (hg : ∀ c g, (gen c g).2.1 = c) (k j : Nat) : ∀ (c : γ) (g : ρ),
    draws gen (k + j) c g = draws gen k c g ++ draws gen j c (drawn gen k c g).2 ∧
    (drawn gen (k + j) c g).2 = (drawn gen j c (drawn gen k c g).2).2 := by
  induction k with
  | zero => intro c g; rw [Nat.zero_add]; exact ⟨rfl, rfl⟩
  | succ k ih =>
    intro c g
    obtain ⟨h1, h2⟩ := ih (gen c g).2.1 (gen c g).2.2
    rw [Nat.succ_add]
    have hd : drawn gen (k + 1) c g = drawn gen k c (gen c g).2.2 := by
      show drawn gen k _ _ = _
      rw [hg]
    rw [hd]
    constructor
    · show _ :: draws gen (k + j) _ _ = _ :: (draws gen k _ _ ++ _)
      rw [h1, hg]
    · show (drawn gen (k + j) _ _).2 = _
      rw [h2, hg]

/-- The same for stochastic, from a network without pending accumulated gradients and with a generator whose state is outside the
functor (as with rand()): the resumed run continues the random sequence. -/
theorem C79_stochastic_partial (upd : Upd σ α) (hu : Oblivious upd) (c : Codec α β) (hc : c.Lawful) (R : Registry α)
    (addr : Nat → Nat × (Nat → Nat)) (rest : List β) (t : Train α) (ps : List (Dense α)) (n m : Nat)
    (dL : (Nat → α) → (Nat → α) → Nat → α) (h : t.Is ps n m dL) (hcl : t.net.Clean) (hs : t.net.Storable R) (loss : Loss α)
    (L : (Nat → α) → (Nat → α) → α) (hl : loss.Is m L dL) (s : σ) (idata odata : List (Ten α))
    (vs : List ((Nat → α) × (Nat → α))) (hd : DataIs idata odata n m vs) (hne : vs ≠ []) (gen : Gen γ ρ Nat)
    (hg : ∀ c g, (gen c g).2.1 = c) (q : γ) (g : ρ) (k j : Nat) :
    ∃ r, outcome (do let r ← Train.stochastic upd idata odata (k + j) gen q g (s, t); return r.1) = .ok r ∧
      outcome (do let r ← Train.stochastic upd idata odata k gen q g (s, t)
                  let t' ← reload c R addr rest loss r.1.2.net
                  let r' ← Train.stochastic upd idata odata j gen q r.2 (r.1.1, t')
                  return r'.1) = .ok r := by
  have hlen : idata.length = vs.length := hd.1.length_eq
  have hpos : 1 ≤ vs.length := List.length_pos_iff.2 hne
  have hn : idata.length ≠ 0 := by omega
  have hmem : ∀ (l : List Nat), ∀ i ∈ l.map (· % idata.length), i < vs.length := by
    intro l i hi
    obtain ⟨a, _, rfl⟩ := List.mem_map.1 hi
    rw [← hlen]; exact Nat.mod_lt _ (by omega)
  have tw : ∀ (t₁ t₂ : Train α) (A B : List (DSt α)), t₁.At A n m dL → t₂.At B n m dL → A.map (·.p) = B.map (·.p) →
      List.Forall₂ (Twin (fun _ _ => True) (fun _ _ => True)) A B := by
    intro _ _ A B _ _ e
    exact twin_true e
  obtain ⟨x, y, e1, _, hT⟩ := TwinC.steps hu.twin hd ((draws gen k q g).map (· % idata.length)) (hmem _)
    (TwinC.of_is (S := fun a b => a = b) (I := fun _ => True) h h hcl hcl (tw t t) (rfl : s = s) trivial)
  obtain ⟨_, _, A, _, hA, _, _, cA, _⟩ := hT
  have hk := TEv.run_keeps e1
  have xcl : x.2.net.Clean := acc_clean hA.net cA
  obtain ⟨t', e2, qi, qc, _⟩ := reload_is hc addr rest hA.is (Storable.keep hs hk) hl
  obtain ⟨x', y', e3, e4, hT⟩ := TwinC.steps hu.twin hd ((draws gen j q (drawn gen k q g).2).map (· % idata.length)) (hmem _)
    (TwinC.of_is (S := fun a b => a = b) (I := fun _ => True) hA.is qi xcl qc (tw x.2 t') (rfl : x.1 = x.1) trivial)
  refine ⟨(x'.1, x'.2.net.params), ?_, ?_⟩
  · rw [stochastic_run _ _ _ _ hn, (draws_add gen hg k j q g).1, List.map_append, stoTrace, List.flatMap_append, TEv.run_append]
    change outcome (do let r ← (do let st ← (TEv.run upd idata odata (s, t) (stoTrace _) >>= fun st => TEv.run upd idata odata st (stoTrace _)); _); _) = _
    rw [e1, bind_ok]
    change outcome (do let r ← (do let st ← (TEv.run upd idata odata (x.1, x.2) (stoTrace _)); _); _) = _
    rw [e3]; rfl
  · rw [stochastic_run _ _ _ _ hn, e1, bind_ok]
    simp only [pure_eq_ok, bind_ok, e2]
    rw [stochastic_run _ _ _ _ hn, e4]
    simp only [pure_eq_ok, bind_ok]
    unfold outcome
    rw [bind_ok, ← hT.1]
    have := hT.params
    unfold Net.params
    rw [this]; rfl

end

section
variable [Zero α] [One α] [Add α] [Mul α] [LT α] [DecidableLT α] [DecidableEq α] [Div α] [NatCast α]

/-- Without saving and loading every optimizer can be interrupted: two calls on the same objects are one call. For any network. -/
theorem C79_same_objects_partial (upd : Upd σ α) (idata odata : List (Ten α)) (hne : idata ≠ []) (k : Nat) (hk : 1 ≤ k) (E₁ E₂ : Nat)
    (st : σ × Train α) :
    Train.batch upd idata odata (E₁ + E₂) st = (Train.batch upd idata odata E₁ st >>= Train.batch upd idata odata E₂) ∧
    Train.miniBatch upd idata odata (E₁ + E₂) k st = (Train.miniBatch upd idata odata E₁ k st >>= Train.miniBatch upd idata odata E₂ k) := by
  have hpos : idata.length ≠ 0 := by have := List.length_pos_iff.2 hne; omega
  constructor
  · rw [batch_run upd idata odata _ _ hpos, batch_run upd idata odata _ _ hpos]
    unfold batchTrace
    rw [List.replicate_add, List.flatten_append, TEv.run_append]
    exact bind_congr (fun st => (batch_run upd idata odata _ _ hpos).symm)
  · rw [miniBatch_run upd idata odata _ _ _ (by omega), miniBatch_run upd idata odata _ _ _ (by omega)]
    unfold miniTrace
    rw [List.replicate_add, List.flatten_append, TEv.run_append]
    exact bind_congr (fun st => (miniBatch_run upd idata odata _ _ _ (by omega)).symm)

end

/-! ### Non-vacuity and the limit of the property -/

/-- Two linear layers with one neuron each and the squared error, over the rationals. -/
def ckTrain (kB kW kB' kW' : Nat) : Train ℚ :=
  ⟨[.fc { FC.make 1 1 (Act.elementwise (fun x => x) (fun _ => 1)) kB kW with W := ⟨1, 1, [some 1]⟩ },
    .fc { FC.make 1 1 (Act.elementwise (fun x => x) (fun _ => 1)) kB' kW' with W := ⟨1, 1, [some 1]⟩ }], ⟨1, 1, 1, [none]⟩, some (sqLoss 1 1)⟩

def ckDense : Dense ℚ := ⟨1, 1, fun _ => 0, fun _ _ => 1, fun v i => v i, fun _ _ => 1⟩

theorem ckTrain_Is (a b c d : Nat) : (ckTrain a b c d).Is [ckDense, ckDense] 1 1 (fun t y i => (1 + 1) * (y i - t i)) := by
  have wf : ∀ k k', ({ FC.make 1 1 (Act.elementwise (fun x : ℚ => x) (fun _ => 1)) k k' with W := ⟨1, 1, [some 1]⟩ } : FC ℚ).Wf 1 1 (fun _ => 0) (fun _ _ => 1) := by
    intro k k'
    refine { FC.Wf_make 1 1 (Act.elementwise (fun x : ℚ => x) (fun _ => 1)) k k' with W := ⟨rfl, rfl, rfl, ?_⟩ }
    intro i j hi hj
    have : i = 0 := by omega
    have : j = 0 := by omega
    subst_vars
    rfl
  exact ⟨.cons ⟨_, rfl, wf a b, Act.Is.elementwise (fun x => x) (fun _ => 1) 1⟩ (.cons ⟨_, rfl, wf c d, Act.Is.elementwise (fun x => x) (fun _ => 1) 1⟩ .nil),
    by simp, by show 2 < W64; decide, ⟨rfl, rfl, rfl⟩, rfl, _, _, rfl, sqLoss_Is 1 1⟩

def ckCodec : Codec ℚ (Nat ⊕ ℚ) where
  putNat n := [.inl n]
  putVal a := [.inr a]
  getNat | .inl n :: r => .ok (n, r) | _ => .error .oob
  getVal | .inr a :: r => .ok (a, r) | _ => .error .oob
theorem ckCodec_lawful : ckCodec.Lawful := ⟨fun _ _ _ => rfl, fun _ _ => rfl⟩
def ckReg : Registry ℚ := ⟨fun _ => 7, fun k => if k = 7 then some (Act.elementwise (fun x => x) (fun _ => 1)) else none⟩

theorem ckTrain_storable (a b c d : Nat) : (ckTrain a b c d).net.Storable ckReg := by
  intro l hl
  have h : (1 : Nat) < W64 ∧ (1 : Nat) < W64 ∧ (1 : Nat) < W64 ∧ 1 * 1 < W64 ∧ 1 * 1 * 1 < W64 := by decide
  simp only [ckTrain, List.mem_cons, List.not_mem_nil, or_false] at hl
  rcases hl with rfl | rfl
  · exact ⟨_, rfl, ⟨(show 7 < W64 by decide), rfl⟩, h⟩
  · exact ⟨_, rfl, ⟨(show 7 < W64 by decide), rfl⟩, h⟩

/-- Training for `E₁` epochs, reloading, and training for `E₂` epochs with the optimizer object at hand. -/
def ckResumed {σ : Type} (upd : Upd σ ℚ) (s : σ) (E₁ E₂ : Nat) : Res (List (List (Buf ℚ))) := do
  let r ← Train.batch upd [⟨1, 1, 1, [some 1]⟩] [⟨1, 1, 1, [some 2]⟩] E₁ (s, ckTrain 10 11 12 13)
  let t' ← reload ckCodec ckReg (fun i => (20 + 2 * i, fun _ => 21 + 2 * i)) [] (sqLoss 1 1) r.2.net
  let r ← Train.batch upd [⟨1, 1, 1, [some 1]⟩] [⟨1, 1, 1, [some 2]⟩] E₂ (r.1, t')
  return r.2.net.params

/-- The hypotheses of `C79_batch_partial` hold of this network, and the training is not idle. -/
example : ckResumed gdUpdate (1/8 : ℚ) 1 1 = trained (Train.batch gdUpdate [⟨1, 1, 1, [some 1]⟩] [⟨1, 1, 1, [some 2]⟩] 2 ((1/8 : ℚ), ckTrain 10 11 12 13)) ∧
    ckResumed gdUpdate (1/8 : ℚ) 1 1 ≠ ckResumed gdUpdate (1/8 : ℚ) 1 0 := by decide +kernel

/-- VIOLATED for optimizers with state: their tables are keyed by the address of the parameters and cannot be saved, so after
reloading, Momentum (also with the very optimizer object that was used before) forgets the accumulated velocity and the parameters
differ from those of uninterrupted training. -/
theorem C79_momentum_violated :
    ∃ r r', trained (Train.batch momUpdate [⟨1, 1, 1, [some 1]⟩] [⟨1, 1, 1, [some 2]⟩] 2 (Mom.make (1/8 : ℚ) (1/2), ckTrain 10 11 12 13)) = .ok r ∧
      ckResumed momUpdate (Mom.make (1/8 : ℚ) (1/2)) 1 1 = .ok r' ∧ r ≠ r' := by
  refine ⟨[[[some (43 / 128)], [some (171 / 128)]], [[some (11 / 32)], [some (85 / 64)]]],
    [[[some (27 / 128)], [some (155 / 128)]], [[some (7 / 32)], [some (77 / 64)]]], ?_, ?_, ?_⟩ <;> decide +kernel

end Trixy
