import Verif.Proof.Keep
import Verif.Proof.Serial
import Verif.Spec.Checkpoint
import Verif.Props.Linear
/- Two training objects with the same parameters, whatever their caches, gradients and addresses, train in lockstep. -/
namespace Trixy
set_option linter.unusedSectionVars false

variable {α β γ ρ σ : Type}

/-- The state of an optimizer restricted to what a pair of twins needs. -/
structure TwinOpt (upd : Upd σ α) (K : Nat → Nat → Prop) (S : σ → σ → Prop) (V : Nat → Nat → Prop) (I : σ → Prop) : Prop where
  same : Equivariant upd K S
  total : ∀ s k p g n, I s → V k n → Full p n → Full g n → Ok (upd s k p g) (fun r => I r.1 ∧ Full r.2.1 n ∧ Full r.2.2 n)

/-- Layers with equal parameters and corresponding addresses. -/
structure Twin (K V : Nat → Nat → Prop) (a b : DSt α) : Prop where
  p : a.p = b.p
  kB : K a.kB b.kB
  kW : K a.kW b.kW
  vB : V a.kB a.p.m
  vW : V a.kW (a.p.n * a.p.m)

section
variable [Mul α] [One α] [DecidableEq α] {upd : Upd σ α} {K : Nat → Nat → Prop} {S : σ → σ → Prop} {V : Nat → Nat → Prop}
  {I : σ → Prop}

theorem scaleUnlessOne_full (alpha : α) {g : Buf α} {k : Nat} (h : Full g k) : Ok (scaleUnlessOne alpha g) (fun g' => Full g' k) := by
  obtain ⟨f, hf⟩ := h
  unfold scaleUnlessOne
  by_cases e : alpha = 1
  · rw [if_neg (by simp [e])]; exact Ok_ok.2 hf.full
  · rw [if_pos e]; exact (scaleInto_spec hf alpha).mono (fun _ h => h.full)

theorem FC.updateWith_twin (ho : TwinOpt upd K S V I) {f₁ f₂ : FC α} {n m : Nat} {b : Nat → α} {W : Nat → Nat → α} (w1 : f₁.Wf n m b W)
    (w2 : f₂.Wf n m b W) (kB : K f₁.keyB f₂.keyB) (kW : K f₁.keyW f₂.keyW) (vB : V f₁.keyB m) (vW : V f₁.keyW (n * m)) {GB : Buf α}
    {GW : Mat α} {gB : Nat → α} {gW : Nat → Nat → α} (h1 : VecIs GB m gB) (h2 : MatIs GW n m gW) {s₁ s₂ : σ} (hs : S s₁ s₂) (hI : I s₁)
    (alpha : α) : ∃ s₁' s₂' B' GB' W' GW', FC.updateWith upd s₁ alpha f₁ GB GW = .ok (s₁', B', GB', W', GW') ∧
      FC.updateWith upd s₂ alpha f₂ GB GW = .ok (s₂', B', GB', W', GW') ∧ S s₁' s₂' ∧ I s₁' ∧ (∃ b', VecIs B' m b') ∧
      (∃ g', VecIs GB' m g') ∧ (∃ w', MatIs { f₁.W with data := W' } n m w') ∧ (∃ w', MatIs { GW with data := GW' } n m w') := by
  have eB : f₂.B = f₁.B := w2.B.ext w1.B
  have eW : f₂.W = f₁.W := w2.W.ext w1.W
  obtain ⟨g1, e1, q1⟩ := scaleUnlessOne_full alpha h1.full
  obtain ⟨g2, e2, q2⟩ := scaleUnlessOne_full alpha h2.flat.full
  obtain ⟨r1, e3, i1, F1, F2⟩ := ho.total s₁ f₁.keyB f₁.B g1 _ hI vB w1.B.full q1
  obtain ⟨s1', e4, S1⟩ := ho.same _ _ f₁.keyB f₂.keyB _ _ _ hs kB e3
  obtain ⟨r2, e5, i2, ⟨w', hw'⟩, ⟨gw', hgw'⟩⟩ := ho.total r1.1 f₁.keyW f₁.W.data g2 _ i1 vW w1.W.flat.full q2
  obtain ⟨s2', e6, S2⟩ := ho.same _ _ f₁.keyW f₂.keyW _ _ _ S1 kW e5
  refine ⟨r2.1, s2', r1.2.1, r1.2.2, r2.2.1, r2.2.2, ?_, ?_, S2, i2, F1, F2,
    ⟨_, MatIs.of_flat' (m := { f₁.W with data := r2.2.1 }) w1.W.1 w1.W.2.1 hw'⟩,
    ⟨_, MatIs.of_flat' (m := { GW with data := r2.2.2 }) h2.1 h2.2.1 hgw'⟩⟩
  · unfold FC.updateWith
    rw [e1, bind_ok, e2, bind_ok, e3, bind_ok]; dsimp only
    rw [e5, bind_ok]; rfl
  · unfold FC.updateWith
    rw [eB, eW, e1, bind_ok, e2, bind_ok, e4, bind_ok]; dsimp only
    rw [e6, bind_ok]; rfl

theorem FC.update_twin (ho : TwinOpt upd K S V I) {f₁ f₂ : FC α} {a b : DSt α} (h₁ : f₁.At a) (h₂ : f₂.At b) (ht : Twin K V a b)
    (ha : a.used = b.used) (c : a.acc = b.acc) {s₁ s₂ : σ} (hs : S s₁ s₂) (hI : I s₁) (alpha : α) :
    ∃ r₁ r₂, f₁.update upd s₁ alpha = .ok r₁ ∧ f₂.update upd s₂ alpha = .ok r₂ ∧ S r₁.1 r₂.1 ∧ I r₁.1 ∧
      ∃ a' b', r₁.2.At a' ∧ r₂.2.At b' ∧ Twin K V a' b' ∧ a'.p.n = a.p.n ∧ a'.p.m = a.p.m ∧ a'.acc = a.acc ∧ b'.acc = b.acc := by
  obtain ⟨pa, ga, aa, ca, k1, k2⟩ := a
  obtain ⟨pb, gb, ab, cb, k3, k4⟩ := b
  have e := ht.p
  dsimp only at e c
  subst e c
  have w1 := h₁.wf; have w2 := h₂.wf
  have eW : f₂.W = f₁.W := w2.W.ext w1.W
  have a1 := h₁.acc; have a2 := h₂.acc
  have kB1 := h₁.kB; have kW1 := h₁.kW; have kB2 := h₂.kB; have kW2 := h₂.kW
  dsimp only at kB1 kW1 kB2 kW2 a1 a2
  have K1 : K f₁.keyB f₂.keyB := by rw [kB1, kB2]; exact ht.kB
  have K2 : K f₁.keyW f₂.keyW := by rw [kW1, kW2]; exact ht.kW
  have V1 : V f₁.keyB pa.m := by rw [kB1]; exact ht.vB
  have V2 : V f₁.keyW (pa.n * pa.m) := by rw [kW1]; exact ht.vW
  cases ca with
  | true =>
    have ha : aa = ab := ha
    subst ha
    have eG : f₂.gradBs = f₁.gradBs := h₂.aB.ext h₁.aB
    have eH : f₂.gradWs = f₁.gradWs := h₂.aW.ext h₁.aW
    obtain ⟨s1, s2, B', GB', W', GW', u1, u2, hs, hI, ⟨b', hb⟩, ⟨g', hg⟩, ⟨w', hw⟩, ⟨x', hx⟩⟩ :=
      FC.updateWith_twin ho w1 w2 K1 K2 V1 V2 h₁.aB h₁.aW hs hI alpha
    refine ⟨(s1, { f₁ with B := B', gradBs := GB', W := { f₁.W with data := W' }, gradWs := { f₁.gradWs with data := GW' } }),
      (s2, { f₂ with B := B', gradBs := GB', W := { f₁.W with data := W' }, gradWs := { f₁.gradWs with data := GW' } }),
      ?_, ?_, hs, hI, ⟨{ pa with b := b', W := w' }, ga, (g', x'), true, k1, k2⟩, ⟨{ pa with b := b', W := w' }, gb, (g', x'), true, k3, k4⟩,
      ⟨?_, h₁.act, h₁.gB, h₁.gW, hg, hx, a1, kB1, kW1⟩, ⟨?_, h₂.act, h₂.gB, h₂.gW, hg, hx, a2, kB2, kW2⟩,
      ⟨rfl, ht.kB, ht.kW, ht.vB, ht.vW⟩, rfl, rfl, rfl, rfl⟩
    · unfold FC.update
      rw [if_pos a1, u1, bind_ok]; rfl
    · unfold FC.update
      rw [if_pos a2, eG, eH, u2, bind_ok, eW]; rfl
    · exact { w1 with B := hb, W := hw, gradBs := ⟨_, hg⟩, gradWs := ⟨_, hx⟩ }
    · exact { w2 with B := hb, W := hw, gradBs := ⟨_, hg⟩, gradWs := ⟨_, hx⟩ }
  | false =>
    have ha : ga = gb := ha
    subst ha
    have eG : f₂.gradB = f₁.gradB := h₂.gB.ext h₁.gB
    have eH : f₂.gradW = f₁.gradW := h₂.gW.ext h₁.gW
    obtain ⟨s1, s2, B', GB', W', GW', u1, u2, hs, hI, ⟨b', hb⟩, ⟨g', hg⟩, ⟨w', hw⟩, ⟨x', hx⟩⟩ :=
      FC.updateWith_twin ho w1 w2 K1 K2 V1 V2 h₁.gB h₁.gW hs hI alpha
    refine ⟨(s1, { f₁ with B := B', gradB := GB', W := { f₁.W with data := W' }, gradW := { f₁.gradW with data := GW' } }),
      (s2, { f₂ with B := B', gradB := GB', W := { f₁.W with data := W' }, gradW := { f₁.gradW with data := GW' } }),
      ?_, ?_, hs, hI, ⟨{ pa with b := b', W := w' }, (g', x'), aa, false, k1, k2⟩, ⟨{ pa with b := b', W := w' }, (g', x'), ab, false, k3, k4⟩,
      ⟨?_, h₁.act, hg, hx, h₁.aB, h₁.aW, a1, kB1, kW1⟩, ⟨?_, h₂.act, hg, hx, h₂.aB, h₂.aW, a2, kB2, kW2⟩,
      ⟨rfl, ht.kB, ht.kW, ht.vB, ht.vW⟩, rfl, rfl, rfl, rfl⟩
    · unfold FC.update
      rw [if_neg (by rw [a1]; simp), u1, bind_ok]; rfl
    · unfold FC.update
      rw [if_neg (by rw [a2]; simp), eG, eH, u2, bind_ok, eW]; rfl
    · exact { w1 with B := hb, W := hw, gradB := ⟨_, hg⟩, gradW := ⟨_, hx⟩ }
    · exact { w2 with B := hb, W := hw, gradB := ⟨_, hg⟩, gradW := ⟨_, hx⟩ }

theorem Net.updating_twin (ho : TwinOpt upd K S V I) (alpha : α) : ∀ {A B : List (DSt α)} {net₁ net₂ : Net α} {s₁ s₂ : σ},
    net₁.At A → net₂.At B → List.Forall₂ (Twin K V) A B → A.map DSt.used = B.map DSt.used → A.map (·.acc) = B.map (·.acc) →
    S s₁ s₂ → I s₁ →
    ∃ r₁ r₂, Net.updating upd alpha s₁ net₁ = .ok r₁ ∧ Net.updating upd alpha s₂ net₂ = .ok r₂ ∧ S r₁.1 r₂.1 ∧ I r₁.1 ∧
      ∃ A' B', r₁.2.At A' ∧ r₂.2.At B' ∧ List.Forall₂ (Twin K V) A' B' ∧
        A'.map (fun a => (a.p.n, a.p.m)) = A.map (fun a => (a.p.n, a.p.m)) ∧ A'.map (·.acc) = A.map (·.acc) ∧ B'.map (·.acc) = B.map (·.acc) := by
  intro A B net₁ net₂ s₁ s₂ h₁ h₂ ht
  rw [Net.updating_eq, Net.updating_eq]
  induction ht generalizing net₁ net₂ s₁ s₂ with
  | nil =>
    intro _ _ hs hI
    cases h₁; cases h₂
    exact ⟨_, _, rfl, rfl, hs, hI, [], [], .nil, .nil, .nil, rfl, rfl, rfl⟩
  | @cons a b A B hab _ ih =>
    intro ha hc hs hI
    cases h₁ with
    | cons l₁ h₁ =>
    cases h₂ with
    | cons l₂ h₂ =>
    obtain ⟨f₁, rfl, k₁⟩ := l₁
    obtain ⟨f₂, rfl, k₂⟩ := l₂
    rw [List.map_cons, List.map_cons] at ha
    injection ha with ha ha'
    rw [List.map_cons, List.map_cons] at hc
    injection hc with hc hc'
    obtain ⟨r₁, r₂, e₁, e₂, hs, hI, a', b', q₁, q₂, q, n1, n2, n3, n4⟩ := FC.update_twin ho k₁ k₂ hab ha hc hs hI alpha
    obtain ⟨t₁, t₂, e₃, e₄, hs, hI, A', B', Q₁, Q₂, Q, N, N1, N2⟩ := ih h₁ h₂ ha' hc' hs hI
    refine ⟨(t₁.1, .fc r₁.2 :: t₁.2), (t₂.1, .fc r₂.2 :: t₂.2), ?_, ?_, hs, hI, a' :: A', b' :: B', .cons ⟨_, rfl, q₁⟩ Q₁,
      .cons ⟨_, rfl, q₂⟩ Q₂, .cons q Q, by rw [List.map_cons, List.map_cons, N, n1, n2], by rw [List.map_cons, List.map_cons, N1, n3],
      by rw [List.map_cons, List.map_cons, N2, n4]⟩
    · have : Layer.update upd s₁ alpha (.fc f₁) = .ok (r₁.1, .fc r₁.2) := by
        show (FC.update upd s₁ alpha f₁ >>= _) = _
        rw [e₁]; rfl
      unfold eachM
      rw [this, bind_ok]; dsimp only
      rw [e₃, bind_ok]; rfl
    · have : Layer.update upd s₂ alpha (.fc f₂) = .ok (r₂.1, .fc r₂.2) := by
        show (FC.update upd s₂ alpha f₂ >>= _) = _
        rw [e₂]; rfl
      unfold eachM
      rw [this, bind_ok]; dsimp only
      rw [e₄, bind_ok]; rfl

end

section
variable [Zero α] [One α] [Add α] [Mul α] [LT α] [DecidableLT α] [DecidableEq α] {upd : Upd σ α} {K : Nat → Nat → Prop}
  {S : σ → σ → Prop} {V : Nat → Nat → Prop} {I : σ → Prop}

/-- Two training objects on twin networks. -/
def TwinT (K V : Nat → Nat → Prop) (S : σ → σ → Prop) (I : σ → Prop) (n m : Nat) (dL : (Nat → α) → (Nat → α) → Nat → α)
    (x y : σ × Train α) : Prop :=
  S x.1 y.1 ∧ I x.1 ∧ ∃ A B : List (DSt α), x.2.At A n m dL ∧ y.2.At B n m dL ∧ List.Forall₂ (Twin K V) A B

theorem Twin.map_p {A B : List (DSt α)} (h : List.Forall₂ (Twin K V) A B) : A.map (·.p) = B.map (·.p) := by
  induction h with
  | nil => rfl
  | cons h _ ih => rw [List.map_cons, List.map_cons, ih, h.p]

theorem Twin.of_maps {A B A' B' : List (DSt α)} (h : List.Forall₂ (Twin K V) A B)
    (hA : A'.map (fun a => (a.p, a.kB, a.kW)) = A.map (fun a => (a.p, a.kB, a.kW)))
    (hB : B'.map (fun a => (a.p, a.kB, a.kW)) = B.map (fun a => (a.p, a.kB, a.kW))) : List.Forall₂ (Twin K V) A' B' := by
  induction h generalizing A' B' with
  | nil =>
    cases A' with
    | nil => cases B' with
      | nil => exact .nil
      | cons => simp at hB
    | cons => simp at hA
  | @cons a b A B h _ ih =>
    cases A' with
    | nil => simp at hA
    | cons a' A' =>
      cases B' with
      | nil => simp at hB
      | cons b' B' =>
        rw [List.map_cons, List.map_cons] at hA hB
        injection hA with hA hA'
        injection hB with hB hB'
        simp only [Prod.mk.injEq] at hA hB
        obtain ⟨x1, x2, x3⟩ := hA
        obtain ⟨y1, y2, y3⟩ := hB
        refine .cons ⟨?_, ?_, ?_, ?_, ?_⟩ (ih hA' hB')
        · rw [x1, y1]; exact h.p
        · rw [x2, y2]; exact h.kB
        · rw [x3, y3]; exact h.kW
        · rw [x1, x2]; exact h.vB
        · rw [x1, x3]; exact h.vW

theorem map_triple {A A' : List (DSt α)} (h : A'.map (·.p) = A.map (·.p)) (hk : A'.map (fun a => (a.kB, a.kW)) = A.map (fun a => (a.kB, a.kW))) :
    A'.map (fun a => (a.p, a.kB, a.kW)) = A.map (fun a => (a.p, a.kB, a.kW)) := by
  induction A generalizing A' with
  | nil => cases A' with
    | nil => rfl
    | cons => simp at h
  | cons a A ih =>
    cases A' with
    | nil => simp at h
    | cons a' A' =>
      rw [List.map_cons, List.map_cons] at h hk ⊢
      injection h with h h'
      injection hk with hk hk'
      simp only [Prod.mk.injEq] at hk
      rw [ih h' hk', h, hk.1, hk.2]

/-- One averaged step keeps twins twins; the two may use different samples with the same summed gradients. -/
theorem TwinT.step₂ (ho : TwinOpt upd K S V I) {n m : Nat} {dL : (Nat → α) → (Nat → α) → Nat → α} {x y : σ × Train α}
    (h : TwinT K V S I n m dL x y) {idata odata : List (Ten α)} {vs : List ((Nat → α) × (Nat → α))} (hd : DataIs idata odata n m vs)
    {idata₂ odata₂ : List (Ten α)} {vs₂ : List ((Nat → α) × (Nat → α))} (hd₂ : DataIs idata₂ odata₂ n m vs₂)
    {lo k lo₂ k₂ : Nat} (hk : lo + k ≤ vs.length) (hk1 : 1 ≤ k) (hk₂ : lo₂ + k₂ ≤ vs₂.length) (hk1₂ : 1 ≤ k₂)
    (hg : ∀ ps, gradSum dL ps ((vs.drop lo).take k) = gradSum dL ps ((vs₂.drop lo₂).take k₂)) (alpha : α) :
    ∃ x' y', TEv.run upd idata odata x (stepTrace alpha lo k) = .ok x' ∧ TEv.run upd idata₂ odata₂ y (stepTrace alpha lo₂ k₂) = .ok y' ∧
      TwinT K V S I n m dL x' y' := by
  obtain ⟨s₁, t₁⟩ := x
  obtain ⟨s₂, t₂⟩ := y
  obtain ⟨hs, hI, A, B, hA, hB, hT⟩ := h
  dsimp only at hs hI hA hB
  obtain ⟨u₁, e₁, A1, hA1, c₁⟩ := hA.accRun hd hk
  obtain ⟨u₂, e₂, B1, hB1, c₂⟩ := hB.accRun hd₂ hk₂
  have hpos : 0 < ((vs.drop lo).take k).length := by simp; omega
  have hpos₂ : 0 < ((vs₂.drop lo₂).take k₂).length := by simp; omega
  have T1 : List.Forall₂ (Twin K V) A1 B1 := Twin.of_maps hT (map_triple c₁.p c₁.keys) (map_triple c₂.p c₂.keys)
  have hne : (vs.drop lo).take k ≠ [] := List.length_pos_iff.1 hpos
  have hne₂ : (vs₂.drop lo₂).take k₂ ≠ [] := List.length_pos_iff.1 hpos₂
  have ea : A1.map DSt.used = B1.map DSt.used := by rw [c₁.used hne, c₂.used hne₂, Twin.map_p hT, hg]
  have ec : A1.map (·.acc) = B1.map (·.acc) := by
    have k1 := List.map_congr_left (f := fun a : DSt α => a.acc) (g := fun _ => decide (0 < ((vs.drop lo).take k).length)) c₁.acc
    have k2 := List.map_congr_left (f := fun a : DSt α => a.acc) (g := fun _ => decide (0 < ((vs₂.drop lo₂).take k₂).length)) c₂.acc
    rw [k1, k2, List.map_const', List.map_const', T1.length_eq, decide_eq_true hpos, decide_eq_true hpos₂]
  obtain ⟨r₁, r₂, q₁, q₂, hs, hI, A', B', h1, h2, T2, N, _, _⟩ := Net.updating_twin ho alpha hA1.net hB1.net T1 ea ec hs hI
  have hl : A'.length = A1.length := by have := congrArg List.length N; simpa using this
  have hlB : B'.length = B1.length := by rw [← T2.length_eq, hl, T1.length_eq]
  have ch : Chain n (A'.map (·.p)) m := Chain.congr (by rw [List.map_map, List.map_map]; exact N.symm) hA1.chain
  refine ⟨(r₁.1, { u₁ with net := r₁.2 }), (r₂.1, { u₂ with net := r₂.2 }), ?_, ?_, hs, hI, A', B',
    ⟨h1, hl ▸ hA1.two, hl ▸ hA1.word, ch, hA1.delta, hA1.loss⟩,
    ⟨h2, hlB ▸ hB1.two, hlB ▸ hB1.word, Twin.map_p T2 ▸ ch, hB1.delta, hB1.loss⟩, T2⟩
  · rw [run_step, ← bind_assoc, e₁, bind_ok]
    unfold Train.updating; dsimp only
    rw [q₁, bind_ok]; rfl
  · rw [run_step, ← bind_assoc, e₂, bind_ok]
    unfold Train.updating; dsimp only
    rw [q₂, bind_ok]; rfl

/-- The same samples. -/
theorem TwinT.step (ho : TwinOpt upd K S V I) {n m : Nat} {dL : (Nat → α) → (Nat → α) → Nat → α} {x y : σ × Train α}
    (h : TwinT K V S I n m dL x y) {idata odata : List (Ten α)} {vs : List ((Nat → α) × (Nat → α))} (hd : DataIs idata odata n m vs)
    {lo k : Nat} (hk : lo + k ≤ vs.length) (hk1 : 1 ≤ k) (alpha : α) :
    ∃ x' y', TEv.run upd idata odata x (stepTrace alpha lo k) = .ok x' ∧ TEv.run upd idata odata y (stepTrace alpha lo k) = .ok y' ∧
      TwinT K V S I n m dL x' y' := h.step₂ ho hd hd hk hk1 hk hk1 (fun _ => rfl) alpha

/-- A sequence of averaged steps. -/
theorem TwinT.steps (ho : TwinOpt upd K S V I) {n m : Nat} {dL : (Nat → α) → (Nat → α) → Nat → α}
    {idata odata : List (Ten α)} {vs : List ((Nat → α) × (Nat → α))} (hd : DataIs idata odata n m vs) (alpha : α) :
    ∀ (ws : List (Nat × Nat)), (∀ w ∈ ws, w.1 + w.2 ≤ vs.length ∧ 1 ≤ w.2) → ∀ {x y : σ × Train α}, TwinT K V S I n m dL x y →
    ∃ x' y', TEv.run upd idata odata x (ws.flatMap (fun w => stepTrace alpha w.1 w.2)) = .ok x' ∧
      TEv.run upd idata odata y (ws.flatMap (fun w => stepTrace alpha w.1 w.2)) = .ok y' ∧ TwinT K V S I n m dL x' y'
  | [], _, x, y, h => ⟨x, y, rfl, rfl, h⟩
  | w :: ws, hw, x, y, h => by
    obtain ⟨h1, h2⟩ := hw w (by simp)
    obtain ⟨x1, y1, e1, e2, h⟩ := h.step ho hd h1 h2 alpha
    obtain ⟨x2, y2, e3, e4, h⟩ := TwinT.steps ho hd alpha ws (fun w hw' => hw w (by simp [hw'])) h
    refine ⟨x2, y2, ?_, ?_, h⟩
    · rw [List.flatMap_cons, TEv.run_append, e1, bind_ok, e3]
    · rw [List.flatMap_cons, TEv.run_append, e2, bind_ok, e4]

theorem At_params : ∀ {A B : List (DSt α)} {net₁ net₂ : Net α}, net₁.At A → net₂.At B → A.map (·.p) = B.map (·.p) →
    net₁.params = net₂.params := by
  intro A B net₁ net₂ h₁
  induction h₁ generalizing B net₂ with
  | nil =>
    intro h₂ e
    cases h₂ with
    | nil => rfl
    | cons => simp at e
  | @cons l a ls A h _ ih =>
    intro h₂ e
    cases h₂ with
    | nil => simp at e
    | @cons l2 b ls2 B k h₂ =>
      rw [List.map_cons, List.map_cons] at e
      injection e with e e'
      have := ih h₂ e'
      obtain ⟨f, rfl, hf⟩ := h
      obtain ⟨g, rfl, hg⟩ := k
      have hgw := hg.wf
      rw [← e] at hgw
      unfold Net.params at this ⊢
      rw [List.map_cons, List.map_cons, this]
      have k : Layer.params (.fc f) = Layer.params (.fc g) := by
        show [f.B, f.W.data] = [g.B, g.W.data]
        rw [hf.wf.B.ext hgw.B, hf.wf.W.ext hgw.W]
      rw [k]

/-- Twins without pending accumulated gradients. -/
def TwinC (K V : Nat → Nat → Prop) (S : σ → σ → Prop) (I : σ → Prop) (n m : Nat) (dL : (Nat → α) → (Nat → α) → Nat → α)
    (x y : σ × Train α) : Prop :=
  S x.1 y.1 ∧ I x.1 ∧ ∃ A B : List (DSt α), x.2.At A n m dL ∧ y.2.At B n m dL ∧ List.Forall₂ (Twin K V) A B ∧
    (∀ a ∈ A, a.acc = false) ∧ (∀ b ∈ B, b.acc = false)

theorem setG_keys (sts : List (DSt α)) : ∀ (gs : List (Grad α)), gs.length = sts.length →
    (setG sts gs).map (fun a => (a.kB, a.kW)) = sts.map (fun a => (a.kB, a.kW)) ∧ (setG sts gs).map (·.acc) = sts.map (·.acc) ∧
    (setG sts gs).map (·.g) = gs := by
  induction sts with
  | nil => intro gs h; cases gs with
    | nil => simp [setG]
    | cons => simp at h
  | cons st sts ih =>
    intro gs h
    cases gs with
    | nil => simp at h
    | cons g gs =>
      have := ih gs (by simpa using h)
      simp [setG] at this ⊢
      exact this

/-- One round of stochastic training keeps clean twins clean twins. -/
theorem TwinC.step (ho : TwinOpt upd K S V I) {n m : Nat} {dL : (Nat → α) → (Nat → α) → Nat → α} {x y : σ × Train α}
    (h : TwinC K V S I n m dL x y) {idata odata : List (Ten α)} {vs : List ((Nat → α) × (Nat → α))} (hd : DataIs idata odata n m vs)
    {i : Nat} (hi : i < vs.length) :
    ∃ x' y', TEv.run upd idata odata x [.sample i, .update 1] = .ok x' ∧ TEv.run upd idata odata y [.sample i, .update 1] = .ok y' ∧
      TwinC K V S I n m dL x' y' := by
  obtain ⟨s₁, t₁⟩ := x
  obtain ⟨s₂, t₂⟩ := y
  obtain ⟨hs, hI, A, B, hA, hB, hT, cA, cB⟩ := h
  dsimp only at hs hI hA hB
  have e : vs[i]? = some vs[i] := List.getElem?_eq_getElem hi
  obtain ⟨u₁, e₁, hA1⟩ := hA.sample hd e
  obtain ⟨u₂, e₂, hB1⟩ := hB.sample hd e
  have lA : (sampleGrads dL (A.map (·.p)) vs[i]).length = A.length := by rw [sampleGrads_length]; simp
  have lB : (sampleGrads dL (B.map (·.p)) vs[i]).length = B.length := by rw [sampleGrads_length]; simp
  obtain ⟨a1, a2, a3⟩ := setG_keys A _ lA
  obtain ⟨b1, b2, b3⟩ := setG_keys B _ lB
  have T1 := Twin.of_maps hT (map_triple (setG_p A _ lA) a1) (map_triple (setG_p B _ lB) b1)
  have all : ∀ {X : List (DSt α)} {l : List Bool}, X.map (·.acc) = l → (∀ c ∈ l, c = false) → ∀ a ∈ X, a.acc = false := by
    intro X l h hl a ha
    exact hl _ (h ▸ List.mem_map_of_mem ha)
  have cA1 : ∀ a ∈ setG A (sampleGrads dL (A.map (·.p)) vs[i]), a.acc = false := all a2 (by
    intro c hc; obtain ⟨a, ha, rfl⟩ := List.mem_map.1 hc; exact cA a ha)
  have cB1 : ∀ a ∈ setG B (sampleGrads dL (B.map (·.p)) vs[i]), a.acc = false := all b2 (by
    intro c hc; obtain ⟨a, ha, rfl⟩ := List.mem_map.1 hc; exact cB a ha)
  have usedg : ∀ {X : List (DSt α)}, (∀ a ∈ X, a.acc = false) → X.map DSt.used = X.map (·.g) := by
    intro X hX
    refine List.map_congr_left (fun a ha => ?_)
    unfold DSt.used
    rw [hX a ha]; rfl
  have ea : (setG A (sampleGrads dL (A.map (·.p)) vs[i])).map DSt.used = (setG B (sampleGrads dL (B.map (·.p)) vs[i])).map DSt.used := by
    rw [usedg cA1, usedg cB1, a3, b3, Twin.map_p hT]
  have ec : (setG A (sampleGrads dL (A.map (·.p)) vs[i])).map (·.acc) = (setG B (sampleGrads dL (B.map (·.p)) vs[i])).map (·.acc) := by
    have k1 := List.map_congr_left (f := fun a : DSt α => a.acc) (g := fun _ => false) cA1
    have k2 := List.map_congr_left (f := fun a : DSt α => a.acc) (g := fun _ => false) cB1
    rw [k1, k2, List.map_const', List.map_const', T1.length_eq]
  obtain ⟨r₁, r₂, q₁, q₂, hs, hI, A', B', h1, h2, T2, N, N1, N2⟩ := Net.updating_twin ho 1 hA1.net hB1.net T1 ea ec hs hI
  have hl : A'.length = (setG A (sampleGrads dL (A.map (·.p)) vs[i])).length := by have := congrArg List.length N; simpa using this
  have hlB : B'.length = (setG B (sampleGrads dL (B.map (·.p)) vs[i])).length := by rw [← T2.length_eq, hl, T1.length_eq]
  have ch : Chain n (A'.map (·.p)) m := Chain.congr (by rw [List.map_map, List.map_map]; exact N.symm) hA1.chain
  refine ⟨(r₁.1, { u₁ with net := r₁.2 }), (r₂.1, { u₂ with net := r₂.2 }), ?_, ?_, hs, hI, A', B',
    ⟨h1, hl ▸ hA1.two, hl ▸ hA1.word, ch, hA1.delta, hA1.loss⟩,
    ⟨h2, hlB ▸ hB1.two, hlB ▸ hB1.word, Twin.map_p T2 ▸ ch, hB1.delta, hB1.loss⟩, T2, ?_, ?_⟩
  · unfold TEv.run TEv.exec; dsimp only
    rw [e₁, bind_ok, pure_eq_ok, bind_ok]
    unfold TEv.run TEv.exec Train.updating; dsimp only
    rw [q₁, bind_ok]; rfl
  · unfold TEv.run TEv.exec; dsimp only
    rw [e₂, bind_ok, pure_eq_ok, bind_ok]
    unfold TEv.run TEv.exec Train.updating; dsimp only
    rw [q₂, bind_ok]; rfl
  · exact all N1 (by intro c hc; obtain ⟨a, ha, rfl⟩ := List.mem_map.1 hc; exact cA1 a ha)
  · exact all N2 (by intro c hc; obtain ⟨a, ha, rfl⟩ := List.mem_map.1 hc; exact cB1 a ha)

theorem TwinC.steps (ho : TwinOpt upd K S V I) {n m : Nat} {dL : (Nat → α) → (Nat → α) → Nat → α}
    {idata odata : List (Ten α)} {vs : List ((Nat → α) × (Nat → α))} (hd : DataIs idata odata n m vs) :
    ∀ (is : List Nat), (∀ i ∈ is, i < vs.length) → ∀ {x y : σ × Train α}, TwinC K V S I n m dL x y →
    ∃ x' y', TEv.run upd idata odata x (stoTrace is) = .ok x' ∧ TEv.run upd idata odata y (stoTrace is) = .ok y' ∧
      TwinC K V S I n m dL x' y'
  | [], _, x, y, h => ⟨x, y, rfl, rfl, h⟩
  | i :: is, hw, x, y, h => by
    obtain ⟨x1, y1, e1, e2, h⟩ := h.step ho hd (hw i (by simp))
    obtain ⟨x2, y2, e3, e4, h⟩ := TwinC.steps ho hd is (fun j hj => hw j (by simp [hj])) h
    refine ⟨x2, y2, ?_, ?_, h⟩
    · rw [stoTrace, List.flatMap_cons, TEv.run_append, e1, bind_ok]; exact e3
    · rw [stoTrace, List.flatMap_cons, TEv.run_append, e2, bind_ok]; exact e4

theorem TwinC.params {n m : Nat} {dL : (Nat → α) → (Nat → α) → Nat → α} {x y : σ × Train α} (h : TwinC K V S I n m dL x y) :
    x.2.net.map Layer.params = y.2.net.map Layer.params := by
  obtain ⟨_, _, A, B, hA, hB, hT, _, _⟩ := h
  exact At_params hA.net hB.net (Twin.map_p hT)

/-- A sequence of averaged steps on two data sets whose windows have the same summed gradients. -/
theorem TwinT.steps₂ (ho : TwinOpt upd K S V I) {n m : Nat} {dL : (Nat → α) → (Nat → α) → Nat → α}
    {idata odata : List (Ten α)} {vs : List ((Nat → α) × (Nat → α))} (hd : DataIs idata odata n m vs)
    {idata₂ odata₂ : List (Ten α)} {vs₂ : List ((Nat → α) × (Nat → α))} (hd₂ : DataIs idata₂ odata₂ n m vs₂) (alpha : α) :
    ∀ (ws : List (Nat × Nat)), (∀ w ∈ ws, w.1 + w.2 ≤ vs.length ∧ w.1 + w.2 ≤ vs₂.length ∧ 1 ≤ w.2 ∧
      ∀ ps, gradSum dL ps ((vs.drop w.1).take w.2) = gradSum dL ps ((vs₂.drop w.1).take w.2)) →
    ∀ {x y : σ × Train α}, TwinT K V S I n m dL x y →
    ∃ x' y', TEv.run upd idata odata x (ws.flatMap (fun w => stepTrace alpha w.1 w.2)) = .ok x' ∧
      TEv.run upd idata₂ odata₂ y (ws.flatMap (fun w => stepTrace alpha w.1 w.2)) = .ok y' ∧ TwinT K V S I n m dL x' y'
  | [], _, x, y, h => ⟨x, y, rfl, rfl, h⟩
  | w :: ws, hw, x, y, h => by
    obtain ⟨h1, h2, h3, h4⟩ := hw w (by simp)
    obtain ⟨x1, y1, e1, e2, h⟩ := h.step₂ ho hd hd₂ h1 h3 h2 h3 h4 alpha
    obtain ⟨x2, y2, e3, e4, h⟩ := TwinT.steps₂ ho hd hd₂ alpha ws (fun w hw' => hw w (by simp [hw'])) h
    refine ⟨x2, y2, ?_, ?_, h⟩
    · rw [List.flatMap_cons, TEv.run_append, e1, bind_ok, e3]
    · rw [List.flatMap_cons, TEv.run_append, e2, bind_ok, e4]

theorem batchTrace_steps (alpha : α) (n epochs : Nat) :
    batchTrace alpha n epochs = (List.replicate epochs (0, n)).flatMap (fun w => stepTrace alpha w.1 w.2) := by
  unfold batchTrace
  rw [List.flatMap_def, List.map_replicate]

theorem miniTrace_steps (alpha : α) (n m epochs : Nat) :
    miniTrace alpha n m epochs = ((List.replicate epochs ((List.range (n / m)).map (fun k => (k * m, m)))).flatten).flatMap
      (fun w => stepTrace alpha w.1 w.2) := by
  unfold miniTrace miniEpochTrace
  induction epochs with
  | zero => rfl
  | succ e ih =>
    rw [List.replicate_succ, List.replicate_succ, List.flatten_cons, List.flatten_cons, List.flatMap_append, ih, List.flatMap_map]

theorem TwinT.params {n m : Nat} {dL : (Nat → α) → (Nat → α) → Nat → α} {x y : σ × Train α} (h : TwinT K V S I n m dL x y) :
    x.2.net.params = y.2.net.params := by
  obtain ⟨_, _, A, B, hA, hB, hT⟩ := h
  exact At_params hA.net hB.net (Twin.map_p hT)

end

/-! ### reload -/

section
variable [Zero α] {c : Codec α β} (hc : c.Lawful)
include hc

/-- A saved dense network comes back with the same parameters and activations and no pending gradients. -/
theorem read_denseNet {R : Registry α} {net : Net α} (hn : net.length < W64) (hs : net.Storable R) (addr : Nat → Nat × (Nat → Nat))
    (hw : ∀ l ∈ net, ∃ p, Layer.IsDense l p) :
    RoundTrip (c.putNet R net) (c.getNet R addr) (fun net' => List.Forall₂ (fun l l' => (∀ p, Layer.IsDense l p → Layer.IsDense l' p) ∧
      (∀ f : FC α, l' = .fc f → f.accumulated = false)) net net') := by
  obtain ⟨bs, ys, p, r, q⟩ := putMany_ok (put := c.putLayer R) (get := fun i => c.getLayer R (addr i).1 (addr i).2)
    (Q := fun l l' => (∀ p, Layer.IsDense l p → Layer.IsDense l' p) ∧ (∀ f : FC α, l' = .fc f → f.accumulated = false)) net 0
    (fun i x hx => by
      have hx' := List.mem_of_getElem? hx
      obtain ⟨p, f, rfl, hl, hact⟩ := hw x hx'
      obtain ⟨f', e, ha, hs⟩ := hs _ hx'
      injection e with e; subst e
      rw [hl.isize, hl.osize] at hs
      obtain ⟨bs, p1, r⟩ := read_dense hc (R := R) ⟨_, hl.B⟩ ⟨_, hl.W⟩ ha hs
      refine ⟨c.putNat 0 ++ bs, .fc (FC.prepare (addr (0 + i)).1 ((addr (0 + i)).2 0) (Shape.mk3 1 1 p.n) (Shape.mk3 1 1 p.m) f.B f.W f.act), ?_,
        fun rest => ?_, ?_, ?_⟩
      · unfold Codec.putLayer; dsimp only
        rw [hl.isize, hl.osize, p1, bind_ok]; rfl
      · unfold Codec.getLayer
        rw [List.append_assoc, hc.nat 0 (by decide), bind_ok]; dsimp only
        unfold Codec.getObject; dsimp only
        rw [r, bind_ok]; rfl
      · rintro p' ⟨g, e, hg, ha'⟩
        injection e with e; subst e
        have e1 : p.n = p'.n := hl.isize.symm.trans hg.isize
        have e2 : p.m = p'.m := hl.osize.symm.trans hg.osize
        rw [e1, e2] at hs ⊢
        exact ⟨_, rfl, FC.prepare_Wf hg.B hg.W hs.2.1 hs.2.2.1, ha'⟩
      · intro g hg; cases hg; rfl)
  refine ⟨c.putNat net.length ++ bs, ys, ?_, fun rest => ?_, q⟩
  · unfold Codec.putNet
    rw [p, bind_ok]; rfl
  · unfold Codec.getNet
    rw [List.append_assoc, hc.nat _ hn, bind_ok]; dsimp only
    exact r rest

end

end Trixy
