import Verif.Proof.Twin
import Mathlib.Tactic.Ring
import Mathlib.Tactic.FieldSimp
/- Two training objects with the same parameters whose averaged gradients differ by a constant factor. -/
namespace Trixy
set_option linter.unusedSectionVars false

variable {α σ : Type}

/-- Optimizers whose steps agree when the gradients of the second are `c` times those of the first. -/
def ScaleOpt [Mul α] (upd : Upd σ α) (c : α) (S : σ → σ → Prop) (V : Nat → Nat → Prop) (I : σ → Prop) : Prop :=
  ∀ s₁ s₂ k n p g₁ g₂ f, S s₁ s₂ → I s₁ → V k n → Full p n → VecIs g₁ n f → VecIs g₂ n (fun i => c * f i) →
    ∃ s₁' s₂' p' h₁ h₂, upd s₁ k p g₁ = .ok (s₁', p', h₁) ∧ upd s₂ k p g₂ = .ok (s₂', p', h₂) ∧ S s₁' s₂' ∧ I s₁' ∧
      Full p' n ∧ Full h₁ n ∧ Full h₂ n

/-- The second gradient with its factor is `c` times the first with its factor. -/
def Grad.Times [Mul α] (c a b : α) (g h : Grad α) : Prop :=
  (∀ j, h.1 j * b = c * (g.1 j * a)) ∧ ∀ i j, h.2 i j * b = c * (g.2 i j * a)

section
variable [Field α] [DecidableEq α] {upd : Upd σ α} {S : σ → σ → Prop} {V : Nat → Nat → Prop} {I : σ → Prop} {c : α}

theorem scaleUnlessOne_vec (alpha : α) {g : Buf α} {k : Nat} {f : Nat → α} (h : VecIs g k f) :
    Ok (scaleUnlessOne alpha g) (fun g' => VecIs g' k (fun i => f i * alpha)) := by
  unfold scaleUnlessOne
  by_cases e : alpha = 1
  · rw [if_neg (by simp [e])]; exact Ok_ok.2 (h.congr (fun i _ => by rw [e, mul_one]))
  · rw [if_pos e]; exact scaleInto_spec h alpha

theorem FC.updateWith_scale (ho : ScaleOpt upd c S V I) {f₁ f₂ : FC α} {n m : Nat} {b : Nat → α} {W : Nat → Nat → α} (w1 : f₁.Wf n m b W)
    (w2 : f₂.Wf n m b W) (kB : f₁.keyB = f₂.keyB) (kW : f₁.keyW = f₂.keyW) (vB : V f₁.keyB m) (vW : V f₁.keyW (n * m)) {G₁ G₂ : Buf α}
    {H₁ H₂ : Mat α} {g h : Grad α} (h1 : VecIs G₁ m g.1) (h2 : MatIs H₁ n m g.2) (h3 : VecIs G₂ m h.1) (h4 : MatIs H₂ n m h.2)
    {s₁ s₂ : σ} (hs : S s₁ s₂) (hI : I s₁) {a₁ a₂ : α} (hg : Grad.Times c a₁ a₂ g h) :
    ∃ s₁' s₂' B' W' X₁ X₂ Y₁ Y₂, FC.updateWith upd s₁ a₁ f₁ G₁ H₁ = .ok (s₁', B', X₁, W', Y₁) ∧
      FC.updateWith upd s₂ a₂ f₂ G₂ H₂ = .ok (s₂', B', X₂, W', Y₂) ∧ S s₁' s₂' ∧ I s₁' ∧ (∃ b', VecIs B' m b') ∧
      (∃ w', MatIs { f₁.W with data := W' } n m w') ∧ (∃ g', VecIs X₁ m g') ∧ (∃ g', VecIs X₂ m g') ∧
      (∃ w', MatIs { H₁ with data := Y₁ } n m w') ∧ (∃ w', MatIs { H₂ with data := Y₂ } n m w') := by
  have eB : f₂.B = f₁.B := w2.B.ext w1.B
  have eW : f₂.W = f₁.W := w2.W.ext w1.W
  obtain ⟨x1, e1, q1⟩ := scaleUnlessOne_vec a₁ h1
  obtain ⟨x2, e2, q2⟩ := scaleUnlessOne_vec a₁ h2.flat
  obtain ⟨x3, e3, q3⟩ := scaleUnlessOne_vec a₂ h3
  obtain ⟨x4, e4, q4⟩ := scaleUnlessOne_vec a₂ h4.flat
  obtain ⟨s1, s2, p', y1, y2, u1, u2, hs, hI, P, Y1, Y2⟩ := ho s₁ s₂ f₁.keyB m f₁.B x1 x3 _ hs hI vB w1.B.full q1
    (q3.congr (fun i _ => hg.1 i))
  obtain ⟨s3, s4, p'', y3, y4, u3, u4, hs, hI, ⟨w', hw'⟩, ⟨z1, Z1⟩, ⟨z2, Z2⟩⟩ := ho s1 s2 f₁.keyW (n * m) f₁.W.data x2 x4 _ hs hI vW w1.W.flat.full q2
    (q4.congr (fun i _ => hg.2 _ _))
  refine ⟨s3, s4, p', p'', y1, y2, y3, y4, ?_, ?_, hs, hI, P,
    ⟨_, MatIs.of_flat' (m := { f₁.W with data := p'' }) w1.W.1 w1.W.2.1 hw'⟩, Y1, Y2,
    ⟨_, MatIs.of_flat' (m := { H₁ with data := y3 }) h2.1 h2.2.1 Z1⟩,
    ⟨_, MatIs.of_flat' (m := { H₂ with data := y4 }) h4.1 h4.2.1 Z2⟩⟩
  · unfold FC.updateWith
    rw [e1, bind_ok, e2, bind_ok, u1, bind_ok]; dsimp only
    rw [u3, bind_ok]; rfl
  · unfold FC.updateWith
    rw [eB, eW, e3, bind_ok, e4, bind_ok, ← kB, u2, bind_ok]; dsimp only
    rw [← kW, u4, bind_ok]; rfl

theorem FC.update_scale (ho : ScaleOpt upd c S V I) {f₁ f₂ : FC α} {a b : DSt α} (h₁ : f₁.At a) (h₂ : f₂.At b) (ht : Twin Eq V a b)
    {a₁ a₂ : α} (ha : Grad.Times c a₁ a₂ a.used b.used) (cc : a.acc = b.acc) {s₁ s₂ : σ} (hs : S s₁ s₂) (hI : I s₁) :
    ∃ r₁ r₂, f₁.update upd s₁ a₁ = .ok r₁ ∧ f₂.update upd s₂ a₂ = .ok r₂ ∧ S r₁.1 r₂.1 ∧ I r₁.1 ∧
      ∃ a' b', r₁.2.At a' ∧ r₂.2.At b' ∧ Twin Eq V a' b' ∧ a'.p.n = a.p.n ∧ a'.p.m = a.p.m ∧ a'.acc = a.acc ∧ b'.acc = b.acc := by
  obtain ⟨pa, ga, aa, ca, k1, k2⟩ := a
  obtain ⟨pb, gb, ab, cb, k3, k4⟩ := b
  have e := ht.p
  dsimp only at e cc
  subst e cc
  have w1 := h₁.wf; have w2 := h₂.wf
  have eW : f₂.W = f₁.W := w2.W.ext w1.W
  have a1 := h₁.acc; have a2 := h₂.acc
  have kB1 := h₁.kB; have kW1 := h₁.kW; have kB2 := h₂.kB; have kW2 := h₂.kW
  dsimp only at kB1 kW1 kB2 kW2 a1 a2
  have K1 : f₁.keyB = f₂.keyB := by rw [kB1, kB2]; exact ht.kB
  have K2 : f₁.keyW = f₂.keyW := by rw [kW1, kW2]; exact ht.kW
  have V1 : V f₁.keyB pa.m := by rw [kB1]; exact ht.vB
  have V2 : V f₁.keyW (pa.n * pa.m) := by rw [kW1]; exact ht.vW
  cases ca with
  | true =>
    have ha : Grad.Times c a₁ a₂ aa ab := ha
    obtain ⟨s1, s2, B', W', X₁, X₂, Y₁, Y₂, u1, u2, hs, hI, ⟨b', hb⟩, ⟨w', hw⟩, ⟨g1, hg1⟩, ⟨g2, hg2⟩, ⟨x1, hx1⟩, ⟨x2, hx2⟩⟩ :=
      FC.updateWith_scale ho w1 w2 K1 K2 V1 V2 h₁.aB h₁.aW h₂.aB h₂.aW hs hI ha
    refine ⟨(s1, { f₁ with B := B', gradBs := X₁, W := { f₁.W with data := W' }, gradWs := { f₁.gradWs with data := Y₁ } }),
      (s2, { f₂ with B := B', gradBs := X₂, W := { f₁.W with data := W' }, gradWs := { f₂.gradWs with data := Y₂ } }),
      ?_, ?_, hs, hI, ⟨{ pa with b := b', W := w' }, ga, (g1, x1), true, k1, k2⟩, ⟨{ pa with b := b', W := w' }, gb, (g2, x2), true, k3, k4⟩,
      ⟨?_, h₁.act, h₁.gB, h₁.gW, hg1, hx1, a1, kB1, kW1⟩, ⟨?_, h₂.act, h₂.gB, h₂.gW, hg2, hx2, a2, kB2, kW2⟩,
      ⟨rfl, ht.kB, ht.kW, ht.vB, ht.vW⟩, rfl, rfl, rfl, rfl⟩
    · unfold FC.update
      rw [if_pos a1, u1, bind_ok]; rfl
    · unfold FC.update
      rw [if_pos a2, u2, bind_ok, eW]; rfl
    · exact { w1 with B := hb, W := hw, gradBs := ⟨_, hg1⟩, gradWs := ⟨_, hx1⟩ }
    · exact { w2 with B := hb, W := hw, gradBs := ⟨_, hg2⟩, gradWs := ⟨_, hx2⟩ }
  | false =>
    have ha : Grad.Times c a₁ a₂ ga gb := ha
    obtain ⟨s1, s2, B', W', X₁, X₂, Y₁, Y₂, u1, u2, hs, hI, ⟨b', hb⟩, ⟨w', hw⟩, ⟨g1, hg1⟩, ⟨g2, hg2⟩, ⟨x1, hx1⟩, ⟨x2, hx2⟩⟩ :=
      FC.updateWith_scale ho w1 w2 K1 K2 V1 V2 h₁.gB h₁.gW h₂.gB h₂.gW hs hI ha
    refine ⟨(s1, { f₁ with B := B', gradB := X₁, W := { f₁.W with data := W' }, gradW := { f₁.gradW with data := Y₁ } }),
      (s2, { f₂ with B := B', gradB := X₂, W := { f₁.W with data := W' }, gradW := { f₂.gradW with data := Y₂ } }),
      ?_, ?_, hs, hI, ⟨{ pa with b := b', W := w' }, (g1, x1), aa, false, k1, k2⟩, ⟨{ pa with b := b', W := w' }, (g2, x2), ab, false, k3, k4⟩,
      ⟨?_, h₁.act, hg1, hx1, h₁.aB, h₁.aW, a1, kB1, kW1⟩, ⟨?_, h₂.act, hg2, hx2, h₂.aB, h₂.aW, a2, kB2, kW2⟩,
      ⟨rfl, ht.kB, ht.kW, ht.vB, ht.vW⟩, rfl, rfl, rfl, rfl⟩
    · unfold FC.update
      rw [if_neg (by rw [a1]; simp), u1, bind_ok]; rfl
    · unfold FC.update
      rw [if_neg (by rw [a2]; simp), u2, bind_ok, eW]; rfl
    · exact { w1 with B := hb, W := hw, gradB := ⟨_, hg1⟩, gradW := ⟨_, hx1⟩ }
    · exact { w2 with B := hb, W := hw, gradB := ⟨_, hg2⟩, gradW := ⟨_, hx2⟩ }

theorem Net.updating_scale (ho : ScaleOpt upd c S V I) {a₁ a₂ : α} : ∀ {A B : List (DSt α)} {net₁ net₂ : Net α} {s₁ s₂ : σ},
    net₁.At A → net₂.At B → List.Forall₂ (Twin Eq V) A B → List.Forall₂ (Grad.Times c a₁ a₂) (A.map DSt.used) (B.map DSt.used) →
    A.map (·.acc) = B.map (·.acc) → S s₁ s₂ → I s₁ →
    ∃ r₁ r₂, Net.updating upd a₁ s₁ net₁ = .ok r₁ ∧ Net.updating upd a₂ s₂ net₂ = .ok r₂ ∧ S r₁.1 r₂.1 ∧ I r₁.1 ∧
      ∃ A' B', r₁.2.At A' ∧ r₂.2.At B' ∧ List.Forall₂ (Twin Eq V) A' B' ∧
        A'.map (fun a => (a.p.n, a.p.m)) = A.map (fun a => (a.p.n, a.p.m)) ∧ A'.map (·.acc) = A.map (·.acc) ∧ B'.map (·.acc) = B.map (·.acc) := by
  intro A B net₁ net₂ s₁ s₂ h₁ h₂ ht
  rw [Net.updating_eq, Net.updating_eq]
  induction ht generalizing net₁ net₂ s₁ s₂ with
  | nil =>
    intro _ _ hs hI
    cases h₁; cases h₂
    exact ⟨_, _, rfl, rfl, hs, hI, [], [], .nil, .nil, .nil, rfl, rfl, rfl⟩
  | @cons a b A B hab _ ih =>
    intro ha hc hs hI
    cases h₁ with
    | cons l₁ h₁ =>
    cases h₂ with
    | cons l₂ h₂ =>
    obtain ⟨f₁, rfl, k₁⟩ := l₁
    obtain ⟨f₂, rfl, k₂⟩ := l₂
    rw [List.map_cons, List.map_cons] at ha
    cases ha with
    | cons ha ha' =>
    rw [List.map_cons, List.map_cons] at hc
    injection hc with hc hc'
    obtain ⟨r₁, r₂, e₁, e₂, hs, hI, a', b', q₁, q₂, q, n1, n2, n3, n4⟩ := FC.update_scale ho k₁ k₂ hab ha hc hs hI
    obtain ⟨t₁, t₂, e₃, e₄, hs, hI, A', B', Q₁, Q₂, Q, N, N1, N2⟩ := ih h₁ h₂ ha' hc' hs hI
    refine ⟨(t₁.1, .fc r₁.2 :: t₁.2), (t₂.1, .fc r₂.2 :: t₂.2), ?_, ?_, hs, hI, a' :: A', b' :: B', .cons ⟨_, rfl, q₁⟩ Q₁,
      .cons ⟨_, rfl, q₂⟩ Q₂, .cons q Q, by rw [List.map_cons, List.map_cons, N, n1, n2], by rw [List.map_cons, List.map_cons, N1, n3],
      by rw [List.map_cons, List.map_cons, N2, n4]⟩
    · have : Layer.update upd s₁ a₁ (.fc f₁) = .ok (r₁.1, .fc r₁.2) := by
        show (FC.update upd s₁ a₁ f₁ >>= _) = _
        rw [e₁]; rfl
      unfold eachM
      rw [this, bind_ok]; dsimp only
      rw [e₃, bind_ok]; rfl
    · have : Layer.update upd s₂ a₂ (.fc f₂) = .ok (r₂.1, .fc r₂.2) := by
        show (FC.update upd s₂ a₂ f₂ >>= _) = _
        rw [e₂]; rfl
      unfold eachM
      rw [this, bind_ok]; dsimp only
      rw [e₄, bind_ok]; rfl

end

section
variable [Field α] [LT α] [DecidableLT α] [DecidableEq α] {upd : Upd σ α} {S : σ → σ → Prop} {V : Nat → Nat → Prop} {I : σ → Prop} {c : α}

/-- Two training objects with the same parameters and addresses; their losses may differ. -/
def TwinS (V : Nat → Nat → Prop) (S : σ → σ → Prop) (I : σ → Prop) (n m : Nat) (dL dL' : (Nat → α) → (Nat → α) → Nat → α)
    (clean : Bool) (x y : σ × Train α) : Prop :=
  S x.1 y.1 ∧ I x.1 ∧ ∃ A B : List (DSt α), x.2.At A n m dL ∧ y.2.At B n m dL' ∧ List.Forall₂ (Twin Eq V) A B ∧
    (clean = true → (∀ a ∈ A, a.acc = false) ∧ ∀ b ∈ B, b.acc = false)

/-- One averaged step on two windows of samples whose summed gradients, with their factors, differ by `c`. -/
theorem TwinS.step (ho : ScaleOpt upd c S V I) {n m : Nat} {dL dL' : (Nat → α) → (Nat → α) → Nat → α} {cl : Bool} {x y : σ × Train α}
    (h : TwinS V S I n m dL dL' cl x y) {idata odata : List (Ten α)} {vs : List ((Nat → α) × (Nat → α))} (hd : DataIs idata odata n m vs)
    {idata₂ odata₂ : List (Ten α)} {vs₂ : List ((Nat → α) × (Nat → α))} (hd₂ : DataIs idata₂ odata₂ n m vs₂)
    {lo k lo₂ k₂ : Nat} (hk : lo + k ≤ vs.length) (hk1 : 1 ≤ k) (hk₂ : lo₂ + k₂ ≤ vs₂.length) (hk1₂ : 1 ≤ k₂) {a₁ a₂ : α}
    (hg : ∀ ps, List.Forall₂ (Grad.Times c a₁ a₂) (gradSum dL ps ((vs.drop lo).take k)) (gradSum dL' ps ((vs₂.drop lo₂).take k₂))) :
    ∃ x' y', TEv.run upd idata odata x (stepTrace a₁ lo k) = .ok x' ∧ TEv.run upd idata₂ odata₂ y (stepTrace a₂ lo₂ k₂) = .ok y' ∧
      TwinS V S I n m dL dL' false x' y' := by
  obtain ⟨s₁, t₁⟩ := x
  obtain ⟨s₂, t₂⟩ := y
  obtain ⟨hs, hI, A, B, hA, hB, hT, _⟩ := h
  dsimp only at hs hI hA hB
  obtain ⟨u₁, e₁, A1, hA1, c₁⟩ := hA.accRun hd hk
  obtain ⟨u₂, e₂, B1, hB1, c₂⟩ := hB.accRun hd₂ hk₂
  have hpos : 0 < ((vs.drop lo).take k).length := by simp; omega
  have hpos₂ : 0 < ((vs₂.drop lo₂).take k₂).length := by simp; omega
  have T1 : List.Forall₂ (Twin Eq V) A1 B1 := Twin.of_maps hT (map_triple c₁.p c₁.keys) (map_triple c₂.p c₂.keys)
  have hne : (vs.drop lo).take k ≠ [] := List.length_pos_iff.1 hpos
  have hne₂ : (vs₂.drop lo₂).take k₂ ≠ [] := List.length_pos_iff.1 hpos₂
  have ea : List.Forall₂ (Grad.Times c a₁ a₂) (A1.map DSt.used) (B1.map DSt.used) := by
    rw [c₁.used hne, c₂.used hne₂, Twin.map_p hT]; exact hg _
  have ec : A1.map (·.acc) = B1.map (·.acc) := by
    have k1 := List.map_congr_left (f := fun a : DSt α => a.acc) (g := fun _ => decide (0 < ((vs.drop lo).take k).length)) c₁.acc
    have k2 := List.map_congr_left (f := fun a : DSt α => a.acc) (g := fun _ => decide (0 < ((vs₂.drop lo₂).take k₂).length)) c₂.acc
    rw [k1, k2, List.map_const', List.map_const', T1.length_eq, decide_eq_true hpos, decide_eq_true hpos₂]
  obtain ⟨r₁, r₂, q₁, q₂, hs, hI, A', B', h1, h2, T2, N, _, _⟩ := Net.updating_scale ho hA1.net hB1.net T1 ea ec hs hI
  have hl : A'.length = A1.length := by have := congrArg List.length N; simpa using this
  have hlB : B'.length = B1.length := by rw [← T2.length_eq, hl, T1.length_eq]
  have ch : Chain n (A'.map (·.p)) m := Chain.congr (by rw [List.map_map, List.map_map]; exact N.symm) hA1.chain
  refine ⟨(r₁.1, { u₁ with net := r₁.2 }), (r₂.1, { u₂ with net := r₂.2 }), ?_, ?_, hs, hI, A', B',
    ⟨h1, hl ▸ hA1.two, hl ▸ hA1.word, ch, hA1.delta, hA1.loss⟩,
    ⟨h2, hlB ▸ hB1.two, hlB ▸ hB1.word, Twin.map_p T2 ▸ ch, hB1.delta, hB1.loss⟩, T2, fun h => by simp at h⟩
  · rw [run_step, ← bind_assoc, e₁, bind_ok]
    unfold Train.updating; dsimp only
    rw [q₁, bind_ok]; rfl
  · rw [run_step, ← bind_assoc, e₂, bind_ok]
    unfold Train.updating; dsimp only
    rw [q₂, bind_ok]; rfl

theorem TwinS.steps (ho : ScaleOpt upd c S V I) {n m : Nat} {dL dL' : (Nat → α) → (Nat → α) → Nat → α}
    {idata odata : List (Ten α)} {vs : List ((Nat → α) × (Nat → α))} (hd : DataIs idata odata n m vs)
    {idata₂ odata₂ : List (Ten α)} {vs₂ : List ((Nat → α) × (Nat → α))} (hd₂ : DataIs idata₂ odata₂ n m vs₂) (a₁ a₂ : α) :
    ∀ (ws : List ((Nat × Nat) × Nat × Nat)), (∀ w ∈ ws, w.1.1 + w.1.2 ≤ vs.length ∧ 1 ≤ w.1.2 ∧ w.2.1 + w.2.2 ≤ vs₂.length ∧ 1 ≤ w.2.2 ∧
      ∀ ps, List.Forall₂ (Grad.Times c a₁ a₂) (gradSum dL ps ((vs.drop w.1.1).take w.1.2)) (gradSum dL' ps ((vs₂.drop w.2.1).take w.2.2))) →
    ∀ {cl : Bool} {x y : σ × Train α}, TwinS V S I n m dL dL' cl x y →
    ∃ x' y', TEv.run upd idata odata x (ws.flatMap (fun w => stepTrace a₁ w.1.1 w.1.2)) = .ok x' ∧
      TEv.run upd idata₂ odata₂ y (ws.flatMap (fun w => stepTrace a₂ w.2.1 w.2.2)) = .ok y' ∧ TwinS V S I n m dL dL' false x' y'
  | [], _, cl, x, y, h => ⟨x, y, rfl, rfl, by
      obtain ⟨h1, h2, A, B, h3, h4, h5, _⟩ := h
      exact ⟨h1, h2, A, B, h3, h4, h5, fun h => by simp at h⟩⟩
  | w :: ws, hw, cl, x, y, h => by
    obtain ⟨h1, h2, h3, h4, h5⟩ := hw w (by simp)
    obtain ⟨x1, y1, e1, e2, h⟩ := h.step ho hd hd₂ h1 h2 h3 h4 h5
    obtain ⟨x2, y2, e3, e4, h⟩ := TwinS.steps ho hd hd₂ a₁ a₂ ws (fun w hw' => hw w (by simp [hw'])) h
    refine ⟨x2, y2, ?_, ?_, h⟩
    · rw [List.flatMap_cons, TEv.run_append, e1, bind_ok, e3]
    · rw [List.flatMap_cons, TEv.run_append, e2, bind_ok, e4]

/-- One round of stochastic training. -/
theorem TwinS.sto (ho : ScaleOpt upd c S V I) {n m : Nat} {dL dL' : (Nat → α) → (Nat → α) → Nat → α} {x y : σ × Train α}
    (h : TwinS V S I n m dL dL' true x y) {idata odata : List (Ten α)} {vs : List ((Nat → α) × (Nat → α))} (hd : DataIs idata odata n m vs)
    {i : Nat} (hi : i < vs.length)
    (hg : ∀ ps vw, List.Forall₂ (Grad.Times c 1 1) (sampleGrads dL ps vw) (sampleGrads dL' ps vw)) :
    ∃ x' y', TEv.run upd idata odata x [.sample i, .update 1] = .ok x' ∧ TEv.run upd idata odata y [.sample i, .update 1] = .ok y' ∧
      TwinS V S I n m dL dL' true x' y' := by
  obtain ⟨s₁, t₁⟩ := x
  obtain ⟨s₂, t₂⟩ := y
  obtain ⟨hs, hI, A, B, hA, hB, hT, cl⟩ := h
  obtain ⟨cA, cB⟩ := cl rfl
  dsimp only at hs hI hA hB
  have e : vs[i]? = some vs[i] := List.getElem?_eq_getElem hi
  obtain ⟨u₁, e₁, hA1⟩ := hA.sample hd e
  obtain ⟨u₂, e₂, hB1⟩ := hB.sample hd e
  have lA : (sampleGrads dL (A.map (·.p)) vs[i]).length = A.length := by rw [sampleGrads_length]; simp
  have lB : (sampleGrads dL' (B.map (·.p)) vs[i]).length = B.length := by rw [sampleGrads_length]; simp
  obtain ⟨a1, a2, a3⟩ := setG_keys A _ lA
  obtain ⟨b1, b2, b3⟩ := setG_keys B _ lB
  have T1 := Twin.of_maps hT (map_triple (setG_p A _ lA) a1) (map_triple (setG_p B _ lB) b1)
  have all : ∀ {X : List (DSt α)} {l : List Bool}, X.map (·.acc) = l → (∀ c ∈ l, c = false) → ∀ a ∈ X, a.acc = false := by
    intro X l h hl a ha
    exact hl _ (h ▸ List.mem_map_of_mem ha)
  have cA1 : ∀ a ∈ setG A (sampleGrads dL (A.map (·.p)) vs[i]), a.acc = false := all a2 (by
    intro c hc; obtain ⟨a, ha, rfl⟩ := List.mem_map.1 hc; exact cA a ha)
  have cB1 : ∀ a ∈ setG B (sampleGrads dL' (B.map (·.p)) vs[i]), a.acc = false := all b2 (by
    intro c hc; obtain ⟨a, ha, rfl⟩ := List.mem_map.1 hc; exact cB a ha)
  have usedg : ∀ {X : List (DSt α)}, (∀ a ∈ X, a.acc = false) → X.map DSt.used = X.map (·.g) := by
    intro X hX
    refine List.map_congr_left (fun a ha => ?_)
    unfold DSt.used
    rw [hX a ha]; rfl
  have ea : List.Forall₂ (Grad.Times c 1 1) ((setG A (sampleGrads dL (A.map (·.p)) vs[i])).map DSt.used)
      ((setG B (sampleGrads dL' (B.map (·.p)) vs[i])).map DSt.used) := by
    rw [usedg cA1, usedg cB1, a3, b3, Twin.map_p hT]; exact hg _ _
  have ec : (setG A (sampleGrads dL (A.map (·.p)) vs[i])).map (·.acc) = (setG B (sampleGrads dL' (B.map (·.p)) vs[i])).map (·.acc) := by
    have k1 := List.map_congr_left (f := fun a : DSt α => a.acc) (g := fun _ => false) cA1
    have k2 := List.map_congr_left (f := fun a : DSt α => a.acc) (g := fun _ => false) cB1
    rw [k1, k2, List.map_const', List.map_const', T1.length_eq]
  obtain ⟨r₁, r₂, q₁, q₂, hs, hI, A', B', h1, h2, T2, N, N1, N2⟩ := Net.updating_scale ho hA1.net hB1.net T1 ea ec hs hI
  have hl : A'.length = (setG A (sampleGrads dL (A.map (·.p)) vs[i])).length := by have := congrArg List.length N; simpa using this
  have hlB : B'.length = (setG B (sampleGrads dL' (B.map (·.p)) vs[i])).length := by rw [← T2.length_eq, hl, T1.length_eq]
  have ch : Chain n (A'.map (·.p)) m := Chain.congr (by rw [List.map_map, List.map_map]; exact N.symm) hA1.chain
  refine ⟨(r₁.1, { u₁ with net := r₁.2 }), (r₂.1, { u₂ with net := r₂.2 }), ?_, ?_, hs, hI, A', B',
    ⟨h1, hl ▸ hA1.two, hl ▸ hA1.word, ch, hA1.delta, hA1.loss⟩,
    ⟨h2, hlB ▸ hB1.two, hlB ▸ hB1.word, Twin.map_p T2 ▸ ch, hB1.delta, hB1.loss⟩, T2, fun _ => ⟨?_, ?_⟩⟩
  · unfold TEv.run TEv.exec; dsimp only
    rw [e₁, bind_ok, pure_eq_ok, bind_ok]
    unfold TEv.run TEv.exec Train.updating; dsimp only
    rw [q₁, bind_ok]; rfl
  · unfold TEv.run TEv.exec; dsimp only
    rw [e₂, bind_ok, pure_eq_ok, bind_ok]
    unfold TEv.run TEv.exec Train.updating; dsimp only
    rw [q₂, bind_ok]; rfl
  · exact all N1 (by intro c hc; obtain ⟨a, ha, rfl⟩ := List.mem_map.1 hc; exact cA1 a ha)
  · exact all N2 (by intro c hc; obtain ⟨a, ha, rfl⟩ := List.mem_map.1 hc; exact cB1 a ha)

theorem TwinS.stos (ho : ScaleOpt upd c S V I) {n m : Nat} {dL dL' : (Nat → α) → (Nat → α) → Nat → α}
    {idata odata : List (Ten α)} {vs : List ((Nat → α) × (Nat → α))} (hd : DataIs idata odata n m vs)
    (hg : ∀ ps vw, List.Forall₂ (Grad.Times c 1 1) (sampleGrads dL ps vw) (sampleGrads dL' ps vw)) :
    ∀ (is : List Nat), (∀ i ∈ is, i < vs.length) → ∀ {x y : σ × Train α}, TwinS V S I n m dL dL' true x y →
    ∃ x' y', TEv.run upd idata odata x (stoTrace is) = .ok x' ∧ TEv.run upd idata odata y (stoTrace is) = .ok y' ∧
      TwinS V S I n m dL dL' true x' y'
  | [], _, x, y, h => ⟨x, y, rfl, rfl, h⟩
  | i :: is, hw, x, y, h => by
    obtain ⟨x1, y1, e1, e2, h⟩ := h.sto ho hd (hw i (by simp)) hg
    obtain ⟨x2, y2, e3, e4, h⟩ := TwinS.stos ho hd hg is (fun j hj => hw j (by simp [hj])) h
    refine ⟨x2, y2, ?_, ?_, h⟩
    · rw [stoTrace, List.flatMap_cons, TEv.run_append, e1, bind_ok]; exact e3
    · rw [stoTrace, List.flatMap_cons, TEv.run_append, e2, bind_ok]; exact e4

theorem TwinS.params {n m : Nat} {dL dL' : (Nat → α) → (Nat → α) → Nat → α} {cl : Bool} {x y : σ × Train α}
    (h : TwinS V S I n m dL dL' cl x y) : x.2.net.map Layer.params = y.2.net.map Layer.params := by
  obtain ⟨_, _, A, B, hA, hB, hT, _⟩ := h
  exact At_params hA.net hB.net (Twin.map_p hT)

end

end Trixy
