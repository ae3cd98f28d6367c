import Verif.Proof.Rescale
import Verif.Spec.Still
/- Parameters whose gradients vanish are not moved. -/
namespace Trixy
set_option linter.unusedSectionVars false

variable {α σ : Type}

/-- `p'` is `p` after an update that left the parameters at the addresses in `Z` alone; `k` are the addresses of bias and weights. -/
def Moves (Z : Nat → Prop) (k : Nat × Nat) (p p' : Dense α) : Prop :=
  ∃ b W, p' = { p with b := b, W := W } ∧ (Z k.1 → b = p.b) ∧ (Z k.2 → W = p.W)

/-- The gradients of the parameters at addresses in `Z` vanish. -/
def GradZero [Zero α] (Z : Nat → Prop) (kp : (Nat × Nat) × Dense α) (g : Grad α) : Prop :=
  (Z kp.1.1 → ∀ j, j < kp.2.m → g.1 j = 0) ∧ (Z kp.1.2 → ∀ i j, i < kp.2.n → j < kp.2.m → g.2 i j = 0)

/-- Addresses and parameters of a layer. -/
def DSt.kp (a : DSt α) : (Nat × Nat) × Dense α := ((a.kB, a.kW), a.p)

section
variable [Field α] [DecidableEq α] {upd : Upd σ α} {Z : Nat → Prop} {V : Nat → Nat → Prop} {J : σ → Prop}

theorem StillOpt.one (ho : StillOpt upd Z V J) {s : σ} (hJ : J s) {k n : Nat} (hV : V k n) {p g : Buf α} {f h : Nat → α} (hp : VecIs p n f)
    (hg : VecIs g n h) (hz : Z k → ∀ i, i < n → h i = 0) :
    ∃ s' p' g', upd s k p g = .ok (s', p', g') ∧ J s' ∧ (∃ f', VecIs p' n f' ∧ (Z k → p' = p)) ∧ Full g' n := by
  by_cases hk : Z k
  · obtain ⟨s', g', e, h1, h2⟩ := ho.still s k n p g hJ hk hV hp.full (hg.congr (fun i hi => hz hk i hi))
    exact ⟨s', p, g', e, h1, ⟨f, hp, fun _ => rfl⟩, h2⟩
  · obtain ⟨s', p', g', e, h1, ⟨f', h2⟩, h3⟩ := ho.other s k n p g hJ hk hV hp.full hg.full
    exact ⟨s', p', g', e, h1, ⟨f', h2, fun h => absurd h hk⟩, h3⟩

theorem FC.updateWith_still (ho : StillOpt upd Z V J) {f : FC α} {n m : Nat} {b : Nat → α} {W : Nat → Nat → α} (w : f.Wf n m b W)
    (vB : V f.keyB m) (vW : V f.keyW (n * m)) {G : Buf α} {H : Mat α} {g : Grad α} (h1 : VecIs G m g.1) (h2 : MatIs H n m g.2)
    (hB : Z f.keyB → ∀ j, j < m → g.1 j = 0) (hW : Z f.keyW → ∀ i j, i < n → j < m → g.2 i j = 0) {s : σ} (hJ : J s) (alpha : α) :
    ∃ s' B' X W' Y, FC.updateWith upd s alpha f G H = .ok (s', B', X, W', Y) ∧ J s' ∧
      (∃ b', VecIs B' m b' ∧ (Z f.keyB → b' = b)) ∧ (∃ w', MatIs { f.W with data := W' } n m w' ∧ (Z f.keyW → w' = W)) ∧
      (∃ g', VecIs X m g') ∧ (∃ w', MatIs { H with data := Y } n m w') := by
  obtain ⟨x1, e1, q1⟩ := scaleUnlessOne_vec alpha h1
  obtain ⟨x2, e2, q2⟩ := scaleUnlessOne_vec alpha h2.flat
  obtain ⟨s1, B', y1, u1, hJ, ⟨b', hb, eb⟩, Y1⟩ := ho.one hJ vB w.B q1 (fun hz i hi => by rw [hB hz i hi, zero_mul])
  obtain ⟨s2, W', y2, u2, hJ, ⟨w', hw, ew⟩, ⟨z2, Z2⟩⟩ := ho.one hJ vW w.W.flat q2 (fun hz i hi => by
    have hm : 0 < m := by
      rcases Nat.eq_zero_or_pos m with rfl | h
      · simp at hi
      · exact h
    rw [hW hz _ _ ((Nat.div_lt_iff_lt_mul hm).2 hi) (Nat.mod_lt _ hm), zero_mul])
  refine ⟨s2, B', y1, W', y2, ?_, hJ, ?_, ?_, Y1, ⟨_, MatIs.of_flat' (m := { H with data := y2 }) h2.1 h2.2.1 Z2⟩⟩
  · unfold FC.updateWith
    rw [e1, bind_ok, e2, bind_ok, u1, bind_ok]; dsimp only
    rw [u2, bind_ok]; rfl
  · by_cases hz : Z f.keyB
    · exact ⟨b, by rw [eb hz]; exact w.B, fun _ => rfl⟩
    · exact ⟨b', hb, fun h => absurd h hz⟩
  · by_cases hz : Z f.keyW
    · exact ⟨W, by rw [ew hz]; exact w.W, fun _ => rfl⟩
    · exact ⟨_, MatIs.of_flat' (m := { f.W with data := W' }) w.W.1 w.W.2.1 hw, fun h => absurd h hz⟩

theorem FC.update_still (ho : StillOpt upd Z V J) {f : FC α} {a : DSt α} (h : f.At a) (vB : V a.kB a.p.m) (vW : V a.kW (a.p.n * a.p.m))
    (hz : GradZero Z a.kp a.used) {s : σ} (hJ : J s) (alpha : α) :
    ∃ r, f.update upd s alpha = .ok r ∧ J r.1 ∧ ∃ a', r.2.At a' ∧ (a'.kB, a'.kW) = (a.kB, a.kW) ∧ a'.acc = a.acc ∧
      Moves Z (a.kB, a.kW) a.p a'.p := by
  obtain ⟨p, g, a0, c, k1, k2⟩ := a
  have w1 := h.wf
  have a1 := h.acc
  have kB := h.kB; have kW := h.kW
  dsimp only at kB kW a1
  have V1 : V f.keyB p.m := by rw [kB]; exact vB
  have V2 : V f.keyW (p.n * p.m) := by rw [kW]; exact vW
  cases c with
  | true =>
    have z1 : Z f.keyB → ∀ j, j < p.m → a0.1 j = 0 := fun hk => hz.1 (kB ▸ hk)
    have z2 : Z f.keyW → ∀ i j, i < p.n → j < p.m → a0.2 i j = 0 := fun hk => hz.2 (kW ▸ hk)
    obtain ⟨s1, B', X, W', Y, u, hJ, ⟨b', hb, eb⟩, ⟨w', hw, ew⟩, ⟨g1, hg1⟩, ⟨x1, hx1⟩⟩ :=
      FC.updateWith_still ho w1 V1 V2 h.aB h.aW z1 z2 hJ alpha
    refine ⟨(s1, { f with B := B', gradBs := X, W := { f.W with data := W' }, gradWs := { f.gradWs with data := Y } }), ?_, hJ,
      ⟨{ p with b := b', W := w' }, g, (g1, x1), true, k1, k2⟩, ⟨?_, h.act, h.gB, h.gW, hg1, hx1, a1, kB, kW⟩, rfl, rfl,
      b', w', rfl, fun hk => eb (by rw [kB]; exact hk), fun hk => ew (by rw [kW]; exact hk)⟩
    · unfold FC.update
      rw [if_pos a1, u, bind_ok]; rfl
    · exact { w1 with B := hb, W := hw, gradBs := ⟨_, hg1⟩, gradWs := ⟨_, hx1⟩ }
  | false =>
    have z1 : Z f.keyB → ∀ j, j < p.m → g.1 j = 0 := fun hk => hz.1 (kB ▸ hk)
    have z2 : Z f.keyW → ∀ i j, i < p.n → j < p.m → g.2 i j = 0 := fun hk => hz.2 (kW ▸ hk)
    obtain ⟨s1, B', X, W', Y, u, hJ, ⟨b', hb, eb⟩, ⟨w', hw, ew⟩, ⟨g1, hg1⟩, ⟨x1, hx1⟩⟩ :=
      FC.updateWith_still ho w1 V1 V2 h.gB h.gW z1 z2 hJ alpha
    refine ⟨(s1, { f with B := B', gradB := X, W := { f.W with data := W' }, gradW := { f.gradW with data := Y } }), ?_, hJ,
      ⟨{ p with b := b', W := w' }, (g1, x1), a0, false, k1, k2⟩, ⟨?_, h.act, hg1, hx1, h.aB, h.aW, a1, kB, kW⟩, rfl, rfl,
      b', w', rfl, fun hk => eb (by rw [kB]; exact hk), fun hk => ew (by rw [kW]; exact hk)⟩
    · unfold FC.update
      rw [if_neg (by rw [a1]; simp), u, bind_ok]; rfl
    · exact { w1 with B := hb, W := hw, gradB := ⟨_, hg1⟩, gradW := ⟨_, hx1⟩ }

/-- What an update does to addresses and parameters. -/
def MovesAll (Z : Nat → Prop) (A A' : List ((Nat × Nat) × Dense α)) : Prop :=
  List.Forall₂ (fun x y => y.1 = x.1 ∧ Moves Z x.1 x.2 y.2) A A'

/-- Sizes are what the optimizer expects. -/
def SizedAll (V : Nat → Nat → Prop) (A : List ((Nat × Nat) × Dense α)) : Prop := ∀ x ∈ A, V x.1.1 x.2.m ∧ V x.1.2 (x.2.n * x.2.m)

theorem Net.updating_still (ho : StillOpt upd Z V J) (alpha : α) : ∀ {A : List (DSt α)} {net : Net α} {s : σ},
    net.At A → SizedAll V (A.map DSt.kp) → List.Forall₂ (GradZero Z) (A.map DSt.kp) (A.map DSt.used) → J s →
    ∃ r, Net.updating upd alpha s net = .ok r ∧ J r.1 ∧ ∃ A', r.2.At A' ∧ MovesAll Z (A.map DSt.kp) (A'.map DSt.kp) ∧
      A'.map (·.acc) = A.map (·.acc) := by
  intro A net s h
  rw [Net.updating_eq]
  induction h generalizing s with
  | nil => intro _ _ hJ; exact ⟨_, rfl, hJ, [], .nil, .nil, rfl⟩
  | @cons l a net A hl _ ih =>
    intro hv hz hJ
    obtain ⟨f, rfl, hf⟩ := hl
    rw [List.map_cons, List.map_cons] at hz
    cases hz with
    | cons hz hz' =>
    have hv1 := hv a.kp (by simp)
    obtain ⟨r, e, hJ, a', ha', n1, n2, n3⟩ := FC.update_still ho hf hv1.1 hv1.2 hz hJ alpha
    obtain ⟨t, e', hJ, A', hA', M, N⟩ := ih (fun x hx => hv x (by simp only [List.map_cons, List.mem_cons]; exact Or.inr hx)) hz' hJ
    refine ⟨(t.1, .fc r.2 :: t.2), ?_, hJ, a' :: A', .cons ⟨_, rfl, ha'⟩ hA', .cons ⟨n1, n3⟩ M, by rw [List.map_cons, List.map_cons, N, n2]⟩
    have : Layer.update upd s alpha (.fc f) = .ok (r.1, .fc r.2) := by
      show (FC.update upd s alpha f >>= _) = _
      rw [e]; rfl
    unfold eachM
    rw [this, bind_ok]; dsimp only
    rw [e', bind_ok]; rfl

end

section
variable [Field α] [LT α] [DecidableLT α] [DecidableEq α] {upd : Upd σ α} {Z : Nat → Prop} {V : Nat → Nat → Prop} {J : σ → Prop}

theorem MovesAll.shape {A A' : List ((Nat × Nat) × Dense α)} (h : MovesAll Z A A') :
    A'.map (fun x => (x.2.n, x.2.m)) = A.map (fun x => (x.2.n, x.2.m)) := by
  induction h with
  | nil => rfl
  | cons h _ ih =>
    obtain ⟨_, b, W, e, _⟩ := h
    rw [List.map_cons, List.map_cons, ih, e]

theorem MovesAll.sized {A A' : List ((Nat × Nat) × Dense α)} (h : MovesAll Z A A') (hv : SizedAll V A) : SizedAll V A' := by
  induction h with
  | nil => exact hv
  | @cons x y A A' h _ ih =>
    obtain ⟨e1, b, W, e, _⟩ := h
    intro z hz
    rcases List.mem_cons.1 hz with rfl | hz
    · have := hv x (by simp)
      rw [e1, e]; exact this
    · exact ih (fun w hw => hv w (by simp [hw])) z hz

theorem gradZero_sum (dL : (Nat → α) → (Nat → α) → Nat → α) (kps : List ((Nat × Nat) × Dense α)) (vs : List ((Nat → α) × (Nat → α)))
    (h : ∀ vw ∈ vs, List.Forall₂ (GradZero Z) kps (sampleGrads dL (kps.map (·.2)) vw)) :
    List.Forall₂ (GradZero Z) kps (gradSum dL (kps.map (·.2)) vs) := by
  have start : List.Forall₂ (GradZero Z) kps ((kps.map (·.2)).map (fun _ => (zeroGrad : Grad α))) := by
    clear h
    induction kps with
    | nil => exact .nil
    | cons p ps ih => exact .cons ⟨fun _ j _ => rfl, fun _ i j _ _ => rfl⟩ ih
  unfold gradSum
  generalize kps.map (·.2) = ps at start h
  generalize ps.map (fun _ => (zeroGrad : Grad α)) = acc at start
  induction vs generalizing acc with
  | nil => exact start
  | cons v vs ih =>
    rw [List.foldl_cons]
    refine ih (fun w hw => h w (by simp [hw])) _ ?_
    have := h v (by simp)
    clear h ih
    generalize sampleGrads dL ps v = gs at this
    induction start generalizing gs with
    | nil => cases this; exact .nil
    | @cons kp g kps acc h1 _ ih =>
      cases this with
      | @cons _ h _ hs h2 h3 =>
        refine .cons ⟨fun hz j hj => ?_, fun hz i j hi hj => ?_⟩ (ih _ h3)
        · simp only [addGrad]; rw [h1.1 hz j hj, h2.1 hz j hj, add_zero]
        · simp only [addGrad]; rw [h1.2 hz i j hi hj, h2.2 hz i j hi hj, add_zero]

/-- A training object in a situation `Q` (of addresses and parameters). -/
def StillT (V : Nat → Nat → Prop) (J : σ → Prop) (n m : Nat) (dL : (Nat → α) → (Nat → α) → Nat → α)
    (Q : List ((Nat × Nat) × Dense α) → Prop) (clean : Bool) (x : σ × Train α) : Prop :=
  J x.1 ∧ ∃ A : List (DSt α), x.2.At A n m dL ∧ SizedAll V (A.map DSt.kp) ∧ Q (A.map DSt.kp) ∧ (clean = true → ∀ a ∈ A, a.acc = false)

theorem kp_p (A : List (DSt α)) : (A.map DSt.kp).map (·.2) = A.map (·.p) := by rw [List.map_map]; rfl

theorem kp_congr {A A' : List (DSt α)} (h : A'.map (·.p) = A.map (·.p)) (hk : A'.map (fun a => (a.kB, a.kW)) = A.map (fun a => (a.kB, a.kW))) :
    A'.map DSt.kp = A.map DSt.kp := by
  induction A generalizing A' with
  | nil => cases A' with
    | nil => rfl
    | cons => simp at h
  | cons a A ih =>
    cases A' with
    | nil => simp at h
    | cons a' A' =>
      rw [List.map_cons, List.map_cons] at h hk ⊢
      injection h with h h'
      injection hk with hk hk'
      rw [ih h' hk']
      unfold DSt.kp
      rw [h, hk]

variable {Q : List ((Nat × Nat) × Dense α) → Prop}

theorem StillT.finish (ho : StillOpt upd Z V J) {n m : Nat} {dL : (Nat → α) → (Nat → α) → Nat → α} {s : σ} {u : Train α} (hJ : J s)
    (hQ : ∀ A A', Q A → MovesAll Z A A' → Q A') {A A1 : List (DSt α)} (hA1 : u.At A1 n m dL) (hv : SizedAll V (A.map DSt.kp)) (q : Q (A.map DSt.kp))
    (ek : A1.map DSt.kp = A.map DSt.kp) (hz : List.Forall₂ (GradZero Z) (A1.map DSt.kp) (A1.map DSt.used)) (alpha : α) (cl : Bool)
    (hc : cl = true → ∀ a ∈ A1, a.acc = false) :
    ∃ x', Train.updating upd alpha (s, u) = .ok x' ∧ StillT V J n m dL Q cl x' := by
  obtain ⟨r, e, hJ, A', hA', M, N⟩ := Net.updating_still ho alpha hA1.net (ek ▸ hv) hz hJ
  have hl : A'.length = A1.length := by have := congrArg List.length N; simpa using this
  have ch : Chain n (A'.map (·.p)) m := by
    have := M.shape
    rw [List.map_map, List.map_map] at this
    exact Chain.congr (by rw [List.map_map, List.map_map]; exact this.symm) hA1.chain
  refine ⟨(r.1, { u with net := r.2 }), ?_, hJ, A', ⟨hA', hl ▸ hA1.two, hl ▸ hA1.word, ch, hA1.delta, hA1.loss⟩, M.sized (ek ▸ hv), hQ _ _ (ek ▸ q) M, ?_⟩
  · unfold Train.updating
    rw [e, bind_ok]; rfl
  · intro e a ha
    have h1 : a.acc ∈ A'.map (·.acc) := List.mem_map_of_mem ha
    rw [N] at h1
    obtain ⟨b, hb, hb2⟩ := List.mem_map.1 h1
    rw [← hb2]; exact hc e b hb

/-- One averaged step. -/
theorem StillT.step (ho : StillOpt upd Z V J) {n m : Nat} {dL : (Nat → α) → (Nat → α) → Nat → α} {cl : Bool} {x : σ × Train α}
    {idata odata : List (Ten α)} {vs : List ((Nat → α) × (Nat → α))} (hd : DataIs idata odata n m vs)
    (hQ : ∀ A A', Q A → MovesAll Z A A' → Q A')
    (hG : ∀ A, Q A → Chain n (A.map (·.2)) m → ∀ vw ∈ vs, List.Forall₂ (GradZero Z) A (sampleGrads dL (A.map (·.2)) vw))
    (h : StillT V J n m dL Q cl x) {lo k : Nat} (hk : lo + k ≤ vs.length) (hk1 : 1 ≤ k) (alpha : α) :
    ∃ x', TEv.run upd idata odata x (stepTrace alpha lo k) = .ok x' ∧ StillT V J n m dL Q false x' := by
  obtain ⟨s, t⟩ := x
  obtain ⟨hJ, A, hA, hv, q, _⟩ := h
  dsimp only at hJ hA
  obtain ⟨u, e, A1, hA1, c⟩ := hA.accRun hd hk
  have hpos : 0 < ((vs.drop lo).take k).length := by simp; omega
  have hne : (vs.drop lo).take k ≠ [] := List.length_pos_iff.1 hpos
  have ek := kp_congr c.p c.keys
  have hz : List.Forall₂ (GradZero Z) (A1.map DSt.kp) (A1.map DSt.used) := by
    rw [c.used hne, ek, ← kp_p]
    exact gradZero_sum dL _ _ (fun vw hvw => hG _ q (by rw [kp_p]; exact hA.chain) vw (List.mem_of_mem_drop (List.mem_of_mem_take hvw)))
  obtain ⟨x', e', h'⟩ := StillT.finish ho hJ hQ hA1 hv q ek hz alpha false (fun h => by simp at h)
  refine ⟨x', ?_, h'⟩
  rw [run_step, ← bind_assoc, e, bind_ok]; exact e'

theorem StillT.steps (ho : StillOpt upd Z V J) {n m : Nat} {dL : (Nat → α) → (Nat → α) → Nat → α}
    {idata odata : List (Ten α)} {vs : List ((Nat → α) × (Nat → α))} (hd : DataIs idata odata n m vs)
    (hQ : ∀ A A', Q A → MovesAll Z A A' → Q A')
    (hG : ∀ A, Q A → Chain n (A.map (·.2)) m → ∀ vw ∈ vs, List.Forall₂ (GradZero Z) A (sampleGrads dL (A.map (·.2)) vw)) (alpha : α) :
    ∀ (ws : List (Nat × Nat)), (∀ w ∈ ws, w.1 + w.2 ≤ vs.length ∧ 1 ≤ w.2) → ∀ {cl : Bool} {x : σ × Train α}, StillT V J n m dL Q cl x →
    ∃ x', TEv.run upd idata odata x (ws.flatMap (fun w => stepTrace alpha w.1 w.2)) = .ok x' ∧ StillT V J n m dL Q false x'
  | [], _, cl, x, ⟨h1, A, h2, h3, h4, _⟩ => ⟨x, rfl, h1, A, h2, h3, h4, fun h => by simp at h⟩
  | w :: ws, hw, cl, x, h => by
    obtain ⟨h1, h2⟩ := hw w (by simp)
    obtain ⟨x1, e1, h⟩ := h.step ho hd hQ hG h1 h2 alpha
    obtain ⟨x2, e2, h⟩ := StillT.steps ho hd hQ hG alpha ws (fun w hw' => hw w (by simp [hw'])) h
    exact ⟨x2, by rw [List.flatMap_cons, TEv.run_append, e1, bind_ok, e2], h⟩

/-- One round of stochastic training. -/
theorem StillT.sto (ho : StillOpt upd Z V J) {n m : Nat} {dL : (Nat → α) → (Nat → α) → Nat → α} {x : σ × Train α}
    {idata odata : List (Ten α)} {vs : List ((Nat → α) × (Nat → α))} (hd : DataIs idata odata n m vs)
    (hQ : ∀ A A', Q A → MovesAll Z A A' → Q A')
    (hG : ∀ A, Q A → Chain n (A.map (·.2)) m → ∀ vw ∈ vs, List.Forall₂ (GradZero Z) A (sampleGrads dL (A.map (·.2)) vw))
    (h : StillT V J n m dL Q true x) {i : Nat} (hi : i < vs.length) :
    ∃ x', TEv.run upd idata odata x [.sample i, .update 1] = .ok x' ∧ StillT V J n m dL Q true x' := by
  obtain ⟨s, t⟩ := x
  obtain ⟨hJ, A, hA, hv, q, cA⟩ := h
  have cA := cA rfl
  dsimp only at hJ hA
  have e : vs[i]? = some vs[i] := List.getElem?_eq_getElem hi
  obtain ⟨u, e₁, hA1⟩ := hA.sample hd e
  have lA : (sampleGrads dL (A.map (·.p)) vs[i]).length = A.length := by rw [sampleGrads_length]; simp
  obtain ⟨a1, a2, a3⟩ := setG_keys A _ lA
  have ek := kp_congr (setG_p A _ lA) a1
  have cA1 : ∀ a ∈ setG A (sampleGrads dL (A.map (·.p)) vs[i]), a.acc = false := by
    intro a ha
    have h1 : a.acc ∈ (setG A (sampleGrads dL (A.map (·.p)) vs[i])).map (·.acc) := List.mem_map_of_mem ha
    rw [a2] at h1
    obtain ⟨b, hb, hb2⟩ := List.mem_map.1 h1
    rw [← hb2]; exact cA b hb
  have hz : List.Forall₂ (GradZero Z) ((setG A (sampleGrads dL (A.map (·.p)) vs[i])).map DSt.kp)
      ((setG A (sampleGrads dL (A.map (·.p)) vs[i])).map DSt.used) := by
    have : (setG A (sampleGrads dL (A.map (·.p)) vs[i])).map DSt.used = (setG A (sampleGrads dL (A.map (·.p)) vs[i])).map (·.g) := by
      refine List.map_congr_left (fun a ha => ?_)
      unfold DSt.used
      rw [cA1 a ha]; rfl
    rw [this, a3, ek, ← kp_p]
    exact hG _ q (by rw [kp_p]; exact hA.chain) _ (List.getElem_mem hi)
  obtain ⟨x', e', h'⟩ := StillT.finish ho hJ hQ hA1 hv q ek hz 1 true (fun _ => cA1)
  refine ⟨x', ?_, h'⟩
  unfold TEv.run TEv.exec; dsimp only
  rw [e₁, bind_ok, pure_eq_ok, bind_ok]
  unfold TEv.run TEv.exec; dsimp only
  rw [e', bind_ok]; rfl

theorem StillT.stos (ho : StillOpt upd Z V J) {n m : Nat} {dL : (Nat → α) → (Nat → α) → Nat → α}
    {idata odata : List (Ten α)} {vs : List ((Nat → α) × (Nat → α))} (hd : DataIs idata odata n m vs)
    (hQ : ∀ A A', Q A → MovesAll Z A A' → Q A')
    (hG : ∀ A, Q A → Chain n (A.map (·.2)) m → ∀ vw ∈ vs, List.Forall₂ (GradZero Z) A (sampleGrads dL (A.map (·.2)) vw)) :
    ∀ (is : List Nat), (∀ i ∈ is, i < vs.length) → ∀ {x : σ × Train α}, StillT V J n m dL Q true x →
    ∃ x', TEv.run upd idata odata x (stoTrace is) = .ok x' ∧ StillT V J n m dL Q true x'
  | [], _, x, h => ⟨x, rfl, h⟩
  | i :: is, hw, x, h => by
    obtain ⟨x1, e1, h⟩ := h.sto ho hd hQ hG (hw i (by simp))
    obtain ⟨x2, e2, h⟩ := StillT.stos ho hd hQ hG is (fun j hj => hw j (by simp [hj])) h
    refine ⟨x2, ?_, h⟩
    rw [stoTrace, List.flatMap_cons, TEv.run_append, e1, bind_ok]; exact e2

end

end Trixy
