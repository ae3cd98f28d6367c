import Verif.Spec.Rule
import Verif.Proof.Still
/- Training a dense network with an optimizer that follows a rule. -/
namespace Trixy
set_option linter.unusedSectionVars false

variable {α μ σ : Type}

/-- Layer `a` has the parameters `x.1`, and `M` holds the memory `x.2` of it. -/
structure LIs (size : Nat → Nat) (M : Nat → Nat → μ) (a : DSt α) (x : Dense α × LMem μ) : Prop where
  p : a.p = x.1
  sB : size a.kB = a.p.m
  sW : size a.kW = a.p.n * a.p.m
  B : ∀ j, j < a.p.m → M a.kB j = x.2.1 j
  W : ∀ k, k < a.p.n * a.p.m → M a.kW k = x.2.2 (k / a.p.m) (k % a.p.m)

def aKeys (A : List (DSt α)) : List Nat := A.flatMap (fun a => [a.kB, a.kW])

theorem LIs.congr {size : Nat → Nat} {M M' : Nat → Nat → μ} {a : DSt α} {x : Dense α × LMem μ} (h : LIs size M a x) (h1 : M' a.kB = M a.kB) (h2 : M' a.kW = M a.kW) :
    LIs size M' a x := ⟨h.p, h.sB, h.sW, fun j hj => by rw [h1]; exact h.B j hj, fun j hj => by rw [h2]; exact h.W j hj⟩

theorem LIs_congr_all {size : Nat → Nat} {M M1 : Nat → Nat → μ} {A : List (DSt α)} {xs : List (Dense α × LMem μ)} (h : List.Forall₂ (LIs size M) A xs) :
    (∀ b ∈ A, M1 b.kB = M b.kB ∧ M1 b.kW = M b.kW) → List.Forall₂ (LIs size M1) A xs := by
  induction h with
  | nil => exact fun _ => .nil
  | @cons b y A xs hb _ ih => exact fun this => .cons (hb.congr (this b (by simp)).1 (this b (by simp)).2) (ih (fun c hc => this c (by simp [hc])))

section
variable [Field α] [DecidableEq α] {upd : Upd σ α} {R : Rule α μ} {size : Nat → Nat} {J : σ → Nat → (Nat → Nat → μ) → Prop}

theorem FC.updateWith_rule (ho : RuleOpt upd R size J) {f : FC α} {n m : Nat} {b : Nat → α} {W : Nat → Nat → α} (hB : VecIs f.B m b) (hW : MatIs f.W n m W)
    (sB : size f.keyB = m) (sW : size f.keyW = n * m) (hk : f.keyW ≠ f.keyB) {GB : Buf α} {GW : Mat α} {g : Grad α} (h1 : VecIs GB m g.1) (h2 : MatIs GW n m g.2)
    {s : σ} {T : Nat} {M : Nat → Nat → μ} (hJ : J s T M) (alpha : α) :
    Ok (FC.updateWith upd s alpha f GB GW) (fun r =>
      VecIs r.2.1 m (fun j => (R.step T (M f.keyB j) (b j) (g.1 j * alpha)).2) ∧ Full r.2.2.1 m ∧
      VecIs r.2.2.2.1 (n * m) (fun k => (R.step (T + 1) (M f.keyW k) (W (k / m) (k % m)) (g.2 (k / m) (k % m) * alpha)).2) ∧ Full r.2.2.2.2 (n * m) ∧
      ∃ M', J r.1 (T + 2) M' ∧ M' f.keyB = (fun j => (R.step T (M f.keyB j) (b j) (g.1 j * alpha)).1) ∧
        M' f.keyW = (fun k => (R.step (T + 1) (M f.keyW k) (W (k / m) (k % m)) (g.2 (k / m) (k % m) * alpha)).1) ∧
        ∀ k, k ≠ f.keyB → k ≠ f.keyW → M' k = M k) := by
  unfold FC.updateWith
  refine (scaleUnlessOne_spec (fun a => mul_one a) h1 alpha).bind (fun g1 q1 => ?_)
  refine (scaleUnlessOne_spec (fun a => mul_one a) h2.flat alpha).bind (fun g2 q2 => ?_)
  refine (ho s T M f.keyB f.B g1 _ _ hJ (sB.symm ▸ hB) (sB.symm ▸ q1)).bind (fun r1 s1 => ?_)
  obtain ⟨s1, s2, s3⟩ := s1
  obtain ⟨st1, B', gB'⟩ := r1
  dsimp only at s1 s2 s3 ⊢
  refine (ho st1 (T + 1) _ f.keyW f.W.data g2 _ _ s3 (sW.symm ▸ hW.flat) (sW.symm ▸ q2)).bind (fun r2 t1 => ?_)
  obtain ⟨t1, t2, t3⟩ := t1
  obtain ⟨st2, W', gW'⟩ := r2
  dsimp only at t1 t2 t3 ⊢
  rw [sB] at s1 s2
  rw [sW] at t1 t2
  rw [if_neg hk] at t1 t3
  refine Ok_ok.2 ⟨s1, s2, t1, t2, _, t3, ?_, ?_, fun k k1 k2 => ?_⟩
  · rw [if_neg (Ne.symm hk), if_pos rfl]
  · rw [if_pos rfl]
  · rw [if_neg k2, if_neg k1]

theorem FC.update_rule (ho : RuleOpt upd R size J) {f : FC α} {a : DSt α} (h : f.At a) {x : Dense α × LMem μ} {s : σ} {T : Nat} {M : Nat → Nat → μ}
    (hx : LIs size M a x) (hk : a.kW ≠ a.kB) (hJ : J s T M) (alpha : α) :
    Ok (f.update upd s alpha) (fun r => ∃ M' a', J r.1 (T + 2) M' ∧ (∀ k, k ≠ a.kB → k ≠ a.kW → M' k = M k) ∧ r.2.At a' ∧ (a'.kB, a'.kW) = (a.kB, a.kW) ∧
      a'.acc = a.acc ∧ LIs size M' a' (R.layer alpha T x a.used)) := by
  obtain ⟨p, g, a0, c, k1, k2⟩ := a
  obtain ⟨p', q⟩ := x
  obtain ⟨e, sB, sW, mB, mW⟩ := hx
  dsimp only at e sB sW mB mW hk
  subst e
  have kB : f.keyB = k1 := h.kB
  have kW : f.keyW = k2 := h.kW
  subst kB kW
  have fin : ∀ {M' : Nat → Nat → μ} {u : Grad α} {w : Nat → Nat → α}, M' f.keyB = (fun j => (R.step T (M f.keyB j) (p.b j) (u.1 j * alpha)).1) →
      M' f.keyW = (fun k => (R.step (T + 1) (M f.keyW k) (p.W (k / p.m) (k % p.m)) (u.2 (k / p.m) (k % p.m) * alpha)).1) →
      ∀ {p1 : Dense α} {g1 a1 : Grad α} {c1 : Bool}, p1 = (R.layer alpha T (p, q) u).1 → LIs size M' ⟨p1, g1, a1, c1, f.keyB, f.keyW⟩ (R.layer alpha T (p, q) u) := by
    intro M' u w e1 e2 p1 g1 a1 c1 ep
    refine ⟨ep, by rw [ep]; exact sB, by rw [ep]; exact sW, fun j hj => ?_, fun k hk => ?_⟩
    · dsimp only at hj ⊢
      rw [ep] at hj
      have hj : j < p.m := hj
      show _ = (R.step T (q.1 j) (p.b j) (u.1 j * alpha)).1
      rw [e1]; dsimp only; rw [mB j hj]
    · dsimp only at hk ⊢
      rw [ep] at hk ⊢
      have hk : k < p.n * p.m := hk
      show _ = (R.step (T + 1) (q.2 (k / p.m) (k % p.m)) (p.W (k / p.m) (k % p.m)) (u.2 (k / p.m) (k % p.m) * alpha)).1
      rw [e2]; dsimp only; rw [mW k hk]
  have bfix : ∀ {B : Buf α} {u : Nat → α}, VecIs B p.m (fun j => (R.step T (M f.keyB j) (p.b j) (u j * alpha)).2) → VecIs B p.m (fun j => (R.step T (q.1 j) (p.b j) (u j * alpha)).2) :=
    fun hB => hB.congr (fun j hj => by rw [mB j hj])
  have wfix : ∀ {B : Buf α} {u : Nat → Nat → α}, VecIs B (p.n * p.m) (fun k => (R.step (T + 1) (M f.keyW k) (p.W (k / p.m) (k % p.m)) (u (k / p.m) (k % p.m) * alpha)).2) →
      VecIs B (p.n * p.m) (fun k => (fun i j => (R.step (T + 1) (q.2 i j) (p.W i j) (u i j * alpha)).2) (k / p.m) (k % p.m)) :=
    fun hB => hB.congr (fun j hj => by rw [mW j hj])
  unfold FC.update
  cases c with
  | false =>
    rw [h.acc, if_neg (by simp)]
    refine (FC.updateWith_rule ho h.wf.B h.wf.W sB sW hk h.gB h.gW hJ alpha).bind (fun r hr => ?_)
    obtain ⟨s', B, gB, W, gW⟩ := r
    obtain ⟨q1, ⟨z1, q2⟩, q3, ⟨z2, q4⟩, M', hJ', e1, e2, e3⟩ := hr
    dsimp only at q1 q2 q3 q4 hJ'
    have k1 := (show MatIs f.W p.n p.m p.W from h.wf.W).of_data (g := fun i j => (R.step (T + 1) (q.2 i j) (p.W i j) (g.2 i j * alpha)).2) (wfix q3)
    have k2 := MatIs.of_flat' (m := { f.gradW with data := gW }) h.gW.1 h.gW.2.1 q4
    exact Ok_ok.2 ⟨M', ⟨(R.layer alpha T (p, q) g).1, (z1, _), a0, false, f.keyB, f.keyW⟩, hJ', e3,
      ⟨{ h.wf with B := bfix q1, W := k1, gradB := ⟨_, q2⟩, gradW := ⟨_, k2⟩ }, h.act, q2, k2, h.aB, h.aW, rfl, rfl, rfl⟩, rfl, rfl, fin (w := p.W) e1 e2 rfl⟩
  | true =>
    rw [h.acc, if_pos rfl]
    refine (FC.updateWith_rule ho h.wf.B h.wf.W sB sW hk h.aB h.aW hJ alpha).bind (fun r hr => ?_)
    obtain ⟨s', B, gB, W, gW⟩ := r
    obtain ⟨q1, ⟨z1, q2⟩, q3, ⟨z2, q4⟩, M', hJ', e1, e2, e3⟩ := hr
    dsimp only at q1 q2 q3 q4 hJ'
    have k1 := (show MatIs f.W p.n p.m p.W from h.wf.W).of_data (g := fun i j => (R.step (T + 1) (q.2 i j) (p.W i j) (a0.2 i j * alpha)).2) (wfix q3)
    have k2 := MatIs.of_flat' (m := { f.gradWs with data := gW }) h.aW.1 h.aW.2.1 q4
    exact Ok_ok.2 ⟨M', ⟨(R.layer alpha T (p, q) a0).1, g, (z1, _), true, f.keyB, f.keyW⟩, hJ', e3,
      ⟨{ h.wf with B := bfix q1, W := k1, gradBs := ⟨_, q2⟩, gradWs := ⟨_, k2⟩ }, h.act, h.gB, h.gW, q2, k2, rfl, rfl, rfl⟩, rfl, rfl, fin (w := p.W) e1 e2 rfl⟩

theorem Net.updating_rule (ho : RuleOpt upd R size J) (alpha : α) : ∀ {A : List (DSt α)} {net : Net α} {s : σ} {T : Nat} {M : Nat → Nat → μ} {xs : List (Dense α × LMem μ)},
    net.At A → List.Forall₂ (LIs size M) A xs → (aKeys A).Nodup → J s T M →
    ∃ r, Net.updating upd alpha s net = .ok r ∧ ∃ M' A', J r.1 (T + 2 * xs.length) M' ∧ (∀ k, k ∉ aKeys A → M' k = M k) ∧ r.2.At A' ∧
      A'.map (fun a => (a.kB, a.kW)) = A.map (fun a => (a.kB, a.kW)) ∧ A'.map (·.acc) = A.map (·.acc) ∧
      List.Forall₂ (LIs size M') A' (R.layers alpha T xs (A.map DSt.used)) := by
  intro A net s T M xs h
  rw [Net.updating_eq]
  induction h generalizing s T M xs with
  | nil =>
    intro hx _ hJ
    cases hx
    exact ⟨_, rfl, M, [], hJ, fun _ _ => rfl, .nil, rfl, rfl, .nil⟩
  | @cons l a net A hl _ ih =>
    intro hx hn hJ
    obtain ⟨f, rfl, hf⟩ := hl
    cases hx with
    | @cons _ x _ xs hx hxs =>
    have hn' : a.kB ∉ a.kW :: aKeys A ∧ a.kW ∉ aKeys A ∧ (aKeys A).Nodup := by
      have : (a.kB :: a.kW :: aKeys A).Nodup := hn
      rw [List.nodup_cons, List.nodup_cons] at this
      exact ⟨this.1, this.2.1, this.2.2⟩
    obtain ⟨n1, n2, n3⟩ := hn'
    have n4 : a.kB ∉ aKeys A := fun h => n1 (List.mem_cons_of_mem _ h)
    have n5 : a.kW ≠ a.kB := fun h => n1 (h ▸ List.mem_cons_self ..)
    obtain ⟨r, e, M1, a', hJ1, hM1, ha', ek, ea, hx'⟩ := FC.update_rule ho hf hx n5 hJ alpha
    have hrest : List.Forall₂ (LIs size M1) A xs := by
      have : ∀ b ∈ A, M1 b.kB = M b.kB ∧ M1 b.kW = M b.kW := by
        intro b hb
        have m1 : b.kB ∈ aKeys A := List.mem_flatMap.2 ⟨b, hb, by simp⟩
        have m2 : b.kW ∈ aKeys A := List.mem_flatMap.2 ⟨b, hb, by simp⟩
        exact ⟨hM1 _ (fun h => n4 (h ▸ m1)) (fun h => n2 (h ▸ m1)), hM1 _ (fun h => n4 (h ▸ m2)) (fun h => n2 (h ▸ m2))⟩
      exact LIs_congr_all hxs this
    obtain ⟨t, e', M2, A', hJ2, hM2, hA', ek', ea', hx2⟩ := ih hrest n3 hJ1
    have ek1 : a'.kB = a.kB ∧ a'.kW = a.kW := by simpa using ek
    refine ⟨(t.1, .fc r.2 :: t.2), ?_, M2, a' :: A', ?_, fun k hk => ?_, .cons ⟨_, rfl, ha'⟩ hA', by rw [List.map_cons, List.map_cons, ek', ek], by rw [List.map_cons, List.map_cons, ea', ea], ?_⟩
    · have : Layer.update upd s alpha (.fc f) = .ok (r.1, .fc r.2) := by
        show (FC.update upd s alpha f >>= _) = _
        rw [e]; rfl
      unfold eachM
      rw [this, bind_ok]; dsimp only
      rw [e', bind_ok]; rfl
    · have : T + 2 * (x :: xs).length = T + 2 + 2 * xs.length := by rw [List.length_cons]; omega
      rw [this]; exact hJ2
    · have hk' : k ∉ a.kB :: a.kW :: aKeys A := hk
      simp only [List.mem_cons, not_or] at hk'
      rw [hM2 k hk'.2.2, hM1 k hk'.1 hk'.2.1]
    · refine .cons (hx'.congr (hM2 _ ?_) (hM2 _ ?_)) hx2
      · rw [ek1.1]; exact n4
      · rw [ek1.2]; exact n2

end

section
variable [Field α] [LT α] [DecidableLT α] [DecidableEq α] {upd : Upd σ α} {R : Rule α μ} {size : Nat → Nat} {J : σ → Nat → (Nat → Nat → μ) → Prop}

/-- A training object in the state `X` of the rule. -/
def RuleT (size : Nat → Nat) (J : σ → Nat → (Nat → Nat → μ) → Prop) (n m : Nat) (dL : (Nat → α) → (Nat → α) → Nat → α) (clean : Bool)
    (X : Nat × List (Dense α × LMem μ)) (x : σ × Train α) : Prop :=
  ∃ (M : Nat → Nat → μ) (A : List (DSt α)), J x.1 X.1 M ∧ x.2.At A n m dL ∧ (aKeys A).Nodup ∧ List.Forall₂ (LIs size M) A X.2 ∧
    (clean = true → ∀ a ∈ A, a.acc = false)

theorem LIs_p {M : Nat → Nat → μ} {A : List (DSt α)} {xs : List (Dense α × LMem μ)} (h : List.Forall₂ (LIs size M) A xs) : A.map (·.p) = xs.map (·.1) := by
  induction h with
  | nil => rfl
  | cons h _ ih => rw [List.map_cons, List.map_cons, ih, h.p]

theorem LIs_kp {M : Nat → Nat → μ} {A A' : List (DSt α)} {xs : List (Dense α × LMem μ)} (h : List.Forall₂ (LIs size M) A xs)
    (h1 : A'.map DSt.kp = A.map DSt.kp) : List.Forall₂ (LIs size M) A' xs := by
  induction h generalizing A' with
  | nil => cases A' with
    | nil => exact .nil
    | cons => simp at h1
  | @cons a x A xs h _ ih =>
    cases A' with
    | nil => simp at h1
    | cons a' A' =>
      rw [List.map_cons, List.map_cons] at h1
      injection h1 with h1 h2
      have e1 : a'.kB = a.kB := congrArg (fun y => y.1.1) h1
      have e2 : a'.kW = a.kW := congrArg (fun y => y.1.2) h1
      have e3 : a'.p = a.p := congrArg (fun y => y.2) h1
      exact .cons ⟨by rw [e3]; exact h.p, by rw [e1, e3]; exact h.sB, by rw [e2, e3]; exact h.sW, by rw [e1, e3]; exact h.B, by rw [e2, e3]; exact h.W⟩ (ih h2)

theorem aKeys_congr {A A' : List (DSt α)} (h : A'.map (fun a => (a.kB, a.kW)) = A.map (fun a => (a.kB, a.kW))) : aKeys A' = aKeys A := by
  induction A generalizing A' with
  | nil => cases A' with
    | nil => rfl
    | cons => simp at h
  | cons a A ih =>
    cases A' with
    | nil => simp at h
    | cons a' A' =>
      rw [List.map_cons, List.map_cons] at h
      injection h with h h'
      unfold aKeys at ih ⊢
      rw [List.flatMap_cons, List.flatMap_cons, ih h']
      rw [show a'.kB = a.kB from congrArg Prod.fst h, show a'.kW = a.kW from congrArg Prod.snd h]

theorem kp_keys {A A' : List (DSt α)} (h : A'.map DSt.kp = A.map DSt.kp) : A'.map (fun a => (a.kB, a.kW)) = A.map (fun a => (a.kB, a.kW)) := by
  have := congrArg (List.map (·.1)) h
  rw [List.map_map, List.map_map] at this
  exact this

theorem layers_shape (R : Rule α μ) (alpha : α) : ∀ (T : Nat) (xs : List (Dense α × LMem μ)) (gs : List (Grad α)), gs.length = xs.length →
    (R.layers alpha T xs gs).map (fun x => (x.1.n, x.1.m)) = xs.map (fun x => (x.1.n, x.1.m))
  | _, [], gs, _ => by cases gs <;> rfl
  | T, x :: xs, [], h => by simp at h
  | T, x :: xs, g :: gs, h => by
    show _ :: _ = _ :: _
    rw [layers_shape R alpha (T + 2) xs gs (by simpa using h)]
    rfl

theorem RuleT.finish (ho : RuleOpt upd R size J) {n m : Nat} {dL : (Nat → α) → (Nat → α) → Nat → α} {s : σ} {u : Train α} {T : Nat} {xs : List (Dense α × LMem μ)}
    {M : Nat → Nat → μ} (hJ : J s T M) {A A1 : List (DSt α)} (hA1 : u.At A1 n m dL) (hn : (aKeys A).Nodup) (hx : List.Forall₂ (LIs size M) A xs)
    (ek : A1.map DSt.kp = A.map DSt.kp) (alpha : α) (grads : List (Dense α) → List (Grad α)) (hg : A1.map DSt.used = grads (xs.map (·.1))) (cl : Bool)
    (hc : cl = true → ∀ a ∈ A1, a.acc = false) :
    ∃ x', Train.updating upd alpha (s, u) = .ok x' ∧ RuleT size J n m dL cl (R.update alpha grads (T, xs)) x' := by
  have hx1 := LIs_kp hx ek
  obtain ⟨r, e, M', A', hJ', _, hA', k', a', hx'⟩ := Net.updating_rule ho alpha hA1.net hx1 (by rw [aKeys_congr (kp_keys ek)]; exact hn) hJ
  have hl : A'.length = A1.length := by have := congrArg List.length a'; simpa using this
  have hlx : A1.length = xs.length := hx1.length_eq
  have ch : Chain n (A'.map (·.p)) m := by
    refine Chain.congr ?_ hA1.chain
    rw [LIs_p hx', LIs_p hx1, List.map_map, List.map_map]
    exact (layers_shape R alpha T xs _ (by simp [hlx])).symm
  refine ⟨(r.1, { u with net := r.2 }), ?_, M', A', ?_, ⟨hA', hl ▸ hA1.two, hl ▸ hA1.word, ch, hA1.delta, hA1.loss⟩, ?_, ?_, ?_⟩
  · unfold Train.updating
    rw [e, bind_ok]; rfl
  · exact hJ'
  · rw [aKeys_congr k', aKeys_congr (kp_keys ek)]; exact hn
  · show List.Forall₂ _ A' (R.layers alpha T xs (grads (xs.map (·.1))))
    rw [← hg]; exact hx'
  · intro e a ha
    have h1 : a.acc ∈ A'.map (·.acc) := List.mem_map_of_mem ha
    rw [a'] at h1
    obtain ⟨b, hb, hb2⟩ := List.mem_map.1 h1
    rw [← hb2]; exact hc e b hb

/-- One averaged step. -/
theorem RuleT.step (ho : RuleOpt upd R size J) {n m : Nat} {dL : (Nat → α) → (Nat → α) → Nat → α} {cl : Bool} {X : Nat × List (Dense α × LMem μ)} {x : σ × Train α}
    {idata odata : List (Ten α)} {vs : List ((Nat → α) × (Nat → α))} (hd : DataIs idata odata n m vs)
    (h : RuleT size J n m dL cl X x) {lo k : Nat} (hk : lo + k ≤ vs.length) (hk1 : 1 ≤ k) (alpha : α) :
    ∃ x', TEv.run upd idata odata x (stepTrace alpha lo k) = .ok x' ∧
      RuleT size J n m dL false (R.update alpha (fun ps => gradSum dL ps ((vs.drop lo).take k)) X) x' := by
  obtain ⟨s, t⟩ := x
  obtain ⟨T, xs⟩ := X
  obtain ⟨M, A, hJ, hA, hn, hx, _⟩ := h
  dsimp only at hJ hA hx
  obtain ⟨u, e, A1, hA1, c⟩ := hA.accRun hd hk
  have hpos : 0 < ((vs.drop lo).take k).length := by simp; omega
  have hne : (vs.drop lo).take k ≠ [] := List.length_pos_iff.1 hpos
  have ek := kp_congr c.p c.keys
  obtain ⟨x', e', h'⟩ := RuleT.finish ho hJ hA1 hn hx ek alpha (fun ps => gradSum dL ps ((vs.drop lo).take k)) (by rw [c.used hne, LIs_p hx]) false (fun h => by simp at h)
  refine ⟨x', ?_, h'⟩
  rw [run_step, ← bind_assoc, e, bind_ok]; exact e'

theorem RuleT.steps (ho : RuleOpt upd R size J) {n m : Nat} {dL : (Nat → α) → (Nat → α) → Nat → α}
    {idata odata : List (Ten α)} {vs : List ((Nat → α) × (Nat → α))} (hd : DataIs idata odata n m vs) (alpha : α) :
    ∀ (ws : List (Nat × Nat)), (∀ w ∈ ws, w.1 + w.2 ≤ vs.length ∧ 1 ≤ w.2) → ∀ {cl : Bool} {X : Nat × List (Dense α × LMem μ)} {x : σ × Train α}, RuleT size J n m dL cl X x →
    ∃ x', TEv.run upd idata odata x (ws.flatMap (fun w => stepTrace alpha w.1 w.2)) = .ok x' ∧
      RuleT size J n m dL false (ws.foldl (fun X w => R.update alpha (fun ps => gradSum dL ps ((vs.drop w.1).take w.2)) X) X) x'
  | [], _, cl, X, x, ⟨M, A, h1, h2, h3, h4, _⟩ => ⟨x, rfl, M, A, h1, h2, h3, h4, fun h => by simp at h⟩
  | w :: ws, hw, cl, X, x, h => by
    obtain ⟨h1, h2⟩ := hw w (by simp)
    obtain ⟨x1, e1, h⟩ := h.step ho hd h1 h2 alpha
    obtain ⟨x2, e2, h⟩ := RuleT.steps ho hd alpha ws (fun w hw' => hw w (by simp [hw'])) h
    exact ⟨x2, by rw [List.flatMap_cons, TEv.run_append, e1, bind_ok, e2], h⟩

/-- One round of stochastic training. -/
theorem RuleT.sto (ho : RuleOpt upd R size J) {n m : Nat} {dL : (Nat → α) → (Nat → α) → Nat → α} {X : Nat × List (Dense α × LMem μ)} {x : σ × Train α}
    {idata odata : List (Ten α)} {vs : List ((Nat → α) × (Nat → α))} (hd : DataIs idata odata n m vs)
    (h : RuleT size J n m dL true X x) {i : Nat} {vw : (Nat → α) × (Nat → α)} (e : vs[i]? = some vw) :
    ∃ x', TEv.run upd idata odata x [.sample i, .update 1] = .ok x' ∧ RuleT size J n m dL true (R.update 1 (fun ps => sampleGrads dL ps vw) X) x' := by
  obtain ⟨s, t⟩ := x
  obtain ⟨T, xs⟩ := X
  obtain ⟨M, A, hJ, hA, hn, hx, cA⟩ := h
  have cA := cA rfl
  dsimp only at hJ hA hx
  obtain ⟨u, e₁, hA1⟩ := hA.sample hd e
  have lA : (sampleGrads dL (A.map (·.p)) vw).length = A.length := by rw [sampleGrads_length]; simp
  obtain ⟨a1, a2, a3⟩ := setG_keys A _ lA
  have ek := kp_congr (setG_p A _ lA) a1
  have cA1 : ∀ a ∈ setG A (sampleGrads dL (A.map (·.p)) vw), a.acc = false := by
    intro a ha
    have h1 : a.acc ∈ (setG A (sampleGrads dL (A.map (·.p)) vw)).map (·.acc) := List.mem_map_of_mem ha
    rw [a2] at h1
    obtain ⟨b, hb, hb2⟩ := List.mem_map.1 h1
    rw [← hb2]; exact cA b hb
  have hg : (setG A (sampleGrads dL (A.map (·.p)) vw)).map DSt.used = sampleGrads dL (xs.map (·.1)) vw := by
    have : (setG A (sampleGrads dL (A.map (·.p)) vw)).map DSt.used = (setG A (sampleGrads dL (A.map (·.p)) vw)).map (·.g) := by
      refine List.map_congr_left (fun a ha => ?_)
      unfold DSt.used
      rw [cA1 a ha]; rfl
    rw [this, a3, LIs_p hx]
  obtain ⟨x', e', h'⟩ := RuleT.finish ho hJ hA1 hn hx ek 1 (fun ps => sampleGrads dL ps vw) hg true (fun _ => cA1)
  refine ⟨x', ?_, h'⟩
  unfold TEv.run TEv.exec; dsimp only
  rw [e₁, bind_ok, pure_eq_ok, bind_ok]
  unfold TEv.run TEv.exec; dsimp only
  rw [e', bind_ok]; rfl

theorem RuleT.stos (ho : RuleOpt upd R size J) {n m : Nat} {dL : (Nat → α) → (Nat → α) → Nat → α}
    {idata odata : List (Ten α)} {vs : List ((Nat → α) × (Nat → α))} (hd : DataIs idata odata n m vs) :
    ∀ (is : List Nat), (∀ i ∈ is, i < vs.length) → ∀ {X : Nat × List (Dense α × LMem μ)} {x : σ × Train α}, RuleT size J n m dL true X x →
    ∃ x', TEv.run upd idata odata x (stoTrace is) = .ok x' ∧
      RuleT size J n m dL true ((is.filterMap (fun i => vs[i]?)).foldl (fun X vw => R.update 1 (fun ps => sampleGrads dL ps vw) X) X) x'
  | [], _, X, x, h => ⟨x, rfl, h⟩
  | i :: is, hw, X, x, h => by
    have hi : i < vs.length := hw i (by simp)
    have e : vs[i]? = some vs[i] := List.getElem?_eq_getElem hi
    obtain ⟨x1, e1, h⟩ := h.sto ho hd e
    obtain ⟨x2, e2, h⟩ := RuleT.stos ho hd is (fun j hj => hw j (by simp [hj])) h
    refine ⟨x2, ?_, ?_⟩
    · rw [stoTrace, List.flatMap_cons, TEv.run_append, e1, bind_ok]; exact e2
    · rw [List.filterMap_cons, e]; exact h

end

end Trixy
