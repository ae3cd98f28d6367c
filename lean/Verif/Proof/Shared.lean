import Verif.Spec.Shared
import Verif.Proof.Keep
import Verif.Proof.Optim
import Verif.Props.Train
/- Training depends on the optimizer's state only at the addresses of the network's own parameters, and changes only that. -/
namespace Trixy
set_option linter.unusedSectionVars false

variable {α β γ ρ σ ε : Type}

/-! ### Addresses never change -/

section
variable [Zero α] [One α] [Add α] [Mul α] [LT α] [DecidableLT α] [DecidableEq α]

theorem Layer.forward_keys {l l' : Layer α} {x : Ten α} (h : l.forward x = .ok l') : l'.keys = l.keys := by
  cases l with
  | fc l =>
    obtain ⟨f, h1, h2⟩ := res_bind_inv h
    cases h2
    obtain ⟨_, _, h1⟩ := res_bind_inv h1
    obtain ⟨_, _, h1⟩ := res_bind_inv h1
    obtain ⟨_, _, h1⟩ := res_bind_inv h1
    cases h1; rfl
  | conv l =>
    obtain ⟨f, h1, h2⟩ := res_bind_inv h; cases h2
    obtain ⟨_, _, h1⟩ := res_bind_inv h1
    cases h1; rfl
  | pool l => obtain ⟨f, _, h2⟩ := res_bind_inv h; cases h2; rfl
  | rawFC l => obtain ⟨f, _, h2⟩ := res_bind_inv h; cases h2; rfl
  | rawConv l => obtain ⟨f, _, h2⟩ := res_bind_inv h; cases h2; rfl
  | rawPool l => obtain ⟨f, _, h2⟩ := res_bind_inv h; cases h2; rfl

theorem Layer.backward_keys {l l' : Layer α} {x d : Ten α} {full : Bool} (h : l.backward x d full = .ok l') : l'.keys = l.keys := by
  cases l with
  | fc l =>
    obtain ⟨f, h1, h2⟩ := res_bind_inv h
    cases h2
    obtain ⟨_, _, h1⟩ := res_bind_inv h1
    obtain ⟨_, _, h1⟩ := res_bind_inv h1
    obtain ⟨_, _, h1⟩ := res_bind_inv h1
    obtain ⟨_, _, h1⟩ := res_bind_inv h1
    cases h1; rfl
  | conv l =>
    obtain ⟨f, h1, h2⟩ := res_bind_inv h; cases h2
    obtain ⟨_, _, h1⟩ := res_bind_inv h1
    obtain ⟨⟨_, _⟩, _, h1⟩ := res_bind_inv h1
    obtain ⟨_, _, h1⟩ := res_bind_inv h1
    cases h1; rfl
  | pool l => obtain ⟨f, _, h2⟩ := res_bind_inv h; cases h2; rfl
  | rawFC l => cases h
  | rawConv l => cases h
  | rawPool l => cases h

theorem Layer.reset_keys {l l' : Layer α} (h : l.reset = .ok l') : l'.keys = l.keys := by
  cases l with
  | fc l =>
    obtain ⟨f, h1, h2⟩ := res_bind_inv h
    cases h2
    obtain ⟨_, _, h1⟩ := res_bind_inv h1
    obtain ⟨_, _, h1⟩ := res_bind_inv h1
    cases h1; rfl
  | conv l => cases h; rfl
  | pool l => cases h; rfl
  | rawFC l => cases h
  | rawConv l => cases h
  | rawPool l => cases h

theorem Layer.accumulate_keys {l l' : Layer α} (h : l.accumulate = .ok l') : l'.keys = l.keys := by
  cases l with
  | fc l =>
    obtain ⟨f, h1, h2⟩ := res_bind_inv h
    cases h2
    obtain ⟨_, _, h1⟩ := res_bind_inv h1
    obtain ⟨_, _, h1⟩ := res_bind_inv h1
    cases h1; rfl
  | conv l => cases h; rfl
  | pool l => cases h; rfl
  | rawFC l => cases h
  | rawConv l => cases h
  | rawPool l => cases h

theorem Net.feedforward_keys {x : Ten α} {net : Net α} {r : Net α × Ten α} (h : Net.feedforward x net = .ok r) :
    r.1.map Layer.keys = net.map Layer.keys := by
  obtain ⟨l, h1, h⟩ := res_bind_inv h
  obtain ⟨l1, h2, h⟩ := res_bind_inv h
  obtain ⟨n1, h3, h⟩ := res_bind_inv h
  obtain ⟨n2, h4, h⟩ := res_bind_inv h
  obtain ⟨l2, h5, h⟩ := res_bind_inv h
  cases h
  rw [← lset_keeps Layer.keys h1 h3 (Layer.forward_keys h2)]
  unfold forLoop at h4
  refine forN_keeps (List.map Layer.keys) (fun i s s' hb => ?_) h4
  obtain ⟨_, _, hb⟩ := res_bind_inv hb
  obtain ⟨_, k1, hb⟩ := res_bind_inv hb
  obtain ⟨_, k2, hb⟩ := res_bind_inv hb
  exact lset_keeps Layer.keys k1 hb (Layer.forward_keys k2)

theorem Net.backprop_keys {x d : Ten α} {net r : Net α} (h : Net.backprop x d net = .ok r) :
    r.map Layer.keys = net.map Layer.keys := by
  obtain ⟨l, h1, h⟩ := res_bind_inv h
  obtain ⟨_, _, h⟩ := res_bind_inv h
  obtain ⟨l1, h2, h⟩ := res_bind_inv h
  obtain ⟨n1, h3, h⟩ := res_bind_inv h
  obtain ⟨n2, h4, h⟩ := res_bind_inv h
  obtain ⟨l2, h5, h⟩ := res_bind_inv h
  obtain ⟨_, _, h⟩ := res_bind_inv h
  obtain ⟨_, _, h⟩ := res_bind_inv h
  obtain ⟨l3, h6, h⟩ := res_bind_inv h
  rw [← lset_keeps Layer.keys h1 h3 (Layer.backward_keys h2), lset_keeps Layer.keys h5 h (Layer.backward_keys h6)]
  refine forN_keeps (List.map Layer.keys) (fun i s s' hb => ?_) h4
  obtain ⟨_, _, hb⟩ := res_bind_inv hb
  obtain ⟨_, _, hb⟩ := res_bind_inv hb
  obtain ⟨_, _, hb⟩ := res_bind_inv hb
  obtain ⟨_, k1, hb⟩ := res_bind_inv hb
  obtain ⟨_, k2, hb⟩ := res_bind_inv hb
  exact lset_keeps Layer.keys k1 hb (Layer.backward_keys k2)

theorem Train.feedforward_keys {x : Ten α} {t t' : Train α} (h : t.feedforward x = .ok t') : t'.net.map Layer.keys = t.net.map Layer.keys := by
  obtain ⟨⟨n1, v1⟩, k1, h8⟩ := res_bind_inv h
  cases h8
  exact Net.feedforward_keys k1

theorem Train.reseting_keys {t t' : Train α} (h : t.reseting = .ok t') : t'.net.map Layer.keys = t.net.map Layer.keys := by
  obtain ⟨n, h3, h4⟩ := res_bind_inv h
  cases h4
  refine forN_keeps (List.map Layer.keys) (fun i s s' hb => ?_) h3
  obtain ⟨_, k1, hb⟩ := res_bind_inv hb
  obtain ⟨_, k2, hb⟩ := res_bind_inv hb
  exact lset_keeps Layer.keys k1 hb (Layer.reset_keys k2)

theorem Train.accumulating_keys {t t' : Train α} (h : t.accumulating = .ok t') : t'.net.map Layer.keys = t.net.map Layer.keys := by
  obtain ⟨n, h3, h4⟩ := res_bind_inv h
  cases h4
  refine forN_keeps (List.map Layer.keys) (fun i s s' hb => ?_) h3
  obtain ⟨_, k1, hb⟩ := res_bind_inv hb
  obtain ⟨_, k2, hb⟩ := res_bind_inv hb
  exact lset_keeps Layer.keys k1 hb (Layer.accumulate_keys k2)

theorem Train.sample_keys {idata odata : List (Ten α)} {i : Nat} {t t' : Train α} (h : t.sample idata odata i = .ok t') :
    t'.net.map Layer.keys = t.net.map Layer.keys := by
  obtain ⟨x, _, h4⟩ := res_bind_inv h
  obtain ⟨t1, h5, h6⟩ := res_bind_inv h4
  have k1 := Train.feedforward_keys h5
  obtain ⟨y, _, h9⟩ := res_bind_inv h6
  obtain ⟨l, _, h10⟩ := res_bind_inv h9
  obtain ⟨lo, _, h11⟩ := res_bind_inv h10
  obtain ⟨d, _, h12⟩ := res_bind_inv h11
  obtain ⟨n2, k2, h13⟩ := res_bind_inv h12
  cases h13
  exact (Net.backprop_keys k2).trans k1

theorem Train.lossMean_keys [Div α] [NatCast α] {idata odata : List (Ten α)} {t : Train α} {r : α × Train α} (h : t.lossMean idata odata = .ok r) :
    r.2.net.map Layer.keys = t.net.map Layer.keys := by
  obtain ⟨⟨a, n⟩, h1, h⟩ := res_bind_inv h
  dsimp only at h
  split at h
  · cases h
  · cases h
    refine forN_keeps (f := fun q : α × Net α => q.2.map Layer.keys) (fun i s s' hb => ?_) h1
    obtain ⟨_, _, hb⟩ := res_bind_inv hb
    obtain ⟨_, _, hb⟩ := res_bind_inv hb
    obtain ⟨_, _, hb⟩ := res_bind_inv hb
    obtain ⟨⟨_, _⟩, k1, hb⟩ := res_bind_inv hb
    obtain ⟨_, _, hb⟩ := res_bind_inv hb
    cases hb
    exact Net.feedforward_keys k1

end

/-! ### Related computations -/

theorem RelRes.bind2 {A B C D : Type _} {R : A → B → Prop} {Q : C → D → Prop} {x : Res A} {y : Res B} {k : A → Res C} {k' : B → Res D}
    (h : RelRes R x y) (hk : ∀ a b, R a b → RelRes Q (k a) (k' b)) : RelRes Q (x >>= k) (y >>= k') := by
  cases h with
  | err e => exact .err e
  | ok h => exact hk _ _ h

theorem RelRes.mono {A B : Type _} {R Q : A → B → Prop} {x : Res A} {y : Res B} (h : RelRes R x y) (hk : ∀ a b, R a b → Q a b) : RelRes Q x y := by
  cases h with
  | err e => exact .err e
  | ok h => exact .ok (hk _ _ h)

/-- The same computation twice. -/
theorem RelRes.same {A C D : Type _} {Q : C → D → Prop} (x : Res A) {k : A → Res C} {k' : A → Res D} (hk : ∀ a, x = .ok a → RelRes Q (k a) (k' a)) :
    RelRes Q (x >>= k) (x >>= k') := by
  cases x with
  | error e => exact .err e
  | ok a => exact hk a rfl

theorem RelRes.forN {A B : Type} {R : A → B → Prop} {f : Nat → A → Res A} {g : Nat → B → Res B}
    (h : ∀ i a b, R a b → RelRes R (f i a) (g i b)) {a : A} {b : B} (hab : R a b) (n : Nat) : RelRes R (forN n a f) (forN n b g) := by
  induction n with
  | zero => rw [forN_zero, forN_zero]; exact .ok hab
  | succ n ih => rw [forN_succ, forN_succ]; exact ih.bind2 (fun a b hab => h n a b hab)

/-- Two optimizer states that agree at the addresses `S`; elsewhere they are still what `s0`, `s1` were. -/
def Agrees (view : σ → Nat → ε) (S : Nat → Prop) (s0 s1 x y : σ) : Prop :=
  (∀ k, S k → view x k = view y k) ∧ ∀ k, ¬ S k → view x k = view s0 k ∧ view y k = view s1 k

section
variable {upd : Upd σ α} {view : σ → Nat → ε} {S : Nat → Prop} {s0 s1 : σ}

theorem LocalUpd.agrees (L : LocalUpd upd view) {x y : σ} (h : Agrees view S s0 s1 x y) {k : Nat} (hk : S k) (P G : Buf α) :
    RelRes (fun r r' => Agrees view S s0 s1 r.1 r'.1 ∧ r.2 = r'.2) (upd x k P G) (upd y k P G) := by
  have hd := L.dep x y k P G (h.1 k hk)
  have o1 := L.other x k P G
  have o2 := L.other y k P G
  cases hx : upd x k P G with
  | error e =>
    cases hy : upd y k P G with
    | error e' => rw [hx, hy] at hd; cases hd; exact .err _
    | ok b => rw [hx, hy] at hd; cases hd
  | ok a =>
    cases hy : upd y k P G with
    | error e' => rw [hx, hy] at hd; cases hd
    | ok b =>
      rw [hx] at hd o1
      rw [hy] at hd o2
      cases hd with
      | ok hd =>
        refine .ok ⟨⟨fun k' hk' => ?_, fun k' hk' => ?_⟩, hd.2⟩
        · by_cases e : k' = k
          · rw [e]; exact hd.1
          · rw [o1 a rfl k' e, o2 b rfl k' e]; exact h.1 k' hk'
        · have e : k' ≠ k := fun e => hk' (e ▸ hk)
          rw [o1 a rfl k' e, o2 b rfl k' e]; exact h.2 k' hk'

end

/-- Updates at the addresses `S` take states related by `A` to states related by `A`, with the same parameters and gradients. -/
def UpdRel (upd : Upd σ α) (S : Nat → Prop) (A : σ → σ → Prop) : Prop :=
  ∀ (x y : σ) (k : Nat) (P G : Buf α), A x y → S k → RelRes (fun r r' => A r.1 r'.1 ∧ r.2 = r'.2) (upd x k P G) (upd y k P G)

theorem LocalUpd.rel {upd : Upd σ α} {view : σ → Nat → ε} (L : LocalUpd upd view) (S : Nat → Prop) (s0 s1 : σ) :
    UpdRel upd S (Agrees view S s0 s1) := fun _ _ _ P G h hk => L.agrees h hk P G

section
variable {upd : Upd σ α} {S : Nat → Prop} {A : σ → σ → Prop}
variable [Mul α] [One α] [DecidableEq α]

theorem FC.update_rel (L : UpdRel upd S A) {x y : σ} (h : A x y) {l : FC α} (hB : S l.keyB) (hW : S l.keyW) (alpha : α) :
    RelRes (fun r r' => A r.1 r'.1 ∧ r.2 = r'.2 ∧ r.2.keyB = l.keyB ∧ r.2.keyW = l.keyW) (l.update upd x alpha) (l.update upd y alpha) := by
  have hw : ∀ gB gW, RelRes (fun r r' => A r.1 r'.1 ∧ r.2 = r'.2) (FC.updateWith upd x alpha l gB gW) (FC.updateWith upd y alpha l gB gW) := by
    intro gB gW
    unfold FC.updateWith
    refine .same _ (fun a _ => .same _ (fun b _ => ?_))
    refine (L _ _ _ _ _ h hB).bind2 (fun ⟨x1, B1, g1⟩ ⟨y1, B2, g2⟩ q => ?_)
    dsimp only at q ⊢
    obtain ⟨q1, q2⟩ := q
    cases q2
    refine (L _ _ _ _ _ q1 hW).bind2 (fun ⟨x2, W1, g3⟩ ⟨y2, W2, g4⟩ q => ?_)
    dsimp only at q ⊢
    obtain ⟨q1, q2⟩ := q
    cases q2
    exact .ok ⟨q1, rfl⟩
  unfold FC.update
  by_cases ha : l.accumulated
  · rw [if_pos ha, if_pos ha]
    refine (hw _ _).bind2 (fun ⟨x1, B1, g1, W1, g2⟩ ⟨y1, B2, g3, W2, g4⟩ q => ?_)
    dsimp only at q ⊢
    obtain ⟨q1, q2⟩ := q
    cases q2
    exact .ok ⟨q1, rfl, rfl, rfl⟩
  · rw [if_neg ha, if_neg ha]
    refine (hw _ _).bind2 (fun ⟨x1, B1, g1, W1, g2⟩ ⟨y1, B2, g3, W2, g4⟩ q => ?_)
    dsimp only at q ⊢
    obtain ⟨q1, q2⟩ := q
    cases q2
    exact .ok ⟨q1, rfl, rfl, rfl⟩

theorem convUpdW_rel (L : UpdRel upd S A) {x y : σ} (h : A x y) {keyW : Nat → Nat} {n : Nat} (hW : ∀ f, f < n → S (keyW f))
    (Ws Gs : List (Ten α)) : RelRes (fun r r' => A r.1 r'.1 ∧ r.2 = r'.2 ∧ r.2.1.length = Ws.length)
      (convUpdW upd keyW n x Ws Gs) (convUpdW upd keyW n y Ws Gs) := by
  unfold convUpdW
  have key : ∀ m, m ≤ n → RelRes (fun r r' => A r.1 r'.1 ∧ r.2 = r'.2 ∧ r.2.1.length = Ws.length)
      (forN m (x, Ws, Gs) (fun f st => do
        let W ← lget st.2.1 f
        let G ← lget st.2.2 f
        let (s, w, g) ← upd st.1 (keyW f) W.data G.data
        let Ws ← lset st.2.1 f { W with data := w }
        let Gs ← lset st.2.2 f { G with data := g }
        return (s, Ws, Gs)))
      (forN m (y, Ws, Gs) (fun f st => do
        let W ← lget st.2.1 f
        let G ← lget st.2.2 f
        let (s, w, g) ← upd st.1 (keyW f) W.data G.data
        let Ws ← lset st.2.1 f { W with data := w }
        let Gs ← lset st.2.2 f { G with data := g }
        return (s, Ws, Gs))) := by
    intro m
    induction m with
    | zero => intro _; rw [forN_zero, forN_zero]; exact .ok ⟨h, rfl, rfl⟩
    | succ m ih =>
      intro hm
      rw [forN_succ, forN_succ]
      refine (ih (by omega)).bind2 (fun ⟨x1, W1, G1⟩ ⟨y1, W2, G2⟩ q => ?_)
      dsimp only at q ⊢
      obtain ⟨q1, q2, q3⟩ := q
      cases q2
      refine .same _ (fun W _ => .same _ (fun G _ => ?_))
      refine (L _ _ _ _ _ q1 (hW m (by omega))).bind2 (fun ⟨x2, w, g⟩ ⟨y2, w', g'⟩ q => ?_)
      dsimp only at q ⊢
      obtain ⟨p1, p2⟩ := q
      cases p2
      refine .same _ (fun W' hW' => .same _ (fun G' _ => .ok ⟨p1, rfl, ?_⟩))
      unfold lset at hW'
      split at hW'
      · cases hW'; rw [List.length_set]; exact q3
      · cases hW'
  exact key n (Nat.le_refl _)

theorem Conv.update_rel (L : UpdRel upd S A) {x y : σ} (h : A x y) {l : Conv α} (hB : S l.keyB)
    (hW : ∀ f, f < l.Ws.length → S (l.keyW f)) (alpha : α) :
    RelRes (fun r r' => A r.1 r'.1 ∧ r.2 = r'.2 ∧ r.2.keyB = l.keyB ∧ r.2.keyW = l.keyW ∧ r.2.Ws.length = l.Ws.length)
      (l.update upd x alpha) (l.update upd y alpha) := by
  unfold Conv.update
  refine .same _ (fun a _ => .same _ (fun b _ => ?_))
  refine (convUpdW_rel L h hW _ _).bind2 (fun ⟨x1, W1, G1⟩ ⟨y1, W2, G2⟩ q => ?_)
  dsimp only at q ⊢
  obtain ⟨q1, q2, q3⟩ := q
  cases q2
  refine (L _ _ _ _ _ q1 hB).bind2 (fun ⟨x2, w, g⟩ ⟨y2, w', g'⟩ q => ?_)
  dsimp only at q ⊢
  obtain ⟨p1, p2⟩ := q
  cases p2
  exact .ok ⟨p1, rfl, rfl, rfl, q3⟩

theorem Layer.update_rel (L : UpdRel upd S A) {x y : σ} (h : A x y) {l : Layer α} (hS : ∀ k ∈ l.keys, S k) (alpha : α) :
    RelRes (fun r r' => A r.1 r'.1 ∧ r.2 = r'.2 ∧ r.2.keys = l.keys) (l.update upd x alpha) (l.update upd y alpha) := by
  cases l with
  | fc l =>
    refine (FC.update_rel L h (hS _ (by simp [Layer.keys])) (hS _ (by simp [Layer.keys])) alpha).bind2 (fun ⟨x1, l1⟩ ⟨y1, l2⟩ q => ?_)
    dsimp only at q ⊢
    obtain ⟨q1, q2, q3, q4⟩ := q
    cases q2
    exact .ok ⟨q1, rfl, by simp only [Layer.keys, q3, q4]⟩
  | conv l =>
    refine (Conv.update_rel L h (hS _ (by simp [Layer.keys])) (fun f hf => hS _ (by simp only [Layer.keys, List.mem_cons, List.mem_map, List.mem_range]; exact Or.inr ⟨f, hf, rfl⟩)) alpha).bind2
      (fun ⟨x1, l1⟩ ⟨y1, l2⟩ q => ?_)
    dsimp only at q ⊢
    obtain ⟨q1, q2, q3, q4, q5⟩ := q
    cases q2
    exact .ok ⟨q1, rfl, by simp only [Layer.keys, q3, q4, q5]⟩
  | pool l => exact .ok ⟨h, rfl, rfl⟩
  | rawFC l => exact .err _
  | rawConv l => exact .err _
  | rawPool l => exact .err _

/-- Two trainings of the same network with optimizer states that agree at the addresses of its parameters. -/
def Lockstep (A : σ → σ → Prop) (K : List (List Nat)) (x y : σ × Train α) : Prop :=
  A x.1 y.1 ∧ x.2 = y.2 ∧ x.2.net.map Layer.keys = K

theorem Net.updating_rel {K : List (List Nat)} (L : UpdRel upd (fun k => k ∈ K.flatten) A) {x y : σ} (h : A x y) {net : Net α}
    (hK : net.map Layer.keys = K) (alpha : α) :
    RelRes (fun r r' => A r.1 r'.1 ∧ r.2 = r'.2 ∧ r.2.map Layer.keys = K) (Net.updating upd alpha x net)
      (Net.updating upd alpha y net) := by
  unfold Net.updating
  refine RelRes.forN (R := fun r r' : σ × Net α => A r.1 r'.1 ∧ r.2 = r'.2 ∧ r.2.map Layer.keys = K) (fun i a b hab => ?_) (a := (x, net)) (b := (y, net)) ⟨h, rfl, hK⟩ _
  obtain ⟨x1, n1⟩ := a
  obtain ⟨y1, n2⟩ := b
  dsimp only at hab ⊢
  obtain ⟨q1, q2, q3⟩ := hab
  cases q2
  refine .same _ (fun l hl => ?_)
  have hmem : l.keys ∈ K := by
    rw [← q3]
    unfold lget at hl
    cases e : n1[i]? with
    | none => rw [e] at hl; cases hl
    | some c => rw [e] at hl; cases hl; exact List.mem_map.2 ⟨_, List.mem_of_getElem? e, rfl⟩
  refine (Layer.update_rel L q1 (fun k hk => List.mem_flatten.2 ⟨_, hmem, hk⟩) alpha).bind2 (fun ⟨x2, l1⟩ ⟨y2, l2⟩ q => ?_)
  dsimp only at q ⊢
  obtain ⟨p1, p2, p3⟩ := q
  cases p2
  refine .same _ (fun net' hn => .ok ⟨p1, rfl, ?_⟩)
  exact (lset_keeps Layer.keys hl hn p3).trans q3

theorem Train.updating_rel {K : List (List Nat)} (L : UpdRel upd (fun k => k ∈ K.flatten) A) {x y : σ × Train α} (h : Lockstep A K x y) (alpha : α) :
    RelRes (Lockstep A K) (Train.updating upd alpha x) (Train.updating upd alpha y) := by
  obtain ⟨x1, t⟩ := x
  obtain ⟨y1, t'⟩ := y
  obtain ⟨h1, h2, h3⟩ := h
  dsimp only at h1 h2 h3
  cases h2
  unfold Train.updating
  dsimp only
  refine (Net.updating_rel L h1 h3 alpha).bind2 (fun ⟨x2, n1⟩ ⟨y2, n2⟩ q => ?_)
  dsimp only at q ⊢
  obtain ⟨p1, p2, p3⟩ := q
  cases p2
  exact .ok ⟨p1, rfl, p3⟩

end

section
variable [Zero α] [One α] [Add α] [Mul α] [LT α] [DecidableLT α] [DecidableEq α]
variable {upd : Upd σ α} {A : σ → σ → Prop} {K : List (List Nat)}

theorem Lockstep.same {x y : σ × Train α} (h : Lockstep A K x y) {f : Train α → Res (Train α)}
    (hf : ∀ t', f x.2 = .ok t' → t'.net.map Layer.keys = x.2.net.map Layer.keys) :
    RelRes (Lockstep A K) (f x.2 >>= fun t => Except.ok (x.1, t)) (f y.2 >>= fun t => Except.ok (y.1, t)) := by
  rw [← h.2.1]
  exact .same _ (fun t ht => .ok ⟨h.1, rfl, (hf t ht).trans h.2.2⟩)

theorem TEv.exec_rel (L : UpdRel upd (fun k => k ∈ K.flatten) A) {idata odata : List (Ten α)} {x y : σ × Train α} (h : Lockstep A K x y) (e : TEv α) :
    RelRes (Lockstep A K) (TEv.exec upd idata odata x e) (TEv.exec upd idata odata y e) := by
  cases e with
  | reset => exact h.same (fun t ht => Train.reseting_keys ht)
  | sample i => exact h.same (f := fun t => t.sample idata odata i) (fun t ht => Train.sample_keys ht)
  | accumulate => exact h.same (fun t ht => Train.accumulating_keys ht)
  | update a => exact Train.updating_rel L h a

theorem TEv.run_rel (L : UpdRel upd (fun k => k ∈ K.flatten) A) {idata odata : List (Ten α)} : ∀ (es : List (TEv α)) {x y : σ × Train α}, Lockstep A K x y →
    RelRes (Lockstep A K) (TEv.run upd idata odata x es) (TEv.run upd idata odata y es)
  | [], _, _, h => .ok h
  | e :: es, _, _, h => (TEv.exec_rel L h e).bind2 (fun _ _ h => TEv.run_rel L es h)

variable [Div α] [NatCast α]

theorem TrainOp.exec_rel (L : UpdRel upd (fun k => k ∈ K.flatten) A) (gen : Gen γ ρ Nat) {x y : σ × Train α} (h : Lockstep A K x y) (g : ρ) (op : TrainOp α γ) :
    RelRes (fun r r' => Lockstep A K r.1 r'.1 ∧ r.2 = r'.2) (TrainOp.exec upd gen (x, g) op) (TrainOp.exec upd gen (y, g) op) := by
  cases op with
  | batch idata odata epochs =>
    refine RelRes.bind2 (R := Lockstep A K) ?_ (fun a b hab => .ok ⟨hab, rfl⟩)
    by_cases hne : idata = []
    · subst hne; exact .err _
    · dsimp only
      rw [C39_schedule upd idata odata hne, C39_schedule upd idata odata hne]
      exact TEv.run_rel L _ h
  | mini idata odata epochs m =>
    refine RelRes.bind2 (R := Lockstep A K) ?_ (fun a b hab => .ok ⟨hab, rfl⟩)
    by_cases hm : m = 0
    · subst hm; exact .err _
    · dsimp only
      rw [C40_schedule upd idata odata epochs m hm, C40_schedule upd idata odata epochs m hm]
      exact TEv.run_rel L _ h
  | sto idata odata iterations c =>
    show RelRes _ (Train.stochastic upd idata odata iterations gen c g x) (Train.stochastic upd idata odata iterations gen c g y)
    unfold Train.stochastic
    refine RelRes.bind2 (R := fun a b => Lockstep A K a.1 b.1 ∧ a.2 = b.2) (RelRes.forN (fun i a b hab => ?_) ⟨h, rfl⟩ _)
      (fun ⟨a1, a2, a3⟩ ⟨b1, b2, b3⟩ hab => ?_)
    · obtain ⟨a1, a2, a3⟩ := a
      obtain ⟨b1, b2, b3⟩ := b
      obtain ⟨q1, q2⟩ := hab
      dsimp only at q1 q2 ⊢
      cases q2
      refine .same _ (fun j _ => ?_)
      rw [← q1.2.1]
      refine .same _ (fun t ht => ?_)
      have : Lockstep A K (a1.1, t) (b1.1, t) := ⟨q1.1, rfl, (Train.sample_keys ht).trans q1.2.2⟩
      exact (Train.updating_rel L this 1).bind2 (fun a b hab => .ok ⟨hab, rfl⟩)
    · dsimp only at hab ⊢
      obtain ⟨q1, q2⟩ := hab
      cases q2
      exact .ok ⟨q1, rfl⟩
  | lossOf idata odata =>
    show RelRes _ (x.2.lossMean idata odata >>= _) (y.2.lossMean idata odata >>= _)
    rw [← h.2.1]
    exact .same _ (fun r hr => .ok ⟨⟨h.1, rfl, (Train.lossMean_keys hr).trans h.2.2⟩, rfl⟩)
  | eval x' =>
    show RelRes _ (x.2.feedforward x' >>= _) (y.2.feedforward x' >>= _)
    rw [← h.2.1]
    exact .same _ (fun t ht => .ok ⟨⟨h.1, rfl, (Train.feedforward_keys ht).trans h.2.2⟩, rfl⟩)
  | setLoss l =>
    obtain ⟨h1, h2, h3⟩ := h
    exact .ok ⟨⟨h1, by dsimp only; rw [h2], h3⟩, rfl⟩

end

end Trixy
