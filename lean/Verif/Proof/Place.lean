import Verif.Spec.Place
import Verif.Proof.Shared
import Verif.Props.Reproduce
/- Training commutes with changing the addresses of parameters. -/
namespace Trixy
set_option linter.unusedSectionVars false

variable {α β γ ρ σ : Type}

/-- Whenever `x` succeeds so does `y`, with a related result. -/
def Tracks {A B : Type _} (R : A → B → Prop) (x : Res A) (y : Res B) : Prop := ∀ a, x = .ok a → ∃ b, y = .ok b ∧ R a b

theorem Tracks.ok {A B : Type _} {R : A → B → Prop} {a : A} {b : B} (h : R a b) : Tracks R (.ok a) (.ok b) := by
  intro a' e; cases e; exact ⟨b, rfl, h⟩

theorem Tracks.err {A B : Type _} {R : A → B → Prop} {e : UB} {y : Res B} : Tracks R (.error e) y := by
  intro a' e; cases e

theorem Tracks.bind2 {A B C D : Type _} {R : A → B → Prop} {Q : C → D → Prop} {x : Res A} {y : Res B} {k : A → Res C} {k' : B → Res D}
    (h : Tracks R x y) (hk : ∀ a b, R a b → Tracks Q (k a) (k' b)) : Tracks Q (x >>= k) (y >>= k') := by
  cases x with
  | error e => exact .err
  | ok a =>
    obtain ⟨b, e, r⟩ := h a rfl
    rw [e]
    exact hk a b r

theorem Tracks.same {A C D : Type _} {Q : C → D → Prop} (x : Res A) {k : A → Res C} {k' : A → Res D} (hk : ∀ a, x = .ok a → Tracks Q (k a) (k' a)) :
    Tracks Q (x >>= k) (x >>= k') := by
  cases x with
  | error e => exact .err
  | ok a => exact hk a rfl

theorem Tracks.forN {A B : Type} {R : A → B → Prop} {f : Nat → A → Res A} {g : Nat → B → Res B} (n : Nat)
    (h : ∀ i a b, i < n → R a b → Tracks R (f i a) (g i b)) {a : A} {b : B} (hab : R a b) : Tracks R (forN n a f) (forN n b g) := by
  have key : ∀ m, m ≤ n → Tracks R (Trixy.forN m a f) (Trixy.forN m b g) := by
    intro m
    induction m with
    | zero => intro _; rw [forN_zero, forN_zero]; exact .ok hab
    | succ m ih => intro hm; rw [forN_succ, forN_succ]; exact (ih (by omega)).bind2 (fun a b hab => h m a b (by omega) hab)
  exact key n (Nat.le_refl n)

/-- The same layer, its parameters at addresses related by `K`. -/
def Layer.Moved (K : Nat → Nat → Prop) (l l' : Layer α) : Prop := l.placeless = l'.placeless ∧ List.Forall₂ K l.keys l'.keys

section
variable {K : Nat → Nat → Prop}

theorem Layer.Moved.fc_inv {f : FC α} {l' : Layer α} (h : Layer.Moved K (.fc f) l') :
    ∃ a b, l' = .fc { f with keyB := a, keyW := b } ∧ K f.keyB a ∧ K f.keyW b := by
  obtain ⟨h1, h2⟩ := h
  cases l' with
  | fc f' =>
    simp only [Layer.keys, List.forall₂_cons] at h2
    refine ⟨f'.keyB, f'.keyW, ?_, h2.1, h2.2.1⟩
    cases f; cases f'
    simp only [Layer.placeless, Layer.fc.injEq, FC.mk.injEq] at h1 ⊢
    simp [h1]
  | _ => simp [Layer.placeless] at h1

theorem Layer.Moved.fc {f : FC α} {a b : Nat} (h1 : K f.keyB a) (h2 : K f.keyW b) : Layer.Moved K (.fc f) (.fc { f with keyB := a, keyW := b }) :=
  ⟨rfl, .cons h1 (.cons h2 .nil)⟩

theorem Layer.Moved.conv_inv {f : Conv α} {l' : Layer α} (h : Layer.Moved K (.conv f) l') :
    ∃ a b, l' = .conv { f with keyB := a, keyW := b } ∧ K f.keyB a ∧ ∀ i, i < f.Ws.length → K (f.keyW i) (b i) := by
  obtain ⟨h1, h2⟩ := h
  cases l' with
  | conv f' =>
    simp only [Layer.keys, List.forall₂_cons] at h2
    have hl : f'.Ws.length = f.Ws.length := by
      have := h2.2.length_eq
      simpa using this.symm
    refine ⟨f'.keyB, f'.keyW, ?_, h2.1, fun i hi => ?_⟩
    · cases f; cases f'
      simp only [Layer.placeless, Layer.conv.injEq, Conv.mk.injEq] at h1 ⊢
      simp [h1]
    · have h3 := h2.2
      have := List.Forall₂.get h3 (i := i) (by simpa using hi) (by simpa [hl] using hi)
      simpa using this
  | _ => simp [Layer.placeless] at h1

theorem Layer.Moved.conv {f : Conv α} {a : Nat} {b : Nat → Nat} (h1 : K f.keyB a) (h2 : ∀ i, i < f.Ws.length → K (f.keyW i) (b i)) :
    Layer.Moved K (.conv f) (.conv { f with keyB := a, keyW := b }) := by
  refine ⟨rfl, .cons h1 ?_⟩
  rw [List.forall₂_map_left_iff, List.forall₂_map_right_iff, List.forall₂_same]
  intro i hi
  exact h2 i (List.mem_range.1 hi)

theorem Layer.Moved.rawConv_inv {f : Conv α} {l' : Layer α} (h : Layer.Moved K (.rawConv f) l') :
    ∃ a b, l' = .rawConv { f with keyB := a, keyW := b } := by
  obtain ⟨h1, h2⟩ := h
  cases l' with
  | rawConv f' =>
    refine ⟨f'.keyB, f'.keyW, ?_⟩
    cases f; cases f'
    simp only [Layer.placeless, Layer.rawConv.injEq, Conv.mk.injEq] at h1 ⊢
    simp [h1]
  | _ => simp [Layer.placeless] at h1

theorem Layer.Moved.pool_inv {f : Pool α} {l' : Layer α} (h : Layer.Moved K (.pool f) l') : l' = .pool f := by
  have h1 := h.1
  cases l' <;> simp [Layer.placeless] at h1
  rw [h1]

theorem Layer.Moved.rawPool_inv {f : Pool α} {l' : Layer α} (h : Layer.Moved K (.rawPool f) l') : l' = .rawPool f := by
  have h1 := h.1
  cases l' <;> simp [Layer.placeless] at h1
  rw [h1]

theorem Layer.Moved.rawFC_inv {f : RawFC α} {l' : Layer α} (h : Layer.Moved K (.rawFC f) l') : l' = .rawFC f := by
  have h1 := h.1
  cases l' <;> simp [Layer.placeless] at h1
  rw [h1]

theorem Layer.Moved.value {l l' : Layer α} (h : Layer.Moved K l l') : l'.value = l.value := by
  cases l with
  | fc f => obtain ⟨a, b, rfl, _⟩ := h.fc_inv; rfl
  | conv f => obtain ⟨a, b, rfl, _⟩ := h.conv_inv; rfl
  | pool f => cases h.pool_inv; rfl
  | rawFC f => cases h.rawFC_inv; rfl
  | rawConv f => obtain ⟨a, b, rfl⟩ := h.rawConv_inv; rfl
  | rawPool f => cases h.rawPool_inv; rfl

theorem Layer.Moved.delta {l l' : Layer α} (h : Layer.Moved K l l') : l'.delta = l.delta := by
  cases l with
  | fc f => obtain ⟨a, b, rfl, _⟩ := h.fc_inv; rfl
  | conv f => obtain ⟨a, b, rfl, _⟩ := h.conv_inv; rfl
  | pool f => cases h.pool_inv; rfl
  | rawFC f => cases h.rawFC_inv; rfl
  | rawConv f => obtain ⟨a, b, rfl⟩ := h.rawConv_inv; rfl
  | rawPool f => cases h.rawPool_inv; rfl

end

section
variable [Zero α] [One α] [Add α] [Mul α] [LT α] [DecidableLT α] [DecidableEq α] {K : Nat → Nat → Prop}

theorem Layer.forward_moved {l l' : Layer α} (h : Layer.Moved K l l') (x : Ten α) : Tracks (Layer.Moved K) (l.forward x) (l'.forward x) := by
  cases l with
  | fc f =>
    obtain ⟨a, b, rfl, k1, k2⟩ := h.fc_inv
    refine .bind2 (R := fun f f' => f' = { f with keyB := a, keyW := b } ∧ K f.keyB a ∧ K f.keyW b) ?_ ?_
    · unfold FC.forward
      exact .same _ (fun _ _ => .same _ (fun _ _ => .same _ (fun _ _ => .ok ⟨rfl, k1, k2⟩)))
    · rintro f _ ⟨rfl, k1, k2⟩; exact .ok (.fc k1 k2)
  | conv f =>
    obtain ⟨a, b, rfl, k1, k2⟩ := h.conv_inv
    refine .bind2 (R := fun f f' => f' = { f with keyB := a, keyW := b } ∧ K f.keyB a ∧ ∀ i, i < f.Ws.length → K (f.keyW i) (b i)) ?_ ?_
    · unfold Conv.forward
      exact .same _ (fun _ _ => .ok ⟨rfl, k1, k2⟩)
    · rintro f _ ⟨rfl, k1, k2⟩; exact .ok (.conv k1 k2)
  | pool f => cases h.pool_inv; exact .same _ (fun f _ => .ok ⟨rfl, .nil⟩)
  | rawFC f => cases h.rawFC_inv; exact .same _ (fun f _ => .ok ⟨rfl, .nil⟩)
  | rawConv f =>
    obtain ⟨a, b, rfl⟩ := h.rawConv_inv
    refine .bind2 (R := fun f f' => f' = { f with keyB := a, keyW := b }) ?_ ?_
    · unfold Conv.forward
      exact .same _ (fun _ _ => .ok rfl)
    · rintro f _ rfl; exact .ok ⟨rfl, .nil⟩
  | rawPool f => cases h.rawPool_inv; exact .same _ (fun f _ => .ok ⟨rfl, .nil⟩)

theorem Layer.backward_moved {l l' : Layer α} (h : Layer.Moved K l l') (x d : Ten α) (full : Bool) :
    Tracks (Layer.Moved K) (l.backward x d full) (l'.backward x d full) := by
  cases l with
  | fc f =>
    obtain ⟨a, b, rfl, k1, k2⟩ := h.fc_inv
    refine .bind2 (R := fun f f' => f' = { f with keyB := a, keyW := b } ∧ K f.keyB a ∧ K f.keyW b) ?_ ?_
    · unfold FC.backward
      exact .same _ (fun _ _ => .same _ (fun _ _ => .same _ (fun _ _ => .same _ (fun _ _ => .ok ⟨rfl, k1, k2⟩))))
    · rintro f _ ⟨rfl, k1, k2⟩; exact .ok (.fc k1 k2)
  | conv f =>
    obtain ⟨a, b, rfl, k1, k2⟩ := h.conv_inv
    refine .bind2 (R := fun f f' => f' = { f with keyB := a, keyW := b } ∧ K f.keyB a ∧ ∀ i, i < f.Ws.length → K (f.keyW i) (b i)) ?_ ?_
    · unfold Conv.backward
      exact .same _ (fun _ _ => .same _ (fun _ _ => .same _ (fun _ _ => .ok ⟨rfl, k1, k2⟩)))
    · rintro f _ ⟨rfl, k1, k2⟩; exact .ok (.conv k1 k2)
  | pool f => cases h.pool_inv; exact .same _ (fun f _ => .ok ⟨rfl, .nil⟩)
  | rawFC f => exact .err
  | rawConv f => exact .err
  | rawPool f => exact .err

theorem Layer.reset_moved {l l' : Layer α} (h : Layer.Moved K l l') : Tracks (Layer.Moved K) l.reset l'.reset := by
  cases l with
  | fc f =>
    obtain ⟨a, b, rfl, k1, k2⟩ := h.fc_inv
    refine .bind2 (R := fun f f' => f' = { f with keyB := a, keyW := b } ∧ K f.keyB a ∧ K f.keyW b) ?_ ?_
    · unfold FC.reset
      exact .same _ (fun _ _ => .same _ (fun _ _ => .ok ⟨rfl, k1, k2⟩))
    · rintro f _ ⟨rfl, k1, k2⟩; exact .ok (.fc k1 k2)
  | conv f => obtain ⟨a, b, rfl, k1, k2⟩ := h.conv_inv; exact .ok h
  | pool f => cases h.pool_inv; exact .ok h
  | rawFC f => exact .err
  | rawConv f => exact .err
  | rawPool f => exact .err

theorem Layer.accumulate_moved {l l' : Layer α} (h : Layer.Moved K l l') : Tracks (Layer.Moved K) l.accumulate l'.accumulate := by
  cases l with
  | fc f =>
    obtain ⟨a, b, rfl, k1, k2⟩ := h.fc_inv
    refine .bind2 (R := fun f f' => f' = { f with keyB := a, keyW := b } ∧ K f.keyB a ∧ K f.keyW b) ?_ ?_
    · unfold FC.accumulate
      exact .same _ (fun _ _ => .same _ (fun _ _ => .ok ⟨rfl, k1, k2⟩))
    · rintro f _ ⟨rfl, k1, k2⟩; exact .ok (.fc k1 k2)
  | conv f => obtain ⟨a, b, rfl, k1, k2⟩ := h.conv_inv; exact .ok h
  | pool f => cases h.pool_inv; exact .ok h
  | rawFC f => exact .err
  | rawConv f => exact .err
  | rawPool f => exact .err

/-! ### The optimizer -/

variable {upd : Upd σ α} {S : σ → σ → Prop}

theorem Equivariant.follows (E : Equivariant upd K S) {s₁ s₂ : σ} {k₁ k₂ : Nat} (hs : S s₁ s₂) (hk : K k₁ k₂) (p g : Buf α) :
    Tracks (fun r r' => S r.1 r'.1 ∧ r.2 = r'.2) (upd s₁ k₁ p g) (upd s₂ k₂ p g) := by
  intro r e
  obtain ⟨s', e', h⟩ := E s₁ s₂ k₁ k₂ p g r hs hk e
  exact ⟨_, e', h, rfl⟩

theorem FC.update_moved (E : Equivariant upd K S) {s₁ s₂ : σ} (hs : S s₁ s₂) {f : FC α} {a b : Nat} (k1 : K f.keyB a) (k2 : K f.keyW b) (alpha : α) :
    Tracks (fun r r' => S r.1 r'.1 ∧ r'.2 = { r.2 with keyB := a, keyW := b } ∧ K r.2.keyB a ∧ K r.2.keyW b) (f.update upd s₁ alpha)
      (({ f with keyB := a, keyW := b } : FC α).update upd s₂ alpha) := by
  have hw : ∀ gB gW, Tracks (fun r r' => S r.1 r'.1 ∧ r.2 = r'.2) (FC.updateWith upd s₁ alpha f gB gW)
      (FC.updateWith upd s₂ alpha ({ f with keyB := a, keyW := b } : FC α) gB gW) := by
    intro gB gW
    unfold FC.updateWith
    refine .same _ (fun _ _ => .same _ (fun _ _ => ?_))
    refine (E.follows hs k1 _ _).bind2 (fun ⟨x1, B1, g1⟩ ⟨y1, B2, g2⟩ q => ?_)
    dsimp only at q ⊢
    obtain ⟨q1, q2⟩ := q
    cases q2
    refine (E.follows q1 k2 _ _).bind2 (fun ⟨x2, W1, g3⟩ ⟨y2, W2, g4⟩ q => ?_)
    dsimp only at q ⊢
    obtain ⟨q1, q2⟩ := q
    cases q2
    exact .ok ⟨q1, rfl⟩
  unfold FC.update
  by_cases ha : f.accumulated
  · rw [if_pos ha, if_pos ha]
    refine (hw _ _).bind2 (fun ⟨x1, B1, g1, W1, g2⟩ ⟨y1, B2, g3, W2, g4⟩ q => ?_)
    dsimp only at q ⊢
    obtain ⟨q1, q2⟩ := q
    cases q2
    exact .ok ⟨q1, rfl, k1, k2⟩
  · rw [if_neg ha, if_neg ha]
    refine (hw _ _).bind2 (fun ⟨x1, B1, g1, W1, g2⟩ ⟨y1, B2, g3, W2, g4⟩ q => ?_)
    dsimp only at q ⊢
    obtain ⟨q1, q2⟩ := q
    cases q2
    exact .ok ⟨q1, rfl, k1, k2⟩

theorem convUpdW_moved (E : Equivariant upd K S) {s₁ s₂ : σ} (hs : S s₁ s₂) {k₁ k₂ : Nat → Nat} {n : Nat} (hk : ∀ i, i < n → K (k₁ i) (k₂ i))
    (Ws Gs : List (Ten α)) : Tracks (fun r r' => S r.1 r'.1 ∧ r.2 = r'.2 ∧ r.2.1.length = Ws.length) (convUpdW upd k₁ n s₁ Ws Gs)
      (convUpdW upd k₂ n s₂ Ws Gs) := by
  unfold convUpdW
  refine Tracks.forN (R := fun r r' : σ × List (Ten α) × List (Ten α) => S r.1 r'.1 ∧ r.2 = r'.2 ∧ r.2.1.length = Ws.length) n
    (fun m x y hm q => ?_) (a := (s₁, Ws, Gs)) (b := (s₂, Ws, Gs)) ⟨hs, rfl, rfl⟩
  obtain ⟨x1, W1, G1⟩ := x
  obtain ⟨y1, W2, G2⟩ := y
  dsimp only at q ⊢
  obtain ⟨q1, q2, q3⟩ := q
  cases q2
  refine .same _ (fun W _ => .same _ (fun G _ => ?_))
  refine (E.follows q1 (hk m hm) _ _).bind2 (fun ⟨x2, w, g⟩ ⟨y2, w', g'⟩ q => ?_)
  dsimp only at q ⊢
  obtain ⟨p1, p2⟩ := q
  cases p2
  refine .same _ (fun W' hW' => .same _ (fun G' _ => .ok ⟨p1, rfl, ?_⟩))
  unfold lset at hW'
  split at hW'
  · cases hW'; rw [List.length_set]; exact q3
  · cases hW'

theorem Conv.update_moved (E : Equivariant upd K S) {s₁ s₂ : σ} (hs : S s₁ s₂) {f : Conv α} {a : Nat} {b : Nat → Nat} (k1 : K f.keyB a)
    (k2 : ∀ i, i < f.Ws.length → K (f.keyW i) (b i)) (alpha : α) :
    Tracks (fun r r' => S r.1 r'.1 ∧ r'.2 = { r.2 with keyB := a, keyW := b } ∧ K r.2.keyB a ∧ ∀ i, i < r.2.Ws.length → K (r.2.keyW i) (b i))
      (f.update upd s₁ alpha) (({ f with keyB := a, keyW := b } : Conv α).update upd s₂ alpha) := by
  unfold Conv.update
  refine .same _ (fun _ _ => .same _ (fun _ _ => ?_))
  refine (convUpdW_moved E hs k2 _ _).bind2 (fun ⟨x1, W1, G1⟩ ⟨y1, W2, G2⟩ q => ?_)
  dsimp only at q ⊢
  obtain ⟨q1, q2, q3⟩ := q
  cases q2
  refine (E.follows q1 k1 _ _).bind2 (fun ⟨x2, w, g⟩ ⟨y2, w', g'⟩ q => ?_)
  dsimp only at q ⊢
  obtain ⟨p1, p2⟩ := q
  cases p2
  exact .ok ⟨p1, rfl, k1, fun i hi => k2 i (by dsimp only at hi; omega)⟩

theorem Layer.update_moved (E : Equivariant upd K S) {s₁ s₂ : σ} (hs : S s₁ s₂) {l l' : Layer α} (h : Layer.Moved K l l') (alpha : α) :
    Tracks (fun r r' => S r.1 r'.1 ∧ Layer.Moved K r.2 r'.2) (l.update upd s₁ alpha) (l'.update upd s₂ alpha) := by
  cases l with
  | fc f =>
    obtain ⟨a, b, rfl, k1, k2⟩ := h.fc_inv
    refine (FC.update_moved E hs k1 k2 alpha).bind2 (fun ⟨x1, l1⟩ ⟨y1, l2⟩ q => ?_)
    dsimp only at q ⊢
    obtain ⟨q1, rfl, q3, q4⟩ := q
    exact .ok ⟨q1, .fc q3 q4⟩
  | conv f =>
    obtain ⟨a, b, rfl, k1, k2⟩ := h.conv_inv
    refine (Conv.update_moved E hs k1 k2 alpha).bind2 (fun ⟨x1, l1⟩ ⟨y1, l2⟩ q => ?_)
    dsimp only at q ⊢
    obtain ⟨q1, rfl, q3, q4⟩ := q
    exact .ok ⟨q1, .conv q3 q4⟩
  | pool f => cases h.pool_inv; exact .ok ⟨hs, h⟩
  | rawFC f => exact .err
  | rawConv f => exact .err
  | rawPool f => exact .err

/-! ### Networks -/

/-- The same network with its parameters elsewhere. -/
def Net.Moved (K : Nat → Nat → Prop) (net net' : Net α) : Prop := List.Forall₂ (Layer.Moved K) net net'

theorem forall₂_follows {A B : Type} {R : A → B → Prop} {x : List A} {y : List B} (h : List.Forall₂ R x y) (i : Nat) : Tracks R (lget x i) (lget y i) := by
  have hl := h.length_eq
  unfold lget
  by_cases hi : i < x.length
  · rw [List.getElem?_eq_getElem hi, List.getElem?_eq_getElem (hl ▸ hi)]
    exact .ok (List.Forall₂.get h hi (hl ▸ hi))
  · rw [List.getElem?_eq_none (by omega)]; exact .err

theorem forall₂_set_follows {A B : Type} {R : A → B → Prop} {x : List A} {y : List B} (h : List.Forall₂ R x y) (i : Nat) {a : A} {b : B} (hab : R a b) :
    Tracks (List.Forall₂ R) (lset x i a) (lset y i b) := by
  have hl := h.length_eq
  unfold lset
  by_cases hi : i < x.length
  · rw [if_pos hi, if_pos (hl ▸ hi)]
    refine .ok ?_
    rw [List.forall₂_iff_get] at h ⊢
    refine ⟨by simpa using hl, fun j h1 h2 => ?_⟩
    simp only [List.get_eq_getElem, List.getElem_set]
    split
    · exact hab
    · exact h.2 j (by simpa using h1) (by simpa using h2)
  · rw [if_neg hi]; exact .err

theorem Net.step_moved {net net' : Net α} (h : Net.Moved K net net') (i : Nat) : Tracks (Net.Moved K) (Net.step i net) (Net.step i net') := by
  unfold Net.step
  refine (forall₂_follows h _).bind2 (fun p p' hp => ?_)
  refine (forall₂_follows h _).bind2 (fun l l' hl => ?_)
  rw [hp.value]
  exact (Layer.forward_moved hl _).bind2 (fun l l' hl => forall₂_set_follows h _ hl)

theorem Net.feedforward_moved {net net' : Net α} (h : Net.Moved K net net') (x : Ten α) :
    Tracks (fun r r' => Net.Moved K r.1 r'.1 ∧ r.2 = r'.2) (Net.feedforward x net) (Net.feedforward x net') := by
  unfold Net.feedforward
  refine (forall₂_follows h _).bind2 (fun l l' hl => ?_)
  refine (Layer.forward_moved hl _).bind2 (fun l l' hl => ?_)
  refine (forall₂_set_follows h _ hl).bind2 (fun n n' hn => ?_)
  have e := hn.length_eq
  refine Tracks.bind2 (R := Net.Moved K) ?_ (fun n n' hn => ?_)
  · unfold forLoop
    rw [← e]
    exact Tracks.forN _ (fun i a b _ hab => Net.step_moved hab _) hn
  · rw [← List.Forall₂.length_eq hn]
    exact (forall₂_follows hn _).bind2 (fun l l' hl => .ok ⟨hn, hl.value.symm⟩)

theorem Net.backprop_moved {net net' : Net α} (h : Net.Moved K net net') (x d : Ten α) :
    Tracks (Net.Moved K) (Net.backprop x d net) (Net.backprop x d net') := by
  unfold Net.backprop
  dsimp only
  rw [← List.Forall₂.length_eq h]
  generalize wsub net.length 1 = m1
  generalize wsub net.length 2 = m2
  refine (forall₂_follows h _).bind2 (fun l l' hl => ?_)
  refine (forall₂_follows h _).bind2 (fun p p' hp => ?_)
  rw [hp.value]
  refine (Layer.backward_moved hl _ _ _).bind2 (fun l l' hl => ?_)
  refine (forall₂_set_follows h _ hl).bind2 (fun n n' hn => ?_)
  refine Tracks.bind2 (R := Net.Moved K) (Tracks.forN _ (fun i a b _ hab => ?_) hn) (fun n n' hn => ?_)
  · unfold Net.backStep
    refine (forall₂_follows hab _).bind2 (fun p p' hp => ?_)
    refine (forall₂_follows hab _).bind2 (fun q q' hq => ?_)
    rw [hp.value, hq.delta]
    refine .same _ (fun d _ => ?_)
    refine (forall₂_follows hab _).bind2 (fun l l' hl => ?_)
    exact (Layer.backward_moved hl _ _ _).bind2 (fun l l' hl => forall₂_set_follows hab _ hl)
  · refine (forall₂_follows hn _).bind2 (fun l l' hl => ?_)
    refine (forall₂_follows hn _).bind2 (fun q q' hq => ?_)
    rw [hq.delta]
    refine .same _ (fun d _ => ?_)
    exact (Layer.backward_moved hl _ _ _).bind2 (fun l l' hl => forall₂_set_follows hn _ hl)

/-! ### Training -/

/-- Two trainings of the same network, with its parameters at addresses related by `K` and optimizer states related by `S`. -/
structure Train.Moved (K : Nat → Nat → Prop) (t t' : Train α) : Prop where
  net : Net.Moved K t.net t'.net
  delta : t'.delta = t.delta
  loss : t'.loss = t.loss

theorem Train.feedforward_moved {t t' : Train α} (h : Train.Moved K t t') (x : Ten α) : Tracks (Train.Moved K) (t.feedforward x) (t'.feedforward x) := by
  unfold Train.feedforward
  refine (Net.feedforward_moved h.net x).bind2 (fun ⟨n, v⟩ ⟨n', v'⟩ q => ?_)
  exact .ok ⟨q.1, h.delta, h.loss⟩

theorem Train.backprop_moved {t t' : Train α} (h : Train.Moved K t t') (x y : Ten α) : Tracks (Train.Moved K) (t.backprop x y) (t'.backprop x y) := by
  unfold Train.backprop
  rw [← List.Forall₂.length_eq h.net]
  generalize wsub t.net.length 1 = m1
  refine (forall₂_follows h.net _).bind2 (fun l l' hl => ?_)
  rw [h.loss, h.delta, hl.value]
  refine .same _ (fun _ _ => .same _ (fun _ _ => ?_))
  exact (Net.backprop_moved h.net _ _).bind2 (fun n n' hn => .ok ⟨hn, rfl, rfl⟩)

theorem Train.sample_moved {t t' : Train α} (h : Train.Moved K t t') (idata odata : List (Ten α)) (i : Nat) :
    Tracks (Train.Moved K) (t.sample idata odata i) (t'.sample idata odata i) := by
  unfold Train.sample
  refine .same _ (fun x _ => (Train.feedforward_moved h x).bind2 (fun t t' h => .same _ (fun y _ => ?_)))
  exact Train.backprop_moved h x y

theorem Train.reseting_moved {t t' : Train α} (h : Train.Moved K t t') : Tracks (Train.Moved K) t.reseting t'.reseting := by
  unfold Train.reseting
  refine Tracks.bind2 (R := Net.Moved K) ?_ (fun n n' hn => .ok ⟨hn, h.delta, h.loss⟩)
  unfold Net.reseting
  rw [← List.Forall₂.length_eq h.net]
  refine Tracks.forN _ (fun i a b _ hab => ?_) h.net
  exact (forall₂_follows hab _).bind2 (fun l l' hl => (Layer.reset_moved hl).bind2 (fun l l' hl => forall₂_set_follows hab _ hl))

theorem Train.accumulating_moved {t t' : Train α} (h : Train.Moved K t t') : Tracks (Train.Moved K) t.accumulating t'.accumulating := by
  unfold Train.accumulating
  refine Tracks.bind2 (R := Net.Moved K) ?_ (fun n n' hn => .ok ⟨hn, h.delta, h.loss⟩)
  unfold Net.accumulating
  rw [← List.Forall₂.length_eq h.net]
  refine Tracks.forN _ (fun i a b _ hab => ?_) h.net
  exact (forall₂_follows hab _).bind2 (fun l l' hl => (Layer.accumulate_moved hl).bind2 (fun l l' hl => forall₂_set_follows hab _ hl))

/-- Related trainings with related optimizers. -/
def MovedS (K : Nat → Nat → Prop) (S : σ → σ → Prop) (x y : σ × Train α) : Prop := S x.1 y.1 ∧ Train.Moved K x.2 y.2

theorem Train.updating_moved (E : Equivariant upd K S) {x y : σ × Train α} (h : MovedS K S x y) (alpha : α) :
    Tracks (MovedS K S) (Train.updating upd alpha x) (Train.updating upd alpha y) := by
  obtain ⟨h1, h2⟩ := h
  unfold Train.updating
  refine Tracks.bind2 (R := fun r r' : σ × Net α => S r.1 r'.1 ∧ Net.Moved K r.2 r'.2) ?_ (fun ⟨s, n⟩ ⟨s', n'⟩ q => .ok ⟨q.1, q.2, h2.delta, h2.loss⟩)
  unfold Net.updating
  rw [← List.Forall₂.length_eq h2.net]
  refine Tracks.forN (R := fun r r' : σ × Net α => S r.1 r'.1 ∧ Net.Moved K r.2 r'.2) _ (fun i a b _ hab => ?_) (a := (x.1, x.2.net)) (b := (y.1, y.2.net)) ⟨h1, h2.net⟩
  refine (forall₂_follows hab.2 _).bind2 (fun l l' hl => (Layer.update_moved E hab.1 hl alpha).bind2 (fun ⟨s, l⟩ ⟨s', l'⟩ q => ?_))
  exact (forall₂_set_follows hab.2 _ q.2).bind2 (fun n n' hn => .ok ⟨q.1, hn⟩)

theorem TEv.exec_moved (E : Equivariant upd K S) {idata odata : List (Ten α)} {x y : σ × Train α} (h : MovedS K S x y) (e : TEv α) :
    Tracks (MovedS K S) (TEv.exec upd idata odata x e) (TEv.exec upd idata odata y e) := by
  cases e with
  | reset => exact (Train.reseting_moved h.2).bind2 (fun t t' q => .ok ⟨h.1, q⟩)
  | sample i => exact (Train.sample_moved h.2 idata odata i).bind2 (fun t t' q => .ok ⟨h.1, q⟩)
  | accumulate => exact (Train.accumulating_moved h.2).bind2 (fun t t' q => .ok ⟨h.1, q⟩)
  | update a => exact Train.updating_moved E h a

theorem TEv.run_moved (E : Equivariant upd K S) {idata odata : List (Ten α)} : ∀ (es : List (TEv α)) {x y : σ × Train α}, MovedS K S x y →
    Tracks (MovedS K S) (TEv.run upd idata odata x es) (TEv.run upd idata odata y es)
  | [], _, _, h => .ok h
  | e :: es, _, _, h => (TEv.exec_moved E h e).bind2 (fun _ _ h => TEv.run_moved E es h)

variable [Div α] [NatCast α]

theorem Train.lossMean_moved {t t' : Train α} (h : Train.Moved K t t') (idata odata : List (Ten α)) :
    Tracks (fun r r' => r.1 = r'.1 ∧ Train.Moved K r.2 r'.2) (t.lossMean idata odata) (t'.lossMean idata odata) := by
  unfold Train.lossMean
  rw [h.loss]
  refine Tracks.bind2 (R := fun r r' : α × Net α => r.1 = r'.1 ∧ Net.Moved K r.2 r'.2)
    (Tracks.forN _ (fun i a b _ hab => ?_) (a := ((0 : α), t.net)) (b := ((0 : α), t'.net)) ⟨rfl, h.net⟩) (fun ⟨r, n⟩ ⟨r', n'⟩ q => ?_)
  · refine .same _ (fun _ _ => .same _ (fun _ _ => .same _ (fun x _ => ?_)))
    refine (Net.feedforward_moved hab.2 x).bind2 (fun ⟨n, v⟩ ⟨n', v'⟩ q => ?_)
    obtain ⟨q1, q2⟩ := q
    dsimp only at q1 q2 ⊢
    cases q2
    rw [hab.1]
    exact .same _ (fun _ _ => .ok ⟨rfl, q1⟩)
  · obtain ⟨q1, q2⟩ := q
    dsimp only at q1 q2 ⊢
    cases q1
    split
    · exact .err
    · exact .ok ⟨rfl, q2, h.delta, rfl⟩

theorem TrainOp.exec_moved (E : Equivariant upd K S) (gen : Gen γ ρ Nat) {x y : σ × Train α} (h : MovedS K S x y) (g : ρ) (op : TrainOp α γ) :
    Tracks (fun r r' => MovedS K S r.1 r'.1 ∧ r.2 = r'.2) (TrainOp.exec upd gen (x, g) op) (TrainOp.exec upd gen (y, g) op) := by
  cases op with
  | batch idata odata epochs =>
    refine Tracks.bind2 (R := MovedS K S) ?_ (fun a b hab => .ok ⟨hab, rfl⟩)
    by_cases hne : idata = []
    · subst hne; exact .err
    · dsimp only
      rw [C39_schedule upd idata odata hne, C39_schedule upd idata odata hne]
      exact TEv.run_moved E _ h
  | mini idata odata epochs m =>
    refine Tracks.bind2 (R := MovedS K S) ?_ (fun a b hab => .ok ⟨hab, rfl⟩)
    by_cases hm : m = 0
    · subst hm; exact .err
    · dsimp only
      rw [C40_schedule upd idata odata epochs m hm, C40_schedule upd idata odata epochs m hm]
      exact TEv.run_moved E _ h
  | sto idata odata iterations c =>
    show Tracks _ (Train.stochastic upd idata odata iterations gen c g x) (Train.stochastic upd idata odata iterations gen c g y)
    unfold Train.stochastic
    refine Tracks.bind2 (R := fun a b => MovedS K S a.1 b.1 ∧ a.2 = b.2) (Tracks.forN _ (fun i a b _ hab => ?_) (a := (x, c, g)) (b := (y, c, g)) ⟨h, rfl⟩)
      (fun ⟨a1, a2, a3⟩ ⟨b1, b2, b3⟩ hab => ?_)
    · obtain ⟨a1, a2, a3⟩ := a
      obtain ⟨b1, b2, b3⟩ := b
      obtain ⟨q1, q2⟩ := hab
      dsimp only at q1 q2 ⊢
      cases q2
      refine .same _ (fun j _ => ?_)
      refine (Train.sample_moved q1.2 idata odata j).bind2 (fun t t' ht => ?_)
      have : MovedS K S (a1.1, t) (b1.1, t') := ⟨q1.1, ht⟩
      exact (Train.updating_moved E this 1).bind2 (fun a b hab => .ok ⟨hab, rfl⟩)
    · dsimp only at hab ⊢
      obtain ⟨q1, q2⟩ := hab
      cases q2
      exact .ok ⟨q1, rfl⟩
  | lossOf idata odata => exact (Train.lossMean_moved h.2 idata odata).bind2 (fun r r' q => .ok ⟨⟨h.1, q.2⟩, rfl⟩)
  | eval x' => exact (Train.feedforward_moved h.2 x').bind2 (fun r r' q => .ok ⟨⟨h.1, q⟩, rfl⟩)
  | setLoss l => exact .ok ⟨⟨h.1, h.2.net, h.2.delta, rfl⟩, rfl⟩

theorem TrainOp.run_moved (E : Equivariant upd K S) (gen : Gen γ ρ Nat) : ∀ (ops : List (TrainOp α γ)) {x y : σ × Train α} (g : ρ), MovedS K S x y →
    Tracks (fun r r' => MovedS K S r.1 r'.1 ∧ r.2 = r'.2) (TrainOp.run upd gen (x, g) ops) (TrainOp.run upd gen (y, g) ops)
  | [], _, _, _, h => .ok ⟨h, rfl⟩
  | op :: ops, _, _, g, h => (TrainOp.exec_moved E gen h g op).bind2 (fun ⟨a, g1⟩ ⟨b, g2⟩ q => by
      obtain ⟨q1, q2⟩ := q
      dsimp only at q1 q2
      cases q2
      exact TrainOp.run_moved E gen ops g1 q1)

end

end Trixy
