import Verif.Proof.Place
import Verif.Props.Shared
/- Property C108: where in memory the parameters are does not matter, for any network and any history of calls. -/
namespace Trixy
set_option linter.unusedSectionVars false

variable {α γ ρ σ : Type}

theorem OneToOne.flip {K : Nat → Nat → Prop} (h : OneToOne K) : OneToOne (fun a b => K b a) :=
  fun a b a' b' h1 h2 => (h b a b' a' h1 h2).symm

section
variable {K : Nat → Nat → Prop}

theorem forall₂_flip {A B : Type} {R : A → B → Prop} {x : List A} {y : List B} (h : List.Forall₂ R x y) : List.Forall₂ (fun b a => R a b) y x := by
  induction h with
  | nil => exact .nil
  | cons h _ ih => exact .cons h ih

theorem Layer.Moved.flip {l l' : Layer α} (h : Layer.Moved K l l') : Layer.Moved (fun a b => K b a) l' l := ⟨h.1.symm, forall₂_flip h.2⟩

theorem Train.Moved.flip {t t' : Train α} (h : Train.Moved K t t') : Train.Moved (fun a b => K b a) t' t where
  net := by
    have := h.net
    generalize t.net = n, t'.net = n' at this ⊢
    induction this with
    | nil => exact .nil
    | cons h _ ih => exact .cons h.flip ih
  delta := h.delta.symm
  loss := h.loss.symm

theorem Train.Moved.placeless {t t' : Train α} (h : Train.Moved K t t') : t.placeless = t'.placeless := by
  have e : t.net.map Layer.placeless = t'.net.map Layer.placeless := by
    have := h.net
    generalize t.net = n, t'.net = n' at this ⊢
    induction this with
    | nil => rfl
    | cons h _ ih => rw [List.map_cons, List.map_cons, h.1, ih]
  unfold Train.placeless
  rw [e, h.delta, h.loss]

/-- Equal apart from addresses: as many addresses, in the same places. -/
theorem placeless_keys {l l' : Layer α} (h : l.placeless = l'.placeless) : l.keys.length = l'.keys.length := by
  cases l <;> cases l' <;> simp only [Layer.placeless, reduceCtorEq, Layer.conv.injEq, Conv.mk.injEq] at h <;> simp [Layer.keys]
  · rename_i f f'
    rw [h.2.2.2.2.2.2.2.2.2.2.1]

theorem forall₂_zip {l l' : List Nat} (h : l.length = l'.length) : List.Forall₂ (fun a b => (a, b) ∈ l.zip l') l l' := by
  rw [List.forall₂_iff_zip]
  exact ⟨h, fun h => h⟩

theorem moved_of {net net' : Net α} (h : net.map Layer.placeless = net'.map Layer.placeless) :
    (Net.keys net).length = (Net.keys net').length ∧
    ∀ K : Nat → Nat → Prop, (∀ a b, (a, b) ∈ (Net.keys net).zip (Net.keys net') → K a b) → Net.Moved K net net' := by
  induction net generalizing net' with
  | nil =>
    cases net' with
    | nil => exact ⟨rfl, fun _ _ => .nil⟩
    | cons _ _ => simp at h
  | cons l ls ih =>
    cases net' with
    | nil => simp at h
    | cons l' ls' =>
      simp only [List.map_cons, List.cons.injEq] at h
      obtain ⟨h1, h2⟩ := ih h.2
      have hl := placeless_keys h.1
      have e : (Net.keys (l :: ls)).zip (Net.keys (l' :: ls')) = l.keys.zip l'.keys ++ (Net.keys ls).zip (Net.keys ls') := by
        show (l.keys ++ Net.keys ls).zip (l'.keys ++ Net.keys ls') = _
        exact List.zip_append hl
      refine ⟨?_, fun K hK => .cons ⟨h.1, ?_⟩ (h2 K (fun a b hab => hK a b (by rw [e]; exact List.mem_append_right _ hab)))⟩
      · show (l.keys ++ Net.keys ls).length = (l'.keys ++ Net.keys ls').length
        rw [List.length_append, List.length_append, hl, h1]
      · exact (forall₂_zip hl).imp (fun a b hab => hK a b (by rw [e]; exact List.mem_append_left _ hab))

theorem Train.moved_of {t t' : Train α} (h : t.placeless = t'.placeless) (hK : ∀ a b, (a, b) ∈ (Net.keys t.net).zip (Net.keys t'.net) → K a b) :
    Train.Moved K t t' := by
  unfold Train.placeless at h
  simp only [Train.mk.injEq] at h
  exact ⟨(Trixy.moved_of h.1).2 K hK, h.2.1.symm, h.2.2.symm⟩

end

section
variable [Zero α] [One α] [Add α] [Mul α] [Div α] [NatCast α] [LT α] [DecidableLT α] [DecidableEq α] {upd : Upd σ α}

theorem TrainOp.run_half {s : σ} (ha : AddressFree upd s) {K : Nat → Nat → Prop} (hK : OneToOne K) {t t' : Train α} (h : Train.Moved K t t')
    (gen : Gen γ ρ Nat) (g : ρ) (ops : List (TrainOp α γ)) (v : Train α × ρ) (e : placelessEnd (TrainOp.run upd gen ((s, t), g) ops) = .ok v) :
    placelessEnd (TrainOp.run upd gen ((s, t'), g) ops) = .ok v := by
  obtain ⟨S, E, hs⟩ := ha K hK
  unfold placelessEnd at e ⊢
  obtain ⟨r, e1, e2⟩ := res_bind_inv e
  obtain ⟨r', e', q1, q2⟩ := TrainOp.run_moved E gen ops g (⟨hs, h⟩ : MovedS K S (s, t) (s, t')) r e1
  rw [e']
  cases e2
  show Except.ok (r'.1.2.placeless, r'.2) = _
  rw [q1.2.placeless, q2]

/-- C108: two training objects that differ at most in where the parameters of their networks are (no two parameters at the same place): any
sequence of training calls, loss evaluations and feedforwards, with any optimizer that keeps its state per parameter, either ends
for both or for neither, and leaves the two equal again apart from the addresses. -/
theorem C108_history {s : σ} (ha : AddressFree upd s) (t t' : Train α) (h : t.placeless = t'.placeless) (d : (Net.keys t.net).Nodup)
    (d' : (Net.keys t'.net).Nodup) (gen : Gen γ ρ Nat) (g : ρ) (ops : List (TrainOp α γ)) (v : Train α × ρ) :
    placelessEnd (TrainOp.run upd gen ((s, t), g) ops) = .ok v ↔ placelessEnd (TrainOp.run upd gen ((s, t'), g) ops) = .ok v := by
  have hK := zip_oneToOne d d'
  have hm : Train.Moved (fun a b => (a, b) ∈ (Net.keys t.net).zip (Net.keys t'.net)) t t' := Train.moved_of h (fun _ _ h => h)
  exact ⟨TrainOp.run_half ha hK hm gen g ops v, TrainOp.run_half ha hK.flip hm.flip gen g ops v⟩

/-- … and so is the reported loss after it. -/
theorem C108_loss {s : σ} (ha : AddressFree upd s) (t t' : Train α) (h : t.placeless = t'.placeless) (d : (Net.keys t.net).Nodup)
    (d' : (Net.keys t'.net).Nodup) (gen : Gen γ ρ Nat) (g : ρ) (ops : List (TrainOp α γ)) (idata odata : List (Ten α)) (v : α) :
    ((do let r ← TrainOp.run upd gen ((s, t), g) ops; let l ← r.1.2.lossMean idata odata; return l.1) = Except.ok v) ↔
    ((do let r ← TrainOp.run upd gen ((s, t'), g) ops; let l ← r.1.2.lossMean idata odata; return l.1) = Except.ok v) := by
  have half : ∀ {K : Nat → Nat → Prop} {t t' : Train α}, OneToOne K → Train.Moved K t t' →
      ((do let r ← TrainOp.run upd gen ((s, t), g) ops; let l ← r.1.2.lossMean idata odata; return l.1) = Except.ok v) →
      ((do let r ← TrainOp.run upd gen ((s, t'), g) ops; let l ← r.1.2.lossMean idata odata; return l.1) = Except.ok v) := by
    intro K t t' hK hm e
    obtain ⟨S, E, hs⟩ := ha K hK
    have := (TrainOp.run_moved E gen ops g (⟨hs, hm⟩ : MovedS K S (s, t) (s, t'))).bind2 (Q := fun a b : α => a = b)
      (k := fun r => do let l ← r.1.2.lossMean idata odata; return l.1) (k' := fun r => do let l ← r.1.2.lossMean idata odata; return l.1)
      (fun r r' q => (Train.lossMean_moved q.1.2 idata odata).bind2 (fun l l' q => .ok q.1))
    obtain ⟨b, e', rfl⟩ := this v e
    exact e'
  have hK := zip_oneToOne d d'
  have hm : Train.Moved (fun a b => (a, b) ∈ (Net.keys t.net).zip (Net.keys t'.net)) t t' := Train.moved_of h (fun _ _ h => h)
  exact ⟨half hK hm, half hK.flip hm.flip⟩

/-! ### Several networks, one optimizer -/

/-- The same training objects, with the same engines, elsewhere. -/
def MovedTs (K : Nat → Nat → Prop) (ts ts' : List (Train α × ρ)) : Prop := List.Forall₂ (fun c c' => Train.Moved K c.1 c'.1 ∧ c.2 = c'.2) ts ts'

theorem Shared.run_moved {K : Nat → Nat → Prop} {S : σ → σ → Prop} (E : Equivariant upd K S) (gen : Gen γ ρ Nat) :
    ∀ (ops : List (Nat × TrainOp α γ)) {s s' : σ} {ts ts' : List (Train α × ρ)}, S s s' → MovedTs K ts ts' →
    Tracks (fun r r' => MovedTs K r.2 r'.2) (Shared.run upd gen s ts ops) (Shared.run upd gen s' ts' ops)
  | [], _, _, _, _, _, h => .ok h
  | (i, op) :: ops, s, s', ts, ts', hs, h => by
    unfold Shared.run
    intro v e
    obtain ⟨⟨t, g⟩, e1, e3⟩ := res_bind_inv e
    obtain ⟨r, e2, e4⟩ := res_bind_inv e3
    obtain ⟨⟨t', g'⟩, e1', hc, hg⟩ := forall₂_follows h i (t, g) e1
    dsimp only at hc hg e2
    subst hg
    obtain ⟨r', e2', q1, q2⟩ := TrainOp.exec_moved E gen (⟨hs, hc⟩ : MovedS K S (s, t) (s', t')) g op r e2
    have hi : i < ts.length := by
      unfold lget at e1
      by_contra hh
      rw [List.getElem?_eq_none (by omega)] at e1
      cases e1
    have h3 : MovedTs K (ts.set i (r.1.2, r.2)) (ts'.set i (r'.1.2, r'.2)) := by
      have hl := h.length_eq
      unfold MovedTs at h ⊢
      rw [List.forall₂_iff_get] at h ⊢
      refine ⟨by simpa using hl, fun j h1 h2 => ?_⟩
      simp only [List.get_eq_getElem, List.getElem_set]
      split
      · exact ⟨q1.2, q2⟩
      · exact h.2 j (by simpa using h1) (by simpa using h2)
    obtain ⟨w, ew, hw⟩ := Shared.run_moved E gen ops q1.1 h3 v e4
    refine ⟨w, ?_, hw⟩
    rw [e1']
    show (TrainOp.exec upd gen ((s', t'), g) op >>= _) = _
    rw [e2']
    exact ew

theorem MovedTs.flip' {K : Nat → Nat → Prop} {ts ts' : List (Train α × ρ)} (h : MovedTs K ts ts') : MovedTs (fun a b => K b a) ts' ts := by
  unfold MovedTs at h ⊢
  induction h with
  | nil => exact .nil
  | cons h _ ih => exact .cons ⟨h.1.flip, h.2.symm⟩ ih

theorem movedTs_of {ts ts' : List (Train α × ρ)} (h : ts.map (fun c => (c.1.placeless, c.2)) = ts'.map (fun c => (c.1.placeless, c.2))) :
    (allKeys ts).length = (allKeys ts').length ∧
    ∀ K : Nat → Nat → Prop, (∀ a b, (a, b) ∈ (allKeys ts).zip (allKeys ts') → K a b) → MovedTs K ts ts' := by
  induction ts generalizing ts' with
  | nil =>
    cases ts' with
    | nil => exact ⟨rfl, fun _ _ => .nil⟩
    | cons _ _ => simp at h
  | cons c cs ih =>
    cases ts' with
    | nil => simp at h
    | cons c' cs' =>
      simp only [List.map_cons, List.cons.injEq, Prod.mk.injEq] at h
      obtain ⟨h1, h2⟩ := ih h.2
      have hl : (Net.keys c.1.net).length = (Net.keys c'.1.net).length := by
        have h0 := h.1.1
        unfold Train.placeless at h0
        simp only [Train.mk.injEq] at h0
        exact (moved_of h0.1).1
      have e : (allKeys (c :: cs)).zip (allKeys (c' :: cs')) = (Net.keys c.1.net).zip (Net.keys c'.1.net) ++ (allKeys cs).zip (allKeys cs') := by
        show (Net.keys c.1.net ++ allKeys cs).zip (Net.keys c'.1.net ++ allKeys cs') = _
        exact List.zip_append hl
      refine ⟨?_, fun K hK => .cons ⟨?_, h.1.2⟩ (h2 K (fun a b hab => hK a b (by rw [e]; exact List.mem_append_right _ hab)))⟩
      · show (Net.keys c.1.net ++ allKeys cs).length = (Net.keys c'.1.net ++ allKeys cs').length
        rw [List.length_append, List.length_append, hl, h1]
      · exact Train.moved_of h.1.1 (fun a b hab => hK a b (by rw [e]; exact List.mem_append_left _ hab))

/-- C108 for several networks trained in turn with one optimizer (Adam included): relocating all of them changes nothing but addresses. -/
theorem C108_shared {s : σ} (ha : AddressFree upd s) (ts ts' : List (Train α × ρ))
    (h : ts.map (fun c => (c.1.placeless, c.2)) = ts'.map (fun c => (c.1.placeless, c.2))) (d : (allKeys ts).Nodup) (d' : (allKeys ts').Nodup)
    (gen : Gen γ ρ Nat) (ops : List (Nat × TrainOp α γ)) (v : List (Train α × ρ)) :
    placelessEnds (Shared.run upd gen s ts ops) = .ok v ↔ placelessEnds (Shared.run upd gen s ts' ops) = .ok v := by
  have half : ∀ {K : Nat → Nat → Prop} {ts ts' : List (Train α × ρ)}, OneToOne K → MovedTs K ts ts' →
      placelessEnds (Shared.run upd gen s ts ops) = .ok v → placelessEnds (Shared.run upd gen s ts' ops) = .ok v := by
    intro K ts ts' hK hm e
    obtain ⟨S, E, hs⟩ := ha K hK
    have := (Shared.run_moved E gen ops hs hm).bind2 (Q := fun a b : List (Train α × ρ) => a = b)
      (k := fun r => Except.ok (r.2.map (fun c => (c.1.placeless, c.2)))) (k' := fun r => Except.ok (r.2.map (fun c => (c.1.placeless, c.2))))
      (fun r r' q => .ok (by
        have q : MovedTs K r.2 r'.2 := q
        generalize r.2 = x, r'.2 = y at q
        induction q with
        | nil => rfl
        | cons h _ ih => rw [List.map_cons, List.map_cons, h.1.placeless, h.2, ih]))
    obtain ⟨b, e', rfl⟩ := this v e
    exact e'
  have hK := zip_oneToOne d d'
  have hm : MovedTs (fun a b => (a, b) ∈ (allKeys ts).zip (allKeys ts')) ts ts' := (movedTs_of h).2 _ (fun _ _ h => h)
  refine ⟨half hK hm, half hK.flip ?_⟩
  clear half d d' h hK
  exact MovedTs.flip' hm

end

/-- … and this holds of every optimizer of the library, from its construction. -/
theorem C108_library [Field α] [LT α] [DecidableLT α] [DecidableEq α] (isq : α → α) (lr a b : α) (t t' : Train α) (h : t.placeless = t'.placeless)
    (d : (Net.keys t.net).Nodup) (d' : (Net.keys t'.net).Nodup) (gen : Gen γ ρ Nat) (g : ρ) (ops : List (TrainOp α γ)) (v : Train α × ρ) :
    (placelessEnd (TrainOp.run gdUpdate gen ((lr, t), g) ops) = .ok v ↔ placelessEnd (TrainOp.run gdUpdate gen ((lr, t'), g) ops) = .ok v) ∧
    (placelessEnd (TrainOp.run sgdUpdate gen ((Sgd.make lr a, t), g) ops) = .ok v ↔ placelessEnd (TrainOp.run sgdUpdate gen ((Sgd.make lr a, t'), g) ops) = .ok v) ∧
    (placelessEnd (TrainOp.run momUpdate gen ((Mom.make lr a, t), g) ops) = .ok v ↔ placelessEnd (TrainOp.run momUpdate gen ((Mom.make lr a, t'), g) ops) = .ok v) ∧
    (placelessEnd (TrainOp.run nesUpdate gen ((Mom.make lr a, t), g) ops) = .ok v ↔ placelessEnd (TrainOp.run nesUpdate gen ((Mom.make lr a, t'), g) ops) = .ok v) ∧
    (placelessEnd (TrainOp.run (adagradUpdate isq) gen ((Ada.make lr a, t), g) ops) = .ok v ↔
      placelessEnd (TrainOp.run (adagradUpdate isq) gen ((Ada.make lr a, t'), g) ops) = .ok v) ∧
    (placelessEnd (TrainOp.run (rmspropUpdate isq) gen ((Ada.make lr a, t), g) ops) = .ok v ↔
      placelessEnd (TrainOp.run (rmspropUpdate isq) gen ((Ada.make lr a, t'), g) ops) = .ok v) ∧
    (placelessEnd (TrainOp.run (adamUpdate isq) gen ((AdamS.make lr a b, t), g) ops) = .ok v ↔
      placelessEnd (TrainOp.run (adamUpdate isq) gen ((AdamS.make lr a b, t'), g) ops) = .ok v) := by
  obtain ⟨h1, h2, h3, h4, h5, h6, h7⟩ := C80_optimizers isq lr a b
  exact ⟨C108_history h1 t t' h d d' gen g ops v, C108_history h2 t t' h d d' gen g ops v, C108_history h3 t t' h d d' gen g ops v,
    C108_history h4 t t' h d d' gen g ops v, C108_history h5 t t' h d d' gen g ops v, C108_history h6 t t' h d d' gen g ops v,
    C108_history h7 t t' h d d' gen g ops v⟩

/-! ### Concrete case: convolution → fully connected, trained with Momentum -/

/-- The network with its four parameter arrays at the addresses `a`, `b`, `c`, `d`. -/
def plTrain (a b c d : Nat) : Train ℚ :=
  ⟨[.conv ⟨1, 1, 3, 1, 1, 2, 0, 1, 1, Buf.of [5], [⟨1, 1, 2, Buf.of [2, -1]⟩], 1, 1, 1, 2, Ten.fill 1 1 2 0, [Ten.fill 1 1 2 0], filled 1 0,
      Ten.fill 1 1 3 0, Ten.fill 1 1 2 0, a, fun _ => b⟩,
    .fc { FC.make 2 1 (Act.elementwise (fun x : ℚ => x) (fun _ => 1)) c d with B := Buf.of [1], W := ⟨2, 1, Buf.of [3, 4]⟩ }],
    ⟨1, 1, 1, [none]⟩, some (sqLoss 1 1)⟩

def plOps : List (TrainOp ℚ Unit) :=
  [.batch [⟨1, 1, 3, Buf.of [1, 2, 3]⟩] [⟨1, 1, 1, Buf.of [38]⟩] 2, .eval ⟨1, 1, 3, Buf.of [0, 2, 1]⟩, .sto [⟨1, 1, 3, Buf.of [1, 2, 3]⟩] [⟨1, 1, 1, Buf.of [38]⟩] 1 ()]

/-- The parameters after the calls. -/
def plRun (t : Train ℚ) : Res (List (List (Buf ℚ))) := do
  let r ← TrainOp.run momUpdate shGen ((Mom.make (1/64 : ℚ) (1/2), t), ()) plOps
  return r.1.2.net.params

/-- The hypotheses are met by two placements, and the calls train. -/
example : (plTrain 3 4 5 6).placeless = (plTrain 20 9 7 3).placeless ∧ (Net.keys (plTrain 3 4 5 6).net).Nodup ∧ (Net.keys (plTrain 20 9 7 3).net).Nodup :=
  ⟨rfl, by decide, by decide⟩

example : plRun (plTrain 3 4 5 6) = plRun (plTrain 20 9 7 3) ∧ (plRun (plTrain 3 4 5 6)).isOk ∧
    plRun (plTrain 3 4 5 6) ≠ .ok (plTrain 3 4 5 6).net.params := by
  refine ⟨?_, ?_, ?_⟩ <;> decide +kernel

/-- Distinct addresses are needed: bias of the filter and bias of the dense layer at the same place would share a velocity. -/
example : plRun (plTrain 3 4 5 6) ≠ plRun (plTrain 3 4 3 6) := by decide +kernel

end Trixy
