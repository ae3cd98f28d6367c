import Verif.Proof.ThreadWithin
/- Programs of different threads that write to different allocations do not notice each other. -/
namespace Trixy
set_option linter.unusedSectionVars false

variable {α β γ ρ σ τ : Type}

/-- The two memories are the same in the allocations `S`. -/
def Heap.Agree (S : Nat → Prop) (H H' : Heap α) : Prop := ∀ b, S b → H.blocks b = H'.blocks b

theorem Heap.Agree.symm {S : Nat → Prop} {H H' : Heap α} (h : H.Agree S H') : H'.Agree S H := fun b hb => (h b hb).symm
theorem Heap.Agree.trans {S : Nat → Prop} {H H' H'' : Heap α} (h : H.Agree S H') (h' : H'.Agree S H'') : H.Agree S H'' :=
  fun b hb => (h b hb).trans (h' b hb)

theorem Heap.Agree.load {S : Nat → Prop} {H H' : Heap α} (h : H.Agree S H') {p : Ptr} (hp : ∀ b o, p = .at b o → S b) (i : Nat) :
    H'.load p i = H.load p i := by
  cases p with
  | null => rfl
  | «at» b o =>
    unfold Heap.load Heap.cell
    dsimp only
    rw [h b (hp b o rfl)]

theorem Heap.Agree.store {S : Nat → Prop} {H H' H1 : Heap α} (h : H.Agree S H') {p : Ptr} (hp : ∀ b o, p = .at b o → S b) {i : Nat} {a : α}
    (e : H.store p i a = .ok H1) : ∃ H1', H'.store p i a = .ok H1' ∧ H1.Agree S H1' := by
  cases p with
  | null => cases e
  | «at» b o =>
    unfold Heap.store Heap.put at e ⊢
    dsimp only at e ⊢
    rw [← h b (hp b o rfl)]
    cases hb : H.blocks b with
    | none => rw [hb] at e; cases e
    | some buf =>
      rw [hb] at e
      dsimp only at e ⊢
      split at e
      · rename_i hlt
        cases e
        refine ⟨_, if_pos hlt, fun c hc => ?_⟩
        dsimp only
        split
        · rfl
        · exact h c hc
      · cases e

/-- A store changes one allocation, and does not free or allocate. -/
theorem Heap.store_frame {H H1 : Heap α} {p : Ptr} {i : Nat} {a : α} (e : H.store p i a = .ok H1) :
    H1.next = H.next ∧ ∀ b, (∀ o, p ≠ .at b o) → H1.blocks b = H.blocks b := by
  cases p with
  | null => cases e
  | «at» b o =>
    unfold Heap.store Heap.put at e
    dsimp only at e
    split at e
    · cases e
    · split at e
      · cases e
        refine ⟨rfl, fun c hc => ?_⟩
        dsimp only
        rw [if_neg (fun h => hc o (by rw [h]))]
      · cases e

namespace Prog

/-- Number of accesses the program makes when it runs alone. -/
def steps (H : Heap α) : Prog α β → Nat
  | ret _ => 0
  | ub _ => 0
  | load p i k => match H.load p i with
    | .ok a => steps H (k a) + 1
    | .error _ => 0
  | store p i a k => match H.store p i a with
    | .ok H => steps H k + 1
    | .error _ => 0

variable {R W : Nat → Prop}

theorem run_agree {p : Prog α β} (hp : p.Within R W) {H H' H1 : Heap α} {r : β} (h : H.Agree (fun b => R b ∨ W b) H') (e : p.run H = .ok (H1, r)) :
    ∃ H1', p.run H' = .ok (H1', r) ∧ H1.Agree (fun b => R b ∨ W b) H1' ∧ p.steps H' = p.steps H := by
  induction p generalizing H H' with
  | ret b => cases e; exact ⟨H', rfl, h, rfl⟩
  | ub u => cases e
  | load p i k ih =>
    obtain ⟨a, e1, e2⟩ := res_inv e
    obtain ⟨H1', e3, h3, h4⟩ := ih a (hp.2 a) h e2
    have e5 := (h.load hp.1 i).trans e1
    refine ⟨H1', ?_, h3, ?_⟩
    · show (H'.load p i >>= _) = _; rw [e5]; exact e3
    · unfold steps; rw [e5, e1]; dsimp only; rw [h4]
  | store p i a k ih =>
    obtain ⟨H2, e1, e2⟩ := res_inv e
    obtain ⟨H2', e3, h3⟩ := h.store (fun b o e => Or.inr (hp.1 b o e)) e1
    obtain ⟨H1', e4, h4, h5⟩ := ih hp.2 h3 e2
    refine ⟨H1', ?_, h4, ?_⟩
    · show (H'.store p i a >>= _) = _; rw [e3]; exact e4
    · unfold steps; rw [e3, e1]; dsimp only; rw [h5]

/-- One access of a program that runs well alone. -/
theorem step_run {p : Prog α β} (hp : p.Within R W) {H H1 : Heap α} {r : β} (e : p.run H = .ok (H1, r)) :
    ∃ H' p', p.step H = .ok (H', p') ∧ p'.Within R W ∧ p'.run H' = .ok (H1, r) ∧ p'.steps H' = p.steps H - 1 ∧ H'.next = H.next ∧
      ∀ b, ¬ W b → H'.blocks b = H.blocks b := by
  cases p with
  | ret b => exact ⟨H, ret b, rfl, trivial, e, rfl, rfl, fun _ _ => rfl⟩
  | ub u => cases e
  | load p i k =>
    obtain ⟨a, e1, e2⟩ := res_inv e
    refine ⟨H, k a, ?_, hp.2 a, e2, ?_, rfl, fun _ _ => rfl⟩
    · show (H.load p i >>= _) = _; rw [e1]; rfl
    · rw [steps.eq_3, e1]; rfl
  | store p i a k =>
    obtain ⟨H2, e1, e2⟩ := res_inv e
    obtain ⟨f1, f2⟩ := Heap.store_frame e1
    refine ⟨H2, k, ?_, hp.2, e2, ?_, f1, fun b hb => f2 b (fun o ho => hb (hp.1 b o ho))⟩
    · show (H.store p i a >>= _) = _; rw [e1]; rfl
    · rw [steps.eq_4, e1]; rfl

theorem done_of_steps {p : Prog α β} {H H1 : Heap α} {r : β} (e : p.run H = .ok (H1, r)) (h : p.steps H = 0) : p = ret r ∧ H1 = H := by
  cases p with
  | ret b => cases e; exact ⟨rfl, rfl⟩
  | ub u => cases e
  | load p i k =>
    obtain ⟨a, e1, e2⟩ := res_inv e
    rw [steps.eq_3, e1] at h; cases h
  | store p i a k =>
    obtain ⟨H2, e1, e2⟩ := res_inv e
    rw [steps.eq_4, e1] at h; cases h

theorem access_within {p : Prog α β} (hp : p.Within R W) {w : Bool} {b o : Nat} (e : p.access = some (w, b, o)) : (w = true → W b) ∧ (R b ∨ W b) := by
  cases p with
  | ret b => cases e
  | ub u => cases e
  | load p i k =>
    cases p with
    | null => cases e
    | «at» c o' => cases e; exact ⟨fun h => (nomatch h), hp.1 _ _ rfl⟩
  | store p i a k =>
    cases p with
    | null => cases e
    | «at» c o' => cases e; exact ⟨fun _ => hp.1 _ _ rfl, Or.inr (hp.1 _ _ rfl)⟩

end Prog

/-- Every thread stays in its own allocations and, from the memory as it is now, would end with the result `F k`, after the accesses it
has still to make. -/
structure Threads.Inv (R W : Nat → Nat → Prop) (F : Nat → Heap α × β) (n : Nat → Nat) (s : Threads α β) : Prop where
  prog : ∀ k p, s.progs[k]? = some p → p.Within (R k) (W k) ∧ p.steps s.heap = n k ∧
    ∃ H1, p.run s.heap = .ok (H1, (F k).2) ∧ H1.Agree (fun b => R k b ∨ W k b) (F k).1

/-- What no thread writes. -/
structure Heap.Frame (W : Nat → Nat → Prop) (n : Nat) (H H' : Heap α) : Prop where
  next : H'.next = H.next
  blocks : ∀ b, (∀ k, k < n → ¬ W k b) → H'.blocks b = H.blocks b

theorem Threads.step_inv {R W : Nat → Nat → Prop} {F : Nat → Heap α × β} {n : Nat → Nat} {s : Threads α β} (h : s.Inv R W F n)
    (hd : ∀ j k b, j ≠ k → j < s.progs.length → k < s.progs.length → W j b → ¬ (R k b ∨ W k b)) {k : Nat} (hk : k < s.progs.length) :
    Ok (s.step k) (fun s' => s'.Inv R W F (fun j => if j = k then n j - 1 else n j) ∧ s'.progs.length = s.progs.length ∧
      Heap.Frame W s.progs.length s.heap s'.heap) := by
  obtain ⟨h1, h2, H1, h3, h4⟩ := h.prog k _ (List.getElem?_eq_getElem hk)
  obtain ⟨H', p', e1, w1, e2, s1, nx, fr⟩ := Prog.step_run h1 h3
  refine ⟨⟨H', s.progs.set k p'⟩, ?_, ⟨fun j q hq => ?_⟩, by simp, nx, fun b hb => fr b (hb k hk)⟩
  · show (lget s.progs k >>= fun p => p.step s.heap >>= fun r => lset s.progs k r.2 >>= _) = _
    rw [show lget s.progs k = .ok s.progs[k] from by unfold lget; rw [List.getElem?_eq_getElem hk], bind_ok, e1, bind_ok]
    dsimp only
    rw [show lset s.progs k p' = .ok (s.progs.set k p') from if_pos hk]
    rfl
  · dsimp only at hq ⊢
    by_cases hj : j = k
    · subst hj
      rw [List.getElem?_set_self hk] at hq
      cases hq
      rw [if_pos rfl]
      exact ⟨w1, by rw [s1, h2], H1, e2, h4⟩
    · rw [List.getElem?_set_ne (Ne.symm hj)] at hq
      rw [if_neg hj]
      obtain ⟨g1, g2, G1, g3, g4⟩ := h.prog j q hq
      have hjl : j < s.progs.length := (List.getElem?_eq_some_iff.1 hq).1
      have ha : s.heap.Agree (fun b => R j b ∨ W j b) H' := fun b hb => (fr b (fun hw => hd k j b (Ne.symm hj) hk hjl hw hb)).symm
      obtain ⟨G1', e3, a3, s3⟩ := Prog.run_agree g1 ha g3
      exact ⟨g1, s3.trans g2, G1', e3, a3.symm.trans g4⟩

theorem Threads.run_inv {R W : Nat → Nat → Prop} {F : Nat → Heap α × β} {ks : List Nat} : ∀ {n : Nat → Nat} {s : Threads α β}, s.Inv R W F n →
    (∀ j k b, j ≠ k → j < s.progs.length → k < s.progs.length → W j b → ¬ (R k b ∨ W k b)) → (∀ k ∈ ks, k < s.progs.length) →
    Ok (Threads.run ks s) (fun s' => s'.Inv R W F (fun j => n j - ks.count j) ∧ s'.progs.length = s.progs.length ∧
      Heap.Frame W s.progs.length s.heap s'.heap) := by
  induction ks with
  | nil => intro n s h _ _; exact Ok_ok.2 ⟨h, rfl, rfl, fun _ _ => rfl⟩
  | cons k ks ih =>
    intro n s h hd hk
    unfold Threads.run
    refine (Threads.step_inv h hd (hk k (List.mem_cons_self ..))).bind (fun s' q => ?_)
    obtain ⟨q1, q2, q3⟩ := q
    refine (ih q1 (by rw [q2]; exact hd) (by rw [q2]; exact fun k' h' => hk k' (List.mem_cons_of_mem _ h'))).mono (fun s'' r => ?_)
    obtain ⟨r1, r2, r3⟩ := r
    refine ⟨?_, r2.trans q2, r3.next.trans q3.next, fun b hb => (r3.blocks b (by rw [q2]; exact hb)).trans (q3.blocks b hb)⟩
    have : (fun j => (if j = k then n j - 1 else n j) - ks.count j) = fun j => n j - (k :: ks).count j := by
      funext j
      rw [List.count_cons]
      by_cases hj : j = k
      · subst hj; simp; omega
      · rw [if_neg hj]; simp [Ne.symm hj]
    rw [← this]; exact r1

theorem Threads.Inv.noRace {R W : Nat → Nat → Prop} {F : Nat → Heap α × β} {n : Nat → Nat} {s : Threads α β} (h : s.Inv R W F n)
    (hd : ∀ j k b, j ≠ k → j < s.progs.length → k < s.progs.length → W j b → ¬ (R k b ∨ W k b)) : ¬ s.Race := by
  rintro ⟨j, k, p, q, ⟨b, o⟩, w, hjk, ej, ek, aj, ak⟩
  exact hd j k b hjk (List.getElem?_eq_some_iff.1 ej).1 (List.getElem?_eq_some_iff.1 ek).1 ((Prog.access_within (h.prog j p ej).1 aj).1 rfl)
    (Prog.access_within (h.prog k q ek).1 ak).2

theorem Threads.Inv.done {R W : Nat → Nat → Prop} {F : Nat → Heap α × β} {n : Nat → Nat} {s : Threads α β} (h : s.Inv R W F n) {k : Nat} {r : β}
    (e : s.progs[k]? = some (.ret r)) : r = (F k).2 ∧ s.heap.Agree (fun b => R k b ∨ W k b) (F k).1 := by
  obtain ⟨-, -, H1, e1, a1⟩ := h.prog k _ e
  cases e1
  exact ⟨rfl, a1⟩

theorem Threads.Inv.finished {R W : Nat → Nat → Prop} {F : Nat → Heap α × β} {n : Nat → Nat} {s : Threads α β} (h : s.Inv R W F n) {k : Nat}
    (hk : k < s.progs.length) (hn : n k = 0) : s.progs[k]? = some (.ret (F k).2) := by
  obtain ⟨-, h2, H1, e1, -⟩ := h.prog k _ (List.getElem?_eq_getElem hk)
  rw [List.getElem?_eq_getElem hk, (Prog.done_of_steps e1 (h2.trans hn)).1]

end Trixy
