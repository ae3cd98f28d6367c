import Verif.Spec.AllocFail
import Verif.Proof.TensorMem
/- A deleted pointer held by an object stays there (C72). -/
namespace Trixy

variable {α : Type _}

/-- Partial correctness: if the computation ends normally, its result satisfies `P`. -/
def MayPost {β : Type _} (r : Res β) (P : β → Prop) : Prop := ∀ a, r = .ok a → P a

theorem MayPost.ok {β : Type _} {a : β} {P : β → Prop} (h : P a) : MayPost (.ok a) P := fun _ e => by cases e; exact h
theorem MayPost.err {β : Type _} {e : UB} {P : β → Prop} : MayPost (.error e : Res β) P := fun _ h => by cases h

theorem MayPost.bind {β γ : Type _} {r : Res β} {k : β → Res γ} {P : β → Prop} {Q : γ → Prop} (h : MayPost r P)
    (hk : ∀ a, P a → MayPost (k a) Q) : MayPost (r >>= k) Q := by
  cases r with
  | error e => exact MayPost.err
  | ok a => exact hk a (h a rfl)

theorem MayPost.true {β : Type _} (r : Res β) : MayPost r (fun _ => True) := fun _ _ => trivial

theorem MayPost.forN {σ : Type _} {P : σ → Prop} {n : Nat} {s : σ} {body : Nat → σ → Res σ} (h0 : P s)
    (h : ∀ i s, P s → MayPost (body i s) P) : MayPost (Trixy.forN n s body) P := by
  induction n with
  | zero => exact MayPost.ok h0
  | succ n ih => rw [forN_succ]; exact ih.bind (fun a ha => h n a ha)

/-- Allocation `b` has been deleted. -/
def Gone (b : Nat) (H : Heap α) : Prop := ¬ H.live b ∧ b < H.next

theorem Gone.new {b : Nat} {H : Heap α} (h : Gone b H) (n : Nat) : Gone b (H.new n).1 := by
  refine ⟨?_, Nat.lt_succ_of_lt h.2⟩
  rw [Heap.new_live]
  rintro (e | e)
  · have := h.2; omega
  · exact h.1 e

theorem Gone.delete {b : Nat} {H : Heap α} (h : Gone b H) (p : Ptr) :
    MayPost (H.delete p) (fun H' => Gone b H' ∧ p ≠ .at b 0) := by
  cases p with
  | null => exact MayPost.ok ⟨h, by simp⟩
  | «at» c o =>
    unfold Heap.delete
    dsimp only
    split
    · rename_i hc
      refine MayPost.ok ⟨⟨?_, h.2⟩, ?_⟩
      · unfold Heap.live
        by_cases e : b = c
        · simp [e]
        · simp only [e, if_false]; exact h.1
      · intro e; cases e; exact h.1 hc.2
    · exact MayPost.err

theorem Gone.put {b : Nat} {H : Heap α} (h : Gone b H) (p : Ptr) (i : Nat) (c : Option α) :
    MayPost (H.put p i c) (Gone b) := by
  cases p with
  | null => exact MayPost.err
  | «at» c' o =>
    unfold Heap.put
    dsimp only
    cases hb : H.blocks c' with
    | none => exact MayPost.err
    | some buf =>
      dsimp only
      split
      · refine MayPost.ok ⟨?_, h.2⟩
        unfold Heap.live
        by_cases e : b = c'
        · subst e
          exact absurd (show H.live b by unfold Heap.live; rw [hb]; rfl) h.1
        · simp only [e, if_false]; exact h.1
      · exact MayPost.err

theorem Gone.copyLoop {b : Nat} {H : Heap α} (h : Gone b H) (p : Ptr) (n : Nat) (q : Ptr) :
    MayPost (copyLoop H p n q) (Gone b) := by
  unfold Trixy.copyLoop
  exact MayPost.forN h (fun i s hs => (MayPost.true _).bind (fun c _ => hs.put p i c))

theorem Gone.copyList {b : Nat} {H : Heap α} (h : Gone b H) (p : Ptr) (n : Nat) (l : List α) :
    MayPost (copyList H p n l) (Gone b) := by
  unfold Trixy.copyList
  refine MayPost.forN h (fun i s hs => ?_)
  cases l[i]? with
  | none => exact MayPost.err
  | some a => exact hs.put p i (some a)

theorem Gone.fillLoop {b : Nat} {H : Heap α} (h : Gone b H) (p : Ptr) (n : Nat) (v : α) :
    MayPost (fillLoop H p n v) (Gone b) := by
  unfold Trixy.fillLoop
  exact MayPost.forN h (fun i s hs => hs.put p i (some v))

/-- Some object still holds the deleted pointer. -/
def Doomed (b : Nat) (w : World α) : Prop := Gone b w.heap ∧ ∃ y o, w.own y = some o ∧ o.data = .at b 0

theorem look_post {β : Type _} (m : Nat → Option β) (x : Nat) : MayPost (look m x) (fun a => m x = some a) := by
  unfold look
  cases m x with
  | none => exact MayPost.err
  | some a => exact MayPost.ok rfl

/-- The holder is not `x`, so replacing `x` keeps it. -/
theorem keep_other {own : Nat → Option Obj} {b x : Nat} (c : Option Obj)
    (h : ∃ y o, own y = some o ∧ o.data = .at b 0) (hx : ∀ a, own x = some a → a.data ≠ .at b 0) :
    ∃ y o, upd own x c y = some o ∧ o.data = .at b 0 := by
  obtain ⟨y, o, h1, h2⟩ := h
  refine ⟨y, o, ?_, h2⟩
  rw [upd_ne]
  · exact h1
  · rintro rfl; exact hx o h1 h2

/-- Replacing `x` by something with the same pointer keeps a holder. -/
theorem keep_same {own : Nat → Option Obj} {b x : Nat} {c : Obj}
    (h : ∃ y o, own y = some o ∧ o.data = .at b 0) (hx : ∀ a, own x = some a → c.data = a.data) :
    ∃ y o, upd own x (some c) y = some o ∧ o.data = .at b 0 := by
  obtain ⟨y, o, h1, h2⟩ := h
  by_cases e : y = x
  · subst e
    exact ⟨y, c, upd_self _ _ _, (hx o h1).trans h2⟩
  · exact ⟨y, o, by rw [upd_ne _ _ e]; exact h1, h2⟩

theorem absent {own : Nat → Option Obj} {b x : Nat} (h : own x = none) : ∀ a, own x = some a → a.data ≠ .at b 0 := by
  intro a e; rw [h] at e; cases e

theorem Gone.copyAssign {b : Nat} {H : Heap α} (h : Gone b H) (a t : Obj) :
    MayPost (Obj.copyAssign H a t) (fun r => Gone b r.1 ∧ a.data ≠ .at b 0) := by
  unfold Obj.copyAssign
  refine (h.delete a.data).bind (fun H1 ⟨g1, ne⟩ => ?_)
  dsimp only
  have g2 := g1.new t.shape.size
  cases a.kind
  · exact (g2.copyLoop _ _ _).bind (fun H3 g3 => MayPost.ok ⟨g3, ne⟩)
  · exact (g2.copyLoop _ _ _).bind (fun H3 g3 => MayPost.ok ⟨g3, ne⟩)
  · exact (g2.copyLoop _ _ _).bind (fun H3 g3 => MayPost.ok ⟨g3, ne⟩)

theorem Gone.resize {b : Nat} {H : Heap α} (h : Gone b H) (a : Obj) (d h' w : Nat) :
    MayPost (Obj.resize H a d h' w) (fun r => Gone b r.1 ∧ a.data ≠ .at b 0) := by
  unfold Obj.resize
  refine (h.delete a.data).bind (fun H1 ⟨g1, ne⟩ => ?_)
  cases a.kind
  · exact MayPost.ok ⟨g1.new _, ne⟩
  · exact MayPost.ok ⟨g1.new _, ne⟩
  · exact MayPost.ok ⟨g1.new _, ne⟩

theorem doomed_step {b : Nat} {w : World α} (D : Doomed b w) (op : Op α) (hf : FreshName w op) :
    MayPost (w.step op) (Doomed b) := by
  obtain ⟨G, hold⟩ := D
  cases op with
  | defaultCtor x k => exact MayPost.ok ⟨G, keep_other _ hold (absent hf)⟩
  | sizedCtor x k d h wd => exact MayPost.ok ⟨G.new _, keep_other _ hold (absent hf)⟩
  | valueCtor x k d h wd v =>
    show MayPost (Obj.valued w.heap k d h wd v >>= _) _
    unfold Obj.valued
    refine MayPost.bind (P := fun r => Gone b r.1) ?_ (fun r hr => MayPost.ok ⟨hr, keep_other _ hold (absent hf)⟩)
    exact ((G.new _).fillLoop _ _ _).bind (fun H' h' => MayPost.ok h')
  | listCtor x k l =>
    show MayPost (Obj.fromList w.heap k l >>= _) _
    unfold Obj.fromList
    refine MayPost.bind (P := fun r => Gone b r.1) ?_ (fun r hr => MayPost.ok ⟨hr, keep_other _ hold (absent hf)⟩)
    exact ((G.new _).copyList _ _ _).bind (fun H' h' => MayPost.ok h')
  | copyCtor x y =>
    show MayPost (look w.own y >>= _) _
    refine (look_post w.own y).bind (fun t _ => ?_)
    refine MayPost.bind (P := fun r => Gone b r.1) ?_ (fun r hr => MayPost.ok ⟨hr, keep_other _ hold (absent hf)⟩)
    unfold Obj.copyCtor
    exact ((G.new _).copyLoop _ _ _).bind (fun H' h' => MayPost.ok h')
  | moveCtor x y =>
    show MayPost (look w.own y >>= _) _
    refine (look_post w.own y).bind (fun t ht => ?_)
    refine MayPost.ok ⟨G, ?_⟩
    obtain ⟨z, o, h1, h2⟩ := hold
    have hx : w.own x = none := hf
    by_cases e : z = y
    · subst e
      rw [ht] at h1; cases h1
      exact ⟨x, _, upd_self _ _ _, h2⟩
    · refine ⟨z, o, ?_, h2⟩
      have e' : z ≠ x := by rintro rfl; rw [hx] at h1; cases h1
      show upd (upd w.own y _) x _ z = _
      rw [upd_ne _ _ e', upd_ne _ _ e]; exact h1
  | copyAssign x y =>
    show MayPost (look w.own x >>= _) _
    refine (look_post w.own x).bind (fun a ha => ?_)
    refine (look_post w.own y).bind (fun t _ => ?_)
    by_cases e : x = y
    · rw [if_pos e]; exact MayPost.ok ⟨G, hold⟩
    · rw [if_neg e]
      refine (G.copyAssign a t).bind (fun r hr => MayPost.ok ⟨hr.1, keep_other _ hold (fun a' ha' => ?_)⟩)
      rw [ha] at ha'; cases ha'; exact hr.2
  | moveAssign x y =>
    show MayPost (look w.own x >>= _) _
    refine (look_post w.own x).bind (fun a ha => ?_)
    refine (look_post w.own y).bind (fun t ht => ?_)
    by_cases e : x = y
    · rw [if_pos e]; exact MayPost.ok ⟨G, hold⟩
    · rw [if_neg e]
      unfold Obj.moveAssign
      refine MayPost.bind (P := fun r => Gone b r.1 ∧ a.data ≠ .at b 0 ∧ r.2.1.data = t.data) ?_ (fun r hr => MayPost.ok ⟨hr.1, ?_⟩)
      · exact (G.delete a.data).bind (fun H' h' => MayPost.ok ⟨h'.1, h'.2, rfl⟩)
      · obtain ⟨z, o, h1, h2⟩ := hold
        by_cases e1 : z = y
        · subst e1
          rw [ht] at h1; cases h1
          exact ⟨x, _, upd_self _ _ _, hr.2.2.trans h2⟩
        · refine ⟨z, o, ?_, h2⟩
          have e' : z ≠ x := by rintro rfl; rw [ha] at h1; cases h1; exact hr.2.1 h2
          show upd (upd w.own y _) x _ z = _
          rw [upd_ne _ _ e', upd_ne _ _ e1]; exact h1
  | resize x d h wd =>
    show MayPost (look w.own x >>= _) _
    refine (look_post w.own x).bind (fun a ha => ?_)
    refine (G.resize a d h wd).bind (fun r hr => MayPost.ok ⟨hr.1, keep_other _ hold (fun a' ha' => ?_)⟩)
    rw [ha] at ha'; cases ha'; exact hr.2
  | reshape x d h wd =>
    show MayPost (look w.own x >>= _) _
    refine (look_post w.own x).bind (fun a ha => ?_)
    refine MayPost.ok ⟨G, keep_same hold (fun a' ha' => ?_)⟩
    rw [ha] at ha'; cases ha'
    unfold Obj.reshape
    cases a.kind <;> rfl
  | fill x v =>
    show MayPost (look w.own x >>= _) _
    refine (look_post w.own x).bind (fun a _ => ?_)
    exact (G.fillLoop _ _ _).bind (fun H' h' => MayPost.ok ⟨h', hold⟩)
  | write x i v =>
    show MayPost (look w.own x >>= _) _
    refine (look_post w.own x).bind (fun a _ => ?_)
    exact (G.put _ _ _).bind (fun H' h' => MayPost.ok ⟨h', hold⟩)
  | destroy x =>
    show MayPost (look w.own x >>= _) _
    refine (look_post w.own x).bind (fun a ha => ?_)
    refine (G.delete a.data).bind (fun H' h' => MayPost.ok ⟨h'.1, keep_other _ hold (fun a' ha' => ?_)⟩)
    rw [ha] at ha'; cases ha'; exact h'.2
  | viewMake v x =>
    exact (look_post w.own x).bind (fun a _ => MayPost.ok ⟨G, hold⟩)
  | viewCopy v u =>
    exact (look_post w.view u).bind (fun a _ => MayPost.ok ⟨G, hold⟩)
  | viewAssign v u =>
    refine (look_post w.view v).bind (fun a _ => (look_post w.view u).bind (fun t _ => ?_))
    by_cases e : v = u
    · rw [if_pos e]; exact MayPost.ok ⟨G, hold⟩
    · rw [if_neg e]; exact MayPost.ok ⟨G, hold⟩
  | viewWrite v i a =>
    refine (look_post w.view v).bind (fun o _ => ?_)
    exact (G.put _ _ _).bind (fun H' h' => MayPost.ok ⟨h', hold⟩)
  | viewDestroy v =>
    exact (look_post w.view v).bind (fun a _ => MayPost.ok ⟨G, hold⟩)
  | swap x y =>
    show MayPost (look w.own x >>= _) _
    refine (look_post w.own x).bind (fun a ha => ?_)
    refine (look_post w.own y).bind (fun t ht => ?_)
    refine MayPost.ok ⟨G, ?_⟩
    obtain ⟨z, o, h1, h2⟩ := hold
    by_cases e1 : z = y
    · subst e1
      rw [ht] at h1; cases h1
      exact ⟨x, _, upd_self _ _ _, h2⟩
    · by_cases e2 : z = x
      · subst e2
        rw [ha] at h1; cases h1
        refine ⟨y, (a.swap t).2, ?_, h2⟩
        show upd (upd w.own y _) z _ y = _
        rw [upd_ne _ _ (Ne.symm e1), upd_self]
      · refine ⟨z, o, ?_, h2⟩
        show upd (upd w.own y _) x _ z = _
        rw [upd_ne _ _ e2, upd_ne _ _ e1]; exact h1
  | viewSwap v u =>
    exact (look_post w.view v).bind (fun a _ => (look_post w.view u).bind (fun t _ => MayPost.ok ⟨G, hold⟩))

theorem doomed_throw {b : Nat} {w : World α} (D : Doomed b w) (op : Op α) (hf : FreshName w op) :
    MayPost (w.stepThrow op) (Doomed b) := by
  obtain ⟨G, hold⟩ := D
  cases op with
  | sizedCtor x k d h wd => exact MayPost.ok ⟨G, hold⟩
  | valueCtor x k d h wd v => exact MayPost.ok ⟨G, hold⟩
  | listCtor x k l => exact MayPost.ok ⟨G, hold⟩
  | copyCtor x y => exact (look_post w.own y).bind (fun t _ => MayPost.ok ⟨G, hold⟩)
  | copyAssign x y =>
    show MayPost (look w.own x >>= _) _
    refine (look_post w.own x).bind (fun a ha => ?_)
    refine (look_post w.own y).bind (fun t _ => ?_)
    by_cases e : x = y
    · rw [if_pos e]; exact MayPost.ok ⟨G, hold⟩
    · rw [if_neg e]
      unfold Obj.copyAssignThrow
      refine MayPost.bind (P := fun r => Gone b r.1 ∧ a.data ≠ .at b 0) ?_ (fun r hr => MayPost.ok ⟨hr.1, keep_other _ hold (fun a' ha' => ?_)⟩)
      · exact (G.delete a.data).bind (fun H' h' => MayPost.ok h')
      · rw [ha] at ha'; cases ha'; exact hr.2
  | resize x d h wd =>
    show MayPost (look w.own x >>= _) _
    refine (look_post w.own x).bind (fun a ha => ?_)
    unfold Obj.resizeThrow
    refine MayPost.bind (P := fun r => Gone b r.1 ∧ a.data ≠ .at b 0) ?_ (fun r hr => MayPost.ok ⟨hr.1, keep_other _ hold (fun a' ha' => ?_)⟩)
    · refine (G.delete a.data).bind (fun H' h' => ?_)
      cases a.kind
      · exact MayPost.ok h'
      · exact MayPost.ok h'
      · exact MayPost.ok h'
    · rw [ha] at ha'; cases ha'; exact hr.2
  | defaultCtor x k => exact doomed_step ⟨G, hold⟩ (.defaultCtor x k) hf
  | moveCtor x y => exact doomed_step ⟨G, hold⟩ (.moveCtor x y) hf
  | moveAssign x y => exact doomed_step ⟨G, hold⟩ (.moveAssign x y) hf
  | reshape x d h wd => exact doomed_step ⟨G, hold⟩ (.reshape x d h wd) hf
  | fill x v => exact doomed_step ⟨G, hold⟩ (.fill x v) hf
  | write x i v => exact doomed_step ⟨G, hold⟩ (.write x i v) hf
  | destroy x => exact doomed_step ⟨G, hold⟩ (.destroy x) hf
  | viewMake v x => exact doomed_step ⟨G, hold⟩ (.viewMake v x) hf
  | viewCopy v u => exact doomed_step ⟨G, hold⟩ (.viewCopy v u) hf
  | viewAssign v u => exact doomed_step ⟨G, hold⟩ (.viewAssign v u) hf
  | viewWrite v i a => exact doomed_step ⟨G, hold⟩ (.viewWrite v i a) hf
  | viewDestroy v => exact doomed_step ⟨G, hold⟩ (.viewDestroy v) hf
  | swap x y => exact doomed_step ⟨G, hold⟩ (.swap x y) hf
  | viewSwap v u => exact doomed_step ⟨G, hold⟩ (.viewSwap v u) hf

theorem doomed_run {b : Nat} (es : List (MemEv α)) : ∀ {w : World α}, Doomed b w → FreshNames w es →
    MayPost (w.runEv es) (Doomed b) := by
  induction es with
  | nil => exact fun D _ => MayPost.ok D
  | cons e es ih =>
    intro w D hf
    show MayPost (w.ev e >>= _) _
    cases e with
    | done op =>
      intro w2 h2
      obtain ⟨hf1, hf2⟩ := hf
      show Doomed b w2
      cases hs : w.step op with
      | error u => change (w.step op >>= _) = _ at h2; rw [hs] at h2; cases h2
      | ok w1 =>
        change (w.step op >>= _) = _ at h2
        rw [hs] at h2
        exact ih (doomed_step D op hf1 w1 hs) (hf2 w1 hs) w2 h2
    | threw op =>
      intro w2 h2
      obtain ⟨hf1, hf2⟩ := hf
      cases hs : w.stepThrow op with
      | error u => change (w.stepThrow op >>= _) = _ at h2; rw [hs] at h2; cases h2
      | ok w1 =>
        change (w.stepThrow op >>= _) = _ at h2
        rw [hs] at h2
        exact ih (doomed_throw D op hf1 w1 hs) (hf2 w1 hs) w2 h2

/-! ### Harmless failures -/

theorem upd_same {β : Type _} {m : Nat → Option β} {x : Nat} {a : β} (h : m x = some a) : upd m x (some a) = m := by
  funext y
  by_cases e : y = x
  · subst e; rw [upd_self, h]
  · rw [upd_ne _ _ e]

theorem throw_inv {w : World α} (I : WInv w.heap w.own) (op : Op α) (hv : Valid w op) (hh : FailsHarmlessly w op) :
    Ok (w.stepThrow op) (fun w' => WInv w'.heap w'.own) := by
  cases op with
  | sizedCtor x k d h wd => exact Ok_ok.2 I
  | valueCtor x k d h wd v => exact Ok_ok.2 I
  | listCtor x k l => exact Ok_ok.2 I
  | copyCtor x y =>
    obtain ⟨hx, t, hy, hu⟩ := hv
    show Ok (look w.own y >>= _) _
    simp only [look, hy, bind_ok]
    exact Ok_ok.2 I
  | copyAssign x y =>
    obtain ⟨a, t, hx, hy, _⟩ := hv
    show Ok (look w.own x >>= _) _
    simp only [look, hx, hy, bind_ok]
    by_cases e : x = y
    · rw [if_pos e]; exact Ok_ok.2 I
    · rw [if_neg e]
      have hn : a.data = .null := hh e a hx
      unfold Obj.copyAssignThrow
      rw [hn]
      refine Ok_ok.2 ?_
      show WInv w.heap (upd w.own x (some a))
      rw [upd_same hx]; exact I
  | resize x d h wd =>
    obtain ⟨a, hx⟩ := hv
    show Ok (look w.own x >>= _) _
    simp only [look, hx, bind_ok]
    have hn : a.data = .null := hh a hx
    have hx' : ∀ o, w.own x = some o → o.data = .null := fun o ho => by rw [hx] at ho; cases ho; exact hn
    unfold Obj.resizeThrow
    rw [hn]
    cases hk : a.kind
    · exact Ok_ok.2 (I.addNull hx' rfl (fun h' => by cases h'))
    · exact Ok_ok.2 (I.addNull hx' rfl (fun _ => ⟨(I.mat x a hx hk).1, rfl⟩))
    · exact Ok_ok.2 (I.addNull hx' rfl (fun h' => by cases h'))
  | defaultCtor x k => exact step_inv I (.defaultCtor x k) hv
  | moveCtor x y => exact step_inv I (.moveCtor x y) hv
  | moveAssign x y => exact step_inv I (.moveAssign x y) hv
  | reshape x d h wd => exact step_inv I (.reshape x d h wd) hv
  | fill x v => exact step_inv I (.fill x v) hv
  | write x i v => exact step_inv I (.write x i v) hv
  | destroy x => exact step_inv I (.destroy x) hv
  | viewMake v x => exact step_inv I (.viewMake v x) hv
  | viewCopy v u => exact step_inv I (.viewCopy v u) hv
  | viewAssign v u => exact step_inv I (.viewAssign v u) hv
  | viewWrite v i a => exact step_inv I (.viewWrite v i a) hv
  | viewDestroy v => exact step_inv I (.viewDestroy v) hv
  | swap x y => exact step_inv I (.swap x y) hv
  | viewSwap v u => exact step_inv I (.viewSwap v u) hv

theorem runEv_inv (es : List (MemEv α)) : ∀ {w : World α}, WInv w.heap w.own → ValidEvs w es →
    Ok (w.runEv es) (fun w' => WInv w'.heap w'.own) := by
  induction es with
  | nil => exact fun I _ => Ok_ok.2 I
  | cons e es ih =>
    intro w I hv
    cases e with
    | done op =>
      obtain ⟨w', h1, h2⟩ := step_inv I op hv.1
      show Ok (w.step op >>= _) _
      rw [h1]
      exact ih h2 (hv.2 w' h1)
    | threw op =>
      obtain ⟨w', h1, h2⟩ := throw_inv I op hv.1 hv.2.1
      show Ok (w.stepThrow op >>= _) _
      rw [h1]
      exact ih h2 (hv.2.2 w' h1)

end Trixy
