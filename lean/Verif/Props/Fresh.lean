import Verif.Spec.Fresh
import Verif.Props.Alias
import Verif.Proof.TensorMem
/- Property C93: products, transposition and inversion that return new objects. -/
namespace Trixy

variable {α : Type _}

theorem Heap.Holds.new {H : Heap α} (hp : H.Proper) {p : Ptr} {m n : Nat} {a : Nat → α} (h : H.Holds p m a) :
    (H.new n).1.Holds p m a ∧ Apart (.at H.next 0) n p m := by
  rcases h with rfl | ⟨b, o, rfl, hc⟩
  · exact ⟨Or.inl rfl, fun _ _ _ _ _ _ _ _ _ hj => by omega⟩
  · by_cases hm : m = 0
    · subst hm; exact ⟨Or.inl rfl, fun _ _ _ _ _ _ _ _ _ hj => by omega⟩
    have hb : b < H.next := hp b (Heap.cellAt_live (hc 0 (Nat.pos_of_ne_zero hm)))
    refine ⟨Or.inr ⟨b, o, rfl, fun i hi => ?_⟩, fun pb po qb qo i j h1 h2 _ _ h3 => ?_⟩
    · rw [Heap.new_cellAt, if_neg (by omega), hc i hi]
    · cases h1; cases h2; omega

theorem Heap.Vec.new {H : Heap α} (hp : H.Proper) {o : Obj} {m n : Nat} {a : Nat → α} (h : H.Vec o m a) :
    (H.new n).1.Vec o m a ∧ Apart (.at H.next 0) n o.data m :=
  ⟨⟨h.1, (h.2.new hp).1⟩, (h.2.new hp).2⟩

theorem Heap.Matrix.new {H : Heap α} (hp : H.Proper) {o : Obj} {h w n : Nat} {f : Nat → Nat → α} (hm : H.Matrix o h w f) :
    (H.new n).1.Matrix o h w f ∧ Apart (.at H.next 0) n o.data (h * w) := by
  obtain ⟨M, sm, vm⟩ := hm.stores
  have hl : M.data.length = h * w := vm.2.2.1
  have key : (H.new n).1.Stores o.data M.data ∧ Apart (.at H.next 0) n o.data (h * w) := by
    rcases sm with h0 | ⟨b, p, e, hc⟩
    · have : h * w = 0 := by rw [← hl, h0]; rfl
      exact ⟨Or.inl h0, fun _ _ _ _ _ _ _ _ _ hj => by omega⟩
    · by_cases h0 : h * w = 0
      · exact ⟨Or.inl (List.length_eq_zero_iff.1 (hl.trans h0)), fun _ _ _ _ _ _ _ _ _ hj => by omega⟩
      · have hb : b < H.next := by
          have := hc 0 (by omega)
          rw [List.getElem?_eq_getElem (by omega)] at this
          exact hp b (Heap.cellAt_live this)
        refine ⟨Or.inr ⟨b, p, e, fun i hi => ?_⟩, fun pb po qb qo i j h1 h2 _ _ h3 => ?_⟩
        · rw [Heap.new_cellAt, if_neg (by omega), hc i hi]
        · rw [e] at h2; cases h1; cases h2; omega
  exact ⟨key.1.matrix hm.1 hm.2.1 vm, key.2⟩

theorem room_new (H : Heap α) (n : Nat) : (H.new n).1.Room (.at H.next 0) n :=
  Or.inr ⟨H.next, 0, rfl, fun i hi => by rw [Heap.new_cellAt, if_pos rfl, Nat.zero_add, if_pos hi]; rfl⟩

theorem Heap.Proper.not_next {H : Heap α} (hp : H.Proper) : ¬ H.live H.next := fun h => Nat.lt_irrefl _ (hp _ h)

/-- Only the new allocation (and the `m` cells from `p` on) has been written. -/
theorem freshExcept_of {H H' : Heap α} {n m : Nat} {p : Ptr} (hp : H.Proper) {o : Obj} (ho : o.data = .at H.next 0)
    (hm : Apart (.at H.next 0) (n + 1) p m)
    (hs : (H.new n).1.SameExcept2 H' (.at H.next 0) n p m) (hr : H'.Room (.at H.next 0) n) : H.FreshExcept H' o n p m := by
  obtain ⟨h1, h2, h3⟩ := hs
  have hlive : ∀ b', H'.live b' ↔ b' = H.next ∨ H.live b' := fun b' => (h2 b').trans (Heap.new_live H n b')
  refine ⟨H.next, ho, hp.not_next, ?_, fun b hb => ?_, hlive, fun b' k hb hk => ?_⟩
  · have e0 : H'.cellAt H.next n = none := by
      rw [h3 _ _ (fun pb po e => by cases e; omega) (fun pb po e hx =>
          hm H.next 0 pb po n (n - po) rfl e (by omega) (by omega) ⟨hx.1, by omega⟩), Heap.new_cellAt, if_pos rfl, if_neg (Nat.lt_irrefl _)]
    have el : H'.live H.next := (hlive _).2 (Or.inl rfl)
    unfold Heap.len
    unfold Heap.live at el
    unfold Heap.cellAt at e0
    cases hb : H'.blocks H.next with
    | none => rw [hb] at el; cases el
    | some buf =>
      rw [hb] at e0
      have h4 : buf.length ≤ n := List.getElem?_eq_none_iff.1 e0
      refine Nat.le_antisymm h4 ?_
      rcases hr with rfl | ⟨b, o', e, hc⟩
      · exact Nat.zero_le _
      · cases e
        refine Nat.le_of_not_lt (fun hlt => ?_)
        have hlt' : buf.length < n := hlt
        have := hc buf.length hlt'
        unfold Heap.cellAt at this
        rw [hb, Nat.zero_add] at this
        simp at this
  · rcases (hlive b).1 hb with rfl | hl
    · rw [h1]; exact Nat.lt_succ_self _
    · rw [h1]; exact Nat.lt_succ_of_lt (hp b hl)
  · rw [h3 _ _ (fun pb po e h => by cases e; exact hb h.1) hk, Heap.new_cellAt, if_neg hb]

/-- Only the new allocation has been written. -/
theorem fresh_of {H H' : Heap α} {n : Nat} (hp : H.Proper) {o : Obj} (ho : o.data = .at H.next 0)
    (hs : (H.new n).1.SameExcept H' (.at H.next 0) n) (hr : H'.Room (.at H.next 0) n) : H.NewObj H' o n := by
  obtain ⟨b, h1, h2, h3, h4, h5, h6⟩ := freshExcept_of (m := 0) (p := .null) hp ho (fun _ _ _ _ _ _ _ e => by cases e)
    ⟨hs.1, hs.2.1, fun b o h _ => hs.2.2 b o h⟩ hr
  exact ⟨b, h1, h2, h3, h4, h5, fun b' k hb => h6 b' k hb (fun _ _ e => by cases e)⟩

theorem Heap.Matrix.room {H : Heap α} {o : Obj} {h w : Nat} {f : Nat → Nat → α} (hm : H.Matrix o h w f) : H.Room o.data (h * w) := by
  obtain ⟨M, sm, vm⟩ := hm.stores
  rcases sm with h0 | ⟨b, p, e, hc⟩
  · left; rw [← vm.2.2.1, h0]; rfl
  · refine Or.inr ⟨b, p, e, fun i hi => ?_⟩
    rw [hc i (by rw [vm.2.2.1]; exact hi), List.getElem?_eq_getElem (by rw [vm.2.2.1]; exact hi)]; rfl

theorem wmul_small {a b : Nat} (h : a * b < W64) : wmul a b = a * b := Nat.mod_eq_of_lt h

/-- `dot(x, M)` returns a new vector of `width` elements `Σ x_i M_ij`; the operands and everything else keep their contents. -/
theorem C93_row [Zero α] [Add α] [Mul α] (H : Heap α) (hp : H.Proper) (x m : Obj) (n w : Nat) (a : Nat → α) (f : Nat → Nat → α)
    (hx : H.Vec x n a) (hm : H.Matrix m n w f) :
    Ok (Obj.dotRowNew H x m) (fun s => s.2.kind = .vec ∧ H.NewObj s.1 s.2 w ∧
      s.1.Vec s.2 w (fun j => foldSum 0 n (fun i => a i * f i j))) := by
  unfold Obj.dotRowNew Obj.sized ctorShape
  rw [hm.2.1]
  obtain ⟨x1, x2⟩ := hx.new (n := w) hp
  obtain ⟨m1, m2⟩ := hm.new (n := w) hp
  refine (C85_row_partial (H.new w).1 ⟨.vec, .at H.next 0, Shape.mk1 w⟩ x m n w a f ⟨rfl, room_new H w⟩ x1 m1 x2 m2).bind
    (fun H' h' => Ok_ok.2 ⟨rfl, fresh_of hp rfl h'.2 h'.1.2.room, h'.1⟩)

/-- `dot(M, x)` returns a new vector of `height` elements `Σ M_ij x_j`. -/
theorem C93_col [Zero α] [Add α] [Mul α] (H : Heap α) (hp : H.Proper) (x m : Obj) (n h : Nat) (a : Nat → α) (f : Nat → Nat → α)
    (hx : H.Vec x n a) (hm : H.Matrix m h n f) :
    Ok (Obj.dotColNew H m x) (fun s => s.2.kind = .vec ∧ H.NewObj s.1 s.2 h ∧
      s.1.Vec s.2 h (fun i => foldSum 0 n (fun j => f i j * a j))) := by
  unfold Obj.dotColNew Obj.sized ctorShape
  rw [hm.1]
  obtain ⟨x1, x2⟩ := hx.new (n := h) hp
  obtain ⟨m1, m2⟩ := hm.new (n := h) hp
  refine (C85_col_partial (H.new h).1 ⟨.vec, .at H.next 0, Shape.mk1 h⟩ x m n h a f ⟨rfl, room_new H h⟩ x1 m1 x2 m2).bind
    (fun H' h' => Ok_ok.2 ⟨rfl, fresh_of hp rfl h'.2 h'.1.2.room, h'.1⟩)

/-- `tensordot(c, x)` returns a new matrix with the entries `c_i x_j`. -/
theorem C93_outer [Mul α] (H : Heap α) (hp : H.Proper) (c x : Obj) (n m : Nat) (a b : Nat → α)
    (hc : H.Vec c n a) (hx : H.Vec x m b) (hsz : n * m < W64) :
    Ok (Obj.tensordotNew H c x) (fun s => s.2.kind = .mat ∧ H.NewObj s.1 s.2 (n * m) ∧ s.1.Matrix s.2 n m (fun i j => a i * b j)) := by
  unfold Obj.tensordotNew Obj.sized ctorShape
  rw [hc.1, hx.1]
  obtain ⟨c1, c2⟩ := hc.new (n := n * m) hp
  obtain ⟨x1, x2⟩ := hx.new (n := n * m) hp
  have es : (Shape.mk2 n m).size = n * m := wmul_small hsz
  dsimp only
  rw [es]
  refine (C85_outer_partial (H.new (n * m)).1 ⟨.mat, .at H.next 0, Shape.mk2 n m⟩ c x n m a b ⟨rfl, rfl, room_new H (n * m)⟩ c1 x1 c2 x2).bind
    (fun H' h' => Ok_ok.2 ⟨rfl, fresh_of hp rfl h'.2 h'.1.room, h'.1⟩)

/-- `transpose(M)` returns a new matrix with the entries `M_ji`. -/
theorem C93_transpose (H : Heap α) (hp : H.Proper) (m : Obj) (h w : Nat) (f : Nat → Nat → α) (hm : H.Matrix m h w f) (hsz : w * h < W64) :
    Ok (Obj.transposeNew H m) (fun s => s.2.kind = .mat ∧ H.NewObj s.1 s.2 (w * h) ∧ s.1.Matrix s.2 w h (fun i j => f j i)) := by
  unfold Obj.transposeNew Obj.sized ctorShape
  rw [hm.1, hm.2.1]
  obtain ⟨m1, m2⟩ := hm.new (n := w * h) hp
  have es : (Shape.mk2 w h).size = w * h := wmul_small hsz
  dsimp only
  rw [es]
  refine (C85_transpose_partial (H.new (w * h)).1 ⟨.mat, .at H.next 0, Shape.mk2 w h⟩ m h w f ⟨rfl, rfl, room_new H (w * h)⟩ m1 m2).bind
    (fun H' h' => Ok_ok.2 ⟨rfl, fresh_of hp rfl h'.2 h'.1.room, h'.1⟩)

/-- `dot(A, B)` returns a new matrix with the entries `Σ A_ic B_cj`. -/
theorem C93_mat [Zero α] [Add α] [Mul α] (H : Heap α) (hp : H.Proper) (l m : Obj) (n k p : Nat) (a b : Nat → Nat → α)
    (hl : H.Matrix l n k a) (hm : H.Matrix m k p b) (hsz : n * p < W64) :
    Ok (Obj.dotMatNew H l m) (fun s => s.2.kind = .mat ∧ H.NewObj s.1 s.2 (n * p) ∧
      s.1.Matrix s.2 n p (fun i j => foldSum 0 k (fun c => a i c * b c j))) := by
  unfold Obj.dotMatNew Obj.valued Obj.sized ctorShape
  rw [hl.1, hm.2.1]
  obtain ⟨l1, l2⟩ := hl.new (n := n * p) hp
  obtain ⟨m1, m2⟩ := hm.new (n := n * p) hp
  have es : (Shape.mk2 n p).size = n * p := wmul_small hsz
  dsimp only
  rw [es]
  obtain ⟨H1, e1, b0, o1, v1⟩ := HV.zero (r := ⟨.mat, .at H.next 0, Shape.mk2 n p⟩) (room_new H (n * p))
  have e1' : fillLoop (H.new (n * p)).1 (H.new (n * p)).2 (n * p) 0 = .ok H1 := e1
  have keep : ∀ (o : Obj) (h w : Nat) (f : Nat → Nat → α), (H.new (n * p)).1.Matrix o h w f →
      Apart (.at H.next 0) (n * p) o.data (h * w) → H1.Matrix o h w f := by
    intro o h w f hm ha
    refine ⟨hm.1, hm.2.1, ?_⟩
    rcases hm.2.2 with h0 | ⟨b, q, e, hc⟩
    · exact Or.inl h0
    · refine Or.inr ⟨b, q, e, fun i j hi hj => ?_⟩
      rw [o1.2.2.2.2 b _ (fun pb po ep hx => ?_), hc i j hi hj]
      cases ep
      have hx' : b = H.next ∧ 0 ≤ q + (i * w + j) ∧ q + (i * w + j) < 0 + n * p := hx
      exact ha H.next 0 b q (q + (i * w + j)) (i * w + j) rfl e (by omega) (idx2_lt hi hj) ⟨hx'.1.symm, by omega⟩
  have r1 : H1.Matrix ⟨.mat, .at H.next 0, Shape.mk2 n p⟩ n p (fun _ _ => 0) := by
    refine Heap.Stores.matrix (M := ⟨n, p, b0⟩) rfl rfl o1.2.1 ⟨rfl, rfl, v1.length, fun i j hi hj => v1.2 _ (idx2_lt hi hj)⟩
  rw [e1']
  refine (C85_mat_partial H1 ⟨.mat, .at H.next 0, Shape.mk2 n p⟩ l m n k p (fun _ _ => 0) a b r1 (keep l n k a l1 l2) (keep m k p b m1 m2) l2 m2).bind
    (fun H' h' => Ok_ok.2 ⟨rfl, fresh_of hp rfl ?_ h'.1.room, h'.1⟩)
  have s1 := o1.2.2
  have s2 := h'.2
  exact ⟨s2.1.trans s1.1, fun b => (s2.2.1 b).trans (s1.2.1 b), fun b o hb => (s2.2.2 b o hb).trans (s1.2.2 b o hb)⟩

/-! ### Inversion -/

section
variable {K : Type _} [Field K] [LinearOrder K]

/-- `inverse(M)` of an invertible matrix returns a new matrix, the inverse; the argument becomes the identity matrix and nothing else changes. -/
theorem C93_inverse_partial [IsStrictOrderedRing K] (H : Heap K) (hp : H.Proper) (m : Obj) (N : Nat) (f : Nat → Nat → K)
    (hm : H.Matrix m N N f) (hd : m.shape.d = 1) (hsz : N * N < W64) (hinv : IsUnit (toM N f)) :
    Ok (Obj.inverseNew H m) (fun s => s.2.kind = .mat ∧ H.FreshExcept s.1 s.2 (N * N) m.data (N * N) ∧
      (∃ g, s.1.Matrix s.2 N N g ∧ toM N g = (toM N f)⁻¹) ∧ s.1.Matrix m N N (fun i j => if i = j then 1 else 0)) := by
  unfold Obj.inverseNew Obj.sized ctorShape
  have hN : N < W64 := by
    rcases Nat.eq_zero_or_pos N with h | h
    · rw [h]; decide
    · exact Nat.lt_of_le_of_lt (Nat.le_mul_of_pos_left N h) hsz
  have e1 : wmul 1 N = N := by rw [wmul_small (by omega), Nat.one_mul]
  rw [hm.1, hm.2.1, hd, e1]
  obtain ⟨m1, m2⟩ := hm.new (n := N * N) hp
  have m3 := (hm.new (n := N * N + 1) hp).2
  have es : (Shape.mk2 N N).size = N * N := wmul_small hsz
  dsimp only
  rw [es]
  refine (C85_inverse_partial (H.new (N * N)).1 ⟨.mat, .at H.next 0, Shape.mk2 N N⟩ m N f ⟨rfl, rfl, room_new H (N * N)⟩ m1 m2 hinv).bind
    (fun H' h' => Ok_ok.2 ⟨rfl, freshExcept_of hp rfl m3 h'.2.2 ?_, h'.1, h'.2.1⟩)
  obtain ⟨g, h1, _⟩ := h'.1
  exact h1.room

/-- Violated: the number of rows of the result is taken as `depth * height`. A matrix that was default constructed and then resized or assigned
has depth 0 (C06): `inverse` then allocates nothing and writes outside, whatever the matrix. -/
theorem C93_inverse_violated (H : Heap K) (m : Obj) (hd : m.shape.d = 0) (hh : 0 < m.shape.h) :
    Obj.inverseNew H m = .error .oob := by
  unfold Obj.inverseNew Obj.sized ctorShape
  have e1 : wmul m.shape.d m.shape.h = 0 := by rw [hd]; unfold wmul; rw [Nat.zero_mul]; rfl
  rw [e1]
  have es : (Shape.mk2 0 m.shape.w).size = 0 := by show wmul 0 _ = 0; unfold wmul; rw [Nat.zero_mul]; rfl
  dsimp only
  rw [es]
  have key : Obj.invInit m.shape.h ⟨.mat, .at H.next 0, Shape.mk2 0 m.shape.w⟩ (H.new 0).1 = .error .oob := by
    unfold Obj.invInit
    refine forN_err (k := 0) (fun k H' => H' = (H.new 0).1) hh rfl (fun k hk => by omega) (fun s hs => ?_)
    rw [hs]
    refine forN_err (k := 0) (fun k H' => H' = (H.new 0).1) hh rfl (fun k hk => by omega) (fun s hs => ?_)
    rw [hs]
    unfold Obj.set2 Heap.store Heap.put Heap.new
    simp [Buf.alloc]
  unfold Obj.inverse
  dsimp only
  have key' : Obj.invInit m.shape.h ⟨.mat, (H.new 0).2, Shape.mk2 0 m.shape.w⟩ (H.new 0).1 = .error .oob := key
  rw [key']
  rfl

end

/-! ### Temporaries -/

/-- Destroying the result of any of these functions restores the store: temporaries leave no trace and leak nothing. -/
theorem C93_temporary {H H' : Heap α} {o : Obj} {n : Nat} (h : H.NewObj H' o n) :
    Ok (o.destroy H') (fun H'' => H.SameStore H'' ∧ H''.Proper) := by
  obtain ⟨b, h1, h2, _, h4, h5, h6⟩ := h
  have hl : (H'.blocks b).isSome = true := (h5 b).2 (Or.inl rfl)
  refine ⟨⟨fun b' => if b' = b then none else H'.blocks b', H'.next⟩, ?_, ⟨fun b' => ?_, fun b' k => ?_⟩, fun b' hb => ?_⟩
  · unfold Obj.destroy
    rw [h1]
    unfold Heap.delete
    simp [hl]
  · have := h5 b'
    unfold Heap.live at this ⊢
    by_cases e : b' = b
    · subst e; simpa [Heap.live] using h2
    · simpa [e] using this
  · unfold Heap.cellAt
    by_cases e : b' = b
    · subst e
      have : H.blocks b' = none := by simpa [Heap.live] using h2
      simp [this]
    · have := h6 b' k e
      unfold Heap.cellAt at this
      simpa [e] using this
  · unfold Heap.live at hb
    by_cases e : b' = b
    · simp [e] at hb
    · exact h4 b' (by unfold Heap.live; simpa [e] using hb)

/-- `dot(dot(A, B), C)`: the temporary is destroyed, and what is left is the new object with the product of the three matrices. -/
theorem C93_chain {R : Type _} [Semiring R] (H : Heap R) (hp : H.Proper) (l m c : Obj) (n k p q : Nat) (a b d : Nat → Nat → R)
    (hl : H.Matrix l n k a) (hm : H.Matrix m k p b) (hc : H.Matrix c p q d) (h1 : n * p < W64) (h2 : n * q < W64) :
    Ok (do
      let (H, t) ← Obj.dotMatNew H l m
      let (H, r) ← Obj.dotMatNew H t c
      let H ← t.destroy H
      return (H, r)) (fun s => H.NewObj s.1 s.2 (n * q) ∧
        s.1.Matrix s.2 n q (fun i j => ∑ y ∈ Finset.range p, (∑ x ∈ Finset.range k, a i x * b x y) * d y j)) := by
  refine (C93_mat H hp l m n k p a b hl hm h1).bind (fun ⟨H1, t⟩ ht => ?_)
  dsimp only at ht ⊢
  obtain ⟨_, ⟨bt, t1, t2, t3, t4, t5, t6⟩, tm⟩ := ht
  have hc1 : H1.Matrix c p q d := by
    refine ⟨hc.1, hc.2.1, ?_⟩
    rcases hc.2.2 with h0 | ⟨bc, pc, e, hh⟩
    · exact Or.inl h0
    · refine Or.inr ⟨bc, pc, e, fun i j hi hj => ?_⟩
      rw [t6 bc _ (fun e => t2 (e ▸ Heap.cellAt_live (hh i j hi hj))), hh i j hi hj]
  refine (C93_mat H1 t4 t c n p q _ d tm hc1 h2).bind (fun ⟨H2, r⟩ hr => ?_)
  dsimp only at hr ⊢
  obtain ⟨_, ⟨br, r1, r2, r3, r4, r5, r6⟩, rm⟩ := hr
  have hne : bt ≠ br := fun e => r2 (e ▸ (t5 bt).2 (Or.inl rfl))
  have hl : (H2.blocks bt).isSome = true := (r5 bt).2 (Or.inr ((t5 bt).2 (Or.inl rfl)))
  have ed : t.destroy H2 = .ok ⟨fun b' => if b' = bt then none else H2.blocks b', H2.next⟩ := by
    unfold Obj.destroy
    rw [t1]
    unfold Heap.delete
    simp [hl]
  rw [ed]
  have hcell : ∀ b' k, b' ≠ bt → Heap.cellAt (⟨fun b' => if b' = bt then none else H2.blocks b', H2.next⟩ : Heap R) b' k = H2.cellAt b' k := by
    intro b' k e
    unfold Heap.cellAt
    simp [e]
  refine Ok_ok.2 ⟨⟨br, r1, fun h => r2 ((t5 br).2 (Or.inr h)), ?_, fun b' hb => ?_, fun b' => ?_, fun b' k hb => ?_⟩, ?_⟩
  · unfold Heap.len at r3 ⊢
    simpa [hne.symm] using r3
  · unfold Heap.live at hb
    by_cases e : b' = bt
    · simp [e] at hb
    · exact r4 b' (by unfold Heap.live; simpa [e] using hb)
  · have h5 := r5 b'
    have h5' := t5 b'
    by_cases e : b' = bt
    · subst e
      have : ¬ H.live b' := t2
      unfold Heap.live at this ⊢
      simp only [if_pos]
      constructor
      · intro h; cases h
      · rintro (h | h)
        · exact absurd h hne
        · exact absurd h this
    · rw [h5'] at h5
      unfold Heap.live at h5 ⊢
      simpa [e] using h5
  · by_cases e : b' = bt
    · subst e
      have h0 : H.blocks b' = none := by simpa [Heap.live] using t2
      unfold Heap.cellAt
      simp [h0]
    · exact (hcell b' k e).trans ((r6 b' k hb).trans (t6 b' k e))
  · have hfun : (fun i j => foldSum (0 : R) p (fun c => foldSum 0 k (fun x => a i x * b x c) * d c j)) =
        (fun i j => ∑ y ∈ Finset.range p, (∑ x ∈ Finset.range k, a i x * b x y) * d y j) := by
      funext i j
      rw [foldSum_zero_eq]
      refine Finset.sum_congr rfl (fun y _ => ?_)
      rw [foldSum_zero_eq]
    rw [← hfun]
    refine ⟨rm.1, rm.2.1, ?_⟩
    rcases rm.2.2 with h0 | ⟨b', p', e, hh⟩
    · exact Or.inl h0
    · refine Or.inr ⟨b', p', e, fun i j hi hj => ?_⟩
      have hb : b' = br := by rw [r1] at e; cases e; rfl
      rw [hcell b' _ (by rw [hb]; exact hne.symm)]
      exact hh i j hi hj

/-! ### Non-vacuity -/

/-- A store with a 2×2 matrix and a vector. -/
def exFreshHeap : Heap ℚ := ⟨fun b => if b = 0 then some (Buf.of [1, 2, 3, 4]) else if b = 1 then some (Buf.of [5, 6]) else none, 2⟩
def exFreshMat : Obj := ⟨.mat, .at 0 0, Shape.mk2 2 2⟩

example : exFreshHeap.Proper ∧ exFreshHeap.Matrix exFreshMat 2 2 (fun i j => (2 * i + j + 1 : ℕ)) ∧
    exFreshHeap.Vec ⟨.vec, .at 1 0, Shape.mk1 2⟩ 2 (fun i => (5 + i : ℕ)) := by
  refine ⟨fun b hb => ?_, ⟨rfl, rfl, Or.inr ⟨0, 0, rfl, fun i j hi hj => ?_⟩⟩, rfl, Or.inr ⟨1, 0, rfl, fun i hi => ?_⟩⟩
  · unfold Heap.live exFreshHeap at hb
    show b < 2
    by_cases h0 : b = 0
    · omega
    · by_cases h1 : b = 1
      · omega
      · simp [h0, h1] at hb
  · have h1 : i = 0 ∨ i = 1 := by omega
    have h2 : j = 0 ∨ j = 1 := by omega
    rcases h1 with rfl | rfl <;> rcases h2 with rfl | rfl <;> (simp [Heap.cellAt, exFreshHeap, Buf.of]; try norm_num)
  · have h1 : i = 0 ∨ i = 1 := by omega
    rcases h1 with rfl | rfl <;> (simp [Heap.cellAt, exFreshHeap, Buf.of]; try norm_num)

/-- `dot(transpose(M), x)` computed by the model. -/
example : (do
    let (H, t) ← Obj.transposeNew exFreshHeap exFreshMat
    let (H, r) ← Obj.dotColNew H t ⟨.vec, .at 1 0, Shape.mk1 2⟩
    let a ← r.get1 H 0
    let b ← r.get1 H 1
    return (a, b)) = (.ok (23, 34) : Res (ℚ × ℚ)) := by decide +kernel

/-- An invertible matrix, and a default-constructed matrix that was resized. -/
example : exFreshMat.shape.d = 1 := rfl
example : ∃ w' : World ℚ, (World.init : World ℚ).run [.defaultCtor 0 .mat, .resize 0 1 2 2, .fill 0 1] = .ok w' ∧
    (w'.own 0).map (fun o => (o.shape.d, o.shape.h)) = some (0, 2) := ⟨_, rfl, rfl⟩

end Trixy
