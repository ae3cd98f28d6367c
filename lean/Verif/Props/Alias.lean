import Verif.Proof.HeapSim
import Verif.Props.Linear
/- Property C85: products, transposition and inversion of objects that may share storage. -/
namespace Trixy
open Finset

variable {α : Type _}

/-! ### From objects in the free store to checked buffers and back -/

/-- The buffer with the values `a 0 … a (n-1)`. -/
def bufOf (n : Nat) (a : Nat → Option α) : Buf α := (List.range n).map a

theorem bufOf_is (n : Nat) (a : Nat → Option α) : BufIs (bufOf n a) n a :=
  ⟨by simp [bufOf], fun i hi => by simp [bufOf, hi]⟩

theorem Heap.Holds.stores {H : Heap α} {p : Ptr} {n : Nat} {a : Nat → α} (h : H.Holds p n a) :
    ∃ b, H.Stores p b ∧ VecIs b n a := by
  refine ⟨bufOf n (fun i => some (a i)), ?_, bufOf_is n _⟩
  rcases h with rfl | ⟨pb, po, hp, hc⟩
  · exact Or.inl rfl
  · refine Or.inr ⟨pb, po, hp, fun i hi => ?_⟩
    rw [(bufOf_is n _).1] at hi
    rw [hc i hi, (bufOf_is n _).2 i hi]

theorem Heap.Room.stores {H : Heap α} {p : Ptr} {n : Nat} (h : H.Room p n) : ∃ b, H.Stores p b ∧ b.length = n := by
  rcases h with rfl | ⟨pb, po, hp, hc⟩
  · exact ⟨[], Or.inl rfl, rfl⟩
  · refine ⟨bufOf n (fun i => (H.cellAt pb (po + i)).getD none), Or.inr ⟨pb, po, hp, fun i hi => ?_⟩, (bufOf_is n _).1⟩
    rw [(bufOf_is n _).1] at hi
    rw [(bufOf_is n _).2 i hi]
    have := hc i hi
    cases h : H.cellAt pb (po + i) with
    | none => rw [h] at this; cases this
    | some c => rfl

theorem Heap.Stores.holds {H : Heap α} {p : Ptr} {n : Nat} {b : Buf α} {a : Nat → α} (h : H.Stores p b) (hb : VecIs b n a) :
    H.Holds p n a := by
  rcases h with h0 | ⟨pb, po, hp, hc⟩
  · refine Or.inl ?_; rw [← hb.length, h0]; rfl
  · exact Or.inr ⟨pb, po, hp, fun i hi => by rw [hc i (by rw [hb.length]; exact hi), hb.2 i hi]⟩

theorem Heap.Matrix.stores {H : Heap α} {o : Obj} {h w : Nat} {f : Nat → Nat → α} (hm : H.Matrix o h w f) :
    ∃ M : Mat α, H.Stores o.data M.data ∧ MatIs M h w f := by
  obtain ⟨_, _, hc⟩ := hm
  have e : ∀ i j, i < h → j < w → (i * w + j) / w = i ∧ (i * w + j) % w = j := fun i j _ hj => by
    have hw : 0 < w := by omega
    constructor
    · rw [Nat.mul_comm, Nat.mul_add_div hw, Nat.div_eq_of_lt hj, Nat.add_zero]
    · rw [Nat.mul_comm, Nat.mul_add_mod, Nat.mod_eq_of_lt hj]
  let M : Mat α := ⟨h, w, bufOf (h * w) (fun k => some (f (k / w) (k % w)))⟩
  have hM : MatIs M h w f := by
    refine ⟨rfl, rfl, (bufOf_is _ _).1, fun i j hi hj => ?_⟩
    show (bufOf (h * w) (fun k => some (f (k / w) (k % w))))[i * w + j]? = _
    rw [(bufOf_is _ _).2 _ (idx2_lt hi hj), (e i j hi hj).1, (e i j hi hj).2]
  refine ⟨M, ?_, hM⟩
  rcases hc with h0 | ⟨b, p, hp, hc⟩
  · exact Or.inl (List.length_eq_zero_iff.1 (by rw [hM.2.2.1]; exact h0))
  · refine Or.inr ⟨b, p, hp, fun k hk => ?_⟩
    rw [hM.2.2.1] at hk
    have hw : 0 < w := Nat.pos_of_ne_zero (fun e => by rw [e, Nat.mul_zero] at hk; omega)
    have h1 : k / w < h := Nat.div_lt_of_lt_mul (by rwa [Nat.mul_comm])
    have h2 := Nat.mod_lt k hw
    have e : k / w * w + k % w = k := by rw [Nat.mul_comm]; exact Nat.div_add_mod k w
    have e1 := hc _ _ h1 h2
    have e2 := hM.2.2.2 _ _ h1 h2
    rw [e] at e1 e2
    rw [e1, e2]

theorem Heap.MatRoom.stores {H : Heap α} {o : Obj} {h w : Nat} (hm : H.MatRoom o h w) :
    ∃ (M : Mat α) (g : Nat → Nat → Option α), H.Stores o.data M.data ∧ MatB M h w g := by
  obtain ⟨b, hb, hl⟩ := hm.2.2.stores
  refine ⟨⟨h, w, b⟩, fun i j => (b[i * w + j]?).getD none, hb, rfl, rfl, hl, fun i j hi hj => ?_⟩
  have := idx2_lt hi hj
  simp [List.getElem?_eq_getElem (show i * w + j < b.length by rw [hl]; exact this)]

theorem Heap.Stores.matrix {H : Heap α} {o : Obj} {h w : Nat} {M : Mat α} {f : Nat → Nat → α} (h1 : o.shape.h = h)
    (h2 : o.shape.w = w) (hs : H.Stores o.data M.data) (hM : MatIs M h w f) : H.Matrix o h w f := by
  refine ⟨h1, h2, ?_⟩
  rcases hs with h0 | ⟨b, p, hp, hc⟩
  · refine Or.inl ?_; rw [← hM.2.2.1, h0]; rfl
  · exact Or.inr ⟨b, p, hp, fun i j hi hj => by rw [hc _ (by rw [hM.2.2.1]; exact idx2_lt hi hj), hM.2.2.2 i j hi hj]⟩

/-! ## C85 what holds: the destination shares no storage with the operands

The operands may share storage with each other (`dot(C, A, A)`, `tensordot(M, x, x)`). -/

/-- `dot(r, x, M)` on the free store. -/
theorem C85_row_partial [Zero α] [Add α] [Mul α] (H : Heap α) (r x m : Obj) (n w : Nat) (a : Nat → α) (f : Nat → Nat → α)
    (hr : r.shape.size = w ∧ H.Room r.data w) (hx : H.Vec x n a) (hm : H.Matrix m n w f)
    (ax : Apart r.data w x.data n) (am : Apart r.data w m.data (n * w)) :
    Ok (Obj.dotRow H r x m) (fun H' => H'.Vec r w (fun j => foldSum 0 n (fun i => a i * f i j)) ∧ H.SameExcept H' r.data w) := by
  obtain ⟨br, sr, lr⟩ := hr.2.stores
  obtain ⟨bx, sx, vx⟩ := hx.2.stores
  obtain ⟨M, sm, vm⟩ := hm.stores
  obtain ⟨b', e, hb⟩ := C18_row br bx M n w a f vx vm lr
  refine (dotRow_sim sr (by rw [lr]; exact hr.1) sx (by rw [vx.length]; exact hx.1) sm (by rw [vm.2.1]; exact hm.2.1)
    (by rw [lr, vx.length]; exact ax) (by rw [lr, vm.2.2.1]; exact am) e).mono (fun H' h' => ?_)
  rw [lr] at h'
  exact ⟨⟨hr.1, h'.2.1.holds hb⟩, h'.2.2⟩

/-- `dot(r, M, x)` on the free store. -/
theorem C85_col_partial [Zero α] [Add α] [Mul α] (H : Heap α) (r x m : Obj) (n h : Nat) (a : Nat → α) (f : Nat → Nat → α)
    (hr : r.shape.size = h ∧ H.Room r.data h) (hx : H.Vec x n a) (hm : H.Matrix m h n f)
    (ax : Apart r.data h x.data n) (am : Apart r.data h m.data (h * n)) :
    Ok (Obj.dotCol H r m x) (fun H' => H'.Vec r h (fun i => foldSum 0 n (fun j => f i j * a j)) ∧ H.SameExcept H' r.data h) := by
  obtain ⟨br, sr, lr⟩ := hr.2.stores
  obtain ⟨bx, sx, vx⟩ := hx.2.stores
  obtain ⟨M, sm, vm⟩ := hm.stores
  obtain ⟨b', e, hb⟩ := C18_col br bx M n h a f vx vm lr
  refine (dotCol_sim sr (by rw [lr]; exact hr.1) sx (by rw [vx.length]; exact hx.1) sm (by rw [vm.2.1]; exact hm.2.1)
    (by rw [lr, vx.length]; exact ax) (by rw [lr, vm.2.2.1]; exact am) e).mono (fun H' h' => ?_)
  rw [lr] at h'
  exact ⟨⟨hr.1, h'.2.1.holds hb⟩, h'.2.2⟩

/-- `dot(R, A, B)` on the free store: the product is added to `R`. -/
theorem C85_mat_partial [Add α] [Mul α] (H : Heap α) (r l m : Obj) (n k p : Nat) (r0 a b : Nat → Nat → α)
    (hr : H.Matrix r n p r0) (hl : H.Matrix l n k a) (hm : H.Matrix m k p b)
    (al : Apart r.data (n * p) l.data (n * k)) (am : Apart r.data (n * p) m.data (k * p)) :
    Ok (Obj.dotMat H r l m) (fun H' => H'.Matrix r n p (fun i j => foldSum (r0 i j) k (fun c => a i c * b c j)) ∧
      H.SameExcept H' r.data (n * p)) := by
  obtain ⟨R, sr, vr⟩ := hr.stores
  obtain ⟨L, sl, vl⟩ := hl.stores
  obtain ⟨M, sm, vm⟩ := hm.stores
  obtain ⟨R', e, hb⟩ := C19_accumulates R L M n k p r0 a b vr vl vm
  refine (dotMat_sim sr (by rw [vr.2.1]; exact hr.2.1) sl (by rw [vl.1]; exact hl.1) (by rw [vl.2.1]; exact hl.2.1) sm
    (by rw [vm.2.1]; exact hm.2.1) (by rw [vr.2.2.1, vl.2.2.1]; exact al) (by rw [vr.2.2.1, vm.2.2.1]; exact am) e).mono
    (fun H' h' => ?_)
  have h2 := h'.2
  rw [vr.2.2.1] at h2
  exact ⟨h2.2.1.matrix hr.1 hr.2.1 hb, h2.2.2⟩

/-- `tensordot(R, c, x)` on the free store. -/
theorem C85_outer_partial [Mul α] (H : Heap α) (r c x : Obj) (n m : Nat) (a b : Nat → α)
    (hr : H.MatRoom r n m) (hc : H.Vec c n a) (hx : H.Vec x m b)
    (ac : Apart r.data (n * m) c.data n) (ax : Apart r.data (n * m) x.data m) :
    Ok (Obj.tensordot H r c x) (fun H' => H'.Matrix r n m (fun i j => a i * b j) ∧ H.SameExcept H' r.data (n * m)) := by
  obtain ⟨R, g, sr, vr⟩ := hr.stores
  obtain ⟨bc, sc, vc⟩ := hc.2.stores
  obtain ⟨bx, sx, vx⟩ := hx.2.stores
  obtain ⟨R', e, hb⟩ := (C20_tensordot R bc bx n m a b g vr vc vx).1
  refine (tensordot_sim sr sc (by rw [vc.length]; exact hc.1) sx (by rw [vx.length]; exact hx.1)
    (by rw [vr.2.2.1, vc.length]; exact ac) (by rw [vr.2.2.1, vx.length]; exact ax) e).mono (fun H' h' => ?_)
  have h2 := h'.2
  rw [vr.2.2.1] at h2
  exact ⟨h2.2.1.matrix hr.1 hr.2.1 hb, h2.2.2⟩

/-- `transpose(R, M)` on the free store. -/
theorem C85_transpose_partial (H : Heap α) (r m : Obj) (h w : Nat) (f : Nat → Nat → α)
    (hr : H.MatRoom r w h) (hm : H.Matrix m h w f) (am : Apart r.data (w * h) m.data (h * w)) :
    Ok (Obj.transpose H r m) (fun H' => H'.Matrix r w h (fun i j => f j i) ∧ H.SameExcept H' r.data (w * h)) := by
  obtain ⟨R, g, sr, vr⟩ := hr.stores
  obtain ⟨M, sm, vm⟩ := hm.stores
  obtain ⟨R', e, hb⟩ := transpose_spec vr vm
  refine (transpose_sim sr (by rw [vr.1]; exact hr.1) (by rw [vr.2.1]; exact hr.2.1) sm (by rw [vm.2.1]; exact hm.2.1)
    (by rw [vr.2.2.1, vm.2.2.1]; exact am) e).mono (fun H' h' => ?_)
  have h2 := h'.2
  rw [vr.2.2.1] at h2
  exact ⟨h2.2.1.matrix hr.1 hr.2.1 hb, h2.2.2⟩

/-- `inverse(R, M)` on the free store: `R` becomes the inverse, `M` the identity. -/
theorem C85_inverse_partial {K : Type _} [Field K] [LinearOrder K] [IsStrictOrderedRing K] (H : Heap K) (r m : Obj) (N : Nat)
    (f : Nat → Nat → K) (hr : H.MatRoom r N N) (hm : H.Matrix m N N f) (am : Apart r.data (N * N) m.data (N * N))
    (hinv : IsUnit (toM N f)) :
    Ok (Obj.inverse H r m) (fun H' => (∃ g, H'.Matrix r N N g ∧ toM N g = (toM N f)⁻¹) ∧
      H'.Matrix m N N (fun i j => if i = j then 1 else 0) ∧ H.SameExcept2 H' r.data (N * N) m.data (N * N)) := by
  obtain ⟨R, g, sr, vr⟩ := hr.stores
  obtain ⟨M, sm, vm⟩ := hm.stores
  obtain ⟨⟨R', M'⟩, e, q, h1, h2, h3, _⟩ := C21_invertible N R M g f vr vm hinv
  refine (inverse_sim sr (by rw [vr.2.1]; exact hr.2.1) sm (by rw [vm.2.1]; exact hm.2.1) (by rw [vm.1]; exact hm.1)
    (by rw [vr.2.2.1, vm.2.2.1]; exact am) e).mono (fun H' h' => ?_)
  refine ⟨⟨q, h'.left.2.2.1.matrix hr.1 hr.2.1 h1, (Matrix.inv_eq_left_inv h3).symm⟩, h'.right.2.2.1.matrix hm.1 hm.2.1 h2, ?_⟩
  have := h'.rest
  rwa [vr.2.2.1, vm.2.2.1] at this

/-! ## C85 what fails: the destination is one of the operands -/

/-- The `n` cells from `p` on hold the values `a`; everything else is as in `H0`. -/
def HV (p : Ptr) (n : Nat) (H0 H : Heap α) (a : Nat → α) : Prop := ∃ b, One p n H0 H b ∧ VecIs b n a

theorem HV.get {p : Ptr} {n : Nat} {H0 H : Heap α} {a : Nat → α} (h : HV p n H0 H a) {i : Nat} (hi : i < n) :
    H.load p i = .ok (a i) := by
  obtain ⟨b, h1, h2⟩ := h
  exact h1.self (h2.get hi)

theorem HV.set {p : Ptr} {n : Nat} {H0 H : Heap α} {a : Nat → α} (h : HV p n H0 H a) {i : Nat} (hi : i < n) (v : α) :
    Ok (H.store p i v) (fun H' => HV p n H0 H' (fun k => if k = i then v else a k)) := by
  obtain ⟨b, h1, h2⟩ := h
  obtain ⟨b', e, h3⟩ := h2.set hi v
  exact (h1.store e).mono (fun H' h' => ⟨b', h', h3⟩)

theorem HV.congr {p : Ptr} {n : Nat} {H0 H : Heap α} {a a' : Nat → α} (h : HV p n H0 H a) (e : ∀ i, i < n → a i = a' i) :
    HV p n H0 H a' := by
  obtain ⟨b, h1, h2⟩ := h
  exact ⟨b, h1, h2.congr e⟩

theorem HV.vec {o : Obj} {n : Nat} {H0 H : Heap α} {a : Nat → α} (h : HV o.data n H0 H a) (hs : o.shape.size = n) :
    H.Vec o n a ∧ H0.SameExcept H o.data n := by
  obtain ⟨b, h1, h2⟩ := h
  exact ⟨⟨hs, h1.2.1.holds h2⟩, h1.2.2⟩

theorem HV.other {p : Ptr} {n : Nat} {H0 H : Heap α} {a : Nat → α} (h : HV p n H0 H a) {m : Obj} {hh w : Nat} {f : Nat → Nat → α}
    (hm : H0.Matrix m hh w f) (am : Apart p n m.data (hh * w)) {i j : Nat} (hi : i < hh) (hj : j < w) :
    m.get2 H i j = .ok (f i j) := by
  obtain ⟨b, h1, _⟩ := h
  obtain ⟨M, sm, vm⟩ := hm.stores
  unfold Obj.get2 Shape.at2
  have e := vm.get hi hj
  unfold Mat.get at e
  rw [hm.2.1]
  rw [vm.2.1] at e
  exact h1.other sm (by rw [vm.2.2.1]; exact am) e

theorem HV.zero [Zero α] {H : Heap α} {r : Obj} {n : Nat} (hr : H.Room r.data n) :
    Ok (fillLoop H r.data n 0) (fun H' => HV r.data n H H' (fun _ => 0)) := by
  obtain ⟨br, sr, lr⟩ := hr.stores
  obtain ⟨b0, e0, h0⟩ := zeroFill_spec br
  rw [lr] at h0
  have := zero_sim sr e0
  rw [lr] at this
  exact this.mono (fun H' h' => ⟨b0, h', h0⟩)

/-! ## C01 element access in memory -/

/-- A start of `HV`: the cells hold `a` now. -/
theorem HV.start {p : Ptr} {n : Nat} {H : Heap α} {a : Nat → α} (h : H.Holds p n a) : HV p n H H a := by
  obtain ⟨b, sb, vb⟩ := h.stores
  exact ⟨b, One.start sb vb.length, vb⟩

/-- Writing element `(i,j,k)` of a tensor: afterwards `(i,j,k)` reads the value written, every other element what it read before,
linear position `(i·height + j)·width + k` designates the same element, and nothing outside the tensor changes. -/
theorem C01_write (H : Heap α) (t : Obj) (d h w : Nat) (f : Nat → α) (hd : t.shape.h = h ∧ t.shape.w = w)
    (hf : H.Holds t.data (d * h * w) f) (i j k : Nat) (hi : i < d) (hj : j < h) (hk : k < w) (v : α) :
    Ok (t.set3 H i j k v) (fun H' =>
      (∀ i' j' k', i' < d → j' < h → k' < w →
        t.get3 H' i' j' k' = if i' = i ∧ j' = j ∧ k' = k then .ok v else t.get3 H i' j' k') ∧
      t.get1 H' ((i * h + j) * w + k) = .ok v ∧ H.SameExcept H' t.data (d * h * w)) := by
  unfold Obj.set3 Shape.at3
  rw [hd.1, hd.2]
  refine ((HV.start hf).set (idx3_lt hi hj hk) v).mono (fun H' h' => ⟨fun i' j' k' hi' hj' hk' => ?_, ?_, ?_⟩)
  · unfold Obj.get3 Shape.at3
    rw [hd.1, hd.2, h'.get (idx3_lt hi' hj' hk'), (HV.start hf).get (idx3_lt hi' hj' hk')]
    by_cases e : i' = i ∧ j' = j ∧ k' = k
    · rw [if_pos e, if_pos ((idx3_inj hj' hk' hj hk).2 e)]
    · rw [if_neg e, if_neg (fun q => e ((idx3_inj hj' hk' hj hk).1 q))]
  · exact (h'.get (idx3_lt hi hj hk)).trans (by rw [if_pos rfl])
  · obtain ⟨b, h1, -⟩ := h'
    exact h1.2.2

/-- Writing element `(i,j)` of a matrix. -/
theorem C01_write_matrix (H : Heap α) (t : Obj) (h w : Nat) (f : Nat → α) (hd : t.shape.w = w)
    (hf : H.Holds t.data (h * w) f) (i j : Nat) (hi : i < h) (hj : j < w) (v : α) :
    Ok (t.set2 H i j v) (fun H' =>
      (∀ i' j', i' < h → j' < w → t.get2 H' i' j' = if i' = i ∧ j' = j then .ok v else t.get2 H i' j') ∧
      t.get1 H' (i * w + j) = .ok v ∧ H.SameExcept H' t.data (h * w)) := by
  unfold Obj.set2 Shape.at2
  rw [hd]
  refine ((HV.start hf).set (idx2_lt hi hj) v).mono (fun H' h' => ⟨fun i' j' hi' hj' => ?_, ?_, ?_⟩)
  · unfold Obj.get2 Shape.at2
    rw [hd, h'.get (idx2_lt hi' hj'), (HV.start hf).get (idx2_lt hi' hj')]
    by_cases e : i' = i ∧ j' = j
    · rw [if_pos e, if_pos ((idx2_inj hj' hj).2 e)]
    · rw [if_neg e, if_neg (fun q => e ((idx2_inj hj' hj).1 q))]
  · exact (h'.get (idx2_lt hi hj)).trans (by rw [if_pos rfl])
  · obtain ⟨b, h1, -⟩ := h'
    exact h1.2.2

/-- Non-vacuity: a 1×2×2 tensor. -/
example : (⟨.ten, .at 0 0, Shape.mk3 1 2 2⟩ : Obj).shape.h = 2 ∧ (⟨.ten, .at 0 0, Shape.mk3 1 2 2⟩ : Obj).shape.w = 2 ∧
    (⟨fun b => if b = 0 then some (Buf.of [1, 2, 3, 4]) else none, 1⟩ : Heap Nat).Holds (.at 0 0) (1 * 2 * 2) (fun i => i + 1) := by
  refine ⟨rfl, rfl, Or.inr ⟨0, 0, rfl, fun i hi => ?_⟩⟩
  have h : i = 0 ∨ i = 1 ∨ i = 2 ∨ i = 3 := by omega
  rcases h with rfl | rfl | rfl | rfl <;> rfl

/-- Violated: `dot(x, x, M)` clears `x`, whatever `x` and `M` were. -/
theorem C85_row_violated [Semiring α] (H : Heap α) (x m : Obj) (n : Nat) (a : Nat → α) (f : Nat → Nat → α)
    (hx : H.Vec x n a) (hm : H.Matrix m n n f) (am : Apart x.data n m.data (n * n)) :
    Ok (Obj.dotRow H x x m) (fun H' => H'.Vec x n (fun _ => 0) ∧ H.SameExcept H' x.data n) := by
  unfold Obj.dotRow
  rw [hx.1]
  refine (HV.zero hx.2.room).bind (fun H1 h1 => ?_)
  refine (forN_spec (fun _ H' => HV x.data n H H' (fun _ => (0 : α))) h1 (fun i hi H2 h2 => ?_)).mono (fun H' h' => h'.vec hx.1)
  unfold Obj.get1
  rw [h2.get hi, bind_ok]
  refine forN_spec (fun _ H' => HV x.data n H H' (fun _ => (0 : α))) h2 (fun j hj H3 h3 => ?_)
  rw [h3.get hj, bind_ok, h3.other hm am hi hj, bind_ok]
  refine (h3.set hj _).mono (fun H4 h4 => h4.congr (fun k _ => ?_))
  split <;> simp

/-- Violated: `dot(x, M, x)` clears `x`. -/
theorem C85_col_violated [Semiring α] (H : Heap α) (x m : Obj) (n : Nat) (a : Nat → α) (f : Nat → Nat → α)
    (hx : H.Vec x n a) (hm : H.Matrix m n n f) (am : Apart x.data n m.data (n * n)) :
    Ok (Obj.dotCol H x m x) (fun H' => H'.Vec x n (fun _ => 0) ∧ H.SameExcept H' x.data n) := by
  unfold Obj.dotCol
  rw [hx.1]
  refine (HV.zero hx.2.room).bind (fun H1 h1 => ?_)
  refine (forN_spec (fun _ H' => HV x.data n H H' (fun _ => (0 : α))) h1 (fun i hi H2 h2 => ?_)).mono (fun H' h' => h'.vec hx.1)
  refine forN_spec (fun _ H' => HV x.data n H H' (fun _ => (0 : α))) h2 (fun j hj H3 h3 => ?_)
  unfold Obj.get1
  rw [h3.get hi, bind_ok, h3.other hm am hi hj, bind_ok, h3.get hj, bind_ok]
  refine (h3.set hi _).mono (fun H4 h4 => h4.congr (fun k _ => ?_))
  split <;> simp

/-- The object `o` is a matrix with the entries `f`; everything else is as in `H0`. -/
def HM (o : Obj) (h w : Nat) (H0 H : Heap α) (f : Nat → Nat → α) : Prop :=
  o.shape.h = h ∧ o.shape.w = w ∧ ∃ m, OneM o.data (h * w) w H0 H m ∧ MatIs m h w f

section
variable {o : Obj} {h w : Nat} {H0 H : Heap α} {f g : Nat → Nat → α}

theorem HM.start (hm : H.Matrix o h w f) : HM o h w H H f := by
  obtain ⟨M, sm, vm⟩ := hm.stores
  refine ⟨hm.1, hm.2.1, M, ?_, vm⟩
  have := OneM.start sm
  rwa [vm.2.2.1, vm.2.1] at this

theorem HM.get (hm : HM o h w H0 H f) {i j : Nat} (hi : i < h) (hj : j < w) : o.get2 H i j = .ok (f i j) := by
  obtain ⟨_, e, m, h1, h2⟩ := hm
  unfold Obj.get2 Shape.at2
  rw [e]
  exact h1.get (h2.get hi hj)

theorem HM.set (hm : HM o h w H0 H f) {i j : Nat} (hi : i < h) (hj : j < w) (v : α) :
    Ok (o.set2 H i j v) (fun H' => HM o h w H0 H' (fun i' j' => if i' = i ∧ j' = j then v else f i' j')) := by
  obtain ⟨e1, e2, m, h1, h2⟩ := hm
  obtain ⟨m', e, h3⟩ := h2.set hi hj v
  unfold Obj.set2 Shape.at2
  rw [e2]
  exact (h1.set e).mono (fun H' h' => ⟨e1, e2, m', h', h3⟩)

theorem HM.congr (hm : HM o h w H0 H f) (e : ∀ i j, i < h → j < w → f i j = g i j) : HM o h w H0 H g := by
  obtain ⟨e1, e2, m, h1, h2⟩ := hm
  exact ⟨e1, e2, m, h1, h2.congr e⟩

theorem HM.matrix (hm : HM o h w H0 H f) : H.Matrix o h w f ∧ H0.SameExcept H o.data (h * w) := by
  obtain ⟨e1, e2, m, h1, h2⟩ := hm
  exact ⟨h1.2.2.1.matrix e1 e2 h2, h1.2.2.2⟩

theorem HM.other (hm : HM o h w H0 H f) {m : Obj} {hh ww : Nat} {b : Nat → Nat → α}
    (hB : H0.Matrix m hh ww b) (am : Apart o.data (h * w) m.data (hh * ww)) {i j : Nat} (hi : i < hh) (hj : j < ww) :
    m.get2 H i j = .ok (b i j) := by
  obtain ⟨_, _, _, h1, _⟩ := hm
  obtain ⟨M, sm, vm⟩ := hB.stores
  unfold Obj.get2 Shape.at2
  have e := vm.get hi hj
  unfold Mat.get at e
  rw [hB.2.1]
  rw [vm.2.1] at e
  exact h1.2.other sm (by rw [vm.2.2.1]; exact am) e

end

/-- Violated: `transpose(M, M)` of a square matrix copies the lower triangle to the upper one. -/
theorem C85_transpose_violated (H : Heap α) (m : Obj) (N : Nat) (f : Nat → Nat → α) (hm : H.Matrix m N N f) :
    Ok (Obj.transpose H m m) (fun H' => H'.Matrix m N N (fun i j => f (max i j) (min i j)) ∧ H.SameExcept H' m.data (N * N)) := by
  unfold Obj.transpose
  rw [hm.1, hm.2.1]
  refine (forN_spec (fun i H' => HM m N N H H' (fun a b => if a < b ∧ a < i then f b a else f a b))
    ((HM.start hm).congr (fun a b _ _ => by simp)) (fun i hi H1 h1 => ?_)).mono (fun H' h' => ?_)
  · refine (forN_spec (fun j H' => HM m N N H H' (fun a b => if a < b ∧ (a < i ∨ a = i ∧ b < j) then f b a else f a b))
      (h1.congr (fun a b _ _ => by simp)) (fun j hj H2 h2 => ?_)).mono (fun H' h' => h'.congr (fun a b _ hb => ?_))
    · rw [h2.get hj hi, bind_ok]
      refine (h2.set hi hj _).mono (fun H3 h3 => h3.congr (fun a b _ _ => ?_))
      by_cases e : a = i ∧ b = j
      · obtain ⟨rfl, rfl⟩ := e
        rcases Nat.lt_trichotomy a b with h | h | h
        · simp [h, Nat.lt_asymm h]
        · simp [h]
        · simp [h, Nat.lt_asymm h]
      · simp only [e, if_false]
        by_cases h : a < b
        · have : (a < i ∨ a = i ∧ b < j) ↔ (a < i ∨ a = i ∧ b < j + 1) := by omega
          simp [h, this]
        · simp [h]
    · have : (a < i ∨ a = i ∧ b < N) ↔ a < i + 1 := by omega
      simp [this]
  · refine (h'.congr (fun a b ha _ => ?_)).matrix
    by_cases h : a < b
    · simp [h, ha, Nat.max_eq_right (Nat.le_of_lt h), Nat.min_eq_left (Nat.le_of_lt h)]
    · have h' : b ≤ a := by omega
      simp [h, Nat.max_eq_left h', Nat.min_eq_right h']

/-- Transposing in place is right exactly for symmetric matrices. -/
theorem C85_transpose_iff (H : Heap α) (m : Obj) (N : Nat) (f : Nat → Nat → α) (hm : H.Matrix m N N f) :
    Ok (Obj.transpose H m m) (fun H' => H'.Matrix m N N (fun i j => f j i)) ↔ ∀ i j, i < N → j < N → f i j = f j i := by
  have hv := C85_transpose_violated H m N f hm
  constructor
  · rintro ⟨H1, e1, h1⟩
    obtain ⟨H2, e2, h2, _⟩ := hv
    rw [e1] at e2
    cases e2
    have key : ∀ i j, i < N → j < N → f j i = f (max i j) (min i j) := by
      intro i j hi hj
      have a1 := (HM.start h1).get hi hj
      have a2 := (HM.start h2).get hi hj
      rw [a1] at a2
      exact Except.ok.inj a2
    intro i j hi hj
    rw [key i j hi hj, key j i hj hi, max_comm, min_comm]
  · intro hs
    refine hv.mono (fun H' h' => ?_)
    refine ((HM.start h'.1).congr (fun i j hi hj => ?_)).matrix.1
    rcases Nat.le_total i j with h | h
    · rw [Nat.max_eq_right h, Nat.min_eq_left h]
    · rw [Nat.max_eq_left h, Nat.min_eq_right h, hs i j hi hj]

/-- One row of `dot(A, A, B)`: the elements read are those already changed. -/
def runningRow [Add α] [Mul α] (w : Nat) (x : Nat → α) (b : Nat → Nat → α) : Nat → α :=
  iter w x (fun c y j => y j + y c * b c j)

/-- Violated: `dot(A, A, B)` with a square `B` does not add the product `A·B` to `A`: column `c` of the product uses the
element `c` of the row as changed by the columns before. -/
theorem C85_mat_violated [Add α] [Mul α] (H : Heap α) (l m : Obj) (n w : Nat) (a b : Nat → Nat → α)
    (hl : H.Matrix l n w a) (hm : H.Matrix m w w b) (am : Apart l.data (n * w) m.data (w * w)) :
    Ok (Obj.dotMat H l l m) (fun H' => H'.Matrix l n w (fun i => runningRow w (a i) b) ∧ H.SameExcept H' l.data (n * w)) := by
  unfold Obj.dotMat
  rw [hl.1, hl.2.1, hm.2.1]
  refine (forN_spec (fun i H' => HM l n w H H' (fun i' => if i' < i then runningRow w (a i') b else a i'))
    ((HM.start hl).congr (fun _ _ _ _ => by simp)) (fun i hi H1 h1 => ?_)).mono
    (fun H' h' => (h'.congr (fun i' j hi' _ => by simp [hi'])).matrix)
  refine (forN_spec (fun c H' => HM l n w H H' (fun i' => if i' < i then runningRow w (a i') b else
      if i' = i then iter c (a i) (fun c y j => y j + y c * b c j) else a i'))
    (h1.congr (fun i' j _ _ => ?_)) (fun c hc H2 h2 => ?_)).mono (fun H' h' => h'.congr (fun i' j _ _ => ?_))
  · by_cases e : i' = i
    · subst e; simp [iter]
    · simp [e]
  · rw [h2.get hi hc, bind_ok]
    simp only [Nat.lt_irrefl, if_false, if_true]
    generalize hY : iter c (a i) (fun c y j => y j + y c * b c j) = Y at h2 ⊢
    refine (forN_spec (fun j H' => HM l n w H H' (fun i' j' => if i' = i ∧ j' < j then Y j' + Y c * b c j' else
        (if i' < i then runningRow w (a i') b else if i' = i then Y else a i') j'))
      (h2.congr (fun i' j' _ _ => by simp)) (fun j hj H3 h3 => ?_)).mono (fun H' h' => h'.congr (fun i' j' _ hj' => ?_))
    · rw [h3.get hi hj, bind_ok, h3.other hm am hc hj, bind_ok]
      refine (h3.set hi hj _).mono (fun H4 h4 => h4.congr (fun i' j' _ _ => ?_))
      by_cases e1 : i' = i
      · subst e1
        by_cases e2 : j' = j
        · subst e2; simp
        · have : j' < j ↔ j' < j + 1 := by omega
          simp [e2, this]
      · simp [e1]
    · by_cases e1 : i' = i
      · subst e1; simp [hj', iter, hY]
      · simp [e1]
  · by_cases e : i' = i
    · subst e; simp [runningRow]
    · have : i' < i ↔ i' < i + 1 := by omega
      simp [e, this]

/-- The rows differ from those of `A + A·B`. -/
theorem C85_mat_witness : ∃ (x : Nat → Int) (b : Nat → Nat → Int), runningRow 2 x b 1 ≠ x 1 + ∑ c ∈ range 2, x c * b c 1 :=
  ⟨fun _ => 1, fun i j => if i ≤ j then 1 else 0, by decide⟩

section
variable {K : Type _} [Field K] [LinearOrder K] [IsStrictOrderedRing K]

/-- Violated: `inverse(M, M)` turns every square matrix, singular or not, into the identity. -/
theorem C85_inverse_violated (H : Heap K) (m : Obj) (N : Nat) (f : Nat → Nat → K) (hm : H.Matrix m N N f) :
    Ok (Obj.inverse H m m) (fun H' => H'.Matrix m N N (fun i j => if i = j then 1 else 0) ∧ H.SameExcept H' m.data (N * N)) := by
  unfold Obj.inverse
  dsimp only
  rw [hm.1]
  have hinit : Ok (m.invInit N H) (fun H' => HM m N N H H' (fun i j => if i = j then 1 else 0)) := by
    unfold Obj.invInit
    refine (forN_spec (fun i H' => HM m N N H H' (fun a b => if a < i then (if a = b then 1 else 0) else f a b))
      ((HM.start hm).congr (fun a b _ _ => by simp)) (fun i hi H1 h1 => ?_)).mono
      (fun H' h' => h'.congr (fun a b ha _ => by simp [ha]))
    refine (forN_spec (fun j H' => HM m N N H H' (fun a b => if a < i ∨ a = i ∧ b < j then (if a = b then 1 else 0) else f a b))
      (h1.congr (fun a b _ _ => by simp)) (fun j hj H2 h2 => ?_)).mono (fun H' h' => h'.congr (fun a b _ hb => ?_))
    · refine (h2.set hi hj _).mono (fun H3 h3 => h3.congr (fun a b _ _ => ?_))
      by_cases e : a = i ∧ b = j
      · obtain ⟨rfl, rfl⟩ := e; simp
      · simp only [e, if_false]
        have : (a < i ∨ a = i ∧ b < j) ↔ (a < i ∨ a = i ∧ b < j + 1) := by omega
        simp [this]
    · have : (a < i ∨ a = i ∧ b < N) ↔ a < i + 1 := by omega
      simp [this]
  refine hinit.bind (fun H1 h1 => ?_)
  refine (forN_spec (fun _ H' => HM m N N H H' (fun i j => if i = j then (1 : K) else 0)) h1 (fun k hk H2 h2 => ?_)).mono
    (fun H' h' => h'.matrix)
  have hp : m.invPivot N k H2 = .ok k := by
    unfold Obj.invPivot
    refine Ok.eq (forLoop_spec (fun _ p => p = k) (by omega) rfl (fun i hi1 hi2 p hp => ?_))
    subst hp
    rw [h2.get hk hk, bind_ok, h2.get hi2 hk, bind_ok]
    refine Ok_ok.2 ?_
    have hne : ¬ i = p := by omega
    rw [if_neg hne, if_pos rfl, abs_zero, abs_one, if_neg (by simp)]
  have hscale : ∀ lo H3, HM m N N H H3 (fun i j => if i = j then (1 : K) else 0) → lo ≤ N →
      Ok (m.rowScale N k lo (1 / 1) H3) (fun H' => HM m N N H H' (fun i j => if i = j then (1 : K) else 0)) := by
    intro lo H3 h3 hlo
    unfold Obj.rowScale
    refine forLoop_spec (fun _ H' => HM m N N H H' (fun i j => if i = j then (1 : K) else 0)) hlo h3 (fun j _ hj H4 h4 => ?_)
    rw [h4.get hk hj, bind_ok]
    refine (h4.set hk hj _).mono (fun H5 h5 => h5.congr (fun a b _ _ => ?_))
    by_cases e : a = k ∧ b = j
    · obtain ⟨rfl, rfl⟩ := e; simp
    · simp [e]
  have helim : ∀ i, i < N → ∀ lo H3, HM m N N H H3 (fun i j => if i = j then (1 : K) else 0) → lo ≤ N →
      Ok (m.rowElim N i k lo 0 H3) (fun H' => HM m N N H H' (fun i j => if i = j then (1 : K) else 0)) := by
    intro i hi lo H3 h3 hlo
    unfold Obj.rowElim
    refine forLoop_spec (fun _ H' => HM m N N H H' (fun i j => if i = j then (1 : K) else 0)) hlo h3 (fun j _ hj H4 h4 => ?_)
    rw [h4.get hi hj, bind_ok, h4.get hk hj, bind_ok]
    refine (h4.set hi hj _).mono (fun H5 h5 => h5.congr (fun a b _ _ => ?_))
    by_cases e : a = i ∧ b = j
    · obtain ⟨rfl, rfl⟩ := e; simp
    · simp [e]
  unfold Obj.invStep
  rw [hp, bind_ok]
  have hsw : ∀ lo (H3 : Heap K), m.rowSwapIf N k k lo H3 = .ok H3 := fun lo H3 => by unfold Obj.rowSwapIf; simp
  rw [hsw, bind_ok, hsw, bind_ok, h2.get hk hk, bind_ok, if_pos rfl, if_neg one_ne_zero]
  refine (hscale k H2 h2 (by omega)).bind (fun H3 h3 => (hscale 0 H3 h3 (by omega)).bind (fun H4 h4 => ?_))
  refine forN_spec (fun _ H' => HM m N N H H' (fun i j => if i = j then (1 : K) else 0)) h4 (fun i hi H5 h5 => ?_)
  by_cases hik : i = k
  · rw [if_pos hik]; exact Ok_ok.2 h5
  · rw [if_neg hik, h5.get hi hk, bind_ok, if_neg hik]
    exact (helim i hi k H5 h5 (by omega)).bind (fun H6 h6 => helim i hi 0 H6 h6 (by omega))

end

/-! ### Non-vacuity -/

/-- A program with a vector `x = (1,2)` in block 0 and a matrix `((1,1),(3,1))` in block 1, and an uninitialised vector in
block 2. -/
def exAlias : Heap ℚ := ⟨fun b => if b = 0 then some (Buf.of [1, 2]) else if b = 1 then some (Buf.of [1, 1, 3, 1]) else
  if b = 2 then some [none, none] else none, 3⟩
def exAliasX : Obj := ⟨.vec, .at 0 0, Shape.mk1 2⟩
def exAliasM : Obj := ⟨.mat, .at 1 0, Shape.mk2 2 2⟩
def exAliasR : Obj := ⟨.vec, .at 2 0, Shape.mk1 2⟩

theorem exAlias_x : exAlias.Vec exAliasX 2 (fun i => if i = 0 then 1 else 2) := by
  refine ⟨rfl, Or.inr ⟨0, 0, rfl, fun i hi => ?_⟩⟩
  have h : i = 0 ∨ i = 1 := by omega
  rcases h with rfl | rfl <;> rfl
theorem exAlias_m : exAlias.Matrix exAliasM 2 2 (fun i j => if i = 1 ∧ j = 0 then 3 else 1) := by
  refine ⟨rfl, rfl, Or.inr ⟨1, 0, rfl, fun i j hi hj => ?_⟩⟩
  have h : i = 0 ∨ i = 1 := by omega
  have h' : j = 0 ∨ j = 1 := by omega
  rcases h with rfl | rfl <;> rcases h' with rfl | rfl <;> rfl
theorem exAlias_r : exAliasR.shape.size = 2 ∧ exAlias.Room exAliasR.data 2 := by
  refine ⟨rfl, Or.inr ⟨2, 0, rfl, fun i hi => ?_⟩⟩
  have h : i = 0 ∨ i = 1 := by omega
  rcases h with rfl | rfl <;> rfl
theorem apart_blocks (b o n b' o' m : Nat) (h : b ≠ b') : Apart (.at b o) n (.at b' o') m := by
  intro pb po qb qo i j h1 h2 _ _ e
  cases h1; cases h2
  exact h e.1

/-- The product into a third object is right, the product in place is 0, the transpose in place is `((1,3),(3,1))`. -/
example : Ok (Obj.dotRow exAlias exAliasR exAliasX exAliasM) (fun H => exAliasR.get1 H 0 = .ok 7 ∧ exAliasR.get1 H 1 = .ok 3) ∧
    Ok (Obj.dotRow exAlias exAliasX exAliasX exAliasM) (fun H => exAliasX.get1 H 0 = .ok 0 ∧ exAliasX.get1 H 1 = .ok 0) ∧
    Ok (Obj.transpose exAlias exAliasM exAliasM) (fun H => exAliasM.get2 H 0 1 = .ok 3 ∧ exAliasM.get2 H 1 0 = .ok 3) := by
  refine ⟨?_, ?_, ?_⟩
  · refine (C85_row_partial exAlias exAliasR exAliasX exAliasM 2 2 _ _ exAlias_r exAlias_x exAlias_m
      (apart_blocks _ _ _ _ _ _ (by decide)) (apart_blocks _ _ _ _ _ _ (by decide))).mono (fun H h => ?_)
    obtain ⟨b, sb, vb⟩ := h.1.2.stores
    exact ⟨(sb.load (vb.get (i := 0) (by omega))).trans (by norm_num [foldSum]),
      (sb.load (vb.get (i := 1) (by omega))).trans (by norm_num [foldSum])⟩
  · refine (C85_row_violated exAlias exAliasX exAliasM 2 _ _ exAlias_x exAlias_m
      (apart_blocks _ _ _ _ _ _ (by decide))).mono (fun H h => ?_)
    obtain ⟨b, sb, vb⟩ := h.1.2.stores
    exact ⟨sb.load (vb.get (i := 0) (by omega)), sb.load (vb.get (i := 1) (by omega))⟩
  · refine (C85_transpose_violated exAlias exAliasM 2 _ exAlias_m).mono (fun H h => ?_)
    exact ⟨((HM.start h.1).get (i := 0) (j := 1) (by omega) (by omega)).trans (by simp),
      ((HM.start h.1).get (i := 1) (j := 0) (by omega) (by omega)).trans (by simp)⟩

end Trixy
