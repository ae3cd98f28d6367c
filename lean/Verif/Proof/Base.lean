import Verif.Spec.Basic
/- Helper lemmas about `Ok`, loops and checked buffers. -/
namespace Trixy

variable {α β σ τ : Type _}

@[simp] theorem bind_ok (a : α) (k : α → Res β) : (Except.ok a >>= k : Res β) = k a := rfl
@[simp] theorem bind_err (e : UB) (k : α → Res β) : (Except.error e >>= k : Res β) = .error e := rfl
@[simp] theorem pure_eq_ok (a : α) : (pure a : Res α) = .ok a := rfl

theorem Ok.intro {a : α} {Q : α → Prop} (h : Q a) : Ok (.ok a) Q := ⟨a, rfl, h⟩

@[simp] theorem Ok_ok {a : α} {Q : α → Prop} : Ok (.ok a) Q ↔ Q a :=
  ⟨fun ⟨_, h, q⟩ => by cases h; exact q, fun h => ⟨a, rfl, h⟩⟩

@[simp] theorem Ok_pure {a : α} {Q : α → Prop} : Ok (pure a) Q ↔ Q a := Ok_ok

@[simp] theorem Ok_error {e : UB} {Q : α → Prop} : ¬ Ok (.error e) Q :=
  fun ⟨_, h, _⟩ => by cases h

theorem Ok.bind {r : Res α} {k : α → Res β} {P : α → Prop} {Q : β → Prop}
    (h : Ok r P) (hk : ∀ a, P a → Ok (k a) Q) : Ok (r >>= k) Q := by
  obtain ⟨a, rfl, pa⟩ := h
  exact hk a pa

theorem Ok.mono {r : Res α} {P Q : α → Prop} (h : Ok r P) (hk : ∀ a, P a → Q a) : Ok r Q := by
  obtain ⟨a, rfl, pa⟩ := h
  exact ⟨a, rfl, hk a pa⟩

theorem Ok.eq {r : Res α} {a : α} (h : Ok r (fun x => x = a)) : r = .ok a := by
  obtain ⟨_, rfl, rfl⟩ := h; rfl

@[simp] theorem forN_zero (s : σ) (body : Nat → σ → Res σ) : forN 0 s body = .ok s := rfl

theorem forN_succ (n : Nat) (s : σ) (body : Nat → σ → Res σ) :
    forN (n + 1) s body = forN n s body >>= body n := rfl

/-- Total-correctness rule for loops: an invariant indexed by the iteration count. -/
theorem forN_spec (P : Nat → σ → Prop) {n : Nat} {s : σ} {body : Nat → σ → Res σ}
    (h0 : P 0 s) (hs : ∀ i, i < n → ∀ s, P i s → Ok (body i s) (P (i + 1))) :
    Ok (forN n s body) (P n) := by
  induction n with
  | zero => exact Ok_ok.2 h0
  | succ n ih =>
    rw [forN_succ]
    exact (ih (fun i hi => hs i (Nat.lt_succ_of_lt hi))).bind (fun s hs' => hs n (Nat.lt_succ_self n) s hs')

theorem forLoop_spec (P : Nat → σ → Prop) {lo hi : Nat} {s : σ} {body : Nat → σ → Res σ}
    (hle : lo ≤ hi) (h0 : P lo s)
    (hs : ∀ i, lo ≤ i → i < hi → ∀ s, P i s → Ok (body i s) (P (i + 1))) :
    Ok (forLoop lo hi s body) (P hi) := by
  have := forN_spec (n := hi - lo) (s := s) (body := fun i => body (lo + i))
    (fun i s => P (lo + i) s) h0 (fun i hi' s hp => hs (lo + i) (by omega) (by omega) s hp)
  have e : lo + (hi - lo) = hi := by omega
  rw [e] at this
  exact this

theorem forN_congr {n : Nat} {s : σ} {body body' : Nat → σ → Res σ}
    (h : ∀ i, i < n → ∀ s, body i s = body' i s) : forN n s body = forN n s body' := by
  induction n with
  | zero => rfl
  | succ n ih =>
    rw [forN_succ, forN_succ, ih (fun i hi => h i (by omega))]
    congr 1; funext s; exact h n (by omega) s

/-- A loop whose iteration `k` errs in every state reachable after the first `k` iterations errs. -/
theorem forN_err (P : Nat → σ → Prop) {n k : Nat} {e : UB} {s : σ} {body : Nat → σ → Res σ}
    (hk : k < n) (h0 : P 0 s) (hs : ∀ i, i < k → ∀ s, P i s → Ok (body i s) (P (i + 1)))
    (he : ∀ s, P k s → body k s = .error e) : forN n s body = .error e := by
  induction n with
  | zero => omega
  | succ n ih =>
    rw [forN_succ]
    by_cases h : k < n
    · rw [ih h]; rfl
    · have : k = n := by omega
      subst this
      obtain ⟨s', h1, h2⟩ := forN_spec (n := k) P h0 hs
      rw [h1]; exact he s' h2

/-! ### Buffers -/

theorem BufIs.length {b : Buf α} {n : Nat} {f} (h : BufIs b n f) : b.length = n := h.1

theorem BufIs.congr {b : Buf α} {n : Nat} {f g : Nat → Option α} (h : BufIs b n f)
    (e : ∀ i, i < n → f i = g i) : BufIs b n g :=
  ⟨h.1, fun i hi => by rw [h.2 i hi, e i hi]⟩

theorem VecIs.congr {b : Buf α} {n : Nat} {f g : Nat → α} (h : VecIs b n f)
    (e : ∀ i, i < n → f i = g i) : VecIs b n g :=
  BufIs.congr h (fun i hi => by simp [e i hi])

theorem VecIs.length {b : Buf α} {n : Nat} {f} (h : VecIs b n f) : b.length = n := h.1

theorem VecIs.get {b : Buf α} {n : Nat} {f : Nat → α} (h : VecIs b n f) {i : Nat} (hi : i < n) :
    b.get i = .ok (f i) := by
  unfold Buf.get; rw [h.2 i hi]

theorem BufIs.get {b : Buf α} {n : Nat} {f : Nat → Option α} (h : BufIs b n f) {i : Nat} (hi : i < n)
    {a : α} (ha : f i = some a) : b.get i = .ok a := by
  unfold Buf.get; rw [h.2 i hi, ha]

theorem BufIs.get_none {b : Buf α} {n : Nat} {f : Nat → Option α} (h : BufIs b n f) {i : Nat}
    (hi : i < n) (ha : f i = none) : b.get i = .error .uninit := by
  unfold Buf.get; rw [h.2 i hi, ha]

theorem BufIs.get_oob {b : Buf α} {n : Nat} {f : Nat → Option α} (h : BufIs b n f) {i : Nat}
    (hi : n ≤ i) : b.get i = .error .oob := by
  unfold Buf.get; rw [List.getElem?_eq_none (by have := h.1; omega)]

theorem BufIs.set {b : Buf α} {n : Nat} {f : Nat → Option α} (h : BufIs b n f) {i : Nat}
    (hi : i < n) (a : α) :
    Ok (b.set i a) (fun b' => BufIs b' n (fun k => if k = i then some a else f k)) := by
  unfold Buf.set
  rw [if_pos (by rw [h.1]; exact hi), Ok_ok]
  refine ⟨by simp [h.1], fun k hk => ?_⟩
  rw [List.getElem?_set]
  by_cases hik : i = k
  · subst hik; simp [h.1, hk]
  · have : ¬ k = i := fun e => hik e.symm
    simp [hik, this, h.2 k hk]

theorem VecIs.set {b : Buf α} {n : Nat} {f : Nat → α} (h : VecIs b n f) {i : Nat}
    (hi : i < n) (a : α) :
    Ok (b.set i a) (fun b' => VecIs b' n (fun k => if k = i then a else f k)) := by
  refine (BufIs.set h hi a).mono (fun b' hb => hb.congr (fun k _ => ?_))
  by_cases hk : k = i <;> simp [hk]

theorem BufIs.set_oob {b : Buf α} {n : Nat} {f : Nat → Option α} (h : BufIs b n f) {i : Nat}
    (hi : n ≤ i) (a : α) : b.set i a = .error .oob := by
  unfold Buf.set; rw [if_neg (by rw [h.1]; omega)]

theorem BufIs_alloc (n : Nat) : BufIs (Buf.alloc n : Buf α) n (fun _ => none) := by
  refine ⟨by simp [Buf.alloc], fun i hi => by simp [Buf.alloc, hi]⟩

theorem VecIs_of (l : List α) (f : Nat → α) (h : ∀ i (hi : i < l.length), l[i] = f i) :
    VecIs (Buf.of l) l.length f := by
  refine ⟨by simp [Buf.of], fun i hi => by simp [Buf.of, hi, h]⟩

/-- Every initialised buffer is described by some function. -/
theorem BufIs.ext {b b' : Buf α} {n : Nat} {f : Nat → Option α} (h : BufIs b n f) (h' : BufIs b' n f) :
    b = b' := by
  apply List.ext_getElem?
  intro i
  by_cases hi : i < n
  · rw [h.2 i hi, h'.2 i hi]
  · rw [List.getElem?_eq_none (by have := h.1; omega), List.getElem?_eq_none (by have := h'.1; omega)]

theorem VecIs.unique {b : Buf α} {n m : Nat} {f g : Nat → α} (h : VecIs b n f) (h' : VecIs b m g) :
    n = m ∧ ∀ i, i < n → f i = g i := by
  have e : n = m := h.1.symm.trans h'.1
  subst e
  exact ⟨rfl, fun i hi => by
    have := (h.2 i hi).symm.trans (h'.2 i hi)
    simpa using this⟩

@[simp] theorem foldSum_zero [Add α] (z : α) (t : Nat → α) : foldSum z 0 t = z := rfl
theorem foldSum_succ [Add α] (z : α) (n : Nat) (t : Nat → α) :
    foldSum z (n + 1) t = foldSum z n t + t n := rfl

theorem foldSum_congr [Add α] (z : α) (n : Nat) {t t' : Nat → α} (h : ∀ i, i < n → t i = t' i) :
    foldSum z n t = foldSum z n t' := by
  induction n with
  | zero => rfl
  | succ n ih => rw [foldSum_succ, foldSum_succ, ih (fun i hi => h i (by omega)), h n (by omega)]

/-! ### Index arithmetic -/

theorem idx2_lt {i j h w : Nat} (hi : i < h) (hj : j < w) : i * w + j < h * w := by
  calc i * w + j < i * w + w := by omega
    _ = (i + 1) * w := by rw [Nat.add_mul, Nat.one_mul]
    _ ≤ h * w := Nat.mul_le_mul_right _ hi

theorem idx2_inj {i j i' j' w : Nat} (hj : j < w) (hj' : j' < w) :
    i * w + j = i' * w + j' ↔ i = i' ∧ j = j' := by
  constructor
  · intro h
    have hw : 0 < w := by omega
    have d : (i * w + j) / w = i := by
      rw [Nat.add_comm, Nat.add_mul_div_right _ _ hw, Nat.div_eq_of_lt hj, Nat.zero_add]
    have d' : (i' * w + j') / w = i' := by
      rw [Nat.add_comm, Nat.add_mul_div_right _ _ hw, Nat.div_eq_of_lt hj', Nat.zero_add]
    have m : (i * w + j) % w = j := by rw [Nat.add_comm, Nat.add_mul_mod_self_right, Nat.mod_eq_of_lt hj]
    have m' : (i' * w + j') % w = j' := by rw [Nat.add_comm, Nat.add_mul_mod_self_right, Nat.mod_eq_of_lt hj']
    exact ⟨by rw [← d, ← d', h], by rw [← m, ← m', h]⟩
  · rintro ⟨rfl, rfl⟩; rfl

theorem idx2_div {i j w : Nat} (hj : j < w) : (i * w + j) / w = i := by
  have hw : 0 < w := by omega
  rw [Nat.add_comm, Nat.add_mul_div_right _ _ hw, Nat.div_eq_of_lt hj, Nat.zero_add]

theorem idx2_mod {i j w : Nat} (hj : j < w) : (i * w + j) % w = j := by
  rw [Nat.add_comm, Nat.add_mul_mod_self_right, Nat.mod_eq_of_lt hj]

theorem idx3_lt {i j k d h w : Nat} (hi : i < d) (hj : j < h) (hk : k < w) :
    (i * h + j) * w + k < d * h * w := idx2_lt (idx2_lt hi hj) hk

theorem idx3_inj {i j k i' j' k' h w : Nat} (hj : j < h) (hk : k < w) (hj' : j' < h) (hk' : k' < w) :
    (i * h + j) * w + k = (i' * h + j') * w + k' ↔ i = i' ∧ j = j' ∧ k = k' := by
  rw [idx2_inj hk hk', idx2_inj hj hj', and_assoc]

end Trixy
