import Verif.Spec.Alias
import Verif.Model.HeapLinear
import Verif.Proof.Heap
import Verif.Proof.Linear
import Verif.Proof.Inverse
import Verif.Proof.Elem
/- Loops on the free store follow the loops on values, as long as the operands do not share storage. -/
namespace Trixy

variable {α : Type _}

theorem Buf.get_ok {b : Buf α} {i : Nat} {a : α} (h : b.get i = .ok a) : b[i]? = some (some a) := by
  unfold Buf.get at h
  split at h
  · cases h
  · cases h
  · next x hx => cases h; exact hx

theorem Buf.get_lt {b : Buf α} {i : Nat} {a : α} (h : b.get i = .ok a) : i < b.length := by
  have := Buf.get_ok h
  refine Nat.lt_of_not_le (fun hn => ?_)
  rw [List.getElem?_eq_none hn] at this; cases this

theorem Buf.set_ok {b b' : Buf α} {i : Nat} {a : α} (h : b.set i a = .ok b') : i < b.length ∧ b' = List.set b i (some a) := by
  unfold Buf.set at h
  split at h
  · next hi => cases h; exact ⟨hi, rfl⟩
  · cases h

theorem Heap.Stores.load {H : Heap α} {p : Ptr} {b : Buf α} (h : H.Stores p b) {i : Nat} {a : α} (e : b.get i = .ok a) :
    H.load p i = .ok a := by
  have hl := Buf.get_lt e
  rcases h with h0 | ⟨pb, po, hp, hc⟩
  · rw [h0] at hl; cases hl
  · rw [hp]
    exact Heap.load_of ((hc i hl).trans (Buf.get_ok e))

theorem Apart.symm {p q : Ptr} {n m : Nat} (h : Apart p n q m) : Apart q m p n :=
  fun pb po qb qo i j hp hq hi hj e => h qb qo pb po j i hq hp hj hi ⟨e.1.symm, e.2.symm⟩

theorem Apart.mono {p q : Ptr} {n m n' m' : Nat} (h : Apart p n q m) (hn : n' ≤ n) (hm : m' ≤ m) : Apart p n' q m' :=
  fun pb po qb qo i j hp hq hi hj => h pb po qb qo i j hp hq (by omega) (by omega)

theorem Heap.Stores.frame {H H' : Heap α} {p q : Ptr} {n : Nat} {b : Buf α} (h : H.Stores q b) (hs : H.SameExcept H' p n)
    (ha : Apart p n q b.length) : H'.Stores q b := by
  rcases h with h0 | ⟨qb, qo, hq, hc⟩
  · exact Or.inl h0
  · refine Or.inr ⟨qb, qo, hq, fun i hi => ?_⟩
    rw [hs.2.2 qb (qo + i), hc i hi]
    rintro pb po hp ⟨e1, e2, e3⟩
    exact ha pb po qb qo (qo + i - po) i hp hq (by omega) hi ⟨e1.symm, by omega⟩

theorem Heap.SameExcept.trans' {H0 H1 H2 : Heap α} {p : Ptr} {n : Nat} (h1 : H0.SameExcept H1 p n) (h2 : H1.SameExcept H2 p n) :
    H0.SameExcept H2 p n :=
  ⟨h2.1.trans h1.1, fun b => (h2.2.1 b).trans (h1.2.1 b), fun b o h => (h2.2.2 b o h).trans (h1.2.2 b o h)⟩

/-- A loop follows another one. -/
theorem forN_sim {σ τ : Type _} (R : σ → τ → Prop) {n : Nat} {s : σ} {t t' : τ} {bs : Nat → σ → Res σ} {bt : Nat → τ → Res τ}
    (h0 : R s t) (hb : ∀ i, i < n → ∀ s t t', R s t → bt i t = .ok t' → Ok (bs i s) (fun s' => R s' t'))
    (h : forN n t bt = .ok t') : Ok (forN n s bs) (fun s' => R s' t') := by
  induction n generalizing t' with
  | zero => cases h; exact Ok_ok.2 h0
  | succ n ih =>
    rw [forN_succ] at h ⊢
    cases hr : forN n t bt with
    | error e => rw [hr] at h; cases h
    | ok t1 =>
      rw [hr] at h
      exact (ih (fun i hi => hb i (by omega)) hr).bind (fun s1 h1 => hb n (by omega) s1 t1 t' h1 h)

theorem forLoop_sim {σ τ : Type _} (R : σ → τ → Prop) {lo hi : Nat} {s : σ} {t t' : τ} {bs : Nat → σ → Res σ}
    {bt : Nat → τ → Res τ} (h0 : R s t)
    (hb : ∀ i, lo ≤ i → i < hi → ∀ s t t', R s t → bt i t = .ok t' → Ok (bs i s) (fun s' => R s' t'))
    (h : forLoop lo hi t bt = .ok t') : Ok (forLoop lo hi s bs) (fun s' => R s' t') :=
  forN_sim R h0 (fun i hi' s t t' hR he => hb (lo + i) (by omega) (by omega) s t t' hR he) h

theorem res_inv {β γ : Type _} {r : Res β} {k : β → Res γ} {c : γ} (h : (r >>= k) = .ok c) : ∃ b, r = .ok b ∧ k b = .ok c := by
  cases r with
  | error e => cases h
  | ok b => exact ⟨b, rfl, h⟩

/-- The `n` cells from `p` on hold `b`, everything else is as in `H0`. -/
def One (p : Ptr) (n : Nat) (H0 H : Heap α) (b : Buf α) : Prop := b.length = n ∧ H.Stores p b ∧ H0.SameExcept H p n

section
variable {p : Ptr} {n : Nat} {H0 H : Heap α} {b : Buf α}

theorem One.start (h : H.Stores p b) (hn : b.length = n) : One p n H H b := ⟨hn, h, Heap.SameExcept.refl _ _ _⟩

theorem One.self (h : One p n H0 H b) {i : Nat} {a : α} (e : b.get i = .ok a) : H.load p i = .ok a := h.2.1.load e

theorem One.other (h : One p n H0 H b) {q : Ptr} {c : Buf α} (hq : H0.Stores q c) (ha : Apart p n q c.length) {i : Nat} {a : α}
    (e : c.get i = .ok a) : H.load q i = .ok a := (hq.frame h.2.2 ha).load e

theorem One.store (h : One p n H0 H b) {i : Nat} {a : α} {b' : Buf α} (e : b.set i a = .ok b') :
    Ok (H.store p i a) (fun H' => One p n H0 H' b') := by
  obtain ⟨hi, rfl⟩ := Buf.set_ok e
  obtain ⟨hn, hs, hf⟩ := h
  rcases hs with h0 | ⟨pb, po, rfl, hc⟩
  · rw [h0] at hi; cases hi
  · have hc' : H.cellAt pb (po + i) = some (b[i]'hi) := by rw [hc i hi, List.getElem?_eq_getElem hi]
    refine (Heap.put_spec (some a) hc').mono (fun H' hh => ⟨by rw [List.length_set]; exact hn, ?_, ?_⟩)
    · refine Or.inr ⟨pb, po, rfl, fun j hj => ?_⟩
      rw [hh.2.2, List.getElem?_set]
      dsimp only
      rw [List.length_set] at hj
      by_cases hij : i = j
      · subst hij; simp [hi]
      · rw [if_neg (by omega), if_neg hij, hc j hj]
    · refine hf.trans' ⟨hh.1, hh.2.1, fun b' o' hb => ?_⟩
      rw [hh.2.2]
      dsimp only
      rw [if_neg]
      rintro ⟨rfl, rfl⟩
      exact hb b' po rfl ⟨rfl, by omega, by omega⟩

end

section Products
variable {H : Heap α}

theorem fill_sim {p : Ptr} {b b' : Buf α} (h : H.Stores p b) (v : α) (e : fillInto b v = .ok b') :
    Ok (fillLoop H p b.length v) (fun H' => One p b.length H H' b') :=
  forN_sim (One p b.length H) (One.start h rfl) (fun _ _ _ _ _ hR he => hR.store he) e

theorem zero_sim [Zero α] {p : Ptr} {b b' : Buf α} (h : H.Stores p b) (e : zeroFill b = .ok b') :
    Ok (fillLoop H p b.length 0) (fun H' => One p b.length H H' b') :=
  forN_sim (One p b.length H) (One.start h rfl) (fun _ _ _ _ _ hR he => hR.store he) e

theorem dotRow_sim [Zero α] [Add α] [Mul α] {r x m : Obj} {br bx b' : Buf α} {M : Mat α}
    (hr : H.Stores r.data br) (sr : r.shape.size = br.length) (hx : H.Stores x.data bx) (sx : x.shape.size = bx.length)
    (hm : H.Stores m.data M.data) (wm : m.shape.w = M.w) (ax : Apart r.data br.length x.data bx.length)
    (am : Apart r.data br.length m.data M.data.length) (e : Trixy.dotRow br bx M = .ok b') :
    Ok (Obj.dotRow H r x m) (fun H' => One r.data br.length H H' b') := by
  unfold Trixy.dotRow at e
  unfold Obj.dotRow
  obtain ⟨b0, e0, e⟩ := res_inv e
  rw [sr, sx]
  refine (zero_sim hr e0).bind (fun H1 h1 => ?_)
  refine forN_sim (One r.data br.length H) h1 (fun i _ s t t' hR he => ?_) e
  obtain ⟨a, ea, he⟩ := res_inv he
  unfold Obj.get1
  rw [hR.other hx ax ea, bind_ok]
  refine forN_sim (One r.data br.length H) hR (fun j _ s t t' hR he => ?_) he
  obtain ⟨u, eu, he⟩ := res_inv he
  obtain ⟨y, ey, he⟩ := res_inv he
  unfold Obj.get2 Obj.set1 Shape.at2
  rw [wm, hR.self eu, bind_ok, hR.other hm am ey, bind_ok]
  exact hR.store he

theorem dotCol_sim [Zero α] [Add α] [Mul α] {r x m : Obj} {br bx b' : Buf α} {M : Mat α}
    (hr : H.Stores r.data br) (sr : r.shape.size = br.length) (hx : H.Stores x.data bx) (sx : x.shape.size = bx.length)
    (hm : H.Stores m.data M.data) (wm : m.shape.w = M.w) (ax : Apart r.data br.length x.data bx.length)
    (am : Apart r.data br.length m.data M.data.length) (e : Trixy.dotCol br M bx = .ok b') :
    Ok (Obj.dotCol H r m x) (fun H' => One r.data br.length H H' b') := by
  unfold Trixy.dotCol at e
  unfold Obj.dotCol
  obtain ⟨b0, e0, e⟩ := res_inv e
  rw [sr, sx]
  refine (zero_sim hr e0).bind (fun H1 h1 => ?_)
  refine forN_sim (One r.data br.length H) h1 (fun i _ s t t' hR he => ?_) e
  refine forN_sim (One r.data br.length H) hR (fun j _ s t t' hR he => ?_) he
  obtain ⟨u, eu, he⟩ := res_inv he
  obtain ⟨y, ey, he⟩ := res_inv he
  obtain ⟨c, ec, he⟩ := res_inv he
  unfold Obj.get1 Obj.get2 Obj.set1 Shape.at2
  rw [wm, hR.self eu, bind_ok, hR.other hm am ey, bind_ok, hR.other hx ax ec, bind_ok]
  exact hR.store he

theorem Mat.set_ok {m m' : Mat α} {i j : Nat} {a : α} (h : m.set i j a = .ok m') :
    m.data.set (i * m.w + j) a = .ok m'.data ∧ m'.h = m.h ∧ m'.w = m.w := by
  unfold Mat.set at h
  obtain ⟨d, ed, h⟩ := res_inv h
  cases h
  exact ⟨ed, rfl, rfl⟩

/-- As `One`, the cells being read as a matrix of width `w`. -/
def OneM (p : Ptr) (n w : Nat) (H0 H : Heap α) (m : Mat α) : Prop := m.w = w ∧ One p n H0 H m.data

theorem OneM.get {p : Ptr} {n w : Nat} {H0 : Heap α} {m : Mat α} (h : OneM p n w H0 H m) {i j : Nat} {a : α}
    (e : m.get i j = .ok a) : H.load p (i * w + j) = .ok a := by
  unfold Mat.get at e
  rw [h.1] at e
  exact h.2.self e

theorem OneM.set {p : Ptr} {n w : Nat} {H0 : Heap α} {m m' : Mat α} (h : OneM p n w H0 H m) {i j : Nat} {a : α}
    (e : m.set i j a = .ok m') : Ok (H.store p (i * w + j) a) (fun H' => OneM p n w H0 H' m') := by
  obtain ⟨e1, _, e3⟩ := Mat.set_ok e
  rw [h.1] at e1
  exact (h.2.store e1).mono (fun H' h' => ⟨e3.trans h.1, h'⟩)

theorem OneM.start {p : Ptr} {m : Mat α} (h : H.Stores p m.data) : OneM p m.data.length m.w H H m := ⟨rfl, One.start h rfl⟩

theorem dotMat_sim [Add α] [Mul α] {r l m : Obj} {R L M R' : Mat α}
    (hr : H.Stores r.data R.data) (wr : r.shape.w = R.w) (hl : H.Stores l.data L.data) (lh : l.shape.h = L.h)
    (lw : l.shape.w = L.w) (hm : H.Stores m.data M.data) (wm : m.shape.w = M.w)
    (al : Apart r.data R.data.length l.data L.data.length) (am : Apart r.data R.data.length m.data M.data.length)
    (e : Trixy.dotMat R L M = .ok R') :
    Ok (Obj.dotMat H r l m) (fun H' => OneM r.data R.data.length R.w H H' R') := by
  unfold Trixy.dotMat at e
  unfold Obj.dotMat
  rw [lh, lw, wm]
  refine forN_sim (OneM r.data R.data.length R.w H) (OneM.start hr) (fun i _ s t t' hR he => ?_) e
  refine forN_sim (OneM r.data R.data.length R.w H) hR (fun c _ s t t' hR he => ?_) he
  obtain ⟨a, ea, he⟩ := res_inv he
  unfold Obj.get2 Shape.at2
  rw [lw, hR.2.other hl al ea, bind_ok]
  refine forN_sim (OneM r.data R.data.length R.w H) hR (fun j _ s t t' hR he => ?_) he
  obtain ⟨u, eu, he⟩ := res_inv he
  obtain ⟨y, ey, he⟩ := res_inv he
  unfold Obj.set2 Shape.at2
  rw [wm, wr, hR.get eu, bind_ok, hR.2.other hm am ey, bind_ok]
  exact hR.set he

theorem tensordot_sim [Mul α] {r c x : Obj} {R R' : Mat α} {bc bx : Buf α}
    (hr : H.Stores r.data R.data) (hc : H.Stores c.data bc) (sc : c.shape.size = bc.length)
    (hx : H.Stores x.data bx) (sx : x.shape.size = bx.length)
    (ac : Apart r.data R.data.length c.data bc.length) (ax : Apart r.data R.data.length x.data bx.length)
    (e : Trixy.tensordot R bc bx = .ok R') :
    Ok (Obj.tensordot H r c x) (fun H' => OneM r.data R.data.length R.w H H' R') := by
  unfold Trixy.tensordot at e
  unfold Obj.tensordot
  rw [sc, sx]
  refine forN_sim (OneM r.data R.data.length R.w H) (OneM.start hr) (fun i _ s t t' hR he => ?_) e
  obtain ⟨a, ea, he⟩ := res_inv he
  unfold Obj.get1
  rw [hR.2.other hc ac ea, bind_ok]
  refine forN_sim (OneM r.data R.data.length R.w H) hR (fun j _ s t t' hR he => ?_) he
  obtain ⟨y, ey, he⟩ := res_inv he
  obtain ⟨d, ed, he⟩ := res_inv he
  cases he
  unfold Obj.set1
  rw [hR.2.other hx ax ey, bind_ok]
  exact (hR.2.store ed).mono (fun H' h' => ⟨hR.1, h'⟩)

theorem transpose_sim {r m : Obj} {R M R' : Mat α}
    (hr : H.Stores r.data R.data) (rh : r.shape.h = R.h) (wr : r.shape.w = R.w)
    (hm : H.Stores m.data M.data) (wm : m.shape.w = M.w) (am : Apart r.data R.data.length m.data M.data.length)
    (e : transposeInto R M = .ok R') :
    Ok (Obj.transpose H r m) (fun H' => OneM r.data R.data.length R.w H H' R') := by
  unfold transposeInto at e
  unfold Obj.transpose
  rw [rh, wr]
  refine forN_sim (OneM r.data R.data.length R.w H) (OneM.start hr) (fun i _ s t t' hR he => ?_) e
  refine forN_sim (OneM r.data R.data.length R.w H) hR (fun j _ s t t' hR he => ?_) he
  obtain ⟨y, ey, he⟩ := res_inv he
  unfold Obj.get2 Obj.set2 Shape.at2
  rw [wm, wr, hR.2.other hm am ey, bind_ok]
  exact hR.set he

end Products

section Inverse
variable {K : Type _} [Field K] [LinearOrder K] {H0 H : Heap K} {p : Ptr} {n w : Nat}

theorem invInit_sim {o : Obj} (do' : o.data = p) (wo : o.shape.w = w) {m m' : Mat K} (h : OneM p n w H0 H m) {N : Nat}
    (e : Trixy.invInit N m = .ok m') : Ok (o.invInit N H) (fun H' => OneM p n w H0 H' m') := by
  unfold Trixy.invInit at e
  unfold Obj.invInit
  refine forN_sim (OneM p n w H0) h (fun i _ s t t' hR he => ?_) e
  refine forN_sim (OneM p n w H0) hR (fun j _ s t t' hR he => ?_) he
  unfold Obj.set2 Shape.at2
  rw [do', wo]
  exact hR.set he

theorem invPivot_sim {o : Obj} (do' : o.data = p) (wo : o.shape.w = w) {m : Mat K} (h : OneM p n w H0 H m) {N c q : Nat}
    (e : Trixy.invPivot N c m = .ok q) : o.invPivot N c H = .ok q := by
  unfold Trixy.invPivot at e
  unfold Obj.invPivot
  refine Ok.eq (forLoop_sim (fun a b => a = b) rfl (fun i _ _ s t t' hR he => ?_) e)
  subst hR
  obtain ⟨x, ex, he⟩ := res_inv he
  obtain ⟨y, ey, he⟩ := res_inv he
  unfold Obj.get2 Shape.at2
  rw [do', wo, h.get ex, bind_ok, h.get ey, bind_ok]
  exact ⟨_, he, rfl⟩

theorem rowSwapIf_sim {o : Obj} (do' : o.data = p) (wo : o.shape.w = w) {m m' : Mat K} (h : OneM p n w H0 H m)
    {N c q lo : Nat} (e : Trixy.rowSwapIf N c q lo m = .ok m') : Ok (o.rowSwapIf N c q lo H) (fun H' => OneM p n w H0 H' m') := by
  unfold Trixy.rowSwapIf at e
  unfold Obj.rowSwapIf
  by_cases hp : q ≠ c
  · rw [if_pos hp] at e ⊢
    unfold Trixy.rowSwap at e
    unfold Obj.rowSwap
    refine forLoop_sim (OneM p n w H0) h (fun i _ _ s t t' hR he => ?_) e
    obtain ⟨x, ex, he⟩ := res_inv he
    obtain ⟨y, ey, he⟩ := res_inv he
    obtain ⟨t1, e1, he⟩ := res_inv he
    unfold Obj.get2 Obj.set2 Shape.at2
    rw [do', wo, hR.get ex, bind_ok, hR.get ey, bind_ok]
    exact (hR.set e1).bind (fun H1 h1 => h1.set he)
  · rw [if_neg hp] at e ⊢
    cases e
    exact Ok_ok.2 h

theorem rowScale_sim {o : Obj} (do' : o.data = p) (wo : o.shape.w = w) {m m' : Mat K} (h : OneM p n w H0 H m)
    {N c lo : Nat} {v : K} (e : Trixy.rowScale N c lo v m = .ok m') :
    Ok (o.rowScale N c lo v H) (fun H' => OneM p n w H0 H' m') := by
  unfold Trixy.rowScale at e
  unfold Obj.rowScale
  refine forLoop_sim (OneM p n w H0) h (fun i _ _ s t t' hR he => ?_) e
  obtain ⟨x, ex, he⟩ := res_inv he
  unfold Obj.get2 Obj.set2 Shape.at2
  rw [do', wo, hR.get ex, bind_ok]
  exact hR.set he

theorem rowElim_sim {o : Obj} (do' : o.data = p) (wo : o.shape.w = w) {m m' : Mat K} (h : OneM p n w H0 H m)
    {N i c lo : Nat} {v : K} (e : Trixy.rowElim N i c lo v m = .ok m') :
    Ok (o.rowElim N i c lo v H) (fun H' => OneM p n w H0 H' m') := by
  unfold Trixy.rowElim at e
  unfold Obj.rowElim
  refine forLoop_sim (OneM p n w H0) h (fun i _ _ s t t' hR he => ?_) e
  obtain ⟨x, ex, he⟩ := res_inv he
  obtain ⟨y, ey, he⟩ := res_inv he
  unfold Obj.get2 Obj.set2 Shape.at2
  rw [do', wo, hR.get ex, bind_ok, hR.get ey, bind_ok]
  exact hR.set he

/-- Two matrices held by two areas without a common cell. -/
structure Two (p : Ptr) (n wr : Nat) (q : Ptr) (m wm : Nat) (H0 H : Heap K) (s : Mat K × Mat K) : Prop where
  apart : Apart p n q m
  left : OneM p n wr H H s.1
  right : OneM q m wm H H s.2
  rest : H0.SameExcept2 H p n q m

theorem OneM.rebase {m : Mat K} (h : OneM p n w H0 H m) : OneM p n w H H m := ⟨h.1, h.2.1, h.2.2.1, Heap.SameExcept.refl _ _ _⟩

theorem Two.goLeft {q : Ptr} {m wr wm : Nat} {R R' M : Mat K} {H' : Heap K} (h : Two p n wr q m wm H0 H (R, M))
    (h' : OneM p n wr H H' R') : Two p n wr q m wm H0 H' (R', M) where
  apart := h.apart
  left := h'.rebase
  right := ⟨h.right.1, h.right.2.1, h.right.2.2.1.frame h'.2.2.2 (by rw [h.right.2.1]; exact h.apart), Heap.SameExcept.refl _ _ _⟩
  rest := ⟨h'.2.2.2.1.trans h.rest.1, fun b => (h'.2.2.2.2.1 b).trans (h.rest.2.1 b),
    fun b o h1 h2 => (h'.2.2.2.2.2 b o h1).trans (h.rest.2.2 b o h1 h2)⟩

theorem Two.goRight {q : Ptr} {m wr wm : Nat} {R M M' : Mat K} {H' : Heap K} (h : Two p n wr q m wm H0 H (R, M))
    (h' : OneM q m wm H H' M') : Two p n wr q m wm H0 H' (R, M') where
  apart := h.apart
  left := ⟨h.left.1, h.left.2.1, h.left.2.2.1.frame h'.2.2.2 (by rw [h.left.2.1]; exact h.apart.symm), Heap.SameExcept.refl _ _ _⟩
  right := h'.rebase
  rest := ⟨h'.2.2.2.1.trans h.rest.1, fun b => (h'.2.2.2.2.1 b).trans (h.rest.2.1 b),
    fun b o h1 h2 => (h'.2.2.2.2.2 b o h2).trans (h.rest.2.2 b o h1 h2)⟩

theorem invStep_sim {r m : Obj} {nr nm wr wm : Nat} (er : r.shape.w = wr) (em : m.shape.w = wm) {s s' : Mat K × Mat K}
    (h : Two r.data nr wr m.data nm wm H0 H s) {N c : Nat}
    (e : Trixy.invStep N c s = .ok s') : Ok (Obj.invStep N c r m H) (fun H' => Two r.data nr wr m.data nm wm H0 H' s') := by
  obtain ⟨R, M⟩ := s
  unfold Trixy.invStep at e
  unfold Obj.invStep
  dsimp only at e
  obtain ⟨p, ep, e⟩ := res_inv e
  obtain ⟨M1, eM1, e⟩ := res_inv e
  obtain ⟨R1, eR1, e⟩ := res_inv e
  obtain ⟨piv, epiv, e⟩ := res_inv e
  rw [invPivot_sim rfl em h.right ep, bind_ok]
  refine (rowSwapIf_sim rfl em h.right eM1).bind (fun H1 h1 => ?_)
  have h1' := h.goRight h1
  refine (rowSwapIf_sim rfl er h1'.left eR1).bind (fun H2 h2 => ?_)
  have h2' := h1'.goLeft h2
  have hg : m.get2 H2 c c = .ok piv := by
    unfold Obj.get2 Shape.at2
    rw [em]; exact h2'.right.get epiv
  rw [hg, bind_ok]
  by_cases hz : piv = 0
  · rw [if_pos hz] at e; cases e
  · rw [if_neg hz] at e ⊢
    obtain ⟨M2, eM2, e⟩ := res_inv e
    obtain ⟨R2, eR2, e⟩ := res_inv e
    refine (rowScale_sim rfl em h2'.right eM2).bind (fun H3 h3 => ?_)
    have h3' := h2'.goRight h3
    refine (rowScale_sim rfl er h3'.left eR2).bind (fun H4 h4 => ?_)
    have h4' := h3'.goLeft h4
    refine forN_sim (Two r.data nr wr m.data nm wm H0) h4' (fun i _ H5 t t' hR he => ?_) e
    obtain ⟨Ra, Ma⟩ := t
    dsimp only at he
    by_cases hi : i = c
    · rw [if_pos hi] at he ⊢
      cases he
      exact Ok_ok.2 hR
    · rw [if_neg hi] at he ⊢
      obtain ⟨b, eb, he⟩ := res_inv he
      obtain ⟨Mb, eMb, he⟩ := res_inv he
      obtain ⟨Rb, eRb, he⟩ := res_inv he
      cases he
      have hg : m.get2 H5 i c = .ok b := by
        unfold Obj.get2 Shape.at2
        rw [em]; exact hR.right.get eb
      rw [hg, bind_ok]
      refine (rowElim_sim rfl em hR.right eMb).bind (fun H6 h6 => ?_)
      have h6' := hR.goRight h6
      exact (rowElim_sim rfl er h6'.left eRb).mono (fun H7 h7 => h6'.goLeft h7)

theorem inverse_sim {r m : Obj} {R M R' M' : Mat K} (hr : H.Stores r.data R.data) (er : r.shape.w = R.w)
    (hM : H.Stores m.data M.data) (em : m.shape.w = M.w) (hm : m.shape.h = M.h)
    (ha : Apart r.data R.data.length m.data M.data.length) (e : inverseInto R M = .ok (R', M')) :
    Ok (Obj.inverse H r m) (fun H' => Two r.data R.data.length R.w m.data M.data.length M.w H H' (R', M')) := by
  unfold inverseInto at e
  unfold Obj.inverse
  rw [hm]
  obtain ⟨R1, eR1, e⟩ := res_inv e
  have h0 : Two r.data R.data.length R.w m.data M.data.length M.w H H (R, M) :=
    ⟨ha, OneM.start hr, OneM.start hM, rfl, fun _ => Iff.rfl, fun _ _ _ _ => rfl⟩
  refine (invInit_sim rfl er h0.left eR1).bind (fun H1 h1 => ?_)
  exact forN_sim (Two r.data R.data.length R.w m.data M.data.length M.w H) (h0.goLeft h1)
    (fun c _ H2 t t' hR he => invStep_sim er em hR he) e

end Inverse

end Trixy
