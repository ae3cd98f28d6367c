import Verif.Spec.Layer
import Verif.Proof.Elem
import Verif.Proof.Sum
/- The fully connected layer. -/
namespace Trixy

variable {α γ ρ σ : Type}

theorem Act.Is.elementwise (g g' : α → α) (n : Nat) :
    (Act.elementwise g g').Is n (fun v i => g (v i)) (fun v i => g' (v i)) where
  f := fun _ _ _ hr hx => mapInto_spec hr hx (Nat.le_refl _)
  fSelf := fun _ _ hx => mapSelf_spec hx
  df := fun _ _ _ hr hx => mapInto_spec hr hx (Nat.le_refl _)
  dfSelf := fun _ _ hx => mapSelf_spec hx
  Fcongr := fun _ _ h i hi => by rw [h i hi]
  Dcongr := fun _ _ h i hi => by rw [h i hi]

/-- Matrix data as a flat vector. -/
theorem MatIs.flat {m : Mat α} {h w : Nat} {f : Nat → Nat → α} (hm : MatIs m h w f) :
    VecIs m.data (h * w) (fun k => f (k / w) (k % w)) := by
  refine ⟨hm.2.2.1, fun k hk => ?_⟩
  have hw : 0 < w := Nat.pos_of_mul_pos_left (Nat.zero_lt_of_lt hk)
  have h1 : k / w < h := Nat.div_lt_of_lt_mul (by rwa [Nat.mul_comm])
  have h2 := Nat.mod_lt k hw
  have e : k / w * w + k % w = k := by rw [Nat.mul_comm]; exact Nat.div_add_mod k w
  have := hm.2.2.2 _ _ h1 h2
  rwa [e] at this

theorem MatIs.of_flat {h w : Nat} {d : Buf α} {v : Nat → α} (hd : VecIs d (h * w) v) :
    MatIs ⟨h, w, d⟩ h w (fun i j => v (i * w + j)) :=
  ⟨rfl, rfl, hd.length, fun _ _ hi hj => hd.2 _ (idx2_lt hi hj)⟩

theorem MatIs.of_flat' {h w : Nat} {m : Mat α} {v : Nat → α} (hh : m.h = h) (hw : m.w = w) (hd : VecIs m.data (h * w) v) :
    MatIs m h w (fun i j => v (i * w + j)) :=
  ⟨hh, hw, hd.length, fun _ _ hi hj => hd.2 _ (idx2_lt hi hj)⟩

theorem Full.len {b : Buf α} {n : Nat} (h : Full b n) : b.length = n := h.choose_spec.length
theorem VecIs.full {b : Buf α} {n : Nat} {f : Nat → α} (h : VecIs b n f) : Full b n := ⟨f, h⟩
theorem MatIs.full {b : Mat α} {n m : Nat} {f : Nat → Nat → α} (h : MatIs b n m f) : MFull b n m := ⟨f, h⟩

theorem RowIs_fill (n : Nat) (v : α) : RowIs (Ten.fill 1 1 n v) n (fun _ => v) :=
  ⟨rfl, rfl, rfl, by simpa [Ten.fill, filled] using VecIs_filled n v⟩

theorem RowIs.ext {s t : Ten α} {n : Nat} {v : Nat → α} (a : RowIs s n v) (c : RowIs t n v) : s = t := by
  have hd := BufIs.ext a.2.2.2 c.2.2.2
  have e1 := a.1.trans c.1.symm
  have e2 := a.2.1.trans c.2.1.symm
  have e3 := a.2.2.1.trans c.2.2.1.symm
  obtain ⟨_, _, _, _⟩ := s
  obtain ⟨_, _, _, _⟩ := t
  dsimp only at hd e1 e2 e3
  rw [hd, e1, e2, e3]

theorem affine_congr [Zero α] [Add α] [Mul α] {n m : Nat} {W W' : Nat → Nat → α} {b b' x x' : Nat → α}
    (hW : ∀ i j, i < n → j < m → W i j = W' i j) (hb : ∀ j, j < m → b j = b' j) (hx : ∀ i, i < n → x i = x' i) :
    ∀ j, j < m → affine n W b x j = affine n W' b' x' j := by
  intro j hj
  unfold affine
  rw [hb j hj, foldSum_congr 0 n (fun i hi => by rw [hx i hi, hW i j hi hj])]

theorem FC.Wf_make [Zero α] (n m : Nat) (act : Act α) (kB kW : Nat) :
    (FC.make n m act kB kW).Wf n m (fun _ => 0) (fun _ _ => 0) where
  isize := rfl
  osize := rfl
  B := VecIs_filled m 0
  W := MatIs_fill n m 0
  value := ⟨_, RowIs_fill m 0⟩
  buff := (VecIs_filled m 0).full
  gradB := (VecIs_filled m 0).full
  gradW := (MatIs_fill n m 0).full
  gradBs := (VecIs_filled m 0).full
  gradWs := (MatIs_fill n m 0).full
  delta := ⟨_, RowIs_fill n 0⟩

/-- What `forward` leaves alone. -/
def FC.SameBut_forward (l l' : FC α) : Prop :=
  l' = { l with buff := l'.buff, value := l'.value }

theorem FC.forward_spec [Zero α] [Add α] [Mul α] {l : FC α} {n m : Nat} {b : Nat → α} {W : Nat → Nat → α}
    (h : l.Wf n m b W) {F D : (Nat → α) → Nat → α} (hact : l.act.Is m F D) {x : Ten α} {v : Nat → α}
    (hx : VecIs x.data n v) :
    Ok (l.forward x) (fun l' => l'.Wf n m b W ∧ RowIs l'.value m (F (affine n W b v)) ∧
      VecIs l'.buff m (affine n W b v) ∧ l' = { l with buff := l'.buff, value := l'.value }) := by
  unfold FC.forward
  obtain ⟨v0, hv0⟩ := h.value
  refine (dotRow_spec hx h.W (Nat.le_refl _) h.buff.len).bind (fun b1 h1 => ?_)
  refine (zipInto_spec h1 h.B (Nat.le_refl _)).bind (fun b2 h2 => ?_)
  refine (hact.f l.value.data b2 _ hv0.2.2.2.length h2).bind (fun vd hvd => ?_)
  refine Ok_ok.2 ⟨?_, ⟨hv0.1, hv0.2.1, hv0.2.2.1, hvd⟩, h2, rfl⟩
  exact { h with value := ⟨_, hv0.1, hv0.2.1, hv0.2.2.1, hvd⟩, buff := h2.full }

theorem FC.backward_spec [Zero α] [Add α] [Mul α] {l : FC α} {n m : Nat} {b : Nat → α} {W : Nat → Nat → α}
    (h : l.Wf n m b W) {F D : (Nat → α) → Nat → α} (hact : l.act.Is m F D) {x d : Ten α} {v u s : Nat → α}
    (hx : VecIs x.data n v) (hd : VecIs d.data m u) (hs : VecIs l.buff m s) (full : Bool) :
    Ok (l.backward x d full) (fun l' => l'.Wf n m b W ∧
      VecIs l'.gradB m (fun j => D s j * u j) ∧
      MatIs l'.gradW n m (fun i j => v i * (D s j * u j)) ∧
      (full = true → RowIs l'.delta n (fun i => foldSum 0 m (fun j => W i j * (D s j * u j)))) ∧
      (full = false → l'.delta = l.delta) ∧
      l' = { l with gradB := l'.gradB, gradW := l'.gradW, delta := l'.delta }) := by
  unfold FC.backward
  obtain ⟨v0, hv0⟩ := h.delta
  obtain ⟨g0, hg0⟩ := h.gradW
  refine (hact.df l.gradB l.buff s h.gradB.len hs).bind (fun b1 h1 => ?_)
  refine (zipInto_spec h1 hd (Nat.le_refl _)).bind (fun b2 h2 => ?_)
  refine (tensordot_spec hg0 hx h2).bind (fun gW hgW => ?_)
  cases full with
  | false =>
    show Ok (Except.ok l.delta >>= _) _
    rw [bind_ok]
    refine Ok_ok.2 ⟨{ h with gradB := h2.full, gradW := hgW.full }, h2, hgW, fun e => (by cases e), fun _ => rfl, rfl⟩
  | true =>
    unfold FC.backDelta
    rw [if_pos rfl]
    refine (Ten.onData_spec (f := fun d => dotCol d l.W b2) (dotCol_spec h2 h.W (Nat.le_refl _) hv0.2.2.2.length)).bind (fun t ht => ?_)
    have hr : RowIs t n (fun i => foldSum 0 m (fun j => W i j * (D s j * u j))) :=
      ⟨ht.1.trans hv0.1, ht.2.1.trans hv0.2.1, ht.2.2.1.trans hv0.2.2.1, ht.2.2.2⟩
    exact Ok_ok.2 ⟨{ h with gradB := h2.full, gradW := hgW.full, delta := ⟨_, hr⟩ }, h2, hgW, fun _ => hr,
      fun e => (by cases e), rfl⟩

theorem FC.reset_spec [Zero α] {l : FC α} {n m : Nat} {b : Nat → α} {W : Nat → Nat → α} (h : l.Wf n m b W) :
    Ok l.reset (fun l' => l'.Wf n m b W ∧ VecIs l'.gradBs m (fun _ => 0) ∧ MatIs l'.gradWs n m (fun _ _ => 0) ∧
      l'.accumulated = false ∧ l' = { l with gradBs := l'.gradBs, gradWs := l'.gradWs, accumulated := false }) := by
  unfold FC.reset
  obtain ⟨w0, hw0⟩ := h.gradWs
  refine (fillInto_spec h.gradBs.len 0).bind (fun gB hgB => ?_)
  refine (Mat.onData_spec (fillInto_spec hw0.2.2.1 0)).bind (fun gW hgW => ?_)
  have hm : MatIs gW n m (fun _ _ => 0) := MatIs.of_flat' (hgW.1.trans hw0.1) (hgW.2.1.trans hw0.2.1) hgW.2.2
  exact Ok_ok.2 ⟨{ h with gradBs := hgB.full, gradWs := hm.full }, hgB, hm, rfl, rfl⟩

theorem FC.accumulate_spec [Add α] {l : FC α} {n m : Nat} {b : Nat → α} {W : Nat → Nat → α} (h : l.Wf n m b W)
    {gB gBs : Nat → α} {gW gWs : Nat → Nat → α} (h1 : VecIs l.gradB m gB) (h2 : VecIs l.gradBs m gBs)
    (h3 : MatIs l.gradW n m gW) (h4 : MatIs l.gradWs n m gWs) :
    Ok l.accumulate (fun l' => l'.Wf n m b W ∧ VecIs l'.gradBs m (fun j => gBs j + gB j) ∧
      MatIs l'.gradWs n m (fun i j => gWs i j + gW i j) ∧ l'.accumulated = true ∧
      l' = { l with gradBs := l'.gradBs, gradWs := l'.gradWs, accumulated := true }) := by
  unfold FC.accumulate
  refine (zipInto_spec h2 h1 (Nat.le_refl _)).bind (fun b1 hb1 => ?_)
  refine (Mat.onData_spec (t := l.gradWs) (f := fun d => zipInto (· + ·) d l.gradW.data) (zipInto_spec h4.flat h3.flat (Nat.le_refl _))).bind (fun w1 hw1 => ?_)
  have hm : MatIs w1 n m (fun i j => gWs i j + gW i j) :=
    (MatIs.of_flat' (hw1.1.trans h4.1) (hw1.2.1.trans h4.2.1) hw1.2.2).congr (fun i j hi hj => by
      rw [idx2_div hj, idx2_mod hj])
  exact Ok_ok.2 ⟨{ h with gradBs := hb1.full, gradWs := hm.full }, hb1, hm, rfl, rfl⟩

theorem scaleUnlessOne_spec [Mul α] [One α] [DecidableEq α] (hone : ∀ a : α, a * 1 = a) {g : Buf α} {n : Nat}
    {f : Nat → α} (h : VecIs g n f) (alpha : α) :
    Ok (scaleUnlessOne alpha g) (fun g' => VecIs g' n (fun i => f i * alpha)) := by
  unfold scaleUnlessOne
  by_cases e : alpha = 1
  · subst e; simp only [ne_eq, not_true_eq_false, if_false]
    exact Ok_ok.2 (h.congr (fun i _ => by rw [hone]))
  · rw [if_pos e]; exact scaleInto_spec h alpha

theorem fillBy_full (gen : Gen γ ρ α) (c : γ) (g : ρ) (r : Buf α) :
    Ok (fillBy gen c g r) (fun p => Full p.1 r.length) := by
  unfold fillBy
  refine Ok.bind (P := fun p => Full p.1 r.length) ?_ (fun p hp => Ok_ok.2 hp)
  have := forN_spec (n := r.length) (s := (r, c, g)) (body := fun i (p : Buf α × γ × ρ) => do
      let (a, c, g) := gen p.2.1 p.2.2
      let r ← p.1.set i a
      return (r, c, g))
    (fun i p => p.1.length = r.length ∧ ∃ f : Nat → α, ∀ k, k < i → p.1[k]? = some (some (f k))) 
    ⟨rfl, (fun k => (gen c g).1), fun k hk => by omega⟩ (fun i hi p hp => by
      obtain ⟨hl, f, hf⟩ := hp
      have h1 := (BufIs_self p.1).set (i := i) (by omega) (gen p.2.1 p.2.2).1
      dsimp only
      refine h1.bind (fun b hb => Ok_ok.2 ⟨hb.1.trans hl, fun k => if k = i then (gen p.2.1 p.2.2).1 else f k, fun k hk => ?_⟩)
      rw [hb.2 k (by omega)]
      by_cases e : k = i
      · simp [e]
      · have := hf k (by omega)
        simp [e, this])
  exact this.mono (fun p hp => by
    obtain ⟨hl, f, hf⟩ := hp
    exact ⟨f, hl, fun k hk => hf k hk⟩)

theorem FC.init_spec {l : FC α} {n m : Nat} {b : Nat → α} {W : Nat → Nat → α} (h : l.Wf n m b W)
    (gen : Gen γ ρ α) (c : γ) (g : ρ) :
    Ok (l.init gen c g) (fun r => ∃ b' W', r.1.Wf n m b' W' ∧ r.1 = { l with B := r.1.B, W := r.1.W }) := by
  unfold FC.init
  refine (fillBy_full gen c g l.B).bind (fun r1 h1 => ?_)
  refine (fillBy_full gen c r1.2 l.W.data).bind (fun r2 h2 => ?_)
  rw [h.B.length] at h1
  rw [h.W.2.2.1] at h2
  obtain ⟨b', hb'⟩ := h1
  obtain ⟨w', hw'⟩ := h2
  exact Ok_ok.2 ⟨b', _, { h with B := hb', W := MatIs.of_flat' (m := { l.W with data := r2.1 }) h.W.1 h.W.2.1 hw' }, rfl⟩

theorem FC.update_full [Mul α] [One α] [DecidableEq α] {upd : Upd σ α} {size : Nat → Nat} {I : σ → Prop}
    (hu : UpdOk upd size I) {l : FC α} {n m : Nat} {b : Nat → α} {W : Nat → Nat → α} (h : l.Wf n m b W)
    (hB : size l.keyB = m) (hW : size l.keyW = n * m) {s : σ} (hs : I s) (alpha : α) :
    Ok (l.update upd s alpha) (fun r => I r.1 ∧ (∃ b' W', r.2.Wf n m b' W') ∧
      r.2 = { l with B := r.2.B, W := r.2.W, gradB := r.2.gradB, gradW := r.2.gradW, gradBs := r.2.gradBs, gradWs := r.2.gradWs }) := by
  have sc : ∀ (g : Buf α) (k : Nat), Full g k → Ok (scaleUnlessOne alpha g) (fun g' => Full g' k) := by
    intro g k ⟨f, hf⟩
    unfold scaleUnlessOne
    by_cases e : alpha = 1
    · rw [if_neg (by simp [e])]; exact Ok_ok.2 hf.full
    · rw [if_pos e]; exact (scaleInto_spec hf alpha).mono (fun _ h => h.full)
  have uw : ∀ (gB : Buf α) (gW : Mat α), Full gB m → MFull gW n m →
      Ok (FC.updateWith upd s alpha l gB gW) (fun r => I r.1 ∧ Full r.2.1 m ∧ Full r.2.2.1 m ∧ Full r.2.2.2.1 (n * m) ∧
        Full r.2.2.2.2 (n * m)) := by
    intro gB gW h1 ⟨f, h2⟩
    unfold FC.updateWith
    refine (sc gB m h1).bind (fun gB' hB' => ?_)
    refine (sc gW.data (n * m) h2.flat.full).bind (fun gW' hW' => ?_)
    have u1 := hu s l.keyB l.B gB' hs (by rw [hB]; exact h.B.full) (by rw [hB]; exact hB')
    rw [hB] at u1
    refine u1.bind (fun r hr => ?_)
    have u2 := hu r.1 l.keyW l.W.data gW' hr.1 (by rw [hW]; exact h.W.flat.full) (by rw [hW]; exact hW')
    rw [hW] at u2
    refine u2.bind (fun r' hr' => ?_)
    exact Ok_ok.2 ⟨hr'.1, hr.2.1, hr.2.2, hr'.2.1, hr'.2.2⟩
  unfold FC.update
  by_cases ha : l.accumulated = true
  · rw [if_pos ha]
    refine (uw _ _ h.gradBs h.gradWs).bind (fun r hr => ?_)
    obtain ⟨hI, ⟨b', hb'⟩, hg, ⟨w', hw'⟩, ⟨w2, hw2⟩⟩ := hr
    obtain ⟨q, hq⟩ := h.gradWs
    have m1 := MatIs.of_flat' (m := { l.W with data := r.2.2.2.1 }) h.W.1 h.W.2.1 hw'
    have m2 := MatIs.of_flat' (m := { l.gradWs with data := r.2.2.2.2 }) hq.1 hq.2.1 hw2
    exact Ok_ok.2 ⟨hI, ⟨b', _, { h with B := hb', W := m1, gradBs := hg, gradWs := m2.full }⟩, rfl⟩
  · rw [if_neg ha]
    refine (uw _ _ h.gradB h.gradW).bind (fun r hr => ?_)
    obtain ⟨hI, ⟨b', hb'⟩, hg, ⟨w', hw'⟩, ⟨w2, hw2⟩⟩ := hr
    obtain ⟨q, hq⟩ := h.gradW
    have m1 := MatIs.of_flat' (m := { l.W with data := r.2.2.2.1 }) h.W.1 h.W.2.1 hw'
    have m2 := MatIs.of_flat' (m := { l.gradW with data := r.2.2.2.2 }) hq.1 hq.2.1 hw2
    exact Ok_ok.2 ⟨hI, ⟨b', _, { h with B := hb', W := m1, gradB := hg, gradW := m2.full }⟩, rfl⟩

/-- Invariant of client programs. -/
def FC.Good (n m kB kW : Nat) (l : FC α) : Prop :=
  (∃ b W, l.Wf n m b W) ∧ (∃ F D, l.act.Is m F D) ∧ l.keyB = kB ∧ l.keyW = kW

theorem FCOp.exec_spec [Zero α] [One α] [Add α] [Mul α] [DecidableEq α] {upd : Upd σ α} {size : Nat → Nat} {I : σ → Prop}
    (hu : UpdOk upd size I) (gen : Gen γ ρ α) {n m kB kW : Nat} (hB : size kB = m) (hW : size kW = n * m)
    (s : σ) (g : ρ) (l : FC α) (hs : I s) (hl : l.Good n m kB kW) (op : FCOp α γ) (hop : op.Fits n m) :
    Ok (FCOp.exec upd gen (s, g, l) op) (fun r => I r.1 ∧ r.2.2.Good n m kB kW) := by
  obtain ⟨⟨b, W, hwf⟩, ⟨F, D, hact⟩, rfl, rfl⟩ := hl
  cases op with
  | init c =>
    refine (FC.init_spec hwf gen c g).bind (fun r hr => ?_)
    obtain ⟨b', W', h1, h2⟩ := hr
    refine Ok_ok.2 ⟨hs, ⟨b', W', h1⟩, ⟨F, D, ?_⟩, ?_, ?_⟩ <;> (dsimp only; rw [h2])
    exact hact
  | connect a => exact Ok_ok.2 ⟨hs, ⟨b, W, { hwf with }⟩, hop, rfl, rfl⟩
  | forward x =>
    obtain ⟨v, hv⟩ := hop
    refine (FC.forward_spec hwf hact hv).bind (fun l' h => ?_)
    refine Ok_ok.2 ⟨hs, ⟨b, W, h.1⟩, ⟨F, D, ?_⟩, ?_, ?_⟩ <;> (dsimp only; rw [h.2.2.2])
    exact hact
  | backward x d full =>
    obtain ⟨⟨v, hv⟩, ⟨u, hu'⟩⟩ := hop
    obtain ⟨sv, hsv⟩ := hwf.buff
    refine (FC.backward_spec hwf hact hv hu' hsv full).bind (fun l' h => ?_)
    refine Ok_ok.2 ⟨hs, ⟨b, W, h.1⟩, ⟨F, D, ?_⟩, ?_, ?_⟩ <;> (dsimp only; rw [h.2.2.2.2.2])
    exact hact
  | update alpha =>
    refine (FC.update_full hu hwf hB hW hs alpha).bind (fun r hr => ?_)
    refine Ok_ok.2 ⟨hr.1, hr.2.1, ⟨F, D, ?_⟩, ?_, ?_⟩ <;> (dsimp only; rw [hr.2.2])
    exact hact
  | reset =>
    refine (FC.reset_spec hwf).bind (fun l' h => ?_)
    refine Ok_ok.2 ⟨hs, ⟨b, W, h.1⟩, ⟨F, D, ?_⟩, ?_, ?_⟩ <;> (dsimp only; rw [h.2.2.2.2])
    exact hact
  | accumulate =>
    obtain ⟨_, h1⟩ := hwf.gradB
    obtain ⟨_, h2⟩ := hwf.gradBs
    obtain ⟨_, h3⟩ := hwf.gradW
    obtain ⟨_, h4⟩ := hwf.gradWs
    refine (FC.accumulate_spec hwf h1 h2 h3 h4).bind (fun l' h => ?_)
    refine Ok_ok.2 ⟨hs, ⟨b, W, h.1⟩, ⟨F, D, ?_⟩, ?_, ?_⟩ <;> (dsimp only; rw [h.2.2.2.2])
    exact hact

theorem FCOp.run_spec [Zero α] [One α] [Add α] [Mul α] [DecidableEq α] {upd : Upd σ α} {size : Nat → Nat} {I : σ → Prop}
    (hu : UpdOk upd size I) (gen : Gen γ ρ α) {n m kB kW : Nat} (hB : size kB = m) (hW : size kW = n * m)
    (ops : List (FCOp α γ)) : ∀ (s : σ) (g : ρ) (l : FC α), I s → l.Good n m kB kW → (∀ op ∈ ops, op.Fits n m) →
    Ok (FCOp.run upd gen (s, g, l) ops) (fun r => I r.1 ∧ r.2.2.Good n m kB kW) := by
  induction ops with
  | nil => exact fun s g l hs hl _ => Ok_ok.2 ⟨hs, hl⟩
  | cons op ops ih =>
    intro s g l hs hl hf
    unfold FCOp.run
    refine (FCOp.exec_spec hu gen hB hW s g l hs hl op (hf op (by simp))).bind (fun r hr => ?_)
    exact ih r.1 r.2.1 r.2.2 hr.1 hr.2 (fun o ho => hf o (by simp [ho]))

/-! Accumulation over rounds. -/

/-- A round's sample: input `v`, delta `u`. -/
def SampleIs (n m : Nat) (p : Ten α × Ten α) (vu : (Nat → α) × (Nat → α)) : Prop :=
  VecIs p.1.data n vu.1 ∧ VecIs p.2.data m vu.2

theorem FC.rounds_spec [Zero α] [Add α] [Mul α] {n m : Nat} {b : Nat → α} {W : Nat → Nat → α}
    {F D : (Nat → α) → Nat → α} (full : Bool) (samples : List (Ten α × Ten α)) (vus : List ((Nat → α) × (Nat → α)))
    (hs : List.Forall₂ (SampleIs n m) samples vus) :
    ∀ {l : FC α} (_ : l.Wf n m b W) (_ : l.act.Is m F D) {gBs : Nat → α} {gWs : Nat → Nat → α}
      (_ : VecIs l.gradBs m gBs) (_ : MatIs l.gradWs n m gWs),
    Ok (l.rounds full samples) (fun l' => l'.Wf n m b W ∧ l'.act = l.act ∧ l'.keyB = l.keyB ∧ l'.keyW = l.keyW ∧
      l'.B = l.B ∧ l'.W = l.W ∧
      (samples ≠ [] ∨ l.accumulated = true → l'.accumulated = true) ∧
      VecIs l'.gradBs m (fun j => vus.foldl (fun acc vu => acc + D (affine n W b vu.1) j * vu.2 j) (gBs j)) ∧
      MatIs l'.gradWs n m (fun i j => vus.foldl (fun acc vu => acc + vu.1 i * (D (affine n W b vu.1) j * vu.2 j)) (gWs i j))) := by
  induction hs with
  | nil => exact fun hw _ _ _ h1 h2 => Ok_ok.2 ⟨hw, rfl, rfl, rfl, rfl, rfl, fun h => h.elim (fun h => absurd rfl h) id, h1, h2⟩
  | @cons p vu samples vus hp hs ih =>
    intro l hw ha gBs gWs h1 h2
    unfold FC.rounds
    refine (FC.forward_spec hw ha hp.1).bind (fun l1 q1 => ?_)
    have e1 := q1.2.2.2
    refine (FC.backward_spec q1.1 (by rw [e1]; exact ha) hp.1 hp.2 q1.2.2.1 full).bind (fun l2 q2 => ?_)
    have e2 := q2.2.2.2.2.2
    have hB2 : l2.gradBs = l.gradBs := by rw [e2, e1]
    have hW2 : l2.gradWs = l.gradWs := by rw [e2, e1]
    refine (FC.accumulate_spec q2.1 q2.2.1 (by rw [hB2]; exact h1) q2.2.2.1 (by rw [hW2]; exact h2)).bind (fun l3 q3 => ?_)
    have e3 := q3.2.2.2.2
    refine (ih q3.1 (by rw [e3, e2, e1]; exact ha) q3.2.1 q3.2.2.1).mono (fun l4 q4 => ?_)
    obtain ⟨a1, a2, a3, a4, a5, a6, a7, a8, a9⟩ := q4
    refine ⟨a1, ?_, ?_, ?_, ?_, ?_, fun _ => ?_, a8, a9⟩
    · rw [a2, e3, e2, e1]
    · rw [a3, e3, e2, e1]
    · rw [a4, e3, e2, e1]
    · rw [a5, e3, e2, e1]
    · rw [a6, e3, e2, e1]
    · exact a7 (Or.inr q3.2.2.2.1)

end Trixy
