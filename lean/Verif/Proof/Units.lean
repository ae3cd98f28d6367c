import Verif.Spec.Units
import Verif.Proof.TrainSafe
/- Copies of units stay copies (C101): layers, networks, training runs. -/
namespace Trixy

variable {α γ ρ σ : Type}
set_option linter.unusedSectionVars false

theorem units_inv {β δ : Type} {r : Res β} {k : β → Res δ} {c : δ} (h : (r >>= k) = .ok c) : ∃ b, r = .ok b ∧ k b = .ok c := by
  cases r with
  | error e => cases h
  | ok b => exact ⟨b, rfl, h⟩

/-! ### Cells and functions -/

theorem SameCells.iff {R : Nat → Nat → Prop} {b : Buf α} {n : Nat} {v : Nat → α} (h : VecIs b n v) :
    SameCells R b ↔ ∀ i j, i < n → j < n → R i j → v i = v j := by
  constructor
  · intro hs i j hi hj hr
    have := hs i j (h.length ▸ hi) (h.length ▸ hj) hr
    rw [h.2 i hi, h.2 j hj] at this
    simpa using this
  · intro hs i j hi hj hr
    rw [h.length] at hi hj
    rw [h.2 i hi, h.2 j hj]
    show some (some (v i)) = some (some (v j))
    rw [hs i j hi hj hr]

theorem SameCells.trivial {R : Nat → Nat → Prop} (hR : ∀ i j, R i j → i = j) (b : Buf α) : SameCells R b := by
  intro i j _ _ h
  rw [hR i j h]

theorem SameCells.mono {R R' : Nat → Nat → Prop} {b : Buf α} (h : SameCells R b) (hR : ∀ i j, R' i j → R i j) : SameCells R' b :=
  fun i j hi hj hr => h i j hi hj (hR i j hr)

theorem SameCells.grid {Ri Ro : Nat → Nat → Prop} {M : Mat α} {n m : Nat} {f : Nat → Nat → α} (h : MatIs M n m f) :
    SameCells (gridRel m Ri Ro) M.data ↔ ∀ i i' j j', i < n → i' < n → j < m → j' < m → Ri i i' → Ro j j' → f i j = f i' j' := by
  rw [SameCells.iff h.flat]
  constructor
  · intro hs i i' j j' hi hi' hj hj' h1 h2
    have := hs (i * m + j) (i' * m + j') (idx2_lt hi hj) (idx2_lt hi' hj') (by
      unfold gridRel
      rw [idx2_div hj, idx2_div hj', idx2_mod hj, idx2_mod hj']
      exact ⟨h1, h2⟩)
    rw [idx2_div hj, idx2_div hj', idx2_mod hj, idx2_mod hj'] at this
    exact this
  · intro hs a b ha hb hr
    have hm : 0 < m := Nat.pos_of_ne_zero (fun e => by subst e; simp at ha)
    exact hs _ _ _ _ (Nat.div_lt_of_lt_mul (by rwa [Nat.mul_comm])) (Nat.div_lt_of_lt_mul (by rwa [Nat.mul_comm])) (Nat.mod_lt _ hm)
      (Nat.mod_lt _ hm) hr.1 hr.2

theorem foldSum_same [Add α] {z : α} : ∀ {n : Nat} {f g : Nat → α}, (∀ i, i < n → f i = g i) → foldSum z n f = foldSum z n g := by
  intro n
  induction n with
  | zero => intro f g _; rfl
  | succ n ih =>
    intro f g h
    show foldSum z n f + f n = foldSum z n g + g n
    rw [ih (fun i hi => h i (by omega)), h n (by omega)]

/-! ### One dense layer -/

section
variable [Zero α] [One α] [Add α] [Mul α]

theorem FC.copies_forward {f : FC α} {n m : Nat} {b : Nat → α} {W : Nat → Nat → α} {Ri Ro : Nat → Nat → Prop} (hr : ∀ i, Ri i i)
    (h : f.Wf n m b W) (hc : f.Copies Ri Ro) (ha : f.act.Respects m Ro) {x : Ten α} {v : Nat → α} (hx : VecIs x.data n v) :
    Ok (f.forward x) (fun f' => f'.Copies Ri Ro ∧ SameCells Ro f'.value.data ∧ SameCells Ro f'.buff) := by
  obtain ⟨F, D, hact, hFD⟩ := ha
  refine (FC.forward_spec h hact hx).mono (fun f' q => ?_)
  obtain ⟨_, h1, h2, e⟩ := q
  have hb := (SameCells.iff h.B).1 hc.B
  have hW := (SameCells.grid h.W).1 (h.osize ▸ hc.W)
  have hs : ∀ i j, i < m → j < m → Ro i j → affine n W b v i = affine n W b v j := by
    intro i j hi hj hR
    unfold affine
    rw [hb i j hi hj hR, foldSum_same (fun l hl => by rw [hW l l i j hl hl hi hj (hr l) hR])]
  refine ⟨?_, (SameCells.iff h1.2.2.2).2 (fun i j hi hj hR => (hFD _ hs i j hi hj hR).1), (SameCells.iff h2).2 hs⟩
  rw [e]
  exact ⟨hc.B, hc.W, hc.gradB, hc.gradW, hc.gradBs, hc.gradWs⟩

theorem FC.copies_backward {f : FC α} {n m : Nat} {b : Nat → α} {W : Nat → Nat → α} {Ri Ro : Nat → Nat → Prop} (hr : ∀ i, Ro i i)
    (h : f.Wf n m b W) (hc : f.Copies Ri Ro) (ha : f.act.Respects m Ro) {x d : Ten α} {v u : Nat → α} (hx : VecIs x.data n v)
    (hd : VecIs d.data m u) (hxs : SameCells Ri x.data) (hds : SameCells Ro d.data) (hbs : SameCells Ro f.buff) (full : Bool) :
    Ok (f.backward x d full) (fun f' => f'.Copies Ri Ro ∧ (full = true → SameCells Ri f'.delta.data)) := by
  obtain ⟨F, D, hact, hFD⟩ := ha
  obtain ⟨s, hs⟩ := h.buff
  refine (FC.backward_spec h hact hx hd hs full).mono (fun f' q => ?_)
  obtain ⟨_, h1, h2, h3, _, e⟩ := q
  have hW := (SameCells.grid h.W).1 (h.osize ▸ hc.W)
  have hv := (SameCells.iff hx).1 hxs
  have hu := (SameCells.iff hd).1 hds
  have hb := (SameCells.iff hs).1 hbs
  have ho : f'.osize = m := by rw [e]; exact h.osize
  refine ⟨⟨by rw [e]; exact hc.B, by rw [e]; exact hc.W, ?_, ?_, by rw [e]; exact hc.gradBs, by rw [e]; exact hc.gradWs⟩, fun hf => ?_⟩
  · exact (SameCells.iff h1).2 (fun i j hi hj hR => by rw [(hFD _ hb i j hi hj hR).2, hu i j hi hj hR])
  · rw [ho]
    exact (SameCells.grid h2).2 (fun i i' j j' hi hi' hj hj' r1 r2 => by
      rw [(hFD _ hb j j' hj hj' r2).2, hu j j' hj hj' r2, hv i i' hi hi' r1])
  · exact (SameCells.iff (h3 hf).2.2.2).2 (fun i j hi hj hR => foldSum_same (fun l hl => by
      rw [hW i j l l hi hj hl hl hR (hr l)]))

theorem FC.copies_reset {f : FC α} {n m : Nat} {b : Nat → α} {W : Nat → Nat → α} {Ri Ro : Nat → Nat → Prop}
    (h : f.Wf n m b W) (hc : f.Copies Ri Ro) : Ok f.reset (fun f' => f'.Copies Ri Ro) := by
  refine (FC.reset_spec h).mono (fun f' q => ?_)
  obtain ⟨_, h1, h2, _, e⟩ := q
  have ho : f'.osize = m := by rw [e]; exact h.osize
  exact ⟨by rw [e]; exact hc.B, by rw [e]; exact hc.W, by rw [e]; exact hc.gradB, by rw [e]; exact hc.gradW,
    (SameCells.iff h1).2 (fun _ _ _ _ _ => rfl), by rw [ho]; exact (SameCells.grid h2).2 (fun _ _ _ _ _ _ _ _ _ _ => rfl)⟩

theorem FC.copies_accumulate {f : FC α} {n m : Nat} {b : Nat → α} {W : Nat → Nat → α} {Ri Ro : Nat → Nat → Prop}
    (h : f.Wf n m b W) (hc : f.Copies Ri Ro) : Ok f.accumulate (fun f' => f'.Copies Ri Ro) := by
  obtain ⟨g1, hg1⟩ := h.gradB
  obtain ⟨g2, hg2⟩ := h.gradBs
  obtain ⟨g3, hg3⟩ := h.gradW
  obtain ⟨g4, hg4⟩ := h.gradWs
  refine (FC.accumulate_spec h hg1 hg2 hg3 hg4).mono (fun f' q => ?_)
  obtain ⟨_, h1, h2, _, e⟩ := q
  have ho : f'.osize = m := by rw [e]; exact h.osize
  have c1 := (SameCells.iff hg1).1 hc.gradB
  have c2 := (SameCells.iff hg2).1 hc.gradBs
  have c3 := (SameCells.grid hg3).1 (h.osize ▸ hc.gradW)
  have c4 := (SameCells.grid hg4).1 (h.osize ▸ hc.gradWs)
  refine ⟨by rw [e]; exact hc.B, by rw [e]; exact hc.W, by rw [e]; exact hc.gradB, by rw [e]; exact hc.gradW, ?_, ?_⟩
  · exact (SameCells.iff h1).2 (fun i j hi hj hR => by rw [c1 i j hi hj hR, c2 i j hi hj hR])
  · rw [ho]
    exact (SameCells.grid h2).2 (fun i i' j j' hi hi' hj hj' r1 r2 => by
      rw [c3 i i' j j' hi hi' hj hj' r1 r2, c4 i i' j j' hi hi' hj hj' r1 r2])

theorem scaleUnlessOne_same [DecidableEq α] {R : Nat → Nat → Prop} (alpha : α) {g : Buf α} {n : Nat} (h : Full g n) (hs : SameCells R g) :
    Ok (scaleUnlessOne alpha g) (fun g' => Full g' n ∧ SameCells R g') := by
  obtain ⟨f, hf⟩ := h
  unfold scaleUnlessOne
  by_cases e : alpha = 1
  · rw [if_neg (by simp [e])]; exact Ok_ok.2 ⟨hf.full, hs⟩
  · rw [if_pos e]
    refine (scaleInto_spec hf alpha).mono (fun g' h => ⟨h.full, (SameCells.iff h).2 (fun i j hi hj hR => ?_)⟩)
    rw [(SameCells.iff hf).1 hs i j hi hj hR]

theorem FC.copies_update [DecidableEq α] {upd : Upd σ α} {size : Nat → Nat} {E : Nat → Nat → Nat → Prop} {I : σ → Prop}
    (hu : UpdAlike upd size E I) {f : FC α} {n m : Nat} {b : Nat → α} {W : Nat → Nat → α} {Ri Ro : Nat → Nat → Prop}
    (h : f.Wf n m b W) (hc : f.Copies Ri Ro) (hB : size f.keyB = m) (hW : size f.keyW = n * m)
    (eB : ∀ i j, E f.keyB i j ↔ Ro i j) (eW : ∀ i j, E f.keyW i j ↔ gridRel m Ri Ro i j) {s : σ} (hs : I s) (alpha : α) :
    Ok (f.update upd s alpha) (fun r => I r.1 ∧ (∃ b' W', r.2.Wf n m b' W') ∧ r.2.Copies Ri Ro ∧
      r.2 = { f with B := r.2.B, W := r.2.W, gradB := r.2.gradB, gradW := r.2.gradW, gradBs := r.2.gradBs, gradWs := r.2.gradWs }) := by
  have uw : ∀ (gB : Buf α) (gW : Mat α), Full gB m → MFull gW n m → SameCells Ro gB → SameCells (gridRel m Ri Ro) gW.data →
      Ok (FC.updateWith upd s alpha f gB gW) (fun r => I r.1 ∧ (Full r.2.1 m ∧ SameCells Ro r.2.1) ∧ (Full r.2.2.1 m ∧ SameCells Ro r.2.2.1) ∧
        (Full r.2.2.2.1 (n * m) ∧ SameCells (gridRel m Ri Ro) r.2.2.2.1) ∧
        (Full r.2.2.2.2 (n * m) ∧ SameCells (gridRel m Ri Ro) r.2.2.2.2)) := by
    intro gB gW h1 ⟨g, h2⟩ s1 s2
    unfold FC.updateWith
    refine (scaleUnlessOne_same alpha h1 s1).bind (fun gB' hB' => ?_)
    refine (scaleUnlessOne_same alpha h2.flat.full s2).bind (fun gW' hW' => ?_)
    have u1 := hu s f.keyB f.B gB' hs (by rw [hB]; exact h.B.full) (by rw [hB]; exact hB'.1)
      (hc.B.mono (fun i j => (eB i j).1)) (hB'.2.mono (fun i j => (eB i j).1))
    rw [hB] at u1
    refine u1.bind (fun r hr => ?_)
    have u2 := hu r.1 f.keyW f.W.data gW' hr.1 (by rw [hW]; exact h.W.flat.full) (by rw [hW]; exact hW'.1)
      (SameCells.mono (h.osize ▸ hc.W) (fun i j => (eW i j).1)) (hW'.2.mono (fun i j => (eW i j).1))
    rw [hW] at u2
    refine u2.bind (fun r' hr' => ?_)
    exact Ok_ok.2 ⟨hr'.1, ⟨hr.2.1, hr.2.2.2.1.mono (fun i j => (eB i j).2)⟩, ⟨hr.2.2.1, hr.2.2.2.2.mono (fun i j => (eB i j).2)⟩,
      ⟨hr'.2.1, hr'.2.2.2.1.mono (fun i j => (eW i j).2)⟩, ⟨hr'.2.2.1, hr'.2.2.2.2.mono (fun i j => (eW i j).2)⟩⟩
  unfold FC.update
  have ho := h.osize
  by_cases ha : f.accumulated = true
  · rw [if_pos ha]
    refine (uw _ _ h.gradBs h.gradWs hc.gradBs (ho ▸ hc.gradWs)).bind (fun r hr => ?_)
    obtain ⟨hI, ⟨⟨b', hb'⟩, c1⟩, ⟨hg, c2⟩, ⟨⟨w', hw'⟩, c3⟩, ⟨⟨w2, hw2⟩, c4⟩⟩ := hr
    obtain ⟨q, hq⟩ := h.gradWs
    have m1 := MatIs.of_flat' (m := { f.W with data := r.2.2.2.1 }) h.W.1 h.W.2.1 hw'
    have m2 := MatIs.of_flat' (m := { f.gradWs with data := r.2.2.2.2 }) hq.1 hq.2.1 hw2
    refine Ok_ok.2 ⟨hI, ⟨b', _, { h with B := hb', W := m1, gradBs := hg, gradWs := m2.full }⟩, ?_, rfl⟩
    exact ⟨c1, ho.symm ▸ c3, hc.gradB, hc.gradW, c2, ho.symm ▸ c4⟩
  · rw [if_neg ha]
    refine (uw _ _ h.gradB h.gradW hc.gradB (ho ▸ hc.gradW)).bind (fun r hr => ?_)
    obtain ⟨hI, ⟨⟨b', hb'⟩, c1⟩, ⟨hg, c2⟩, ⟨⟨w', hw'⟩, c3⟩, ⟨⟨w2, hw2⟩, c4⟩⟩ := hr
    obtain ⟨q, hq⟩ := h.gradW
    have m1 := MatIs.of_flat' (m := { f.W with data := r.2.2.2.1 }) h.W.1 h.W.2.1 hw'
    have m2 := MatIs.of_flat' (m := { f.gradW with data := r.2.2.2.2 }) hq.1 hq.2.1 hw2
    refine Ok_ok.2 ⟨hI, ⟨b', _, { h with B := hb', W := m1, gradB := hg, gradW := m2.full }⟩, ?_, rfl⟩
    exact ⟨c1, ho.symm ▸ c3, c2, ho.symm ▸ c4, hc.gradBs, hc.gradWs⟩

end

/-! ### Convolutions: nothing is asked of their parameters -/

section
variable {fc d fh fw h w pad sv sh : Nat} {W gW : Nat → Nat → Nat → Nat → α} {b gb : Nat → α}

theorem convUpdW_alike {upd : Upd σ α} {size : Nat → Nat} {E : Nat → Nat → Nat → Prop} {I : σ → Prop} (hu : UpdAlike upd size E I)
    {Ws Gs : List (Ten α)} (hW : WsIs Ws fc d fh fw W) (hG : WsIs Gs fc d fh fw gW) (keyW : Nat → Nat)
    (hk : ∀ f, f < fc → size (keyW f) = d * fh * fw) (hE : ∀ f, f < fc → ∀ i j, E (keyW f) i j → i = j) (s : σ) (hs : I s) :
    Ok (convUpdW upd keyW fc s Ws Gs) (fun r => I r.1 ∧ (∃ W', WsIs r.2.1 fc d fh fw W') ∧ ∃ G', WsIs r.2.2 fc d fh fw G') := by
  unfold convUpdW
  refine (forN_spec (fun _ (r : σ × List (Ten α) × List (Ten α)) => I r.1 ∧ (∃ W', WsIs r.2.1 fc d fh fw W') ∧
      ∃ G', WsIs r.2.2 fc d fh fw G') ⟨hs, ⟨_, hW⟩, ⟨_, hG⟩⟩ (fun f hf r hr => ?_))
  obtain ⟨r1, ⟨W', r2⟩, ⟨G', r3⟩⟩ := hr
  obtain ⟨W1, e1, h1⟩ := r2.get hf
  obtain ⟨G1, e2, h2⟩ := r3.get hf
  rw [e1, bind_ok, e2, bind_ok]
  refine (hu r.1 (keyW f) W1.data G1.data r1 (by rw [hk f hf]; exact h1.flat.full) (by rw [hk f hf]; exact h2.flat.full)
    (.trivial (hE f hf) _) (.trivial (hE f hf) _)).bind (fun q hq => ?_)
  rw [hk f hf] at hq
  obtain ⟨q1, ⟨v2, q2⟩, ⟨v3, q3⟩, _⟩ := hq
  have t1 := TenIs.of_flat (t := { W1 with data := q.2.1 }) h1.1 h1.2.1 h1.2.2.1 q2
  have t2 := TenIs.of_flat (t := { G1 with data := q.2.2 }) h2.1 h2.2.1 h2.2.2.1 q3
  exact (r2.set hf t1).bind (fun Ws' hWs' => (r3.set hf t2).bind (fun Gs' hGs' => Ok_ok.2 ⟨q1, ⟨_, hWs'⟩, ⟨_, hGs'⟩⟩))

theorem Conv.update_alike [Zero α] [Mul α] {upd : Upd σ α} {size : Nat → Nat} {E : Nat → Nat → Nat → Prop} {I : σ → Prop}
    (hu : UpdAlike upd size E I) {l : Conv α} (hl : l.Wf d h w fc fh fw pad sv sh b W gb gW)
    (hk : ∀ f, f < fc → size (l.keyW f) = d * fh * fw) (hkB : size l.keyB = fc)
    (hE : ∀ f, f < fc → ∀ i j, E (l.keyW f) i j → i = j) (hEB : ∀ i j, E l.keyB i j → i = j) (s : σ) (hs : I s) (alpha : α) :
    Ok (l.update upd s alpha) (fun r => I r.1 ∧ (∃ b W gb gW, r.2.Wf d h w fc fh fw pad sv sh b W gb gW) ∧
      r.2 = { l with B := r.2.B, Ws := r.2.Ws, gradWs := r.2.gradWs, gradB := r.2.gradB }) := by
  unfold Conv.update
  refine (convScale_spec hl.gradWs alpha).bind (fun Gs hGs => ?_)
  refine (scaleInto_spec hl.gradB alpha).bind (fun gB hgB => ?_)
  rw [hl.Ws.1]
  refine (convUpdW_alike hu hl.Ws hGs l.keyW hk hE s hs).bind (fun r hr => ?_)
  obtain ⟨r1, ⟨W', r2⟩, ⟨G', r3⟩⟩ := hr
  refine (hu r.1 l.keyB l.B gB r1 (by rw [hkB]; exact hl.B.full) (by rw [hkB]; exact hgB.full) (.trivial hEB _) (.trivial hEB _)).bind
    (fun q hq => ?_)
  rw [hkB] at hq
  obtain ⟨q1, ⟨v2, q2⟩, ⟨v3, q3⟩, _⟩ := hq
  exact Ok_ok.2 ⟨q1, ⟨_, _, _, _, { hl with B := q2, Ws := r2, gradWs := r3, gradB := q3 }⟩, rfl⟩

end

/-! ### Layers -/

/-- What the proof needs to know about a layer: `Allows`, and that `E` says the same about its parameters as `Ri`, `Ro`. -/
def KindOk (E : Nat → Nat → Nat → Prop) (Ri Ro : Nat → Nat → Prop) : LayerKind α → Prop
  | .dense _ m act kB kW => act.Respects m Ro ∧ (∀ i j, E kB i j ↔ Ro i j) ∧ ∀ i j, E kW i j ↔ gridRel m Ri Ro i j
  | .conv _ _ _ fc _ _ _ _ _ kB kW => ((∀ i j, Ri i j → i = j) ∧ ∀ i j, Ro i j → i = j) ∧ (∀ i j, E kB i j → i = j) ∧
      ∀ f, f < fc → ∀ i j, E (kW f) i j → i = j
  | .pool _ _ _ _ _ _ => (∀ i j, Ri i j → i = j) ∧ ∀ i j, Ro i j → i = j

/-- A sound layer with the copies. -/
def Layer.Ev [Zero α] (Ri Ro : Nat → Nat → Prop) (l : Layer α) (k : LayerKind α) : Prop :=
  l.Sound k ∧ ∀ f, l = .fc f → f.Copies Ri Ro

/-- Its output and its buffer have the copies too. -/
def Layer.Now (Ro : Nat → Nat → Prop) (l : Layer α) : Prop :=
  SameCells Ro l.value.data ∧ ∀ f, l = .fc f → SameCells Ro f.buff

section
variable [Zero α] [One α] [Add α] [Mul α] {size : Nat → Nat} {E : Nat → Nat → Nat → Prop} {Ri Ro : Nat → Nat → Prop}

theorem Layer.Ev.forward [LT α] [DecidableLT α] (hri : ∀ i, Ri i i) {l : Layer α} {k : LayerKind α} (h : l.Ev Ri Ro k) (hk : k.Valid size)
    (hK : KindOk E Ri Ro k) {x : Ten α} {s : Shp} (hx : ShapeIs x s) (hs : k.Reads s) :
    Ok (l.forward x) (fun l' => l'.Ev Ri Ro k ∧ l'.Now Ro) := by
  have h1 := h.1.forward hk hx hs
  cases k with
  | dense n m act kB kW =>
    cases l <;> simp only [Layer.Sound, Layer.Ev, false_and] at h
    rename_i f
    obtain ⟨⟨⟨b, W, hwf⟩, ha, _, _⟩, hc⟩ := h
    obtain ⟨v, hv⟩ := hx.fullData hs
    have h2 := FC.copies_forward hri hwf (hc f rfl) (by rw [ha]; exact hK.1) hv
    obtain ⟨f', e, q⟩ := h2
    obtain ⟨l', e', q'⟩ := h1
    have e2 : Layer.forward x (.fc f) = .ok (.fc f') := by
      show (f.forward x >>= _) = _
      rw [e]; rfl
    cases e2.symm.trans e'
    refine ⟨_, e2, ⟨q', fun f0 e0 => ?_⟩, q.2.1, fun f0 e0 => ?_⟩
    · cases e0; exact q.1
    · cases e0; exact q.2.2
  | conv d h w fc fh fw pad sv sh kB kW =>
    refine h1.mono (fun l' q => ⟨⟨q, fun f e => ?_⟩, .trivial hK.1.2 _, fun f e => ?_⟩) <;> subst e <;> exact absurd q id
  | pool d oh ow sv sh act =>
    refine h1.mono (fun l' q => ⟨⟨q, fun f e => ?_⟩, .trivial hK.2 _, fun f e => ?_⟩) <;> subst e <;> exact absurd q id

theorem Layer.Ev.backward (hro : ∀ i, Ro i i) {l : Layer α} {k : LayerKind α} (h : l.Ev Ri Ro k) (hk : k.Valid size) (hK : KindOk E Ri Ro k)
    {x d : Ten α} {s s' : Shp} (hx : ShapeIs x s) (hs : k.Reads s) (hd : ShapeIs d s') (hs' : k.Accepts s')
    (hxs : SameCells Ri x.data) (hds : SameCells Ro d.data) (hn : l.Now Ro) (full : Bool) :
    Ok (l.backward x d full) (fun l' => l'.Ev Ri Ro k ∧ (full = true → Ok l'.delta (fun dl => SameCells Ri dl.data))) := by
  have h1 := h.1.backward hk hx hs hd hs' full
  cases k with
  | dense n m act kB kW =>
    cases l <;> simp only [Layer.Sound, Layer.Ev, false_and] at h
    rename_i f
    obtain ⟨⟨⟨b, W, hwf⟩, ha, _, _⟩, hc⟩ := h
    obtain ⟨v, hv⟩ := hx.fullData hs
    obtain ⟨u, hu⟩ := hd.fullData hs'
    have h2 := FC.copies_backward hro hwf (hc f rfl) (by rw [ha]; exact hK.1) hv hu hxs hds (hn.2 f rfl) full
    obtain ⟨f', e, q⟩ := h2
    obtain ⟨l', e', q'⟩ := h1
    have e2 : Layer.backward x d full (.fc f) = .ok (.fc f') := by
      show (f.backward x d full >>= _) = _
      rw [e]; rfl
    cases e2.symm.trans e'
    refine ⟨_, e2, ⟨q', fun f0 e0 => ?_⟩, fun hf => Ok_ok.2 (q.2 hf)⟩
    cases e0; exact q.1
  | conv d h w fc fh fw pad sv sh kB kW =>
    refine h1.mono (fun l' q => ⟨⟨q, fun f e => ?_⟩, fun _ => q.delta.mono (fun dl _ => .trivial hK.1.1 _)⟩)
    subst e; exact absurd q id
  | pool d oh ow sv sh act =>
    refine h1.mono (fun l' q => ⟨⟨q, fun f e => ?_⟩, fun _ => q.delta.mono (fun dl _ => .trivial hK.1 _)⟩)
    subst e; exact absurd q id

theorem Layer.Ev.reset {l : Layer α} {k : LayerKind α} (h : l.Ev Ri Ro k) : Ok l.reset (fun l' => l'.Ev Ri Ro k) := by
  have h1 := h.1.reset
  cases k with
  | dense n m act kB kW =>
    cases l <;> simp only [Layer.Sound, Layer.Ev, false_and] at h
    rename_i f
    obtain ⟨⟨⟨b, W, hwf⟩, ha, _, _⟩, hc⟩ := h
    obtain ⟨f', e, q⟩ := FC.copies_reset hwf (hc f rfl)
    obtain ⟨l', e', q'⟩ := h1
    have e2 : Layer.reset (.fc f) = .ok (.fc f') := by
      show (f.reset >>= _) = _
      rw [e]; rfl
    cases e2.symm.trans e'
    refine ⟨_, e2, q', fun f0 e0 => ?_⟩
    cases e0; exact q
  | conv d h w fc fh fw pad sv sh kB kW =>
    refine h1.mono (fun l' q => ⟨q, fun f e => ?_⟩)
    subst e; exact absurd q id
  | pool d oh ow sv sh act =>
    refine h1.mono (fun l' q => ⟨q, fun f e => ?_⟩)
    subst e; exact absurd q id

theorem Layer.Ev.accumulate {l : Layer α} {k : LayerKind α} (h : l.Ev Ri Ro k) : Ok l.accumulate (fun l' => l'.Ev Ri Ro k) := by
  have h1 := h.1.accumulate
  cases k with
  | dense n m act kB kW =>
    cases l <;> simp only [Layer.Sound, Layer.Ev, false_and] at h
    rename_i f
    obtain ⟨⟨⟨b, W, hwf⟩, ha, _, _⟩, hc⟩ := h
    obtain ⟨f', e, q⟩ := FC.copies_accumulate hwf (hc f rfl)
    obtain ⟨l', e', q'⟩ := h1
    have e2 : Layer.accumulate (.fc f) = .ok (.fc f') := by
      show (f.accumulate >>= _) = _
      rw [e]; rfl
    cases e2.symm.trans e'
    refine ⟨_, e2, q', fun f0 e0 => ?_⟩
    cases e0; exact q
  | conv d h w fc fh fw pad sv sh kB kW =>
    refine h1.mono (fun l' q => ⟨q, fun f e => ?_⟩)
    subst e; exact absurd q id
  | pool d oh ow sv sh act =>
    refine h1.mono (fun l' q => ⟨q, fun f e => ?_⟩)
    subst e; exact absurd q id

theorem Layer.Ev.update [DecidableEq α] {upd : Upd σ α} {I : σ → Prop} (hu : UpdAlike upd size E I) {l : Layer α} {k : LayerKind α}
    (h : l.Ev Ri Ro k) (hk : k.Valid size) (hK : KindOk E Ri Ro k) {s : σ} (hs : I s) (alpha : α) :
    Ok (l.update upd s alpha) (fun r => I r.1 ∧ r.2.Ev Ri Ro k) := by
  obtain ⟨h, hc⟩ := h
  cases k <;> cases l <;> simp only [Layer.Sound] at h
  · obtain ⟨⟨b, W, hwf⟩, h1, h2, h3⟩ := h
    refine (FC.copies_update hu hwf (hc _ rfl) (by rw [h2]; exact hk.2.1) (by rw [h3]; exact hk.2.2) (by rw [h2]; exact hK.2.1)
      (by rw [h3]; exact hK.2.2) hs alpha).bind (fun r q => ?_)
    refine Ok_ok.2 ⟨q.1, ⟨q.2.1, ?_, ?_, ?_⟩, fun f e => ?_⟩
    iterate 3 rw [q.2.2.2]; assumption
    cases e; exact q.2.2.1
  · obtain ⟨⟨b, W, gb, gW, hwf⟩, h1, h2⟩ := h
    refine (Conv.update_alike hu hwf (by rw [h2]; exact hk.2.2.2) (by rw [h1]; exact hk.2.2.1) (by rw [h2]; exact hK.2.2)
      (by rw [h1]; exact hK.2.1) s hs alpha).bind (fun r q => ?_)
    refine Ok_ok.2 ⟨q.1, ⟨q.2.1, ?_, ?_⟩, fun f e => nomatch e⟩ <;> rw [q.2.2] <;> assumption
  · exact Ok_ok.2 ⟨hs, h, fun f e => nomatch e⟩

end

/-! ### Networks -/

/-- Layer by layer; the relations before the first layer are `R 0`, behind it `R 1`, and so on. -/
def EvNet [Zero α] : (Nat → Nat → Nat → Prop) → Net α → List (LayerKind α) → Prop
  | _, [], [] => True
  | R, l :: ls, k :: ks => l.Ev (R 0) (R 1) k ∧ EvNet (fun i => R (i + 1)) ls ks
  | _, _, _ => False

def KindsOk (E : Nat → Nat → Nat → Prop) : (Nat → Nat → Nat → Prop) → List (LayerKind α) → Prop
  | _, [] => True
  | R, k :: ks => KindOk E (R 0) (R 1) k ∧ KindsOk E (fun i => R (i + 1)) ks

def NowNet : (Nat → Nat → Nat → Prop) → Net α → Prop
  | _, [] => True
  | R, l :: ls => l.Now (R 1) ∧ NowNet (fun i => R (i + 1)) ls

theorem NowNet.at : ∀ {R : Nat → Nat → Nat → Prop} {net : Net α}, NowNet R net → ∀ {k : Nat} {l : Layer α}, net[k]? = some l → l.Now (R (k + 1)) := by
  intro R net
  induction net generalizing R with
  | nil => intro _ k l e; simp at e
  | cons a ls ih =>
    intro h k l e
    cases k with
    | zero => simp at e; subst e; exact h.1
    | succ k => exact ih h.2 (by simpa using e)

theorem EvNet.sound [Zero α] : ∀ {R : Nat → Nat → Nat → Prop} {net : Net α} {ks : List (LayerKind α)}, EvNet R net ks →
    List.Forall₂ Layer.Sound net ks := by
  intro R net
  induction net generalizing R with
  | nil => intro ks h; cases ks with
    | nil => exact .nil
    | cons => exact absurd h id
  | cons l ls ih => intro ks h; cases ks with
    | nil => exact absurd h id
    | cons k ks => exact .cons h.1.1 (ih h.2)

theorem EvNet.iff [Zero α] : ∀ {R : Nat → Nat → Nat → Prop} {net : Net α} {ks : List (LayerKind α)},
    EvNet R net ks ↔ List.Forall₂ Layer.Sound net ks ∧ net.Copies R := by
  intro R net
  induction net generalizing R with
  | nil =>
    intro ks
    cases ks with
    | nil => exact ⟨fun _ => ⟨.nil, fun k f e => by simp at e⟩, fun _ => trivial⟩
    | cons => exact ⟨fun h => absurd h id, fun h => nomatch h.1⟩
  | cons l ls ih =>
    intro ks
    cases ks with
    | nil => exact ⟨fun h => absurd h id, fun h => nomatch h.1⟩
    | cons k ks =>
      constructor
      · intro h
        have := (ih).1 h.2
        refine ⟨.cons h.1.1 this.1, fun i f e => ?_⟩
        cases i with
        | zero => exact h.1.2 f (by simpa using e)
        | succ i => exact this.2 i f (by simpa using e)
      · intro h
        obtain ⟨h1, h2⟩ := h
        cases h1 with
        | cons a b =>
          exact ⟨⟨a, fun f e => h2 0 f (by simp [e])⟩, ih.2 ⟨b, fun i f e => h2 (i + 1) f (by simpa using e)⟩⟩

section
variable [Zero α] [One α] [Add α] [Mul α] {size : Nat → Nat} {E : Nat → Nat → Nat → Prop}

theorem mapL_ev {f : Layer α → Res (Layer α)} (hf : ∀ Ri Ro l k, Layer.Ev Ri Ro l k → Ok (f l) (fun l' => l'.Ev Ri Ro k)) :
    ∀ {R : Nat → Nat → Nat → Prop} {net : Net α} {ks : List (LayerKind α)}, EvNet R net ks → Ok (mapL f net) (fun net' => EvNet R net' ks) := by
  intro R net
  induction net generalizing R with
  | nil => intro ks h; cases ks with
    | nil => exact Ok_ok.2 trivial
    | cons => exact absurd h id
  | cons l ls ih => intro ks h; cases ks with
    | nil => exact absurd h id
    | cons k ks =>
      unfold mapL
      exact (hf _ _ l k h.1).bind (fun l' hl' => (ih h.2).bind (fun ls' hls' => Ok_ok.2 ⟨hl', hls'⟩))

theorem eachM_ev {I : σ → Prop} {f : σ → Layer α → Res (σ × Layer α)}
    (hf : ∀ Ri Ro l k s, I s → k.Valid size → KindOk E Ri Ro k → Layer.Ev Ri Ro l k → Ok (f s l) (fun r => I r.1 ∧ r.2.Ev Ri Ro k)) :
    ∀ {R : Nat → Nat → Nat → Prop} {net : Net α} {ks : List (LayerKind α)}, (∀ k ∈ ks, k.Valid size) → KindsOk E R ks → EvNet R net ks →
    ∀ s, I s → Ok (eachM f s net) (fun r => I r.1 ∧ EvNet R r.2 ks) := by
  intro R net
  induction net generalizing R with
  | nil => intro ks _ _ h s hs; cases ks with
    | nil => exact Ok_ok.2 ⟨hs, trivial⟩
    | cons => exact absurd h id
  | cons l ls ih => intro ks hv hk h s hs; cases ks with
    | nil => exact absurd h id
    | cons k ks =>
      unfold eachM
      refine (hf _ _ l k s hs (hv k (by simp)) hk.1 h.1).bind (fun r hr => ?_)
      exact (ih (fun k hk => hv k (by simp [hk])) hk.2 h.2 r.1 hr.1).bind (fun r' hr' => Ok_ok.2 ⟨hr'.1, hr.2, hr'.2⟩)

theorem ffRec_ev [LT α] [DecidableLT α] {o : Shp} : ∀ {ks : List (LayerKind α)} {R : Nat → Nat → Nat → Prop} {net : Net α} {x : Ten α} {s : Shp},
    (∀ k i, R k i i) → (∀ k ∈ ks, k.Valid size) → KindsOk E R ks → Fits s ks o → ShapeIs x s → EvNet R net ks →
    Ok (ffRec x net) (fun net' => EvNet R net' ks ∧ NowNet R net') := by
  intro ks
  induction ks with
  | nil => intro R net x s _ _ _ hf; exact absurd hf id
  | cons k ks ih =>
    intro R net x s hR hk hK hf hx hn
    cases net with
    | nil => exact absurd hn id
    | cons l ls =>
      cases ks with
      | nil =>
        cases ls with
        | cons => exact absurd hn.2 id
        | nil =>
          unfold ffRec
          refine (hn.1.forward (hR 0) (hk k (by simp)) hK.1 hx hf.1).bind (fun l' hl' => ?_)
          exact Ok_ok.2 ⟨⟨hl'.1, trivial⟩, hl'.2, trivial⟩
      | cons k' ks =>
        unfold ffRec
        refine (hn.1.forward (hR 0) (hk k (by simp)) hK.1 hx hf.1).bind (fun l' hl' => ?_)
        refine (ih (R := fun i => R (i + 1)) (fun k => hR (k + 1)) (fun k hk' => hk k (by simp [hk'])) hK.2 hf.2.2 hl'.1.1.value hn.2).bind (fun r hr => ?_)
        exact Ok_ok.2 ⟨⟨hl'.1, hr.1⟩, hl'.2, hr.2⟩

theorem bpRec_ev {o : Shp} {d : Ten α} : ∀ {ks : List (LayerKind α)} {R : Nat → Nat → Nat → Prop} {net : Net α} {x : Ten α} {s : Shp} (full : Bool),
    (∀ k i, R k i i) → (∀ k ∈ ks, k.Valid size) → KindsOk E R ks → Fits s ks o → ShapeIs x s → ShapeIs d o → EvNet R net ks → NowNet R net →
    (∀ k, ks.getLast? = some k → k.Accepts o) → SameCells (R 0) x.data → SameCells (R ks.length) d.data →
    Ok (bpRec full x d net) (fun net' => EvNet R net' ks ∧
      (full = true → Ok (lget net' 0 >>= fun l => l.delta) (fun dl => SameCells (R 0) dl.data))) := by
  intro ks
  induction ks with
  | nil => intro R net x s _ _ _ _ hf; exact absurd hf id
  | cons k ks ih =>
    intro R net x s full hR hk hK hf hx hd hn hN hl hxs hds
    cases net with
    | nil => exact absurd hn id
    | cons l ls =>
      cases ks with
      | nil =>
        cases ls with
        | cons => exact absurd hn.2 id
        | nil =>
          unfold bpRec
          refine (hn.1.backward (hR 1) (hk k (by simp)) hK.1 hx hf.1 hd (hl k rfl) hxs hds hN.1 full).bind (fun l' hl' => ?_)
          refine Ok_ok.2 ⟨⟨hl'.1, trivial⟩, fun hf => ?_⟩
          rw [lget_zero, bind_ok]
          exact hl'.2 hf
      | cons k' ks =>
        cases ls with
        | nil => exact absurd hn.2 id
        | cons l2 ls =>
          rw [bpRec_cons]
          refine (ih (R := fun i => R (i + 1)) true (fun k => hR (k + 1)) (fun k hk' => hk k (by simp [hk'])) hK.2 hf.2.2 hn.1.1.value hd hn.2 hN.2
            (fun k e => hl k (by rw [List.getLast?_cons_cons]; exact e)) hN.1.1 hds).bind (fun r hr => ?_)
          cases r with
          | nil => exact absurd hr.1 id
          | cons r0 rs =>
            have h2 := hr.2 rfl
            rw [lget_zero, bind_ok] at h2 ⊢
            obtain ⟨dl, e, hdl⟩ := h2
            obtain ⟨dl', e', hsh⟩ := hr.1.1.1.delta
            cases e.symm.trans e'
            rw [e, bind_ok]
            refine (hn.1.backward (hR 1) (hk k (by simp)) hK.1 hx hf.1 hsh hf.2.1 hxs hdl hN.1 full).bind (fun l' hl' => ?_)
            refine Ok_ok.2 ⟨⟨hl'.1, hr.1⟩, fun hf => ?_⟩
            rw [lget_zero, bind_ok]
            exact hl'.2 hf

end

/-! ### Training -/

/-- A safe training object whose network has the copies. -/
def Train.Ev [Zero α] (R : Nat → Nat → Nat → Prop) (t : Train α) (ks : List (LayerKind α)) (o : Shp) : Prop :=
  t.Safe ks o ∧ EvNet R t.net ks

/-- What is needed of the plan of the network: `Static`, reflexive relations, `KindsOk`, nothing asked of the outputs. -/
structure PlanOk (size : Nat → Nat) (E R : Nat → Nat → Nat → Prop) (ks : List (LayerKind α)) (s o : Shp) : Prop where
  st : Static size ks s o
  refl : ∀ k i, R k i i
  kinds : KindsOk E R ks
  out : ∀ i j, R ks.length i j → i = j

section
variable [Zero α] [One α] [Add α] [Mul α] [Div α] [NatCast α] [LT α] [DecidableLT α] [DecidableEq α]
variable {size : Nat → Nat} {E R : Nat → Nat → Nat → Prop} {I : σ → Prop} {upd : Upd σ α} {ks : List (LayerKind α)} {s o : Shp}

theorem Train.Ev.feedforward {t : Train α} (hP : PlanOk size E R ks s o) (h : t.Ev R ks o) {x : Ten α} (hx : ShapeIs x s) :
    Ok (t.feedforward x) (fun t' => t'.Ev R ks o ∧ NowNet R t'.net) := by
  obtain ⟨t', e, hS, hl⟩ := h.1.feedforward hP.st hx
  refine ⟨t', e, ?_⟩
  have hlen : t.net.length = ks.length := h.1.net.length_eq
  have h2 := hP.st.two
  obtain ⟨net', en, hn⟩ := ffRec_ev hP.refl hP.st.valid hP.kinds hP.st.fits hx h.2
  unfold Train.feedforward at e
  rw [Net.feedforward_eq x t.net (by intro e; rw [e] at hlen; simp at hlen; omega) (by rw [hlen]; exact hP.st.word), en] at e
  have elen : net'.length = ks.length := hn.1.sound.length_eq
  obtain ⟨l, hl'⟩ : ∃ l, lget net' (net'.length - 1) = .ok l := by
    refine ⟨net'[net'.length - 1]'(by omega), ?_⟩
    unfold lget
    rw [List.getElem?_eq_getElem (by omega)]
  rw [bind_ok, hl', bind_ok] at e
  cases e
  exact ⟨⟨hS, hn.1⟩, hn.2⟩

theorem Train.Ev.backprop {t : Train α} (hP : PlanOk size E R ks s o) (h : t.Ev R ks o) (hN : NowNet R t.net) {x y : Ten α} (hx : ShapeIs x s)
    (hxs : SameCells (R 0) x.data) (hy : Full y.data o.vol) : Ok (t.backprop x y) (fun t' => t'.Ev R ks o) := by
  have hlen : t.net.length = ks.length := h.1.net.length_eq
  have h2 := hP.st.two
  have hw := hP.st.word
  obtain ⟨t', e0, hS, _⟩ := h.1.backprop hP.st hx hy
  refine ⟨t', e0, hS, ?_⟩
  unfold Train.backprop at e0
  obtain ⟨loss, L, dL, e, hloss⟩ := h.1.loss
  obtain ⟨l, e1, e0⟩ := units_inv e0
  rw [e] at e0
  obtain ⟨loss', e2, e0⟩ := units_inv e0
  obtain ⟨dl, e3, e0⟩ := units_inv e0
  obtain ⟨net', e4, e0⟩ := units_inv e0
  cases e0
  have hd : ShapeIs dl o := by
    have := hS.delta
    have hl1 : ∃ k, Layer.Sound l k ∧ k.outShape = o := by
      rw [wsub_eq (by omega) (by omega), hlen] at e1
      have a1 : ks.length - 1 < t.net.length := by omega
      have a2 : ks.length - 1 < ks.length := by omega
      unfold lget at e1
      rw [List.getElem?_eq_getElem a1] at e1
      cases e1
      exact ⟨_, h.1.net.get a1 a2, Fits.last hP.st.fits _ (by rw [List.getLast?_eq_getElem?, List.getElem?_eq_getElem a2]; rfl)⟩
    obtain ⟨k, hk, hko⟩ := hl1
    have hval : ShapeIs l.value o := hko ▸ hk.value
    obtain ⟨vy, hvy⟩ := hval.2.2.2
    obtain ⟨vt, hvt⟩ := hy
    cases e2
    obtain ⟨dl', e5, q⟩ := Ten.onData_spec (t := t.delta) (f := fun d => loss.df d y.data l.value.data)
      (hloss.df t.delta.data y.data l.value.data vt vy h.1.delta.2.2.2 hvt hvy)
    cases e3.symm.trans e5
    exact ⟨this.1, this.2.1, this.2.2.1, q.2.2.2.full⟩
  rw [Net.backprop_eq x dl t.net (by omega) (by omega)] at e4
  obtain ⟨net'', e6, q⟩ := bpRec_ev false hP.refl hP.st.valid hP.kinds hP.st.fits hx hd h.2 hN (fun k' e' => by
    have := Fits.last hP.st.fits k' e'
    rw [← this]; exact k'.accepts_own) hxs (.trivial hP.out _)
  cases e4.symm.trans e6
  exact q.1

theorem Train.Ev.sample {t : Train α} (hP : PlanOk size E R ks s o) (h : t.Ev R ks o) {idata odata : List (Ten α)}
    (hd : DataFits idata odata s o) (hs : ∀ x ∈ idata, SameCells (R 0) x.data) {i : Nat} (hi : i < idata.length) :
    Ok (t.sample idata odata i) (fun t' => t'.Ev R ks o) := by
  unfold Train.sample
  have g1 : lget idata i = .ok (idata[i]'hi) := by unfold lget; rw [List.getElem?_eq_getElem hi]
  have hi' : i < odata.length := hd.2.2 ▸ hi
  have g2 : lget odata i = .ok (odata[i]'hi') := by unfold lget; rw [List.getElem?_eq_getElem hi']
  have hx := hd.1 _ (List.getElem_mem hi)
  rw [g1, bind_ok]
  refine (h.feedforward hP hx).bind (fun t' ht' => ?_)
  rw [g2, bind_ok]
  exact ht'.1.backprop hP ht'.2 hx (hs _ (List.getElem_mem hi)) (hd.2.1 _ (List.getElem_mem hi'))

theorem Train.Ev.reseting {t : Train α} (h : t.Ev R ks o) : Ok t.reseting (fun t' => t'.Ev R ks o) := by
  obtain ⟨t', e, hS⟩ := h.1.reseting
  refine ⟨t', e, hS, ?_⟩
  obtain ⟨net', en, hn⟩ := mapL_ev (f := Layer.reset) (fun Ri Ro l k hl => hl.reset) h.2
  unfold Train.reseting at e
  rw [Net.reseting_eq, en] at e
  cases e
  exact hn

theorem Train.Ev.accumulating {t : Train α} (h : t.Ev R ks o) : Ok t.accumulating (fun t' => t'.Ev R ks o) := by
  obtain ⟨t', e, hS⟩ := h.1.accumulating
  refine ⟨t', e, hS, ?_⟩
  obtain ⟨net', en, hn⟩ := mapL_ev (f := Layer.accumulate) (fun Ri Ro l k hl => hl.accumulate) h.2
  unfold Train.accumulating at e
  rw [Net.accumulating_eq, en] at e
  cases e
  exact hn

theorem Train.Ev.updating {t : Train α} (hP : PlanOk size E R ks s o) (hu : UpdAlike upd size E I) (h : t.Ev R ks o) {st : σ} (hs : I st)
    (alpha : α) : Ok (Train.updating upd alpha (st, t)) (fun r => I r.1 ∧ r.2.Ev R ks o) := by
  unfold Train.updating
  rw [Net.updating_eq]
  refine (eachM_ev (I := I) (E := E) (size := size) (fun Ri Ro l k s hs hv hk hl => hl.update hu hv hk hs alpha) hP.st.valid hP.kinds h.2 st hs).bind
    (fun r hr => Ok_ok.2 ⟨hr.1, ⟨hr.2.sound, h.1.delta, h.1.loss⟩, hr.2⟩)

theorem Train.Ev.exec {t : Train α} (hP : PlanOk size E R ks s o) (hu : UpdAlike upd size E I) (h : t.Ev R ks o) {st : σ} (hs : I st)
    {idata odata : List (Ten α)} (hd : DataFits idata odata s o) (hx : ∀ x ∈ idata, SameCells (R 0) x.data) (e : TEv α)
    (he : ∀ i, e = .sample i → i < idata.length) :
    Ok (TEv.exec upd idata odata (st, t) e) (fun r => I r.1 ∧ r.2.Ev R ks o) := by
  cases e with
  | reset => exact h.reseting.bind (fun t' h' => Ok_ok.2 ⟨hs, h'⟩)
  | sample i => exact (h.sample hP hd hx (he i rfl)).bind (fun t' h' => Ok_ok.2 ⟨hs, h'⟩)
  | accumulate => exact h.accumulating.bind (fun t' h' => Ok_ok.2 ⟨hs, h'⟩)
  | update alpha => exact h.updating hP hu hs alpha

theorem Train.Ev.run (hP : PlanOk size E R ks s o) (hu : UpdAlike upd size E I)
    {idata odata : List (Ten α)} (hd : DataFits idata odata s o) (hx : ∀ x ∈ idata, SameCells (R 0) x.data) (es : List (TEv α))
    (he : ∀ i, TEv.sample i ∈ es → i < idata.length) :
    ∀ {st : σ} {t : Train α}, I st → t.Ev R ks o → Ok (TEv.run upd idata odata (st, t) es) (fun r => I r.1 ∧ r.2.Ev R ks o) := by
  induction es with
  | nil => intro st t hs h; exact Ok_ok.2 ⟨hs, h⟩
  | cons e es ih =>
    intro st t hs h
    unfold TEv.run
    refine (h.exec hP hu hs hd hx e (fun i hi => he i (by simp [hi]))).bind (fun r hr => ?_)
    exact ih (fun i hi => he i (by simp [hi])) hr.1 hr.2

theorem Net.feedforward_ev (hP : PlanOk size E R ks s o) {net : Net α} (hr : EvNet R net ks) {x : Ten α} (hx : ShapeIs x s) :
    Ok (Net.feedforward x net) (fun q => EvNet R q.1 ks ∧ ShapeIs q.2 o ∧ NowNet R q.1) := by
  obtain ⟨q, e, h1, h2⟩ := Net.feedforward_sound hP.st hr.sound hx
  refine ⟨q, e, ?_⟩
  have hlen : net.length = ks.length := hr.sound.length_eq
  have h3 := hP.st.two
  obtain ⟨net', en, hn⟩ := ffRec_ev hP.refl hP.st.valid hP.kinds hP.st.fits hx hr
  rw [Net.feedforward_eq x net (by intro e; rw [e] at hlen; simp at hlen; omega) (by rw [hlen]; exact hP.st.word), en, bind_ok] at e
  obtain ⟨l, _, e⟩ := units_inv e
  cases e
  exact ⟨hn.1, h2, hn.2⟩

theorem Train.Ev.lossMean {t : Train α} (hP : PlanOk size E R ks s o) (h : t.Ev R ks o) {idata odata : List (Ten α)}
    (hd : DataFits idata odata s o) (hne : idata ≠ []) : Ok (t.lossMean idata odata) (fun r => r.2.Ev R ks o) := by
  unfold Train.lossMean
  obtain ⟨loss, L, dL, e, hloss⟩ := h.1.loss
  have hlen : odata.length ≠ 0 := by
    rw [← hd.2.2]; intro e; exact hne (List.length_eq_zero_iff.1 e)
  refine Ok.bind (P := fun r : α × Net α => EvNet R r.2 ks) ?_ (fun r hr => ?_)
  · refine forN_spec (fun _ (r : α × Net α) => EvNet R r.2 ks) h.2 (fun i hi r hr => ?_)
    rw [e]
    show Ok (Except.ok loss >>= _) _
    rw [bind_ok]
    have hi' : i < idata.length := hd.2.2 ▸ hi
    have g1 : lget idata i = .ok (idata[i]'hi') := by unfold lget; rw [List.getElem?_eq_getElem hi']
    have g2 : lget odata i = .ok (odata[i]'hi) := by unfold lget; rw [List.getElem?_eq_getElem hi]
    rw [g2, bind_ok, g1, bind_ok]
    refine (Net.feedforward_ev hP hr (hd.1 _ (List.getElem_mem hi'))).bind (fun q hq => ?_)
    obtain ⟨vt, hvt⟩ := hd.2.1 _ (List.getElem_mem hi)
    obtain ⟨vy, hvy⟩ := hq.2.1.2.2.2
    dsimp only
    rw [hloss.f _ _ vt vy hvt hvy, bind_ok]
    exact Ok_ok.2 hq.1
  · dsimp only
    rw [if_neg hlen]
    exact Ok_ok.2 ⟨⟨hr.sound, h.1.delta, h.1.loss⟩, hr⟩

theorem TrainOp.exec_ev (hP : PlanOk size E R ks s o) (hu : UpdAlike upd size E I) (gen : Gen γ ρ Nat) {st : (σ × Train α) × ρ}
    (hs : I st.1.1) (h : st.1.2.Ev R ks o) (op : TrainOp α γ) (hop : op.Good s o) (hc : op.Copies (R 0)) :
    Trixy.Ok (TrainOp.exec upd gen st op) (fun r => I r.1.1 ∧ r.1.2.Ev R ks o) := by
  obtain ⟨⟨s0, t⟩, g⟩ := st
  cases op with
  | batch idata odata epochs =>
    have hne : idata.length ≠ 0 := fun e => hop.2 (List.length_eq_zero_iff.1 e)
    unfold TrainOp.exec; dsimp only
    rw [batch_run upd idata odata epochs _ hne]
    exact (Train.Ev.run hP hu hop.1 hc _ (fun i hi => mem_batchTrace hi) hs h).bind (fun r hr => Ok_ok.2 hr)
  | mini idata odata epochs m =>
    unfold TrainOp.exec; dsimp only
    rw [miniBatch_run upd idata odata epochs m _ hop.2]
    exact (Train.Ev.run hP hu hop.1 hc _ (fun i hi => mem_miniTrace hi) hs h).bind (fun r hr => Ok_ok.2 hr)
  | sto idata odata iterations c =>
    have hne : idata.length ≠ 0 := fun e => hop.2 (List.length_eq_zero_iff.1 e)
    unfold TrainOp.exec; dsimp only
    rw [stochastic_run upd idata odata gen hne]
    refine (Train.Ev.run hP hu hop.1 hc _ (fun i hi => ?_) hs h).bind (fun r hr => Ok_ok.2 hr)
    have := mem_stoTrace hi
    rw [List.mem_map] at this
    obtain ⟨a, _, e⟩ := this
    rw [← e]
    exact Nat.mod_lt _ (by omega)
  | lossOf idata odata =>
    exact (h.lossMean hP hop.1 hop.2).bind (fun r hr => Ok_ok.2 ⟨hs, hr⟩)
  | eval x => exact (h.feedforward hP hop).bind (fun t' h' => Ok_ok.2 ⟨hs, h'.1⟩)
  | setLoss l =>
    obtain ⟨L, dL, hl⟩ := hop
    exact Ok_ok.2 ⟨hs, ⟨h.1.net, h.1.delta, l, L, dL, rfl, hl⟩, h.2⟩

theorem TrainOp.run_ev (hP : PlanOk size E R ks s o) (hu : UpdAlike upd size E I) (gen : Gen γ ρ Nat) (ops : List (TrainOp α γ))
    (hops : ∀ op ∈ ops, op.Good s o) (hcs : ∀ op ∈ ops, op.Copies (R 0)) : ∀ {st : (σ × Train α) × ρ}, I st.1.1 → st.1.2.Ev R ks o →
    Trixy.Ok (TrainOp.run upd gen st ops) (fun r => I r.1.1 ∧ r.1.2.Ev R ks o) := by
  induction ops with
  | nil => intro st hs h; exact Ok_ok.2 ⟨hs, h⟩
  | cons op ops ih =>
    intro st hs h
    unfold TrainOp.run
    refine (TrainOp.exec_ev hP hu gen hs h op (hops op (by simp)) (hcs op (by simp))).bind (fun r hr => ?_)
    exact ih (fun o ho => hops o (by simp [ho])) (fun o ho => hcs o (by simp [ho])) hr.1 hr.2

end

end Trixy
