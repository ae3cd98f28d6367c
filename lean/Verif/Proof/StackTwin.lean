import Verif.Proof.StackTrain
import Verif.Proof.TrainSafe
import Verif.Proof.Shared
import Verif.Props.ConvAlg
import Verif.Spec.Checkpoint
/- Two trainings of mixed stacks that feed the optimizer the same gradients. -/
namespace Trixy
set_option linter.unusedSectionVars false

variable {α σ : Type}

theorem WsIs.same {Ws Ws' : List (Ten α)} {fc d h w : Nat} {W : Nat → Nat → Nat → Nat → α} (h1 : WsIs Ws fc d h w W) (h2 : WsIs Ws' fc d h w W) :
    Ws = Ws' := by
  refine List.ext_getElem? (fun i => ?_)
  by_cases hi : i < fc
  · obtain ⟨t, e, q⟩ := h1.2 i hi
    obtain ⟨t', e', q'⟩ := h2.2 i hi
    rw [e, e', TenIs.same q q']
  · rw [List.getElem?_eq_none (by rw [h1.1]; omega), List.getElem?_eq_none (by rw [h2.1]; omega)]

theorem convUpdW_keys {upd : Upd σ α} {k k' : Nat → Nat} {n : Nat} (h : ∀ f, f < n → k f = k' f) (s : σ) (Ws Gs : List (Ten α)) :
    convUpdW upd k n s Ws Gs = convUpdW upd k' n s Ws Gs := by
  unfold convUpdW
  exact forN_congr (fun f hf st => by rw [h f hf])

section
variable [CommRing α] [DecidableEq α] {upd : Upd σ α} {size : Nat → Nat} {I : σ → Prop}

/-- What remains of two layers after an update fed with the same gradients. -/
structure AfterUpdate (I : σ → Prop) (size : Nat → Nat) (st : SSt α) (l : Layer α) (s1 : σ) (l1 l1' : Layer α) (st1 st1' : SSt α) : Prop where
  inv : I s1
  left : l1.Holds st1
  right : l1'.Holds st1'
  carry : st1.carry = st1'.carry
  sin : st1.s.sin = st.s.sin
  sout : st1.s.sout = st.s.sout
  kind : st1.s.useA true = st.s.useA true
  keys : l1.keys = l.keys
  keys' : l1'.keys = l.keys
  sized : l1.SizedBy size
  params : l1.params = l1'.params

theorem Layer.update_same (hu : UpdOk upd size I) {l l' : Layer α} {st st' : SSt α} (h : l.Holds st) (h' : l'.Holds st') (hs : st.s = st'.s)
    (ha : st.acc = true) (ha' : st'.acc = true) (hg : st.used = st'.used) (hk : l.keys = l'.keys) (hz : l.SizedBy size) {s : σ} (hI : I s)
    (alpha : α) : ∃ s1 l1 l1' st1 st1', l.update upd s alpha = .ok (s1, l1) ∧ l'.update upd s alpha = .ok (s1, l1') ∧
      AfterUpdate I size st l s1 l1 l1' st1 st1' := by
  obtain ⟨sg, g, a, acc⟩ := st
  obtain ⟨sg', g', a', acc'⟩ := st'
  dsimp only at hs ha ha'
  subst hs ha ha'
  cases sg with
  | dense p =>
    obtain ⟨f, rfl, w, act, gB, gW, aB, aW, ac⟩ := h.1 p rfl
    obtain ⟨f', rfl, w', act', gB', gW', aB', aW', ac'⟩ := h'.1 p rfl
    dsimp only at ac ac' aB aB' aW aW' gB gB' gW gW'
    have ea : a = a' := hg
    subst ea
    simp only [Layer.keys, List.cons.injEq, and_true] at hk
    have eB : f'.B = f.B := BufIs.ext w'.B w.B
    have eW : f'.W = f.W := MatIs.ext w'.W w.W
    have egB : f'.gradBs = f.gradBs := BufIs.ext aB' aB
    have egW : f'.gradWs = f.gradWs := MatIs.ext aW' aW
    obtain ⟨hz1, hz2⟩ := hz
    rw [w.osize] at hz1 hz2
    rw [w.isize] at hz2
    obtain ⟨r, er, q1, ⟨b1, W1, q2⟩, q3⟩ := FC.update_full hu w hz1 hz2 hI alpha
    obtain ⟨r', er', _, ⟨b2, W2, q2'⟩, q3'⟩ := FC.update_full hu w' (by rw [← hk.1]; exact hz1) (by rw [← hk.2]; exact hz2) hI alpha
    have eu : FC.updateWith upd s alpha f' f'.gradBs f'.gradWs = FC.updateWith upd s alpha f f.gradBs f.gradWs := by
      unfold FC.updateWith
      rw [egB, egW, eB, eW, ← hk.1, ← hk.2]
    have er0 := er
    have er0' := er'
    unfold FC.update at er er'
    rw [if_pos ac] at er
    rw [if_pos ac', eu] at er'
    obtain ⟨⟨s1, B, gB1, W, gW1⟩, e1, e2⟩ := res_bind_inv er
    rw [e1] at er'
    cases e2
    cases er'
    dsimp only at q1 q2 q3 q2' q3' er0 er0'
    have hB : VecIs B p.m b1 := q2.B
    obtain ⟨u1, hu1⟩ := q2.gradBs
    obtain ⟨u2, hu2⟩ := q2.gradWs
    obtain ⟨u1', hu1'⟩ := q2'.gradBs
    obtain ⟨u2', hu2'⟩ := q2'.gradWs
    let θ : PRef → α := fun | .bias k => b1 k | .weight i j => W1 i j | _ => 0
    let A : PRef → α := fun | .bias k => u1 k | .weight i j => u2 i j | _ => 0
    let A' : PRef → α := fun | .bias k => u1' k | .weight i j => u2' i j | _ => 0
    let p1 : Dense α := { p with b := b1, W := W1 }
    refine ⟨s1, _, _, ⟨.dense p1, g, A, true⟩, ⟨.dense p1, g', A', true⟩,
      (show (FC.update upd s alpha f >>= _) = _ by rw [er0]; rfl), (show (FC.update upd s alpha f' >>= _) = _ by rw [er0']; rfl), ?_⟩
    exact {
      inv := q1
      left := ⟨fun q e => by cases e; exact ⟨_, rfl, q2, act, gB, gW, hu1, hu2, ac⟩, fun q e => by cases e⟩
      right := ⟨fun q e => by
        cases e
        refine ⟨_, rfl, { q2' with B := hB, W := ?_ }, act', gB', gW', hu1', hu2', ac'⟩
        have := q2.W
        show MatIs { f'.W with data := W } _ _ _
        rw [eW]; exact this, fun q e => by cases e⟩
      carry := rfl
      sin := rfl
      sout := rfl
      kind := rfl
      keys := rfl
      keys' := by simp only [Layer.keys, hk.1, hk.2]
      sized := ⟨by show size f.keyB = f.osize; rw [w.osize]; exact hz1, by show size f.keyW = f.isize * f.osize; rw [w.osize, w.isize]; exact hz2⟩
      params := by simp only [Layer.params] }
  | conv p =>
    obtain ⟨c, rfl, w⟩ := h.2 p rfl
    obtain ⟨c', rfl, w'⟩ := h'.2 p rfl
    have eg : g = g' := hg
    subst eg
    dsimp only at w w'
    have eB : c'.B = c.B := BufIs.ext w'.B w.B
    have eW : c'.Ws = c.Ws := WsIs.same w'.Ws w.Ws
    have egB : c'.gradB = c.gradB := BufIs.ext w'.gradB w.gradB
    have egW : c'.gradWs = c.gradWs := WsIs.same w'.gradWs w.gradWs
    simp only [Layer.keys, List.cons.injEq] at hk
    obtain ⟨hk1, hk2⟩ := hk
    have hk3 : ∀ f, f < c.Ws.length → c'.keyW f = c.keyW f := by
      intro f hf
      rw [eW] at hk2
      have := congrArg (fun l : List Nat => l[f]?) hk2
      simpa [hf, eq_comm] using this
    obtain ⟨hz1, hz2⟩ := hz
    rw [w.fil.1] at hz1 hz2
    rw [w.fil.2.1, w.fil.2.2.1, w.fil.2.2.2] at hz2
    have hl : c.Ws.length = p.fc := w.Ws.1
    obtain ⟨r, er, q1, ⟨b1, W1, gb1, gW1, q2⟩, q3⟩ := Conv.update_full hu w hz2 hz1 s hI alpha
    obtain ⟨r', er', _, ⟨b2, W2, gb2, gW2, q2'⟩, q3'⟩ := Conv.update_full hu w' (fun f hf => by rw [hk3 f (by omega)]; exact hz2 f hf) (by rw [← hk1]; exact hz1) s hI alpha
    have er0 := er
    have er0' := er'
    unfold Conv.update at er er'
    rw [egB, egW, eW, eB, ← hk1] at er'
    obtain ⟨Gs, e1, er⟩ := res_bind_inv er
    rw [e1, bind_ok] at er'
    obtain ⟨gB, e2, er⟩ := res_bind_inv er
    rw [e2, bind_ok] at er'
    obtain ⟨⟨s1, Ws, Gs1⟩, e3, er⟩ := res_bind_inv er
    rw [convUpdW_keys hk3, e3, bind_ok] at er'
    dsimp only at er er'
    obtain ⟨⟨s2, B, gB1⟩, e4, er⟩ := res_bind_inv er
    rw [e4, bind_ok] at er'
    cases er
    cases er'
    dsimp only at q1 q2 q3 q2' q3' er0 er0'
    let p1 : ConvP α := { p with b := b1, W := W1 }
    let γ : PRef → α := fun | .bias k => gb1 k | .filter f c i j => gW1 f c i j | _ => 0
    refine ⟨s2, _, _, ⟨.conv p1, γ, a, true⟩, ⟨.conv p1, γ, a', true⟩,
      (show (Conv.update upd s alpha c >>= _) = _ by rw [er0]; rfl), (show (Conv.update upd s alpha c' >>= _) = _ by rw [er0']; rfl), ?_⟩
    exact {
      inv := q1
      left := ⟨fun q e => (by cases e), fun q e => by cases e; exact ⟨_, rfl, q2⟩⟩
      right := ⟨fun q e => (by cases e), fun q e => by
        cases e
        exact ⟨_, rfl, { q2' with B := q2.B, Ws := q2.Ws, gradB := q2.gradB, gradWs := q2.gradWs }⟩⟩
      carry := rfl
      sin := rfl
      sout := rfl
      kind := rfl
      keys := by
        have h1 : Ws.length = c.Ws.length := q2.Ws.1.trans hl.symm
        simp only [Layer.keys, h1]
      keys' := by
        have h1 : Ws.length = c.Ws.length := q2.Ws.1.trans hl.symm
        simp only [Layer.keys, h1, hk1]
        congr 1
        exact List.map_congr_left (fun f hf => hk3 f (List.mem_range.1 hf))
      sized := ⟨by show size c.keyB = c.fc; rw [w.fil.1]; exact hz1, by
        show ∀ f, f < c.fc → size (c.keyW f) = c.fd * c.fh * c.fw
        rw [w.fil.1, w.fil.2.1, w.fil.2.2.1, w.fil.2.2.2]; exact hz2⟩
      params := rfl }

/-- The sizes depend only on the stage and the addresses. -/
theorem Layer.SizedBy.of_stage {l l' : Layer α} {st st' : SSt α} (h : l.Holds st) (h' : l'.Holds st') (hs : st'.s = st.s) (hk : l'.keys = l.keys)
    (hz : l.SizedBy size) : l'.SizedBy size := by
  obtain ⟨sg, g, a, acc⟩ := st
  obtain ⟨sg', g', a', acc'⟩ := st'
  dsimp only at hs
  subst hs
  cases sg' with
  | dense p =>
    obtain ⟨f, rfl, w, _⟩ := h.1 p rfl
    obtain ⟨f', rfl, w', _⟩ := h'.1 p rfl
    simp only [Layer.keys, List.cons.injEq, and_true] at hk
    simp only [Layer.SizedBy, w.isize, w.osize, w'.isize, w'.osize, hk] at hz ⊢
    exact hz
  | conv p =>
    obtain ⟨c, rfl, w⟩ := h.2 p rfl
    obtain ⟨c', rfl, w'⟩ := h'.2 p rfl
    simp only [Layer.keys, List.cons.injEq] at hk
    simp only [Layer.SizedBy, w.fil, w'.fil, hk.1] at hz ⊢
    refine ⟨hz.1, fun f hf => ?_⟩
    have h1 : c.Ws.length = p.fc := w.Ws.1
    have h2 : c'.Ws.length = p.fc := w'.Ws.1
    have := hk.2
    rw [h1, h2] at this
    have := congrArg (fun l : List Nat => l[f]?) this
    have e : c'.keyW f = c.keyW f := by simpa [hf] using this
    rw [e]; exact hz.2 f hf

theorem Layer.SizedBy.of_holds {net net' : Net α} {sts sts' : List (SSt α)} (h : net.Holds sts) (h' : net'.Holds sts') (hs : sts'.map (·.s) = sts.map (·.s))
    (hk : net'.map Layer.keys = net.map Layer.keys) (hz : ∀ l ∈ net, l.SizedBy size) : ∀ l ∈ net', l.SizedBy size := by
  induction h generalizing net' sts' with
  | nil =>
    have : net' = [] := by simpa using hk
    subst this; simp
  | @cons l st ls sts hl _ ih =>
    cases h' with
    | nil => simp at hk
    | @cons l' st' ls' sts' hl' hr' =>
      simp only [List.map_cons, List.cons.injEq] at hs hk
      intro q hq
      rcases List.mem_cons.1 hq with rfl | hq
      · exact Layer.SizedBy.of_stage hl hl' hs.1 hk.1 (hz _ (by simp))
      · exact ih hr' hs.2 hk.2 (fun l h => hz l (by simp [h])) q hq

theorem eachM_same (hu : UpdOk upd size I) (alpha : α) {net : Net α} {sts : List (SSt α)} (h : net.Holds sts) :
    ∀ {net' : Net α} {sts' : List (SSt α)} {s : σ}, net'.Holds sts' → sts.map (·.s) = sts'.map (·.s) → (∀ st ∈ sts, st.acc = true) →
    (∀ st ∈ sts', st.acc = true) → sts.map SSt.used = sts'.map SSt.used → net.map Layer.keys = net'.map Layer.keys →
    (∀ l ∈ net, l.SizedBy size) → I s →
    ∃ s1 n1 n1' sts1 sts1', eachM (fun s l => l.update upd s alpha) s net = .ok (s1, n1) ∧ eachM (fun s l => l.update upd s alpha) s net' = .ok (s1, n1') ∧
      I s1 ∧ Net.Holds n1 sts1 ∧ Net.Holds n1' sts1' ∧ sts1.map SSt.carry = sts1'.map SSt.carry ∧
      sts1.map (fun st => (st.s.sin, st.s.sout)) = sts.map (fun st => (st.s.sin, st.s.sout)) ∧
      sts1.map (fun st => st.s.useA true) = sts.map (fun st => st.s.useA true) ∧
      n1.map Layer.keys = net.map Layer.keys ∧ n1'.map Layer.keys = net.map Layer.keys ∧ (∀ l ∈ n1, l.SizedBy size) ∧
      n1.map Layer.params = n1'.map Layer.params := by
  induction h with
  | nil =>
    intro net' sts' s h' hs _ _ _ _ _ hI
    have : sts' = [] := by simpa using hs.symm
    subst this
    cases h'
    exact ⟨s, [], [], [], [], rfl, rfl, hI, .nil, .nil, rfl, rfl, rfl, rfl, rfl, by simp, rfl⟩
  | @cons l st ls sts hl _ ih =>
    intro net' sts' s h' hs ha ha' hg hk hz hI
    cases h' with
    | nil => simp at hs
    | @cons l' st' ls' sts' hl' hr' =>
      simp only [List.map_cons, List.cons.injEq] at hs hg hk
      obtain ⟨s1, l1, l1', st1, st1', e1, e2, q⟩ := Layer.update_same hu hl hl' hs.1 (ha _ (by simp)) (ha' _ (by simp)) hg.1 hk.1 (hz _ (by simp)) hI alpha
      obtain ⟨s2, n1, n1', t1, t1', e3, e4, r1, r2, r3, r4, r5, r6, r7, r8, r9, r10⟩ :=
        ih hr' hs.2 (fun st h => ha st (by simp [h])) (fun st h => ha' st (by simp [h])) hg.2 hk.2 (fun l h => hz l (by simp [h])) q.inv
      refine ⟨s2, l1 :: n1, l1' :: n1', st1 :: t1, st1' :: t1', ?_, ?_, r1, .cons q.left r2, .cons q.right r3, ?_, ?_, ?_, ?_, ?_, ?_, ?_⟩
      · unfold eachM; rw [e1, bind_ok]; dsimp only; rw [e3, bind_ok]; rfl
      · unfold eachM; rw [e2, bind_ok]; dsimp only; rw [e4, bind_ok]; rfl
      · rw [List.map_cons, List.map_cons, q.carry, r4]
      · rw [List.map_cons, List.map_cons, q.sin, q.sout, r5]
      · rw [List.map_cons, List.map_cons, q.kind, r6]
      · rw [List.map_cons, List.map_cons, q.keys, r7]
      · rw [List.map_cons, List.map_cons, q.keys', r8]
      · intro l h
        rcases List.mem_cons.1 h with rfl | h
        · exact q.sized
        · exact r9 l h
      · rw [List.map_cons, List.map_cons, q.params, r10]

variable [LT α] [DecidableLT α]

/-- Two trainings of mixed stacks that stand at the same point: same optimizer, same parameters at the same addresses, and convolutions carry
the same gradients over. -/
structure StackTwin (I : σ → Prop) (size : Nat → Nat) (ss : List (Stage α)) (a b : Nat × Nat × Nat) (dL : (Nat → α) → (Nat → α) → Nat → α)
    (x y : σ × Train α) : Prop where
  state : x.1 = y.1
  inv : I x.1
  holds : ∃ sts sts', x.2.Holds sts a b dL ∧ y.2.Holds sts' a b dL ∧ sts.map SSt.carry = sts'.map SSt.carry ∧ SameShape ss (sts.map (·.s))
  keys : x.2.net.map Layer.keys = y.2.net.map Layer.keys
  sized : ∀ l ∈ x.2.net, l.SizedBy size
  params : x.2.net.params = y.2.net.params

theorem StackTwin.outcome {ss : List (Stage α)} {a b : Nat × Nat × Nat} {dL : (Nat → α) → (Nat → α) → Nat → α} {x y : σ × Train α}
    (h : StackTwin I size ss a b dL x y) : outcome (.ok x) = outcome (.ok y) := by
  have := h.params
  unfold Trixy.outcome
  rw [bind_ok, bind_ok, h.state, this]

theorem StackTwin.refl {ss : List (Stage α)} {a b : Nat × Nat × Nat} {dL : (Nat → α) → (Nat → α) → Nat → α} {s : σ} (hI : I s) {t : Train α}
    {sts : List (SSt α)} (h : t.Holds sts a b dL) (hz : ∀ l ∈ t.net, l.SizedBy size) (hs : sts.map (·.s) = ss) :
    StackTwin I size ss a b dL (s, t) (s, t) :=
  ⟨rfl, hI, ⟨sts, sts, h, h, rfl, by rw [hs]; exact ⟨rfl, rfl⟩⟩, rfl, hz, rfl⟩

theorem SameShape.trans {ss ts us : List (Stage α)} (h : SameShape ss ts) (h' : SameShape ts us) : SameShape ss us :=
  ⟨h.1.trans h'.1, h.2.trans h'.2⟩

/-- One averaged step on sample sets whose gradients have the same sums. -/
theorem StackTwin.step (hu : UpdOk upd size I) {ss : List (Stage α)} {a b : Nat × Nat × Nat} {dL : (Nat → α) → (Nat → α) → Nat → α} {x y : σ × Train α}
    (h : StackTwin I size ss a b dL x y) {idata odata idata' odata' : List (Ten α)} {vs vs' : List ((Nat → α) × (Nat → α))}
    (hd : StackData ss b idata odata vs) (hd' : StackData ss b idata' odata' vs') {lo k lo' k' : Nat} (hk : lo + k ≤ vs.length) (hk' : lo' + k' ≤ vs'.length)
    (h1 : 1 ≤ k) (h1' : 1 ≤ k') (hsum : ∀ ss : List (Stage α), stackSum dL ss ((vs.drop lo).take k) = stackSum dL ss ((vs'.drop lo').take k')) (alpha : α) :
    ∃ x' y', TEv.run upd idata odata x (stepTrace alpha lo k) = .ok x' ∧ TEv.run upd idata' odata' y (stepTrace alpha lo' k') = .ok y' ∧
      StackTwin I size ss a b dL x' y' := by
  obtain ⟨sx, tx⟩ := x
  obtain ⟨sy, ty⟩ := y
  obtain ⟨e, hI, ⟨sts, sts', hx, hy, hc, hsh⟩, hkeys, hz, hp⟩ := h
  dsimp only at e hI hx hy hkeys hz hp
  subst e
  have hs' : sts'.map (·.s) = sts.map (·.s) := by rw [← carry_fst, ← carry_fst, hc]
  have d1 : StackData (sts.map (·.s)) b idata odata vs := hd.congr hsh
  have d2 : StackData (sts'.map (·.s)) b idata' odata' vs' := by rw [hs']; exact hd'.congr hsh
  obtain ⟨t1, e1, u1, g1, g2, g3, g4⟩ := hx.accRun d1 hk
  obtain ⟨t2, e2, u2, f1, f2, f3, f4⟩ := hy.accRun d2 hk'
  have kk1 : t1.net.map Layer.keys = tx.net.map Layer.keys := by
    obtain ⟨t0, k1, k2⟩ := res_bind_inv e1
    exact (forN_keeps (fun t : Train α => t.net.map Layer.keys) (fun i t t' ht => by
      obtain ⟨t3, k3, k4⟩ := res_bind_inv ht
      exact (Train.accumulating_keys k4).trans (Train.sample_keys k3)) k2).trans (Train.reseting_keys k1)
  have kk2 : t2.net.map Layer.keys = ty.net.map Layer.keys := by
    obtain ⟨t0, k1, k2⟩ := res_bind_inv e2
    exact (forN_keeps (fun t : Train α => t.net.map Layer.keys) (fun i t t' ht => by
      obtain ⟨t3, k3, k4⟩ := res_bind_inv ht
      exact (Train.accumulating_keys k4).trans (Train.sample_keys k3)) k2).trans (Train.reseting_keys k1)
  have acc1 : ∀ st ∈ u1, st.acc = true := fun st hst => by rw [g3 st hst]; exact decide_eq_true (by omega)
  have acc2 : ∀ st ∈ u2, st.acc = true := fun st hst => by rw [f3 st hst]; exact decide_eq_true (by omega)
  have hz1 : ∀ l ∈ t1.net, l.SizedBy size := by
    intro l hl
    exact Layer.SizedBy.of_holds hx.net g1.net (by rw [g2]) kk1 hz l hl
  obtain ⟨s1, n1, n1', v1, v1', q1, q2, q3, q4, q5, q6, q7, q8, q9, q10, q11, q12⟩ :=
    eachM_same hu alpha g1.net f1.net (g2.trans (hs'.symm.trans f2.symm)) acc1 acc2
      (by rw [totals_used acc1, totals_used acc2, g4, f4, hc, hs', hsum]) (kk1.trans (hkeys.trans kk2.symm)) hz1 hI
  have shape : SameShape ss (v1.map (·.s)) := by
    refine hsh.trans ?_
    constructor
    · have := congrArg (List.map Prod.fst) q7
      simp only [List.map_map] at this ⊢
      have e := congrArg (List.map Stage.sin) g2
      simp only [List.map_map] at e
      exact (this.trans e).symm
    · simp only [List.map_map]
      have e := congrArg (List.map (fun s => Stage.useA s true)) g2
      simp only [List.map_map] at e
      exact (q8.trans e).symm
  have len1 : v1.length = u1.length := by simpa using congrArg List.length q7
  have len2 : v1'.length = v1.length := by simpa using (congrArg List.length q6).symm
  have fits1 : StackFits a (v1.map (·.s)) b := by
    refine StackFits.congr ?_ g1.fits
    simp only [List.map_map]
    exact q7.symm
  have hv' : v1'.map (·.s) = v1.map (·.s) := by rw [← carry_fst, ← carry_fst, q6]
  refine ⟨(s1, { t1 with net := n1 }), (s1, { t2 with net := n1' }), ?_, ?_, rfl, q3, ⟨v1, v1', ⟨q4, by rw [len1]; exact g1.two, by rw [len1]; exact g1.word, fits1, g1.delta, g1.loss⟩,
    ⟨q5, by rw [len2, len1]; exact g1.two, by rw [len2, len1]; exact g1.word, by rw [hv']; exact fits1, f1.delta, f1.loss⟩, q6, shape⟩, q9.trans q10.symm, q11, q12⟩
  · rw [run_step, ← bind_assoc, e1, bind_ok]
    unfold Train.updating; dsimp only
    rw [Net.updating_eq, q1, bind_ok]; rfl
  · rw [run_step, ← bind_assoc, e2, bind_ok]
    unfold Train.updating; dsimp only
    rw [Net.updating_eq, q2, bind_ok]; rfl

/-- A sequence of averaged steps. -/
theorem StackTwin.steps (hu : UpdOk upd size I) {ss : List (Stage α)} {a b : Nat × Nat × Nat} {dL : (Nat → α) → (Nat → α) → Nat → α}
    {idata odata idata' odata' : List (Ten α)} {vs vs' : List ((Nat → α) × (Nat → α))} (hd : StackData ss b idata odata vs)
    (hd' : StackData ss b idata' odata' vs') (alpha : α) :
    ∀ (ws : List (Nat × Nat)), (∀ w ∈ ws, w.1 + w.2 ≤ vs.length ∧ w.1 + w.2 ≤ vs'.length ∧ 1 ≤ w.2 ∧
      ∀ ss : List (Stage α), stackSum dL ss ((vs.drop w.1).take w.2) = stackSum dL ss ((vs'.drop w.1).take w.2)) →
    ∀ {x y : σ × Train α}, StackTwin I size ss a b dL x y →
    ∃ x' y', TEv.run upd idata odata x (ws.flatMap (fun w => stepTrace alpha w.1 w.2)) = .ok x' ∧
      TEv.run upd idata' odata' y (ws.flatMap (fun w => stepTrace alpha w.1 w.2)) = .ok y' ∧ StackTwin I size ss a b dL x' y'
  | [], _, x, y, h => ⟨x, y, rfl, rfl, h⟩
  | w :: ws, hw, x, y, h => by
    obtain ⟨h1, h2, h3, h4⟩ := hw w (by simp)
    obtain ⟨x1, y1, e1, e2, h⟩ := h.step hu hd hd' h1 h2 h3 h3 h4 alpha
    obtain ⟨x2, y2, e3, e4, h⟩ := StackTwin.steps hu hd hd' alpha ws (fun w hw' => hw w (by simp [hw'])) h
    refine ⟨x2, y2, ?_, ?_, h⟩
    · rw [List.flatMap_cons, TEv.run_append, e1, bind_ok, e3]
    · rw [List.flatMap_cons, TEv.run_append, e2, bind_ok, e4]

end

end Trixy
