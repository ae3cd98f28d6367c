import Verif.Spec.RuleStack
import Verif.Proof.Rule
import Verif.Proof.StackTrain
import Verif.Proof.Shared
/- Training a mixed stack with an optimizer that follows a rule. -/
namespace Trixy
set_option linter.unusedSectionVars false

variable {α μ σ : Type}

/-- The arrays at the addresses `K` belong to the layer `x`: their sizes, and `M` holds the memory of it. -/
structure SIs (size : Nat → Nat) (M : Nat → Nat → μ) (K : List Nat) (x : RSt α μ) : Prop where
  dense : ∀ p, x.s = .dense p → ∃ kB kW, K = [kB, kW] ∧ size kB = p.m ∧ size kW = p.n * p.m ∧
    (∀ j, j < p.m → M kB j = x.m (.bias j)) ∧ ∀ k, k < p.n * p.m → M kW k = x.m (.weight (k / p.m) (k % p.m))
  conv : ∀ p, x.s = .conv p → ∃ (kB : Nat) (kW : Nat → Nat), K = kB :: (List.range p.fc).map kW ∧ size kB = p.fc ∧
    (∀ f, f < p.fc → size (kW f) = p.d * p.fh * p.fw) ∧ (∀ j, j < p.fc → M kB j = x.m (.bias j)) ∧
    ∀ f k, f < p.fc → k < p.d * p.fh * p.fw → M (kW f) k = x.m (.filter f (k / p.fw / p.fh) (k / p.fw % p.fh) (k % p.fw))

theorem SIs.congr {size : Nat → Nat} {M M' : Nat → Nat → μ} {K : List Nat} {x : RSt α μ} (h : SIs size M K x) (he : ∀ k ∈ K, M' k = M k) : SIs size M' K x := by
  refine ⟨fun p e => ?_, fun p e => ?_⟩
  · obtain ⟨kB, kW, rfl, h1, h2, h3, h4⟩ := h.dense p e
    exact ⟨kB, kW, rfl, h1, h2, fun j hj => by rw [he kB (by simp)]; exact h3 j hj, fun k hk => by rw [he kW (by simp)]; exact h4 k hk⟩
  · obtain ⟨kB, kW, rfl, h1, h2, h3, h4⟩ := h.conv p e
    refine ⟨kB, kW, rfl, h1, h2, fun j hj => by rw [he kB (by simp)]; exact h3 j hj, fun f k hf hk => ?_⟩
    rw [he (kW f) (List.mem_cons_of_mem _ (List.mem_map.2 ⟨f, List.mem_range.2 hf, rfl⟩))]; exact h4 f k hf hk

section
variable [Field α] [DecidableEq α] {upd : Upd σ α} {R : Rule α μ} {keep : α → α} {size : Nat → Nat} {J : σ → Nat → (Nat → Nat → μ) → Prop}

theorem KeepOpt.rule (ho : KeepOpt upd R keep size J) : RuleOpt upd R size J :=
  fun s T M k P G p g hJ hP hG => (ho s T M k P G p g hJ hP hG).mono (fun _ h => ⟨h.1, h.2.1.full, h.2.2⟩)

section
variable {d fc fh fw : Nat} {W gW : Nat → Nat → Nat → Nat → α}

theorem convUpdW_rule (ho : KeepOpt upd R keep size J) {Ws Gs : List (Ten α)} (hW : WsIs Ws fc d fh fw W) (hG : WsIs Gs fc d fh fw gW) (keyW : Nat → Nat)
    (hk : ∀ f, f < fc → size (keyW f) = d * fh * fw) (hinj : ∀ f f', f < fc → f' < fc → keyW f = keyW f' → f = f') {s : σ} {T : Nat} {M : Nat → Nat → μ} (hJ : J s T M)
    (mem : PRef → μ) (hm : ∀ f k, f < fc → k < d * fh * fw → M (keyW f) k = mem (.filter f (k / fw / fh) (k / fw % fh) (k % fw))) :
    Ok (convUpdW upd keyW fc s Ws Gs) (fun r =>
      WsIs r.2.1 fc d fh fw (fun f c i j => (R.step (T + f) (mem (.filter f c i j)) (W f c i j) (gW f c i j)).2) ∧
      WsIs r.2.2 fc d fh fw (fun f c i j => keep (gW f c i j)) ∧
      ∃ M', J r.1 (T + fc) M' ∧ (∀ k, (∀ f, f < fc → k ≠ keyW f) → M' k = M k) ∧
        ∀ f k, f < fc → k < d * fh * fw → M' (keyW f) k =
          (R.step (T + f) (mem (.filter f (k / fw / fh) (k / fw % fh) (k % fw))) (W f (k / fw / fh) (k / fw % fh) (k % fw)) (gW f (k / fw / fh) (k / fw % fh) (k % fw))).1) := by
  unfold convUpdW
  refine (forN_spec (fun n (r : σ × List (Ten α) × List (Ten α)) =>
      WsIs r.2.1 fc d fh fw (fun f c i j => if f < n then (R.step (T + f) (mem (.filter f c i j)) (W f c i j) (gW f c i j)).2 else W f c i j) ∧
      WsIs r.2.2 fc d fh fw (fun f c i j => if f < n then keep (gW f c i j) else gW f c i j) ∧
      ∃ M', J r.1 (T + n) M' ∧ (∀ k, (∀ f, f < n → k ≠ keyW f) → M' k = M k) ∧
        ∀ f k, f < fc → k < d * fh * fw → f < n → M' (keyW f) k =
          (R.step (T + f) (mem (.filter f (k / fw / fh) (k / fw % fh) (k % fw))) (W f (k / fw / fh) (k / fw % fh) (k % fw)) (gW f (k / fw / fh) (k / fw % fh) (k % fw))).1)
    ⟨hW.congr (fun f c i j _ _ _ _ => by simp), hG.congr (fun f c i j _ _ _ _ => by simp), M, hJ, fun _ _ => rfl, fun f k _ _ h => absurd h (Nat.not_lt_zero _)⟩
    (fun f hf r hr => ?_)).mono (fun r hr => ?_)
  · obtain ⟨r2, r3, M1, r1, rM, rm⟩ := hr
    obtain ⟨W1, e1, h1⟩ := r2.get hf
    obtain ⟨G1, e2, h2⟩ := r3.get hf
    rw [e1, bind_ok, e2, bind_ok]
    have h1' : TenIs W1 d fh fw (W f) := h1.congr (fun c i j _ _ _ => by simp)
    have h2' : TenIs G1 d fh fw (gW f) := h2.congr (fun c i j _ _ _ => by simp)
    refine (ho r.1 (T + f) M1 (keyW f) W1.data G1.data _ _ r1 ((hk f hf).symm ▸ h1'.flat) ((hk f hf).symm ▸ h2'.flat)).bind (fun q hq => ?_)
    obtain ⟨q2, q3, q1⟩ := hq
    rw [hk f hf] at q2 q3
    have hM : M1 (keyW f) = M (keyW f) := rM _ (fun f' hf' e => by have := hinj f f' hf (by omega) e; omega)
    rw [hM] at q1 q2
    have q2' : VecIs q.2.1 (d * fh * fw) (fun k => (fun c i j => (R.step (T + f) (mem (.filter f c i j)) (W f c i j) (gW f c i j)).2) (k / fw / fh) (k / fw % fh) (k % fw)) :=
      q2.congr (fun k hk' => by rw [hm f k hf hk'])
    have t1 : TenIs { W1 with data := q.2.1 } d fh fw (fun c i j => (R.step (T + f) (mem (.filter f c i j)) (W f c i j) (gW f c i j)).2) := by
      refine (TenIs.of_flat (t := { W1 with data := q.2.1 }) h1.1 h1.2.1 h1.2.2.1 q2').congr (fun i j k _ hj hk => ?_)
      obtain ⟨e1, e2, e3⟩ := idx3_split (i := i) hj hk
      rw [e1, e2, e3]
    have t2 : TenIs { G1 with data := q.2.2 } d fh fw (fun c i j => keep (gW f c i j)) := by
      refine (TenIs.of_flat (t := { G1 with data := q.2.2 }) h2.1 h2.2.1 h2.2.2.1 q3).congr (fun i j k _ hj hk => ?_)
      obtain ⟨e1, e2, e3⟩ := idx3_split (i := i) hj hk
      rw [e1, e2, e3]
    refine (r2.set hf t1).bind (fun Ws' hWs' => (r3.set hf t2).bind (fun Gs' hGs' => Ok_ok.2 ⟨?_, ?_, _, q1, ?_, ?_⟩))
    · refine hWs'.congr (fun k c i j _ _ _ _ => ?_)
      by_cases e : k = f
      · subst e; simp
      · have h1 : k < f + 1 ↔ k < f := by omega
        simp only [e, if_false, h1]
    · refine hGs'.congr (fun k c i j _ _ _ _ => ?_)
      by_cases e : k = f
      · subst e; simp
      · have h1 : k < f + 1 ↔ k < f := by omega
        simp only [e, if_false, h1]
    · intro k hk'
      rw [if_neg (hk' f (by omega))]
      exact rM k (fun f' hf' => hk' f' (by omega))
    · intro f' k hf' hk' hlt
      by_cases e : f' = f
      · subst e; rw [if_pos rfl, hm f' k hf' hk']
      · rw [if_neg (fun e' => e (hinj f' f hf' hf e'))]
        exact rm f' k hf' hk' (by omega)
  · obtain ⟨r2, r3, M1, r1, rM, rm⟩ := hr
    exact ⟨r2.congr (fun f c i j hf _ _ _ => by rw [if_pos hf]), r3.congr (fun f c i j hf _ _ _ => by rw [if_pos hf]), M1, r1, rM, fun f k hf hk' => rm f k hf hk' hf⟩

end

/-- One layer. -/
theorem Layer.update_rule (ho : KeepOpt upd R keep size J) {l : Layer α} {st : SSt α} (h : l.Holds st) {x : RSt α μ} (hs : st.s = x.s) {s : σ} {T : Nat}
    {M : Nat → Nat → μ} (hx : SIs size M l.keys x) (hn : l.keys.Nodup) (hJ : J s T M) (alpha : α) :
    Ok (l.update upd s alpha) (fun r => ∃ M' st', J r.1 (T + x.s.arrays) M' ∧ (∀ k, k ∉ l.keys → M' k = M k) ∧ r.2.keys = l.keys ∧ r.2.Holds st' ∧
      st'.acc = st.acc ∧ st'.carry = (R.move keep alpha T x st.used).carry ∧ SIs size M' l.keys (R.move keep alpha T x st.used)) := by
  obtain ⟨s0, g, a, acc⟩ := st
  obtain ⟨xs, xc, xm⟩ := x
  dsimp only at hs
  subst hs
  cases s0 with
  | dense p =>
    obtain ⟨f, rfl, hat⟩ := (Holds_dense rfl).1 h
    obtain ⟨kB, kW, eK, z1, z2, z3, z4⟩ := hx.dense p rfl
    have eK' : [f.keyB, f.keyW] = [kB, kW] := eK
    obtain ⟨rfl, rfl⟩ : f.keyB = kB ∧ f.keyW = kW := by simpa using eK'
    have hn' : f.keyW ≠ f.keyB := by
      have : [f.keyB, f.keyW].Nodup := hn
      simp at this
      exact fun e => this e.symm
    have hl : LIs size M (SSt.toD ⟨.dense p, g, a, acc⟩ p f) (p, (fun j => xm (.bias j), fun i j => xm (.weight i j))) :=
      ⟨rfl, z1, z2, z3, z4⟩
    have hu := FC.update_rule ho.rule hat hl hn' hJ alpha
    refine hu.bind (fun r hr => Ok_ok.2 ?_)
    obtain ⟨M', a', hJ', hM', ha', ek, ea, hx'⟩ := hr
    obtain ⟨p', g', a1, acc', kB', kW'⟩ := a'
    obtain ⟨e1, e2⟩ : kB' = f.keyB ∧ kW' = f.keyW := by simpa [SSt.toD] using ek
    subst e1 e2
    have k1 : r.2.keyB = f.keyB := ha'.kB
    have k2 : r.2.keyW = f.keyW := ha'.kW
    have ep := hx'.p
    dsimp only at ep
    refine ⟨M', ⟨.dense p', fun | .bias k => g'.1 k | .weight i j => g'.2 i j | _ => 0, fun | .bias k => a1.1 k | .weight i j => a1.2 i j | _ => 0, acc'⟩, hJ',
      fun k hk => ?_, ?_, (Holds_dense rfl).2 ⟨r.2, rfl, ?_⟩, ea, ?_, ?_⟩
    · have : k ∉ [f.keyB, f.keyW] := hk
      simp at this
      exact hM' k this.1 this.2
    · show [r.2.keyB, r.2.keyW] = [f.keyB, f.keyW]
      rw [k1, k2]
    · exact ⟨ha'.wf, ha'.act, ha'.gB, ha'.gW, ha'.aB, ha'.aW, ha'.acc, rfl, rfl⟩
    · show ((Stage.dense p' : Stage α), (fun _ => 0 : PRef → α)) = ((Stage.dense _), fun _ => 0)
      rw [ep]
      cases acc <;> rfl
    · refine ⟨fun q hq => ?_, fun q hq => by cases hq⟩
      have hq : Stage.dense _ = Stage.dense q := hq
      injection hq with hq
      subst hq
      refine ⟨f.keyB, f.keyW, rfl, z1, z2, fun j hj => ?_, fun k hk => ?_⟩
      · have := hx'.B j (by rw [ep]; exact hj)
        refine this.trans ?_
        cases acc <;> rfl
      · have := hx'.W k (by rw [ep]; exact hk)
        refine this.trans ?_
        rw [ep]
        cases acc <;> rfl
  | conv p =>
    obtain ⟨c, rfl, w⟩ := (Holds_conv rfl).1 h
    obtain ⟨kB, kW, eK, z1, z2, z3, z4⟩ := hx.conv p rfl
    have hl : c.Ws.length = p.fc := w.Ws.1
    have eK' : c.keyB :: (List.range c.Ws.length).map c.keyW = kB :: (List.range p.fc).map kW := eK
    rw [hl] at eK'
    injection eK' with eB eW
    subst eB
    have hkW : ∀ f, f < p.fc → c.keyW f = kW f := by
      intro f hf
      have := congrArg (fun l : List Nat => l[f]?) eW
      simpa [hf] using this
    have hn' : (c.keyB :: (List.range c.Ws.length).map c.keyW).Nodup := hn
    rw [hl, List.nodup_cons] at hn'
    have hne : ∀ f, f < p.fc → c.keyB ≠ c.keyW f := fun f hf e => hn'.1 (List.mem_map.2 ⟨f, List.mem_range.2 hf, e.symm⟩)
    have hinj : ∀ f f', f < p.fc → f' < p.fc → c.keyW f = c.keyW f' → f = f' := by
      intro f f' hf hf' e
      have := (List.nodup_map_iff_inj_on List.nodup_range).1 hn'.2
      exact this f (List.mem_range.2 hf) f' (List.mem_range.2 hf') e
    refine Ok.bind (P := fun r : σ × Conv α => ∃ M', J r.1 (T + (p.fc + 1)) M' ∧ (∀ k, k ∉ Layer.keys (.conv c) → M' k = M k) ∧ r.2.keyB = c.keyB ∧ r.2.keyW = c.keyW ∧
        r.2.Wf p.d p.h p.w p.fc p.fh p.fw p.pad p.sv p.sh (fun f => (R.step (T + p.fc) (xm (.bias f)) (p.b f) (g (.bias f) * alpha)).2)
          (fun f c i j => (R.step (T + f) (xm (.filter f c i j)) (p.W f c i j) (g (.filter f c i j) * alpha)).2)
          (fun f => keep (g (.bias f) * alpha)) (fun f c i j => keep (g (.filter f c i j) * alpha)) ∧
        (∀ f, f < p.fc → M' c.keyB f = (R.step (T + p.fc) (xm (.bias f)) (p.b f) (g (.bias f) * alpha)).1) ∧
        ∀ f k, f < p.fc → k < p.d * p.fh * p.fw → M' (kW f) k = (R.step (T + f) (xm (.filter f (k / p.fw / p.fh) (k / p.fw % p.fh) (k % p.fw)))
          (p.W f (k / p.fw / p.fh) (k / p.fw % p.fh) (k % p.fw)) (g (.filter f (k / p.fw / p.fh) (k / p.fw % p.fh) (k % p.fw)) * alpha)).1) ?_ (fun r hr => ?_)
    · unfold Conv.update
      refine (convScale_spec w.gradWs alpha).bind (fun Gs hGs => ?_)
      refine (scaleInto_spec w.gradB alpha).bind (fun gB hgB => ?_)
      rw [hl]
      refine (convUpdW_rule ho w.Ws hGs c.keyW (fun f hf => by rw [hkW f hf]; exact z2 f hf) hinj hJ xm
        (fun f k hf hk => by rw [hkW f hf]; exact z4 f k hf hk)).bind (fun r hr => ?_)
      obtain ⟨s1, Ws1, Gs1⟩ := r
      obtain ⟨r1, r2, M1, j1, o1, m1⟩ := hr
      dsimp only at r1 r2 j1 ⊢
      refine (ho s1 _ M1 c.keyB c.B gB _ _ j1 (z1.symm ▸ w.B) (z1.symm ▸ hgB)).bind (fun q hq => ?_)
      obtain ⟨q1, q2, q3⟩ := hq
      have hMB : M1 c.keyB = M c.keyB := o1 _ hne
      rw [z1] at q1 q2
      rw [hMB] at q1 q3
      refine Ok_ok.2 ⟨_, q3, fun k hk => ?_, rfl, rfl, ?_, fun f hf => ?_, fun f k hf hk => ?_⟩
      · have hk : k ∉ c.keyB :: (List.range c.Ws.length).map c.keyW := hk
        rw [hl] at hk
        simp only [List.mem_cons, not_or] at hk
        dsimp only
        rw [if_neg hk.1]
        exact o1 k (fun f hf e => hk.2 (List.mem_map.2 ⟨f, List.mem_range.2 hf, e.symm⟩))
      · exact { w with B := q1.congr (fun f hf => by rw [z3 f hf]), Ws := r1, gradWs := r2, gradB := q2 }
      · dsimp only
        rw [if_pos rfl, z3 f hf]
      · dsimp only
        rw [if_neg (by rw [← hkW f hf]; exact (hne f hf).symm), ← hkW f hf]
        exact m1 f k hf hk
    · obtain ⟨M', j, o, k1, k2, wf, mB, mW⟩ := hr
      refine Ok_ok.2 ⟨M', ⟨.conv (ConvP.mk p.d p.h p.w p.fc p.fh p.fw p.pad p.sv p.sh (fun f => (R.step (T + p.fc) (xm (.bias f)) (p.b f) (g (.bias f) * alpha)).2)
          (fun f c i j => (R.step (T + f) (xm (.filter f c i j)) (p.W f c i j) (g (.filter f c i j) * alpha)).2)),
          fun r => keep (g r * alpha), a, acc⟩, j, o, ?_, (Holds_conv rfl).2 ⟨r.2, rfl, wf⟩, rfl, rfl, ?_⟩
      · show r.2.keyB :: (List.range r.2.Ws.length).map r.2.keyW = c.keyB :: (List.range c.Ws.length).map c.keyW
        rw [k1, k2, wf.Ws.1, hl]
      · refine ⟨fun q hq => (by cases hq), fun q hq => ?_⟩
        have hq : Stage.conv _ = Stage.conv q := hq
        injection hq with hq
        subst hq
        exact ⟨c.keyB, kW, eK, z1, z2, mB, mW⟩

/-- All layers. -/
theorem Net.updating_stack (ho : KeepOpt upd R keep size J) (alpha : α) : ∀ {net : Net α} {sts : List (SSt α)} {xs : List (RSt α μ)} {s : σ} {T : Nat} {M : Nat → Nat → μ},
    net.Holds sts → sts.map (·.s) = xs.map (·.s) → List.Forall₂ (SIs size M) (net.map Layer.keys) xs → net.keys.Nodup → J s T M →
    ∃ r, Net.updating upd alpha s net = .ok r ∧ ∃ M' sts' xs', J r.1 (T + (xs.map (·.s.arrays)).sum) M' ∧ (∀ k, k ∉ net.keys → M' k = M k) ∧
      r.2.map Layer.keys = net.map Layer.keys ∧ r.2.Holds sts' ∧ sts'.map (·.acc) = sts.map (·.acc) ∧ sts'.map SSt.carry = xs'.map RSt.carry ∧
      (∀ (hand : RSt α μ → (PRef → α) → PRef → α) (Gs : List (PRef → α)), List.zipWith hand xs Gs = sts.map SSt.used → xs.length = Gs.length → xs' = R.stages hand keep alpha T xs Gs) ∧
      List.Forall₂ (SIs size M') (net.map Layer.keys) xs' := by
  intro net sts xs s T M h
  rw [Net.updating_eq]
  unfold Net.Holds at h
  induction h generalizing s T M xs with
  | nil =>
    intro hs _ _ hJ
    have : xs = [] := by simpa using hs.symm
    subst this
    exact ⟨_, rfl, M, [], [], hJ, fun _ _ => rfl, rfl, .nil, rfl, rfl, fun _ Gs _ _ => (by cases Gs <;> rfl), .nil⟩
  | @cons l st net sts hl _ ih =>
    intro hs hx hn hJ
    cases xs with
    | nil => simp at hs
    | cons x xs =>
    rw [List.map_cons, List.map_cons] at hs
    injection hs with hs0 hs
    rw [List.map_cons] at hx
    cases hx with
    | cons hx hxs =>
    have hn' : (l.keys ++ Net.keys net).Nodup := hn
    rw [List.nodup_append] at hn'
    obtain ⟨n1, n2, n3⟩ := hn'
    obtain ⟨r, e, M1, st', j1, o1, k1, h1, a1, c1, i1⟩ := Layer.update_rule ho hl hs0 hx n1 hJ alpha
    have hrest : List.Forall₂ (SIs size M1) (net.map Layer.keys) xs := by
      rw [List.forall₂_map_left_iff] at hxs ⊢
      have hsub : ∀ l' ∈ net, ∀ k ∈ l'.keys, k ∉ l.keys := fun l' hl' k hk hk2 => n3 k hk2 k (List.mem_flatMap.2 ⟨l', hl', hk⟩) rfl
      clear * - hxs hsub o1
      induction hxs with
      | nil => exact .nil
      | @cons l' y net xs hy _ ih => exact .cons (hy.congr (fun k hk => o1 k (hsub l' (by simp) k hk))) (ih (fun l2 hl2 => hsub l2 (by simp [hl2])))
    obtain ⟨t, e', M2, sts', xs', j2, o2, k2, h2, a2, c2, st2, i2⟩ := ih hs hrest n2 j1
    refine ⟨(t.1, r.2 :: t.2), ?_, M2, st' :: sts', R.move keep alpha T x st.used :: xs', ?_, fun k hk => ?_, by rw [List.map_cons, List.map_cons, k1, k2],
      .cons h1 h2, by rw [List.map_cons, List.map_cons, a1, a2], by rw [List.map_cons, List.map_cons, c1, c2], fun hand Gs hg hlen => ?_, ?_⟩
    · unfold eachM
      rw [e, bind_ok]; dsimp only
      rw [e', bind_ok]; rfl
    · rw [List.map_cons, List.sum_cons, ← Nat.add_assoc]; exact j2
    · have hk' : k ∉ l.keys ++ Net.keys net := hk
      rw [List.mem_append, not_or] at hk'
      rw [o2 k hk'.2, o1 k hk'.1]
    · cases Gs with
      | nil => simp at hlen
      | cons G Gs =>
        rw [List.zipWith_cons_cons, List.map_cons] at hg
        injection hg with hg0 hg
        show _ = R.move keep alpha T x (hand x G) :: R.stages hand keep alpha (T + x.s.arrays) xs Gs
        rw [hg0, st2 hand Gs hg (by simpa using hlen)]
    · rw [List.map_cons]
      exact .cons (i1.congr (fun k hk => o2 k (fun hk2 => n3 k hk k hk2 rfl))) i2

end

section
variable [Field α] [LT α] [DecidableLT α] [DecidableEq α] {upd : Upd σ α} {R : Rule α μ} {keep : α → α} {size : Nat → Nat} {J : σ → Nat → (Nat → Nat → μ) → Prop}

/-- A training object in the state `X`. -/
def StackT (size : Nat → Nat) (J : σ → Nat → (Nat → Nat → μ) → Prop) (a b : Nat × Nat × Nat) (dL : (Nat → α) → (Nat → α) → Nat → α) (clean : Bool)
    (X : Nat × List (RSt α μ)) (x : σ × Train α) : Prop :=
  ∃ (M : Nat → Nat → μ) (sts : List (SSt α)), J x.1 X.1 M ∧ x.2.Holds sts a b dL ∧ x.2.net.keys.Nodup ∧ sts.map SSt.carry = X.2.map RSt.carry ∧
    List.Forall₂ (SIs size M) (x.2.net.map Layer.keys) X.2 ∧ (clean = true → ∀ st ∈ sts, st.acc = false)

theorem carry_stages {sts : List (SSt α)} {xs : List (RSt α μ)} (h : sts.map SSt.carry = xs.map RSt.carry) : sts.map (·.s) = xs.map (·.s) := by
  have := congrArg (List.map Prod.fst) h
  rw [List.map_map, List.map_map] at this
  exact this

theorem move_shape (R : Rule α μ) (keep : α → α) (alpha : α) (T : Nat) (x : RSt α μ) (H : PRef → α) :
    (R.move keep alpha T x H).s.sin = x.s.sin ∧ (R.move keep alpha T x H).s.sout = x.s.sout ∧ (R.move keep alpha T x H).s.useA true = x.s.useA true := by
  obtain ⟨s, c, m⟩ := x
  cases s <;> exact ⟨rfl, rfl, rfl⟩

theorem stages_shape (R : Rule α μ) (hand : RSt α μ → (PRef → α) → PRef → α) (keep : α → α) (alpha : α) : ∀ (T : Nat) (xs : List (RSt α μ)) (Gs : List (PRef → α)), xs.length = Gs.length →
    (R.stages hand keep alpha T xs Gs).map (fun x => (x.s.sin, x.s.sout, x.s.useA true)) = xs.map (fun x => (x.s.sin, x.s.sout, x.s.useA true))
  | _, [], Gs, _ => by cases Gs <;> rfl
  | T, x :: xs, [], h => by simp at h
  | T, x :: xs, G :: Gs, h => by
    show _ :: _ = _ :: _
    obtain ⟨h1, h2, h3⟩ := move_shape R keep alpha T x (hand x G)
    rw [stages_shape R hand keep alpha _ xs Gs (by simpa using h)]
    dsimp only
    rw [h1, h2, h3]

theorem stages_same (R : Rule α μ) (hand : RSt α μ → (PRef → α) → PRef → α) (keep : α → α) (alpha : α) (T : Nat) (xs : List (RSt α μ)) (Gs : List (PRef → α)) (h : xs.length = Gs.length) :
    SameShape (xs.map (·.s)) ((R.stages hand keep alpha T xs Gs).map (·.s)) := by
  have := stages_shape R hand keep alpha T xs Gs h
  have h1 := congrArg (List.map (fun y : (Nat × Nat × Nat) × (Nat × Nat × Nat) × Bool => y.1)) this
  have h2 := congrArg (List.map (fun y : (Nat × Nat × Nat) × (Nat × Nat × Nat) × Bool => y.2.2)) this
  rw [List.map_map, List.map_map] at h1 h2
  unfold SameShape
  rw [List.map_map, List.map_map, List.map_map, List.map_map]
  exact ⟨h1.symm, h2.symm⟩

/-- The gradients in use, once a pass has delivered `Gs`. -/
theorem piled_totals {xs : List (RSt α μ)} (Gs : List (PRef → α)) : List.zipWith piled xs Gs = totals (xs.map RSt.carry) Gs := by
  unfold totals
  rw [List.zipWith_map_left]
  rfl

theorem StackT.finish (ho : KeepOpt upd R keep size J) {a b : Nat × Nat × Nat} {dL : (Nat → α) → (Nat → α) → Nat → α} {s : σ} {u : Train α} {T : Nat} {xs : List (RSt α μ)}
    {M : Nat → Nat → μ} (hJ : J s T M) {sts : List (SSt α)} (hu : u.Holds sts a b dL) (hn : u.net.keys.Nodup) (hs : sts.map (·.s) = xs.map (·.s))
    (hx : List.Forall₂ (SIs size M) (u.net.map Layer.keys) xs) (alpha : α) (grads : List (Stage α) → List (PRef → α)) (hg : sts.map SSt.used = totals (xs.map RSt.carry) (grads (xs.map (·.s))))
    (hlen : xs.length = (grads (xs.map (·.s))).length) (cl : Bool) (hc : cl = true → ∀ st ∈ sts, st.acc = false) :
    ∃ x', Train.updating upd alpha (s, u) = .ok x' ∧ StackT size J a b dL cl (R.stackStep piled keep alpha grads (T, xs)) x' := by
  obtain ⟨r, e, M', sts', xs', j, _, k', h', a', c', st', i'⟩ := Net.updating_stack ho alpha hu.net hs hx hn hJ
  have ex := st' piled (grads (xs.map (·.s))) (by rw [piled_totals, hg]) hlen
  subst ex
  have hl : sts'.length = sts.length := by have := congrArg List.length a'; simpa using this
  refine ⟨(r.1, { u with net := r.2 }), ?_, M', sts', j, ⟨h', hl ▸ hu.two, hl ▸ hu.word, StackFits.congr ?_ hu.fits, hu.delta, hu.loss⟩, ?_, c', ?_, ?_⟩
  · unfold Train.updating
    rw [e, bind_ok]; rfl
  · have h1 := congrArg (List.map (fun s : Stage α => (s.sin, s.sout))) hs
    have h2 := congrArg (List.map (fun s : Stage α => (s.sin, s.sout))) (carry_stages c')
    rw [h1, h2]
    have h3 := stages_shape R piled keep alpha T xs _ hlen
    have h4 := congrArg (List.map (fun y : (Nat × Nat × Nat) × (Nat × Nat × Nat) × Bool => (y.1, y.2.1))) h3
    rw [List.map_map, List.map_map] at h4
    rw [List.map_map, List.map_map]
    exact h4.symm
  · show (r.2.flatMap Layer.keys).Nodup
    have : r.2.flatMap Layer.keys = u.net.flatMap Layer.keys := by rw [List.flatMap_def, List.flatMap_def, k']
    rw [this]; exact hn
  · show List.Forall₂ _ (r.2.map Layer.keys) _
    rw [k']; exact i'
  · intro e st hst
    have h1 : st.acc ∈ sts'.map (·.acc) := List.mem_map_of_mem hst
    rw [a'] at h1
    obtain ⟨st1, hb, hb2⟩ := List.mem_map.1 h1
    rw [← hb2]; exact hc e st1 hb

theorem keys_nodup {u v : Train α} (e : u.net.map Layer.keys = v.net.map Layer.keys) (h : v.net.keys.Nodup) : u.net.keys.Nodup := by
  have : u.net.keys = v.net.keys := by
    show u.net.flatMap Layer.keys = v.net.flatMap Layer.keys
    rw [List.flatMap_def, List.flatMap_def, e]
  rw [this]; exact h

theorem accRun_keys {idata odata : List (Ten α)} {t u : Train α} {lo k : Nat}
    (h : (do let t ← t.reseting; forN k t (fun i t => t.sampleAcc idata odata (lo + i))) = .ok u) : u.net.map Layer.keys = t.net.map Layer.keys := by
  obtain ⟨t1, e1, h⟩ := res_bind_inv h
  rw [← Train.reseting_keys e1]
  refine forN_keeps (fun t : Train α => t.net.map Layer.keys) (fun i t t' he => ?_) h
  unfold Train.sampleAcc at he
  obtain ⟨t2, e2, he⟩ := res_bind_inv he
  rw [Train.accumulating_keys he, Train.sample_keys e2]

/-- One averaged step. -/
theorem StackT.step (ho : KeepOpt upd R keep size J) {a b : Nat × Nat × Nat} {dL : (Nat → α) → (Nat → α) → Nat → α} {cl : Bool} {X : Nat × List (RSt α μ)} {x : σ × Train α}
    {idata odata : List (Ten α)} {vs : List ((Nat → α) × (Nat → α))} (hd : StackData (X.2.map (·.s)) b idata odata vs)
    (h : StackT size J a b dL cl X x) {lo k : Nat} (hk : lo + k ≤ vs.length) (hk1 : 1 ≤ k) (alpha : α) :
    ∃ x', TEv.run upd idata odata x (stepTrace alpha lo k) = .ok x' ∧
      StackT size J a b dL false (R.stackStep piled keep alpha (fun ss => stackSum dL ss ((vs.drop lo).take k)) X) x' := by
  obtain ⟨s, t⟩ := x
  obtain ⟨T, xs⟩ := X
  obtain ⟨M, sts, hJ, hA, hn, hc, hx, _⟩ := h
  dsimp only at hJ hA hx hn hc hd
  have hs := carry_stages hc
  obtain ⟨u, e, sts1, hu, s1, acc1, tot1⟩ := hA.accRun (hs ▸ hd) hk
  have ek := accRun_keys e
  have hused := totals_used (fun st hst => by rw [acc1 st hst]; exact decide_eq_true (by omega))
  obtain ⟨x', e', h'⟩ := StackT.finish ho hJ hu (keys_nodup ek hn) (s1.trans hs) (by rw [ek]; exact hx) alpha (fun ss => stackSum dL ss ((vs.drop lo).take k))
    (by rw [hused, tot1, hc, hs]) (by rw [stackSum_length]; simp) false (fun h => by simp at h)
  refine ⟨x', ?_, h'⟩
  rw [run_step, ← bind_assoc, e, bind_ok]; exact e'

theorem stackStep_same (R : Rule α μ) (hand : RSt α μ → (PRef → α) → PRef → α) (keep : α → α) (alpha : α) (dL : (Nat → α) → (Nat → α) → Nat → α) (vs : List ((Nat → α) × (Nat → α))) (X : Nat × List (RSt α μ)) :
    SameShape (X.2.map (·.s)) ((R.stackStep hand keep alpha (fun ss => stackSum dL ss vs) X).2.map (·.s)) :=
  stages_same R hand keep alpha X.1 X.2 _ (by rw [stackSum_length]; simp)

theorem StackT.steps (ho : KeepOpt upd R keep size J) {a b : Nat × Nat × Nat} {dL : (Nat → α) → (Nat → α) → Nat → α}
    {idata odata : List (Ten α)} {vs : List ((Nat → α) × (Nat → α))} (alpha : α) :
    ∀ (ws : List (Nat × Nat)), (∀ w ∈ ws, w.1 + w.2 ≤ vs.length ∧ 1 ≤ w.2) → ∀ {cl : Bool} {X : Nat × List (RSt α μ)} {x : σ × Train α}, StackData (X.2.map (·.s)) b idata odata vs →
      StackT size J a b dL cl X x →
    ∃ x', TEv.run upd idata odata x (ws.flatMap (fun w => stepTrace alpha w.1 w.2)) = .ok x' ∧
      StackT size J a b dL false (ws.foldl (fun X w => R.stackStep piled keep alpha (fun ss => stackSum dL ss ((vs.drop w.1).take w.2)) X) X) x'
  | [], _, cl, X, x, _, ⟨M, A, h1, h2, h3, h4, h5, _⟩ => ⟨x, rfl, M, A, h1, h2, h3, h4, h5, fun h => by simp at h⟩
  | w :: ws, hw, cl, X, x, hd, h => by
    obtain ⟨h1, h2⟩ := hw w (by simp)
    obtain ⟨x1, e1, h⟩ := h.step ho hd h1 h2 alpha
    obtain ⟨x2, e2, h⟩ := StackT.steps ho alpha ws (fun w hw' => hw w (by simp [hw'])) (hd.congr (stackStep_same R piled keep alpha dL _ X)) h
    exact ⟨x2, by rw [List.flatMap_cons, TEv.run_append, e1, bind_ok, e2], h⟩

/-- One round of stochastic training. -/
theorem StackT.sto (ho : KeepOpt upd R keep size J) {a b : Nat × Nat × Nat} {dL : (Nat → α) → (Nat → α) → Nat → α} {X : Nat × List (RSt α μ)} {x : σ × Train α}
    {idata odata : List (Ten α)} {vs : List ((Nat → α) × (Nat → α))} (hd : StackData (X.2.map (·.s)) b idata odata vs)
    (h : StackT size J a b dL true X x) {i : Nat} {vw : (Nat → α) × (Nat → α)} (e : vs[i]? = some vw) :
    ∃ x', TEv.run upd idata odata x [.sample i, .update 1] = .ok x' ∧ StackT size J a b dL true (R.stackStep piled keep 1 (fun ss => stackSum dL ss [vw]) X) x' := by
  obtain ⟨s, t⟩ := x
  obtain ⟨T, xs⟩ := X
  obtain ⟨M, sts, hJ, hA, hn, hc, hx, cA⟩ := h
  have cA := cA rfl
  dsimp only at hJ hA hx hn hc hd
  have hs := carry_stages hc
  obtain ⟨u, e₁, hu⟩ := hA.sample (hs ▸ hd) e
  have ek := Train.sample_keys e₁
  have hg : (stackSample dL (sts.map (·.s)) vw).length = sts.length := by rw [stackSample_length]; simp
  have hcl : ∀ st ∈ addG sts (stackSample dL (sts.map (·.s)) vw), st.acc = false := by
    intro st hst
    unfold addG at hst
    obtain ⟨j, hj, e⟩ := List.getElem_of_mem hst
    rw [List.getElem_zipWith] at e
    rw [← e]
    exact cA (sts[j]'(by have := hj; simp at this; omega)) (List.getElem_mem _)
  have key : ∀ (sts : List (SSt α)) (G : List (PRef → α)), (∀ st ∈ sts, st.acc = false) → G.length = sts.length →
      (addG sts G).map SSt.used = totals (sts.map SSt.carry) G := by
    intro sts
    induction sts with
    | nil => intro G _ _; simp [addG, totals]
    | cons st sts ih =>
      intro G hc hl
      cases G with
      | nil => simp at hl
      | cons G0 G =>
        have := ih G (fun st hst => hc st (by simp [hst])) (by simpa using hl)
        have h0 := hc st (by simp)
        simp only [addG, totals, List.zipWith_cons_cons, List.map_cons, List.cons.injEq] at this ⊢
        refine ⟨?_, this⟩
        obtain ⟨s, g, a, acc⟩ := st
        obtain rfl : acc = false := h0
        cases s <;> rfl
  obtain ⟨x', e', h'⟩ := StackT.finish ho hJ hu (keys_nodup ek hn) ((addG_s sts _ hg).trans hs) (by rw [ek]; exact hx) 1 (fun ss => stackSum dL ss [vw])
    (by rw [key sts _ cA hg, hc, hs, stackSum_one]) (by rw [stackSum_length]; simp) true (fun _ => hcl)
  refine ⟨x', ?_, h'⟩
  unfold TEv.run TEv.exec; dsimp only
  rw [e₁, bind_ok, pure_eq_ok, bind_ok]
  unfold TEv.run TEv.exec; dsimp only
  rw [e', bind_ok]; rfl

theorem StackT.stos (ho : KeepOpt upd R keep size J) {a b : Nat × Nat × Nat} {dL : (Nat → α) → (Nat → α) → Nat → α}
    {idata odata : List (Ten α)} {vs : List ((Nat → α) × (Nat → α))} :
    ∀ (is : List Nat), (∀ i ∈ is, i < vs.length) → ∀ {X : Nat × List (RSt α μ)} {x : σ × Train α}, StackData (X.2.map (·.s)) b idata odata vs → StackT size J a b dL true X x →
    ∃ x', TEv.run upd idata odata x (stoTrace is) = .ok x' ∧
      StackT size J a b dL true ((is.filterMap (fun i => vs[i]?)).foldl (fun X vw => R.stackStep piled keep 1 (fun ss => stackSum dL ss [vw]) X) X) x'
  | [], _, X, x, _, h => ⟨x, rfl, h⟩
  | i :: is, hw, X, x, hd, h => by
    have hi : i < vs.length := hw i (by simp)
    have e : vs[i]? = some vs[i] := List.getElem?_eq_getElem hi
    obtain ⟨x1, e1, h⟩ := h.sto ho hd e
    obtain ⟨x2, e2, h⟩ := StackT.stos ho is (fun j hj => hw j (by simp [hj])) (hd.congr (stackStep_same R piled keep 1 dL _ X)) h
    refine ⟨x2, ?_, ?_⟩
    · rw [stoTrace, List.flatMap_cons, TEv.run_append, e1, bind_ok]; exact e2
    · rw [List.filterMap_cons, e]; exact h

end

end Trixy
