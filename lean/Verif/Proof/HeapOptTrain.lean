import Verif.Proof.HeapOpt
/- Training with an optimizer whose state is in memory follows the training with values. -/
namespace Trixy
set_option linter.unusedSectionVars false

variable {α γ ρ σ τ : Type}

/-- What is said about the state in memory does not depend on the allocations before number `N`. -/
def Steady (N : Nat) (R : Heap α → τ → σ → Prop) : Prop :=
  ∀ (H H' : Heap α) (s : τ) (v : σ) (ws : List Obj), R H s v → H.Only H' ws → (∀ w ∈ ws, w.Below N) → R H' s v

theorem HMom.steady (N : Nat) : Steady (α := α) N (HMom.Is N) := fun _ _ _ _ _ h ho hw => ⟨h.tabs.frame ho hw, h.lr, h.mu⟩
theorem HAda.steady (N : Nat) : Steady (α := α) N (HAda.Is N) := fun _ _ _ _ _ h ho hw => ⟨h.tabs.frame ho hw, h.lr, h.beta, h.rbeta⟩
theorem HAdam.steady (N : Nat) : Steady (α := α) N (HAdam.Is N) := fun _ _ _ _ _ h ho hw =>
  ⟨h.tabs.frame ho hw, h.lr, h.beta1, h.beta2, h.rbeta1, h.rbeta2, h.tbeta1, h.tbeta2⟩

/-! ### Layers -/

/-- The objects have these contents and the optimizer has this value; since `H0`, before number `N`, only these objects have changed. -/
structure InUpd (N : Nat) (R : Heap α → τ → σ → Prop) (os : List Obj) (H0 H : Heap α) (s : τ) (v : σ) (bs : List (Buf α)) : Prop where
  rel : R H s v
  held : H.Held os bs
  only : H0.OnlyBelow N H os
  le : N ≤ H.next

section InUpd
variable {addr : Ptr → Nat} {N : Nat} {R : Heap α → τ → σ → Prop} {hu : HUpd τ α} {u : Upd σ α} {os : List Obj} {H0 H H' : Heap α} {s : τ} {v v' : σ}
  {bs : List (Buf α)}

theorem InUpd.set (h : InUpd N R os H0 H s v bs) (hR : Steady N R) (hb : ∀ o ∈ os, o.Below N) (hs : AllApart os) {k : Nat} {o : Obj} {b : Buf α}
    (hk : os[k]? = some o) (h1 : H.Sets H' o b) : InUpd N R os H0 H' s v (bs.set k b) :=
  ⟨hR _ _ _ _ _ h.rel h1.2 (fun w hw => by rw [List.mem_singleton.1 hw]; exact hb o (List.mem_of_getElem? hk)), h.held.step hs hk h1,
    h.only.trans ((h1.only hk).below N), by rw [h1.2.1]; exact h.le⟩

theorem Heap.Held.step2b {p g : Obj} {b c : Buf α} (h : H.Held os bs) (hs : AllApart os) (hbl : ∀ o ∈ os, o.Below N) {i j : Nat}
    (hi : os[i]? = some p) (hj : os[j]? = some g) (hp : H'.Keeps p b) (hg : H'.Keeps g c)
    (ho : H.OnlyBelow N H' [p, g]) : H'.Held os ((bs.set i b).set j c) := by
  refine List.forall₂_iff_get.2 ⟨by rw [List.length_set, List.length_set]; exact h.len, fun k hk hk' => ?_⟩
  simp only [List.get_eq_getElem] at *
  rw [List.getElem_set, List.getElem_set]
  by_cases hjk : j = k
  · subst hjk
    rw [if_pos rfl]
    rw [List.getElem?_eq_getElem hk] at hj
    rw [Option.some.inj hj]
    exact hg
  · rw [if_neg hjk]
    by_cases hik : i = k
    · subst hik
      rw [if_pos rfl]
      rw [List.getElem?_eq_getElem hk] at hi
      rw [Option.some.inj hi]
      exact hp
    · rw [if_neg hik]
      have hl := h.len
      have := (List.forall₂_iff_get.1 h).2 k hk (by omega)
      refine Heap.Keeps.below this (hbl _ (List.getElem_mem hk)) ho (fun w hw => ?_)
      rcases List.mem_cons.1 hw with rfl | hw
      · exact hs.at hi (List.getElem?_eq_getElem hk) hik
      · rw [List.mem_singleton.1 hw]; exact hs.at hj (List.getElem?_eq_getElem hk) hjk

theorem Heap.OnlyBelow.of2 {p g : Obj} {i j : Nat} (hi : os[i]? = some p) (hj : os[j]? = some g) (ho : H.OnlyBelow N H' [p, g]) : H.OnlyBelow N H' os :=
  ho.mono (fun w hw => by
    rcases List.mem_cons.1 hw with rfl | hw
    · exact List.mem_of_getElem? hi
    · rw [List.mem_singleton.1 hw]; exact List.mem_of_getElem? hj)

theorem InUpd.upd (hfo : HUpd.FollowsIn addr N R hu u) (h : InUpd N R os H0 H s v bs) (hb : ∀ o ∈ os, o.Below N) (hs : AllApart os) {i j : Nat} {p g : Obj}
    {bp bg bp' bg' : Buf α} (hi : os[i]? = some p) (hj : os[j]? = some g) (hij : i ≠ j) (hbi : bs[i]? = some bp) (hbj : bs[j]? = some bg)
    (e : u v (addr p.data) bp bg = .ok (v', bp', bg')) :
    Ok (hu H s p g) (fun r => InUpd N R os H0 r.1 r.2 v' ((bs.set i bp').set j bg')) :=
  (hfo H s v v' p g bp bg bp' bg' h.rel h.le (hb p (List.mem_of_getElem? hi)) (hb g (List.mem_of_getElem? hj)) (h.held.at hi hbi) (h.held.at hj hbj)
    (hs.at hi hj hij) e).mono (fun r q => ⟨q.1, h.held.step2b hs hb hi hj q.2.1 q.2.2.1 q.2.2.2, h.only.trans (q.2.2.2.of2 hi hj),
      h.le.trans q.2.2.2.1⟩)

variable [Zero α] [Add α] [Mul α] [_root_.One α] [DecidableEq α]

theorem HFC.update_in (hfo : HUpd.FollowsIn addr N R hu u) (hR : Steady N R) {h : HFC α} {l l' : FC α} {alpha : α} (hf : h.Fits addr l)
    (h0 : InUpd N R h.objs H0 H s v l.bufs) (hb : ∀ o ∈ h.objs, o.Below N) (hs : AllApart h.objs)
    (e : FC.update u v alpha l = .ok (v', l')) :
    Ok (h.update hu H s alpha) (fun r => h.Fits addr l' ∧ InUpd N R h.objs H0 r.1 r.2 v' l'.bufs) := by
  unfold FC.update at e
  unfold HFC.update
  rw [hf.acc]
  cases hacc : l.accumulated with
  | true =>
    rw [hacc, if_pos rfl] at e
    rw [if_pos rfl]
    obtain ⟨⟨s1, B1, g1, W1, g2⟩, e0, e⟩ := res_inv e
    cases e
    unfold FC.updateWith at e0
    obtain ⟨gb, e1, e0⟩ := res_inv e0
    obtain ⟨gw, e2, e0⟩ := res_inv e0
    obtain ⟨⟨sa, Ba, ga⟩, e3, e0⟩ := res_inv e0
    dsimp only at e0
    obtain ⟨⟨sb, Wb, gb'⟩, e4, e0⟩ := res_inv e0
    cases e0
    unfold HFC.updateWith
    refine (scaleUnlessOne_sim (h0.held.at (i := 6) rfl rfl) e1).bind (fun H1 h1 => ?_)
    have m1 := h0.set hR hb hs (k := 6) rfl h1
    refine (scaleUnlessOne_sim (m1.held.at (i := 7) rfl rfl) e2).bind (fun H2 h2 => ?_)
    have m2 := m1.set hR hb hs (k := 7) rfl h2
    rw [hf.keyB] at e3
    refine (m2.upd hfo hb hs (i := 0) (j := 6) rfl rfl (by decide) rfl rfl e3).bind (fun ⟨H3, t3⟩ m3 => ?_)
    dsimp only at m3 ⊢
    rw [hf.keyW] at e4
    refine (m3.upd hfo hb hs (i := 1) (j := 7) rfl rfl (by decide) rfl rfl e4).mono (fun r h4 => ?_)
    exact ⟨{ hf with acc := hf.acc.trans hacc }, h4⟩
  | false =>
    rw [hacc, if_neg (by decide)] at e
    rw [if_neg (by decide)]
    obtain ⟨⟨s1, B1, g1, W1, g2⟩, e0, e⟩ := res_inv e
    cases e
    unfold FC.updateWith at e0
    obtain ⟨gb, e1, e0⟩ := res_inv e0
    obtain ⟨gw, e2, e0⟩ := res_inv e0
    obtain ⟨⟨sa, Ba, ga⟩, e3, e0⟩ := res_inv e0
    dsimp only at e0
    obtain ⟨⟨sb, Wb, gb'⟩, e4, e0⟩ := res_inv e0
    cases e0
    unfold HFC.updateWith
    refine (scaleUnlessOne_sim (h0.held.at (i := 4) rfl rfl) e1).bind (fun H1 h1 => ?_)
    have m1 := h0.set hR hb hs (k := 4) rfl h1
    refine (scaleUnlessOne_sim (m1.held.at (i := 5) rfl rfl) e2).bind (fun H2 h2 => ?_)
    have m2 := m1.set hR hb hs (k := 5) rfl h2
    rw [hf.keyB] at e3
    refine (m2.upd hfo hb hs (i := 0) (j := 4) rfl rfl (by decide) rfl rfl e3).bind (fun ⟨H3, t3⟩ m3 => ?_)
    dsimp only at m3 ⊢
    rw [hf.keyW] at e4
    refine (m3.upd hfo hb hs (i := 1) (j := 5) rfl rfl (by decide) rfl rfl e4).mono (fun r h4 => ?_)
    exact ⟨{ hf with acc := hf.acc.trans hacc }, h4⟩

/-- The convolution object fits and is as in `InUpd`. -/
structure HConv.InAt (addr : Ptr → Nat) (N : Nat) (R : Heap α → τ → σ → Prop) (h : HConv) (H0 H : Heap α) (s : τ) (v : σ) (l : Conv α) : Prop where
  fits : h.Fits addr l
  inu : InUpd N R h.objs H0 H s v l.bufs

theorem HConv.InAt.at' {h : HConv} {l : Conv α} (h1 : HConv.InAt addr N R h H0 H s v l) : HConv.At addr H h H l := ⟨h1.fits, h1.inu.held, Heap.Only.refl _ _⟩

theorem HConv.update_in (hfo : HUpd.FollowsIn addr N R hu u) (hR : Steady N R) {h : HConv} {l l' : Conv α} {alpha : α} (hf : h.Fits addr l)
    (h0' : InUpd N R h.objs H0 H s v l.bufs) (hb : ∀ o ∈ h.objs, o.Below N) (hs : AllApart h.objs) (e : l.update u v alpha = .ok (v', l')) :
    Ok (h.update hu H s alpha) (fun r => h.Fits addr l' ∧ InUpd N R h.objs H0 r.1 r.2 v' l'.bufs) := by
  unfold Conv.update at e
  obtain ⟨Gs, e1, e⟩ := res_inv e
  obtain ⟨gB, e2, e⟩ := res_inv e
  obtain ⟨⟨sx, Ws, Gs1⟩, e3, e⟩ := res_inv e
  dsimp only at e
  obtain ⟨⟨s2, B, gB1⟩, e4, e⟩ := res_inv e
  cases e
  unfold HConv.update
  have h0 : HConv.InAt addr N R h H0 H s v l := ⟨hf, h0'⟩
  have hlen : h.gradWs.length = l.gradWs.length := hf.gradWs.length_eq
  have s1 : Ok (hconvScale alpha H h.gradWs) (fun H' => HConv.InAt addr N R h H0 H' s v { l with gradWs := Gs }) := by
    unfold convScale at e1
    unfold hconvScale
    rw [hlen]
    refine forN_sim (fun (H1 : Heap α) (Gs : List (Ten α)) => HConv.InAt addr N R h H0 H1 s v { l with gradWs := Gs }) h0
      (fun f _ H1 t t' hR' he => ?_) e1
    obtain ⟨G, eG, he⟩ := res_inv he
    obtain ⟨G1, eG1, he⟩ := res_inv he
    unfold Ten.onData at eG1
    obtain ⟨dd, ed, eG1⟩ := res_inv eG1
    cases eG1
    obtain ⟨-, rfl⟩ := lset_ok he
    obtain ⟨o, ho, hk⟩ := hR'.at'.G (lget_ok eG)
    rw [lget_of ho, bind_ok]
    refine (join_sim hk.2.2.2 ed).mono (fun H' q => ⟨(HConv.At.setG (G' := { G with data := dd }) hs hR'.at' ho (lget_ok eG) ⟨rfl, rfl, rfl⟩ q).fits, ?_⟩)
    have := hR'.inu.set hR hb hs (HConv.at_G ho) q
    have e6 := Conv.set_G (l := { l with gradWs := t }) (i := f) (G := { G with data := dd })
    rw [hR'.at'.lenW, e6] at this
    exact this
  refine s1.bind (fun H1 h1 => ?_)
  refine (join_sim h1.at'.gradB e2).bind (fun H2 h2 => ?_)
  have h2' : HConv.InAt addr N R h H0 H2 s v { l with gradWs := Gs, gradB := gB } :=
    ⟨(h1.at'.setGradB hs h2).fits, h1.inu.set hR hb hs (k := 2) rfl h2⟩
  have s3 : Ok (hconvUpdW hu h.Ws.length H2 s h.Ws h.gradWs)
      (fun r => HConv.InAt addr N R h H0 r.1 r.2 sx { l with Ws := Ws, gradWs := Gs1, gradB := gB }) := by
    unfold convUpdW at e3
    unfold hconvUpdW
    rw [h0.at'.lenW]
    refine forN_sim (fun (a : Heap α × τ) (b : σ × List (Ten α) × List (Ten α)) =>
      HConv.InAt addr N R h H0 a.1 a.2 b.1 { l with Ws := b.2.1, gradWs := b.2.2, gradB := gB }) h2' (fun f _ a t t' hRa he => ?_) e3
    obtain ⟨W, eW, he⟩ := res_inv he
    obtain ⟨G, eG, he⟩ := res_inv he
    obtain ⟨⟨sa, w, g⟩, eu, he⟩ := res_inv he
    dsimp only at he
    obtain ⟨Wsa, ea, he⟩ := res_inv he
    obtain ⟨Gsa, eb, he⟩ := res_inv he
    cases he
    obtain ⟨hWl, rfl⟩ := lset_ok ea
    obtain ⟨hGl, rfl⟩ := lset_ok eb
    obtain ⟨o, ho, hk⟩ := hRa.at'.W (lget_ok eW)
    obtain ⟨q, hq, hkq⟩ := hRa.at'.G (lget_ok eG)
    rw [lget_of ho, bind_ok, lget_of hq, bind_ok]
    have hlt := (List.getElem?_eq_some_iff.1 ho).1
    have hne : 5 + f ≠ 5 + (h.Ws.length + f) := by omega
    rw [hRa.fits.keyW f o ho] at eu
    refine (hRa.inu.upd hfo hb hs (HConv.at_W ho) (HConv.at_G hq) hne (Conv.at_W (lget_ok eW)) (by rw [hRa.at'.lenW]; exact Conv.at_G (lget_ok eG)) eu).mono
      (fun r hr => ⟨?_, ?_⟩)
    · obtain ⟨o', ho', hd'⟩ := forall₂_at hRa.fits.Ws (lget_ok eW)
      obtain ⟨q', hq', hdq⟩ := forall₂_at hRa.fits.gradWs (lget_ok eG)
      rw [ho] at ho'; cases ho'
      rw [hq] at hq'; cases hq'
      exact { hRa.fits with
        Ws := forall₂_set hRa.fits.Ws ho (hd'.of ⟨rfl, rfl, rfl⟩), gradWs := forall₂_set hRa.fits.gradWs hq (hdq.of ⟨rfl, rfl, rfl⟩) }
    · rw [hRa.at'.lenW] at hr
      have e5 := Conv.set_W (l := { l with Ws := t.2.1, gradWs := t.2.2, gradB := gB }) (i := f) (W := { W with data := w }) hWl
      dsimp only at e5 hr ⊢
      rw [e5] at hr
      have e6 := Conv.set_G (l := { l with Ws := t.2.1.set f { W with data := w }, gradWs := t.2.2, gradB := gB }) (i := f)
        (G := { G with data := g })
      dsimp only at e6
      rw [List.length_set] at e6
      rw [e6] at hr
      exact hr
  refine s3.bind (fun ⟨H3, t3⟩ h3 => ?_)
  dsimp only at h3 ⊢
  rw [hf.keyB] at e4
  exact (h3.inu.upd hfo hb hs (i := 0) (j := 2) rfl rfl (by decide) rfl rfl e4).mono (fun r hr => ⟨{ h3.fits with }, hr⟩)

theorem HLayer.update_in (hfo : HUpd.FollowsIn addr N R hu u) (hR : Steady N R) {h : HLayer α} {L L' : Layer α} {alpha : α} (hi : HLayer.Is addr H h L)
    (hr : R H s v) (hN : N ≤ H.next) (hb : ∀ o ∈ h.objs, o.Below N) (hs : AllApart h.objs) (e : L.update u v alpha = .ok (v', L')) :
    Ok (h.update hu H s alpha) (fun r => HLayer.Is addr r.1 h L' ∧ R r.1 r.2 v' ∧ H.OnlyBelow N r.1 h.objs ∧ N ≤ r.1.next) := by
  cases hi with
  | fc hf hm =>
    obtain ⟨⟨s1, l'⟩, e1, e⟩ := res_inv e
    cases e
    exact (HFC.update_in hfo hR hf ⟨hr, hm, Heap.OnlyBelow.refl _ _ _, hN⟩ hb hs e1).mono
      (fun r q => ⟨.fc q.1 q.2.held, q.2.rel, q.2.only, q.2.le⟩)
  | conv hf hm =>
    obtain ⟨⟨s1, l'⟩, e1, e⟩ := res_inv e
    cases e
    exact (HConv.update_in hfo hR hf ⟨hr, hm, Heap.OnlyBelow.refl _ _ _, hN⟩ hb hs e1).mono
      (fun r q => ⟨.conv q.1 q.2.held, q.2.rel, q.2.only, q.2.le⟩)
  | pool hf hm => cases e; exact Ok_ok.2 ⟨.pool hf hm, hr, Heap.OnlyBelow.refl _ _ _, hN⟩
  | rawFC hf hm => cases e
  | rawConv hf hm => cases e
  | rawPool hf hm => cases e

end InUpd

/-! ### Networks -/

section Net
variable {addr : Ptr → Nat} {N : Nat} {R : Heap α → τ → σ → Prop} {hu : HUpd τ α} {u : Upd σ α} {H H' : Heap α} {s : τ} {v v' : σ} {net : HNet α} {w w' : Net α}

theorem Heap.Held.below {os ws : List Obj} {bs : List (Buf α)} (h : H.Held os bs) (hb : ∀ o ∈ os, o.Below N) (ho : H.OnlyBelow N H' ws)
    (ha : ∀ w ∈ ws, ∀ o ∈ os, Obj.Apart w o) : H'.Held os bs := by
  refine List.forall₂_iff_get.2 ⟨h.len, fun k hk hk' => ?_⟩
  exact Heap.Keeps.below ((List.forall₂_iff_get.1 h).2 k hk hk') (hb _ (List.getElem_mem hk)) ho (fun w hw => ha w hw _ (List.getElem_mem hk))

theorem HLayer.Is.below {h : HLayer α} {L : Layer α} (hi : HLayer.Is addr H h L) (hb : ∀ o ∈ h.objs, o.Below N) {ws : List Obj} (ho : H.OnlyBelow N H' ws)
    (ha : ∀ w ∈ ws, ∀ o ∈ h.objs, Obj.Apart w o) : HLayer.Is addr H' h L := by
  cases hi with
  | fc hf hm => exact .fc hf (hm.below hb ho ha)
  | conv hf hm => exact .conv hf (hm.below hb ho ha)
  | pool hf hm => exact .pool hf (hm.below hb ho ha)
  | rawFC hf hm => exact .rawFC hf (hm.below hb ho ha)
  | rawConv hf hm => exact .rawConv hf (hm.below hb ho ha)
  | rawPool hf hm => exact .rawPool hf (hm.below hb ho ha)

theorem HNet.Is.stepBelow (hn : HNet.Is addr H net w) (hs : AllApart (HNet.objs net)) (hb : ∀ o ∈ HNet.objs net, o.Below N) {i : Nat} {h : HLayer α}
    {L : Layer α} (e : net[i]? = some h) (hi : HLayer.Is addr H' h L) (ho : H.OnlyBelow N H' h.objs) : HNet.Is addr H' net (w.set i L) := by
  refine List.forall₂_iff_get.2 ⟨by rw [List.length_set]; exact hn.len, fun k hk hk' => ?_⟩
  simp only [List.get_eq_getElem]
  rw [List.length_set] at hk'
  rw [List.getElem_set]
  by_cases hik : i = k
  · subst hik
    rw [if_pos rfl]
    rw [List.getElem?_eq_getElem hk] at e
    rw [Option.some.inj e]
    exact hi
  · rw [if_neg hik]
    have := (List.forall₂_iff_get.1 hn).2 k hk hk'
    exact HLayer.Is.below this (fun o h' => hb o (HNet.mem_objs (List.getElem?_eq_getElem hk) o h')) ho
      (fun w hw o hq => hs.cross e (List.getElem?_eq_getElem hk) hik w hw o hq)

theorem HNet.updating_in [Zero α] [Add α] [Mul α] [_root_.One α] [DecidableEq α] (hfo : HUpd.FollowsIn addr N R hu u) (hR : Steady N R) {alpha : α}
    (hn : HNet.Is addr H net w) (hr : R H s v) (hN : N ≤ H.next) (hb : ∀ o ∈ HNet.objs net, o.Below N) (hs : AllApart (HNet.objs net))
    (e : Net.updating u alpha v w = .ok (v', w')) :
    Ok (HNet.updating hu alpha net H s) (fun r => HNet.Is addr r.1 net w' ∧ R r.1 r.2 v' ∧ H.OnlyBelow N r.1 (HNet.objs net) ∧ N ≤ r.1.next) := by
  unfold Net.updating at e
  unfold HNet.updating
  rw [hn.len]
  refine forN_sim (fun (a : Heap α × τ) (b : σ × Net α) => HNet.Is addr a.1 net b.2 ∧ R a.1 a.2 b.1 ∧ H.OnlyBelow N a.1 (HNet.objs net) ∧ N ≤ a.1.next)
    ⟨hn, hr, Heap.OnlyBelow.refl _ _ _, hN⟩ (fun i _ a b b' hR' he => ?_) e
  obtain ⟨L, f1, he⟩ := res_inv he
  obtain ⟨⟨s1, L1⟩, f2, he⟩ := res_inv he
  obtain ⟨x, f3, he⟩ := res_inv he
  cases he
  obtain ⟨-, rfl⟩ := lset_ok f3
  obtain ⟨r1, r2, r3, r4⟩ := hR'
  obtain ⟨h, eh, hi⟩ := r1.at (lget_ok f1)
  rw [lget_of eh, bind_ok]
  exact (HLayer.update_in hfo hR hi r2 r4 (fun o ho => hb o (HNet.mem_objs eh o ho)) (hs.layer eh) f2).mono
    (fun r q => ⟨r1.stepBelow hs hb eh q.1 q.2.2.1, q.2.1, r3.trans (q.2.2.1.mono (fun w hw => HNet.mem_objs eh w hw)), q.2.2.2⟩)

end Net

/-! ### Training -/

/-- The state of a program that started with the memory `H0`; the allocations from number `N` on belong to the optimizer. -/
structure HTrain.LiveIn (addr : Ptr → Nat) (N : Nat) (R : Heap α → τ → σ → Prop) (H0 : Heap α) (t : HTrain α τ) (st : σ × Train α) : Prop where
  is : t.Is addr (t.opt, st.2)
  rel : R t.heap t.opt st.1
  sep : AllApart t.owned
  ext : H0.Extends t.heap
  place : ∀ o ∈ t.owned, ∃ b, o.data = .at b 0 ∧ H0.next ≤ b ∧ b < N
  le : N ≤ t.heap.next
  alloc : ∀ b, b < N → (t.heap.live b ↔ H0.live b ∨ ∃ o ∈ t.owned, o.data = .at b 0)
  dist : t.owned.Pairwise (fun a c => a.data ≠ c.data)

section Train
variable {addr : Ptr → Nat} {N : Nat} {R : Heap α → τ → σ → Prop} {H0 : Heap α} {t t' : HTrain α τ} {v : σ} {w w' : Train α} {st st' : σ × Train α}
  {X Y : List Obj} {xs ys : List (Ten α)}

theorem HTrain.LiveIn.live (h : HTrain.LiveIn addr N R H0 t st) : HTrain.Live addr H0 t (t.opt, st.2) :=
  ⟨h.is, h.sep, h.ext, fun o ho => by obtain ⟨b, b1, b2, _⟩ := h.place o ho; exact ⟨b, b1, b2⟩⟩

theorem HTrain.LiveIn.below (h : HTrain.LiveIn addr N R H0 t st) : ∀ o ∈ t.owned, o.Below N := fun o ho => by
  obtain ⟨b, b1, _, b3⟩ := h.place o ho; exact ⟨b, 0, b1, b3⟩

theorem HTrain.LiveIn.old (h : HTrain.LiveIn addr N R H0 t st) : H0.next ≤ N := by
  obtain ⟨b, _, b2, b3⟩ := h.place t.delta HTrain.owned_delta
  omega

/-- Work that leaves the optimizer alone. -/
theorem HTrain.LiveIn.after (hR : Steady N R) (h : HTrain.LiveIn addr N R H0 t (v, w)) (hr : HTrain.Run addr t t' (t.opt, w')) :
    HTrain.LiveIn addr N R H0 t' (v, w') := by
  have hl := h.live.after hr
  have ho : t'.opt = t.opt := hr.is.opt
  refine ⟨by rw [ho]; exact hr.is, ?_, hl.sep, hl.ext, by rw [hr.ownedEq]; exact h.place, by rw [hr.only.1]; exact h.le, fun b hb => ?_, by rw [hr.ownedEq]; exact h.dist⟩
  · rw [ho]; exact hR _ _ _ _ _ h.rel hr.only h.below
  · rw [hr.only.2.1, h.alloc b hb, hr.ownedEq]

theorem HTrain.updating_in [Zero α] [Add α] [Mul α] [_root_.One α] [DecidableEq α] {hu : HUpd τ α} {u : Upd σ α} (hfo : HUpd.FollowsIn addr N R hu u)
    (hR : Steady N R) {alpha : α} (h : HTrain.LiveIn addr N R H0 t st) (e : Train.updating u alpha st = .ok st') :
    Ok (t.updating hu alpha) (fun t' => HTrain.LiveIn addr N R H0 t' st') := by
  obtain ⟨⟨s1, n1⟩, e1, e⟩ := res_inv e
  cases e
  unfold HTrain.updating
  refine (HNet.updating_in hfo hR h.is.net h.rel h.le (fun o ho => h.below o (HTrain.owned_net ho)) h.sep.ofOwned e1).bind (fun ⟨H1, s2⟩ q => Ok_ok.2 ?_)
  dsimp only at q
  obtain ⟨q1, q2, q3, q4⟩ := q
  have o1 : t.heap.OnlyBelow N H1 t.owned := q3.mono (fun _ ho => HTrain.owned_net ho)
  have kd : H1.KeepsT t.delta st.2.delta := by
    obtain ⟨d1, d2, d3, d4⟩ := h.is.delta
    exact ⟨d1, d2, d3, d4.below (h.below _ HTrain.owned_delta) q3 h.sep.ofDelta⟩
  refine ⟨⟨rfl, q1, kd, h.is.loss⟩, q2, h.sep, ⟨h.ext.1.trans q3.1, fun b hb => ⟨?_, fun i => ?_⟩⟩, h.place, q4, fun b hb => ?_, h.dist⟩
  · exact (q3.2.1 b (Nat.lt_of_lt_of_le hb h.old)).trans (h.ext.2 b hb).1
  · refine (o1.2.2 b i (Nat.lt_of_lt_of_le hb h.old) (fun w hw pb po e => ?_)).trans ((h.ext.2 b hb).2 i)
    obtain ⟨c, e', hc, _⟩ := h.place w hw
    rw [e'] at e
    cases e
    omega
  · exact (q3.2.1 b hb).trans (h.alloc b hb)

section Loops
variable [Zero α] [_root_.One α] [Add α] [Mul α] [LT α] [DecidableLT α] [DecidableEq α] {hu : HUpd τ α} {u : Upd σ α}

theorem HTrain.reseting_in (hR : Steady N R) (h : HTrain.LiveIn addr N R H0 t (v, w)) (e : w.reseting = .ok w') :
    Ok t.reseting (fun t' => HTrain.LiveIn addr N R H0 t' (v, w')) :=
  (HTrain.reseting_sim (t0 := t) h.sep (.start h.is) e).mono (fun _ q => h.after hR q)

theorem HTrain.sample_in (hR : Steady N R) (hX : H0.Dataset X xs) (hY : H0.Dataset Y ys) (i : Nat) (h : HTrain.LiveIn addr N R H0 t (v, w))
    (e : w.sample xs ys i = .ok w') : Ok (t.sample X Y i) (fun t' => HTrain.LiveIn addr N R H0 t' (v, w')) :=
  (HTrain.sample_sim (t0 := t) h.sep (h.live.data hX) (h.live.data hY) i (.start h.is) e).mono (fun _ q => h.after hR q)

theorem HTrain.sampleAcc_in (hR : Steady N R) (hX : H0.Dataset X xs) (hY : H0.Dataset Y ys) (i : Nat) (h : HTrain.LiveIn addr N R H0 t (v, w))
    (e : w.sampleAcc xs ys i = .ok w') : Ok (t.sampleAcc X Y i) (fun t' => HTrain.LiveIn addr N R H0 t' (v, w')) :=
  (HTrain.sampleAcc_sim (t0 := t) h.sep (h.live.data hX) (h.live.data hY) i (.start h.is) e).mono (fun _ q => h.after hR q)

theorem HTrain.epoch_in (hfo : HUpd.FollowsIn addr N R hu u) (hR : Steady N R) (hX : H0.Dataset X xs) (hY : H0.Dataset Y ys) {alpha : α}
    (h : HTrain.LiveIn addr N R H0 t st) (e : Train.epoch u xs ys alpha st = .ok st') :
    Ok (t.epoch hu X Y alpha) (fun t' => HTrain.LiveIn addr N R H0 t' st') := by
  obtain ⟨w1, e1, e⟩ := res_inv e
  obtain ⟨w2, e2, e⟩ := res_inv e
  unfold HTrain.epoch
  refine (HTrain.reseting_in hR h e1).bind (fun t1 h1 => ?_)
  rw [hX.length_eq]
  refine Ok.bind (P := fun t2 => HTrain.LiveIn addr N R H0 t2 (st.1, w2))
    (forN_sim (fun (a : HTrain α τ) (b : Train α) => HTrain.LiveIn addr N R H0 a (st.1, b)) h1
      (fun i _ a b b' hR' he => HTrain.sampleAcc_in hR hX hY i hR' he) e2) (fun t2 h2 => ?_)
  exact HTrain.updating_in hfo hR h2 e

theorem HTrain.batch_in [Div α] [NatCast α] (hfo : HUpd.FollowsIn addr N R hu u) (hR : Steady N R) (hX : H0.Dataset X xs) (hY : H0.Dataset Y ys) {n : Nat}
    (h : HTrain.LiveIn addr N R H0 t st) (e : Train.batch u xs ys n st = .ok st') :
    Ok (t.batch hu X Y n) (fun t' => HTrain.LiveIn addr N R H0 t' st') := by
  obtain ⟨al, e1, e⟩ := res_inv e
  unfold HTrain.batch
  rw [hX.length_eq, e1, bind_ok]
  exact forN_sim (fun (a : HTrain α τ) (b : σ × Train α) => HTrain.LiveIn addr N R H0 a b) h
    (fun i _ a b b' hR' he => HTrain.epoch_in hfo hR hX hY hR' he) e

theorem HTrain.fill_in (hR : Steady N R) (hX : H0.Dataset X xs) (hY : H0.Dataset Y ys) {limit k k' : Nat}
    (h : HTrain.LiveIn addr N R H0 t (v, w)) (e : w.fill xs ys limit k = .ok (w', k')) :
    Ok (t.fill X Y limit k) (fun r => HTrain.LiveIn addr N R H0 r.1 (v, w') ∧ r.2 = k') :=
  (HTrain.fill_sim (t0 := t) h.sep (h.live.data hX) (h.live.data hY) (.start h.is) e).mono (fun _ q => ⟨h.after hR q.1, q.2⟩)

theorem HTrain.miniStep_in (hfo : HUpd.FollowsIn addr N R hu u) (hR : Steady N R) (hX : H0.Dataset X xs) (hY : H0.Dataset Y ys) {alpha : α} {m : Nat}
    {k : Nat × Nat} {r' : (σ × Train α) × Nat × Nat} (h : HTrain.LiveIn addr N R H0 t st) (e : Train.miniStep u xs ys m alpha (st, k) = .ok r') :
    Ok (HTrain.miniStep hu X Y m alpha (t, k)) (fun r => HTrain.LiveIn addr N R H0 r.1 r'.1 ∧ r.2 = r'.2) := by
  obtain ⟨w1, e1, e⟩ := res_inv e
  obtain ⟨⟨w2, k2⟩, e2, e⟩ := res_inv e
  obtain ⟨s3, e3, e⟩ := res_inv e
  cases e
  unfold HTrain.miniStep
  dsimp only
  refine (HTrain.reseting_in hR h e1).bind (fun t1 h1 => ?_)
  refine (HTrain.fill_in hR hX hY h1 e2).bind (fun ⟨t2, j⟩ h2 => ?_)
  dsimp only at h2 ⊢
  refine (HTrain.updating_in hfo hR h2.1 e3).bind (fun t3 h3 => Ok_ok.2 ⟨h3, ?_⟩)
  rw [h2.2]

theorem HTrain.miniBatch_in [Div α] [NatCast α] (hfo : HUpd.FollowsIn addr N R hu u) (hR : Steady N R) (hX : H0.Dataset X xs) (hY : H0.Dataset Y ys)
    {n m : Nat} (h : HTrain.LiveIn addr N R H0 t st) (e : Train.miniBatch u xs ys n m st = .ok st') :
    Ok (t.miniBatch hu X Y n m) (fun t' => HTrain.LiveIn addr N R H0 t' st') := by
  obtain ⟨al, e1, e⟩ := res_inv e
  obtain ⟨sc, e2, e⟩ := res_inv e
  unfold HTrain.miniBatch
  rw [e1, bind_ok, hX.length_eq, e2, bind_ok]
  refine forN_sim (fun (a : HTrain α τ) (b : σ × Train α) => HTrain.LiveIn addr N R H0 a b) h (fun i _ a b b' hR' he => ?_) e
  obtain ⟨r, e3, he⟩ := res_inv he
  cases he
  unfold HTrain.miniEpoch
  refine Ok.bind (P := fun q => HTrain.LiveIn addr N R H0 q.1 r.1 ∧ q.2 = r.2)
    (forN_sim (fun (a : HTrain α τ × Nat × Nat) (b : (σ × Train α) × Nat × Nat) => HTrain.LiveIn addr N R H0 a.1 b.1 ∧ a.2 = b.2) ⟨hR', rfl⟩
      (fun i _ a b b' hR'' he => ?_) e3) (fun q hq => Ok_ok.2 hq.1)
  obtain ⟨a1, a2⟩ := a
  obtain ⟨b1, b2⟩ := b
  obtain ⟨hR1, hR2⟩ := hR''
  dsimp only at hR1 hR2
  subst hR2
  exact HTrain.miniStep_in hfo hR hX hY hR1 he

theorem HTrain.stochastic_in (hfo : HUpd.FollowsIn addr N R hu u) (hR : Steady N R) (hX : H0.Dataset X xs) (hY : H0.Dataset Y ys) {n : Nat}
    {gen : Gen γ ρ Nat} {c : γ} {g g' : ρ} (h : HTrain.LiveIn addr N R H0 t st) (e : Train.stochastic u xs ys n gen c g st = .ok (st', g')) :
    Ok (t.stochastic hu X Y n gen c g) (fun r => HTrain.LiveIn addr N R H0 r.1 st' ∧ r.2 = g') := by
  obtain ⟨⟨s1, c1, g1⟩, e1, e⟩ := res_inv e
  cases e
  unfold HTrain.stochastic
  refine Ok.bind (P := fun q => HTrain.LiveIn addr N R H0 q.1 st' ∧ q.2 = (c1, g'))
    (forN_sim (fun (a : HTrain α τ × γ × ρ) (b : (σ × Train α) × γ × ρ) => HTrain.LiveIn addr N R H0 a.1 b.1 ∧ a.2 = b.2) ⟨h, rfl⟩
      (fun i _ a b b' hR' he => ?_) e1) (fun ⟨q1, q2, q3⟩ hq => Ok_ok.2 ⟨hq.1, ?_⟩)
  · obtain ⟨a1, a2⟩ := a
    obtain ⟨b1, b2⟩ := b
    obtain ⟨hR1, hR2⟩ := hR'
    dsimp only at hR1 hR2 he ⊢
    subst hR2
    obtain ⟨k, f1, he⟩ := res_inv he
    obtain ⟨w1, f2, he⟩ := res_inv he
    obtain ⟨s1, f3, he⟩ := res_inv he
    cases he
    rw [hX.length_eq, f1, bind_ok]
    refine (HTrain.sample_in hR hX hY k hR1 f2).bind (fun t1 h1 => ?_)
    exact (HTrain.updating_in hfo hR h1 f3).bind (fun t2 h2 => Ok_ok.2 ⟨h2, rfl⟩)
  · have := hq.2
    dsimp only at this ⊢
    injection this

end Loops

section Exec
variable [Zero α] [_root_.One α] [Add α] [Mul α] [Div α] [NatCast α] [LT α] [DecidableLT α] [DecidableEq α]
variable {hu : HUpd τ α} {u : Upd σ α} {gen : Gen γ ρ Nat}

theorem HTrainOp.exec_in (hfo : HUpd.FollowsIn addr N R hu u) (hR : Steady N R) {g g' : ρ} (h : HTrain.LiveIn addr N R H0 t st)
    {hop : HTrainOp α γ} {op : TrainOp α γ} (hs : hop.Same H0 op) (e : TrainOp.exec u gen (st, g) op = .ok (st', g')) :
    Ok (HTrainOp.exec hu gen (t, g) hop) (fun r => HTrain.LiveIn addr N R H0 r.1 st' ∧ r.2 = g') := by
  cases hs with
  | batch hX hY =>
    obtain ⟨r, e1, e⟩ := res_inv e
    cases e
    exact (HTrain.batch_in hfo hR hX hY h e1).bind (fun t' h' => Ok_ok.2 ⟨h', rfl⟩)
  | mini hX hY =>
    obtain ⟨r, e1, e⟩ := res_inv e
    cases e
    exact (HTrain.miniBatch_in hfo hR hX hY h e1).bind (fun t' h' => Ok_ok.2 ⟨h', rfl⟩)
  | sto hX hY => exact HTrain.stochastic_in hfo hR hX hY h e
  | lossOf hX hY =>
    obtain ⟨⟨v, w⟩, e1, e⟩ := res_inv e
    cases e
    exact (HTrain.lossMean_sim (t0 := t) h.sep (h.live.data hX) (h.live.data hY) (.start h.is) e1).bind (fun r h' => Ok_ok.2 ⟨h.after hR h'.2, rfl⟩)
  | eval ho hx =>
    obtain ⟨w, e1, e⟩ := res_inv e
    cases e
    refine (HTrain.feedforward_sim (t0 := t) h.sep (.start h.is) (hx.extends ho h.ext) (fun l hl o' ho' => ?_) e1).bind
      (fun t' h' => Ok_ok.2 ⟨h.after hR h'.1, rfl⟩)
    exact h.live.apart ho _ (HTrain.owned_net (HNet.mem_objs hl o' (l.scratch_mem o' ho')))
  | setLoss hl =>
    cases e
    exact Ok_ok.2 ⟨⟨⟨rfl, h.is.net, h.is.delta, Or.inr ⟨_, _, rfl, rfl, hl⟩⟩, h.rel, h.sep, h.ext, h.place, h.le, h.alloc, h.dist⟩, rfl⟩

theorem HTrainOp.run_in (hfo : HUpd.FollowsIn addr N R hu u) (hR : Steady N R) {hops : List (HTrainOp α γ)} {ops : List (TrainOp α γ)}
    (hs : List.Forall₂ (HTrainOp.Same H0) hops ops) : ∀ {t : HTrain α τ} {st st' : σ × Train α} {g g' : ρ}, HTrain.LiveIn addr N R H0 t st →
    TrainOp.run u gen (st, g) ops = .ok (st', g') →
    Ok (HTrainOp.run hu gen (t, g) hops) (fun r => HTrain.LiveIn addr N R H0 r.1 st' ∧ r.2 = g') := by
  induction hs with
  | nil => intro t st st' g g' h e; cases e; exact Ok_ok.2 ⟨h, rfl⟩
  | cons h1 _ ih =>
    intro t st st' g g' h e
    obtain ⟨⟨st1, g1⟩, e1, e⟩ := res_inv e
    unfold HTrainOp.run
    refine (HTrainOp.exec_in hfo hR h h1 e1).bind (fun ⟨t1, g2⟩ q => ?_)
    dsimp only at q
    obtain ⟨q1, rfl⟩ := q
    exact ih q1 e

end Exec
end Train

end Trixy
