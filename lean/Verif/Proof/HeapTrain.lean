import Verif.Proof.HeapConv
import Verif.Proof.Word
import Mathlib.Data.Nat.ModEq
/- Networks and training on the free store follow the value-level networks. -/
namespace Trixy
set_option linter.unusedSectionVars false

variable {α γ ρ σ : Type}

section Layer
variable {addr : Ptr → Nat} {H H' : Heap α} {h : HLayer α} {L L' : Layer α}

theorem HLayer.Is.frame (hi : HLayer.Is addr H h L) {ws : List Obj} (ho : H.Only H' ws) (ha : ∀ w ∈ ws, ∀ o ∈ h.objs, Obj.Apart w o) :
    HLayer.Is addr H' h L := by
  cases hi with
  | fc hf hm => exact .fc hf (hm.frame ho ha)
  | conv hf hm => exact .conv hf (hm.frame ho ha)
  | pool hf hm => exact .pool hf (hm.frame ho ha)
  | rawFC hf hm => exact .rawFC hf (hm.frame ho ha)
  | rawConv hf hm => exact .rawConv hf (hm.frame ho ha)
  | rawPool hf hm => exact .rawPool hf (hm.frame ho ha)

theorem HLayer.value_mem (h : HLayer α) : h.value ∈ h.objs := by
  cases h with
  | fc l => exact List.mem_of_getElem? (i := 2) rfl
  | conv l => exact List.mem_of_getElem? (i := 1) rfl
  | pool l => exact List.mem_of_getElem? (i := 0) rfl
  | rawFC l => exact List.mem_of_getElem? (i := 2) rfl
  | rawConv l => exact List.mem_of_getElem? (i := 1) rfl
  | rawPool l => exact List.mem_of_getElem? (i := 0) rfl

theorem HLayer.scratch_mem (h : HLayer α) : ∀ o ∈ h.scratch, o ∈ h.objs := by
  intro o ho
  cases h with
  | fc l => rw [List.mem_singleton.1 ho]; exact List.mem_of_getElem? (i := 3) rfl
  | conv l => rw [List.mem_singleton.1 ho]; exact List.mem_of_getElem? (i := 1) rfl
  | pool l =>
    rcases List.mem_cons.1 ho with rfl | ho
    · exact List.mem_of_getElem? (i := 2) rfl
    · rw [List.mem_singleton.1 ho]; exact List.mem_of_getElem? (i := 0) rfl
  | rawFC l => rw [List.mem_singleton.1 ho]; exact List.mem_of_getElem? (i := 2) rfl
  | rawConv l => rw [List.mem_singleton.1 ho]; exact List.mem_of_getElem? (i := 1) rfl
  | rawPool l => rw [List.mem_singleton.1 ho]; exact List.mem_of_getElem? (i := 0) rfl

theorem HLayer.Is.value (hi : HLayer.Is addr H h L) : H.KeepsT h.value L.value := by
  cases hi with
  | fc hf hm => exact hf.value.keeps (hm.at (i := 2) rfl rfl)
  | conv hf hm => exact hf.value.keeps (hm.at (i := 1) rfl rfl)
  | pool hf hm => exact hf.value.keeps (hm.at (i := 0) rfl rfl)
  | rawFC hf hm => exact hf.value.keeps (hm.at (i := 2) rfl rfl)
  | rawConv hf hm => exact hf.value.keeps (hm.at (i := 1) rfl rfl)
  | rawPool hf hm => exact hf.value.keeps (hm.at (i := 0) rfl rfl)

theorem HLayer.Is.delta (hi : HLayer.Is addr H h L) {t : Ten α} (e : L.delta = .ok t) :
    ∃ o, h.delta = .ok o ∧ H.KeepsT o t ∧ o ∈ h.objs := by
  cases hi with
  | fc hf hm => cases e; exact ⟨_, rfl, hf.delta.keeps (hm.at (i := 8) rfl rfl), List.mem_of_getElem? (i := 8) rfl⟩
  | conv hf hm => cases e; exact ⟨_, rfl, hf.delta.keeps (hm.at (i := 3) rfl rfl), List.mem_of_getElem? (i := 3) rfl⟩
  | pool hf hm => cases e; exact ⟨_, rfl, hf.delta.keeps (hm.at (i := 3) rfl rfl), List.mem_of_getElem? (i := 3) rfl⟩
  | rawFC hf hm => cases e
  | rawConv hf hm => cases e
  | rawPool hf hm => cases e

theorem HLayer.forward_sim [Zero α] [_root_.One α] [Add α] [Mul α] [LT α] [DecidableLT α] {x : Obj} {t : Ten α} (hi : HLayer.Is addr H h L)
    (hs : AllApart h.objs) (hx : H.KeepsT x t) (ha : ∀ o ∈ h.scratch, Obj.Apart o x) (e : L.forward t = .ok L') :
    Ok (h.forward H x) (fun H' => HLayer.Is addr H' h L' ∧ H.Only H' h.objs) := by
  cases hi with
  | fc hf hm =>
    obtain ⟨l', e1, e⟩ := res_inv e
    cases e
    exact (HFC.forward_sim hf hm hs hx.2.2.2 (ha _ (List.mem_singleton.2 rfl)) e1).mono (fun H' q => ⟨.fc q.1 q.2.1, q.2.2⟩)
  | conv hf hm =>
    obtain ⟨l', e1, e⟩ := res_inv e
    cases e
    exact (HConv.forward_sim hf hm hs hx (ha _ (List.mem_singleton.2 rfl)) e1).mono (fun H' q => ⟨.conv q.1 q.2.1, q.2.2⟩)
  | pool hf hm =>
    obtain ⟨l', e1, e⟩ := res_inv e
    cases e
    exact (HPool.forward_sim hf hm hs hx (ha _ (List.mem_of_getElem? (i := 0) rfl)) (ha _ (List.mem_of_getElem? (i := 1) rfl)) e1).mono
      (fun H' q => ⟨.pool q.1 q.2.1, q.2.2⟩)
  | rawFC hf hm =>
    obtain ⟨l', e1, e⟩ := res_inv e
    cases e
    exact (HRawFC.forward_sim hf hm hs hx.2.2.2 (ha _ (List.mem_singleton.2 rfl)) e1).mono (fun H' q => ⟨.rawFC q.1 q.2.1, q.2.2⟩)
  | rawConv hf hm =>
    obtain ⟨l', e1, e⟩ := res_inv e
    cases e
    exact (HConv.forwardRaw_sim hf hm hs hx (ha _ (List.mem_singleton.2 rfl)) e1).mono (fun H' q => ⟨.rawConv q.1 q.2.1, q.2.2⟩)
  | rawPool hf hm =>
    obtain ⟨l', e1, e⟩ := res_inv e
    cases e
    exact (HPool.forwardRaw_sim hf hm hx (ha _ (List.mem_singleton.2 rfl)) e1).mono (fun H' q => ⟨.rawPool q.1 q.2.1, q.2.2⟩)

theorem HLayer.backward_sim [Zero α] [Add α] [Mul α] {x d : Obj} {t td : Ten α} {full : Bool} (hi : HLayer.Is addr H h L)
    (hs : AllApart h.objs) (hx : H.KeepsT x t) (hd : H.KeepsT d td) (ha : ∀ o ∈ h.objs, Obj.Apart o x)
    (hb : ∀ o ∈ h.objs, Obj.Apart o d) (e : L.backward t td full = .ok L') :
    Ok (h.backward H x d full) (fun H' => HLayer.Is addr H' h L' ∧ H.Only H' h.objs) := by
  cases hi with
  | fc hf hm =>
    obtain ⟨l', e1, e⟩ := res_inv e
    cases e
    exact (HFC.backward_sim hf hm hs hx.2.2.2 hd.2.2.2 ha hb e1).mono (fun H' q => ⟨.fc q.1 q.2.1, q.2.2⟩)
  | conv hf hm =>
    obtain ⟨l', e1, e⟩ := res_inv e
    cases e
    exact (HConv.backward_sim hf hm hs hx hd ha hb e1).mono (fun H' q => ⟨.conv q.1 q.2.1, q.2.2⟩)
  | pool hf hm =>
    obtain ⟨l', e1, e⟩ := res_inv e
    cases e
    exact (HPool.backward_sim (x := x) hf hm hs hd hb e1).mono (fun H' q => ⟨.pool q.1 q.2.1, q.2.2⟩)
  | rawFC hf hm => cases e
  | rawConv hf hm => cases e
  | rawPool hf hm => cases e

theorem HLayer.update_sim [Zero α] [Add α] [Mul α] [_root_.One α] [DecidableEq α] {hu : HUpd σ α} {u : Upd σ α} (hfo : HUpd.Follows addr hu u)
    {s s' : σ} {alpha : α} (hi : HLayer.Is addr H h L) (hs : AllApart h.objs) (e : L.update u s alpha = .ok (s', L')) :
    Ok (h.update hu H s alpha) (fun r => r.2 = s' ∧ HLayer.Is addr r.1 h L' ∧ H.Only r.1 h.objs) := by
  cases hi with
  | fc hf hm =>
    obtain ⟨⟨s1, l'⟩, e1, e⟩ := res_inv e
    cases e
    exact (HFC.update_sim hfo hf hm hs e1).mono (fun r q => ⟨q.1, .fc q.2.1 q.2.2.1, q.2.2.2⟩)
  | conv hf hm =>
    obtain ⟨⟨s1, l'⟩, e1, e⟩ := res_inv e
    cases e
    exact (HConv.update_sim hfo hf hm hs e1).mono (fun r q => ⟨q.1, .conv q.2.1 q.2.2.1, q.2.2.2⟩)
  | pool hf hm => cases e; exact Ok_ok.2 ⟨rfl, .pool hf hm, Heap.Only.refl _ _⟩
  | rawFC hf hm => cases e
  | rawConv hf hm => cases e
  | rawPool hf hm => cases e

theorem HLayer.reset_sim [Zero α] [Add α] [Mul α] (hi : HLayer.Is addr H h L) (hs : AllApart h.objs) (e : L.reset = .ok L') :
    Ok (h.reset H) (fun r => HLayer.Is addr r.1 r.2 L' ∧ H.Only r.1 h.objs ∧ r.2.objs = h.objs ∧ r.2.value = h.value) := by
  cases hi with
  | fc hf hm =>
    obtain ⟨l', e1, e⟩ := res_inv e
    cases e
    exact (HFC.reset_sim hf hm hs e1).bind (fun ⟨H1, l1⟩ q => Ok_ok.2 ⟨.fc q.1 q.2.1, q.2.2.1, q.2.2.2.1, q.2.2.2.2.1⟩)
  | conv hf hm => cases e; exact Ok_ok.2 ⟨.conv hf hm, Heap.Only.refl _ _, rfl, rfl⟩
  | pool hf hm => cases e; exact Ok_ok.2 ⟨.pool hf hm, Heap.Only.refl _ _, rfl, rfl⟩
  | rawFC hf hm => cases e
  | rawConv hf hm => cases e
  | rawPool hf hm => cases e

theorem HLayer.accumulate_sim [Zero α] [Add α] [Mul α] (hi : HLayer.Is addr H h L) (hs : AllApart h.objs) (e : L.accumulate = .ok L') :
    Ok (h.accumulate H) (fun r => HLayer.Is addr r.1 r.2 L' ∧ H.Only r.1 h.objs ∧ r.2.objs = h.objs ∧ r.2.value = h.value) := by
  cases hi with
  | fc hf hm =>
    obtain ⟨l', e1, e⟩ := res_inv e
    cases e
    exact (HFC.accumulate_sim hf hm hs e1).bind (fun ⟨H1, l1⟩ q => Ok_ok.2 ⟨.fc q.1 q.2.1, q.2.2.1, q.2.2.2.1, q.2.2.2.2.1⟩)
  | conv hf hm => cases e; exact Ok_ok.2 ⟨.conv hf hm, Heap.Only.refl _ _, rfl, rfl⟩
  | pool hf hm => cases e; exact Ok_ok.2 ⟨.pool hf hm, Heap.Only.refl _ _, rfl, rfl⟩
  | rawFC hf hm => cases e
  | rawConv hf hm => cases e
  | rawPool hf hm => cases e

end Layer

section Net
variable {addr : Ptr → Nat} {H0 H H' : Heap α} {net : HNet α} {v : Net α}

theorem AllApart.layer (hs : AllApart (HNet.objs net)) {i : Nat} {h : HLayer α} (e : net[i]? = some h) : AllApart h.objs :=
  (List.pairwise_flatMap.1 hs).1 h (List.mem_of_getElem? e)

theorem AllApart.cross (hs : AllApart (HNet.objs net)) {i j : Nat} {a b : HLayer α} (ha : net[i]? = some a) (hb : net[j]? = some b)
    (hij : i ≠ j) : ∀ x ∈ a.objs, ∀ y ∈ b.objs, Obj.Apart x y := by
  have hp := (List.pairwise_flatMap.1 hs).2
  obtain ⟨hi, rfl⟩ := List.getElem?_eq_some_iff.1 ha
  obtain ⟨hj, rfl⟩ := List.getElem?_eq_some_iff.1 hb
  have := List.pairwise_iff_getElem.1 hp
  intro x hx y hy
  rcases Nat.lt_or_gt_of_ne hij with hlt | hlt
  · exact this i j hi hj hlt x hx y hy
  · exact (this j i hj hi hlt y hy x hx).symm

theorem HNet.mem_objs {i : Nat} {h : HLayer α} (e : net[i]? = some h) : ∀ o ∈ h.objs, o ∈ HNet.objs net :=
  fun _ ho => List.mem_flatMap.2 ⟨h, List.mem_of_getElem? e, ho⟩

theorem HNet.Is.at (hn : HNet.Is addr H net v) {i : Nat} {L : Layer α} (e : v[i]? = some L) : ∃ h, net[i]? = some h ∧ HLayer.Is addr H h L :=
  forall₂_at hn e

theorem HNet.Is.len (hn : HNet.Is addr H net v) : net.length = v.length := List.Forall₂.length_eq hn

/-- Layer `i` changed (and nothing else). -/
theorem HNet.Is.step (hn : HNet.Is addr H net v) (hs : AllApart (HNet.objs net)) {i : Nat} {h h' : HLayer α} {L : Layer α} (e : net[i]? = some h)
    (hi : HLayer.Is addr H' h' L) (ho : H.Only H' h.objs) : HNet.Is addr H' (net.set i h') (v.set i L) := by
  refine List.forall₂_iff_get.2 ⟨by rw [List.length_set, List.length_set]; exact hn.len, fun k hk hk' => ?_⟩
  simp only [List.get_eq_getElem]
  rw [List.length_set] at hk hk'
  rw [List.getElem_set, List.getElem_set]
  by_cases hik : i = k
  · subst hik
    rw [if_pos rfl, if_pos rfl]
    exact hi
  · rw [if_neg hik, if_neg hik]
    have := (List.forall₂_iff_get.1 hn).2 k hk hk'
    exact HLayer.Is.frame this ho (fun w hw o hq => hs.cross e (List.getElem?_eq_getElem hk) hik w hw o hq)

theorem HNet.Is.step' (hn : HNet.Is addr H net v) (hs : AllApart (HNet.objs net)) {i : Nat} {h : HLayer α} {L : Layer α} (e : net[i]? = some h)
    (hi : HLayer.Is addr H' h L) (ho : H.Only H' h.objs) : HNet.Is addr H' net (v.set i L) := by
  have := hn.step hs e hi ho
  rwa [List.set_self' e] at this

theorem Heap.Only.layer {i : Nat} {h : HLayer α} (e : net[i]? = some h) (ho : H.Only H' h.objs) : H.Only H' (HNet.objs net) :=
  ho.mono (fun w hw => HNet.mem_objs e w hw)

theorem HNet.set_objs {i : Nat} {h h' : HLayer α} (e : net[i]? = some h) (eo : h'.objs = h.objs) : HNet.objs (net.set i h') = HNet.objs net := by
  unfold HNet.objs
  rw [List.flatMap_def, List.flatMap_def, List.map_set, List.set_self']
  rw [List.getElem?_map, e, Option.map_some, eo]

theorem HNet.set_values {i : Nat} {h h' : HLayer α} (e : net[i]? = some h) (eo : h'.value = h.value) :
    (net.set i h').map HLayer.value = net.map HLayer.value := by
  rw [List.map_set, List.set_self']
  rw [List.getElem?_map, e, Option.map_some, eo]

theorem HNet.feedforward_sim [Zero α] [_root_.One α] [Add α] [Mul α] [LT α] [DecidableLT α] {x : Obj} {t : Ten α} (hn : HNet.Is addr H net v)
    (hs : AllApart (HNet.objs net)) (hx : H.KeepsT x t) (ha : ∀ h, net[0]? = some h → ∀ o ∈ h.scratch, Obj.Apart o x) {v' : Net α} {y : Ten α}
    (e : Net.feedforward t v = .ok (v', y)) :
    Ok (HNet.feedforward net H x) (fun r => HNet.Is addr r.1 net v' ∧ H.Only r.1 (HNet.objs net) ∧ r.1.KeepsT r.2 y ∧
      ∃ h, net[wsub net.length 1]? = some h ∧ r.2 = h.value) := by
  unfold Net.feedforward at e
  obtain ⟨L, e1, e⟩ := res_inv e
  obtain ⟨L1, e2, e⟩ := res_inv e
  obtain ⟨v1, e3, e⟩ := res_inv e
  obtain ⟨v2, e4, e⟩ := res_inv e
  obtain ⟨L2, e5, e⟩ := res_inv e
  cases e
  obtain ⟨-, rfl⟩ := lset_ok e3
  obtain ⟨h, eh, hi⟩ := hn.at (lget_ok e1)
  unfold HNet.feedforward
  rw [lget_of eh, bind_ok]
  refine (HLayer.forward_sim hi (hs.layer eh) hx (ha h eh) e2).bind (fun H1 h1 => ?_)
  have hlen : net.length = (v.set 0 L1).length := by rw [List.length_set]; exact hn.len
  rw [hlen]
  refine Ok.bind (P := fun H2 => HNet.Is addr H2 net v' ∧ H.Only H2 (HNet.objs net))
    (forLoop_sim (fun (H1 : Heap α) (w : Net α) => HNet.Is addr H1 net w ∧ H.Only H1 (HNet.objs net))
      ⟨hn.step' hs eh h1.1 h1.2, Heap.Only.layer eh h1.2⟩ (fun i hi1 _ s w w' hR he => ?_) e4) (fun H2 h2 => ?_)
  · unfold Net.step at he
    obtain ⟨P, f1, he⟩ := res_inv he
    obtain ⟨L3, f2, he⟩ := res_inv he
    obtain ⟨L4, f3, he⟩ := res_inv he
    obtain ⟨-, rfl⟩ := lset_ok he
    obtain ⟨hp, ep, ip⟩ := hR.1.at (lget_ok f1)
    obtain ⟨hl, el, il⟩ := hR.1.at (lget_ok f2)
    unfold HNet.step
    rw [lget_of ep, bind_ok, lget_of el, bind_ok]
    refine (HLayer.forward_sim il (hs.layer el) ip.value (fun o ho => ?_) f3).mono
      (fun H3 h3 => ⟨hR.1.step' hs el h3.1 h3.2, hR.2.trans (Heap.Only.layer el h3.2)⟩)
    exact hs.cross el ep (by omega) o (hl.scratch_mem o ho) _ hp.value_mem
  · have hl2 := h2.1.len
    rw [← hlen, hl2]
    obtain ⟨hl, el, il⟩ := h2.1.at (lget_ok e5)
    rw [lget_of el, bind_ok]
    exact Ok_ok.2 ⟨h2.1, h2.2, il.value, hl, el, rfl⟩

theorem mod_sub_ne (n m : Nat) (h2 : 2 < m) : (n + (m - 1)) % m ≠ (n + (m - 2)) % m := by
  intro e
  have e' : n + (m - 1) ≡ n + (m - 2) [MOD m] := e
  have := e'.add_left_cancel'
  have := this.eq_of_lt_of_lt (by omega) (by omega)
  omega

theorem wsub_ne (n : Nat) : wsub n 1 ≠ wsub n 2 := by
  have h2 : 2 < W64 := Nat.lt_of_lt_of_le (by decide : 2 < 3) (Nat.le_of_ble_eq_true rfl)
  unfold wsub
  rw [Nat.mod_eq_of_lt (a := 1) (b := W64) (by omega), Nat.mod_eq_of_lt (a := 2) h2]
  exact mod_sub_ne n W64 h2

theorem HNet.backprop_sim [Zero α] [Add α] [Mul α] {x d : Obj} {t td : Ten α} (hn : HNet.Is addr H net v)
    (hs : AllApart (HNet.objs net)) (hx : H.KeepsT x t) (hd : H.KeepsT d td) (ax : ∀ o ∈ HNet.objs net, Obj.Apart o x)
    (ad : ∀ o ∈ HNet.objs net, Obj.Apart o d) {v' : Net α} (e : Net.backprop t td v = .ok v') :
    Ok (HNet.backprop net H x d) (fun H' => HNet.Is addr H' net v' ∧ H.Only H' (HNet.objs net)) := by
  unfold Net.backprop at e
  dsimp only at e
  obtain ⟨L, e1, e⟩ := res_inv e
  obtain ⟨P, e2, e⟩ := res_inv e
  obtain ⟨L1, e3, e⟩ := res_inv e
  obtain ⟨v1, e4, e⟩ := res_inv e
  obtain ⟨v2, e5, e⟩ := res_inv e
  obtain ⟨L2, e6, e⟩ := res_inv e
  obtain ⟨N1, e7, e⟩ := res_inv e
  obtain ⟨D, e8, e⟩ := res_inv e
  obtain ⟨L3, e9, e10⟩ := res_inv e
  obtain ⟨-, rfl⟩ := lset_ok e4
  obtain ⟨-, rfl⟩ := lset_ok e10
  unfold HNet.backprop
  dsimp only
  rw [hn.len]
  obtain ⟨h, eh, hi⟩ := hn.at (lget_ok e1)
  obtain ⟨hp, ep, ip⟩ := hn.at (lget_ok e2)
  rw [lget_of eh, bind_ok, lget_of ep, bind_ok]
  refine (HLayer.backward_sim hi (hs.layer eh) ip.value hd (fun o ho => hs.cross eh ep (wsub_ne _) o ho _ hp.value_mem)
    (fun o ho => ad o (HNet.mem_objs eh o ho)) e3).bind (fun H1 h1 => ?_)
  refine Ok.bind (P := fun H2 => HNet.Is addr H2 net v2 ∧ H.Only H2 (HNet.objs net))
    (forN_sim (fun (H1 : Heap α) (w : Net α) => HNet.Is addr H1 net w ∧ H.Only H1 (HNet.objs net))
      ⟨hn.step' hs eh h1.1 h1.2, Heap.Only.layer eh h1.2⟩ (fun k hk s w w' hR he => ?_) e5) (fun H2 h2 => ?_)
  · unfold Net.backStep at he
    obtain ⟨P', f1, he⟩ := res_inv he
    obtain ⟨N', f2, he⟩ := res_inv he
    obtain ⟨D', f3, he⟩ := res_inv he
    obtain ⟨L', f4, he⟩ := res_inv he
    obtain ⟨L'', f5, he⟩ := res_inv he
    obtain ⟨-, rfl⟩ := lset_ok he
    obtain ⟨hp', ep', ip'⟩ := hR.1.at (lget_ok f1)
    obtain ⟨hn', en', in'⟩ := hR.1.at (lget_ok f2)
    obtain ⟨od, eod, kod, mod⟩ := in'.delta f3
    obtain ⟨hl, el, il⟩ := hR.1.at (lget_ok f4)
    unfold HNet.backStep
    rw [lget_of ep', bind_ok, lget_of en', bind_ok, eod, bind_ok, lget_of el, bind_ok]
    exact (HLayer.backward_sim il (hs.layer el) ip'.value kod (fun o ho => hs.cross el ep' (by omega) o ho _ hp'.value_mem)
      (fun o ho => hs.cross el en' (by omega) o ho _ mod) f5).mono
      (fun H3 h3 => ⟨hR.1.step' hs el h3.1 h3.2, hR.2.trans (Heap.Only.layer el h3.2)⟩)
  · obtain ⟨hl, el, il⟩ := h2.1.at (lget_ok e6)
    obtain ⟨hn', en', in'⟩ := h2.1.at (lget_ok e7)
    obtain ⟨od, eod, kod, mod⟩ := in'.delta e8
    rw [lget_of el, bind_ok, lget_of en', bind_ok, eod, bind_ok]
    refine (HLayer.backward_sim il (hs.layer el) (hx.frame h2.2 ax) kod (fun o ho => ax o (HNet.mem_objs el o ho))
      (fun o ho => hs.cross el en' (by decide) o ho _ mod) e9).mono
      (fun H3 h3 => ⟨h2.1.step' hs el h3.1 h3.2, h2.2.trans (Heap.Only.layer el h3.2)⟩)

theorem HNet.updating_sim [Zero α] [Add α] [Mul α] [_root_.One α] [DecidableEq α] {hu : HUpd σ α} {u : Upd σ α} (hfo : HUpd.Follows addr hu u)
    {s s' : σ} {alpha : α} (hn : HNet.Is addr H net v) (hs : AllApart (HNet.objs net)) {v' : Net α}
    (e : Net.updating u alpha s v = .ok (s', v')) :
    Ok (HNet.updating hu alpha net H s) (fun r => r.2 = s' ∧ HNet.Is addr r.1 net v' ∧ H.Only r.1 (HNet.objs net)) := by
  unfold Net.updating at e
  unfold HNet.updating
  rw [hn.len]
  refine forN_sim (fun (a : Heap α × σ) (b : σ × Net α) => a.2 = b.1 ∧ HNet.Is addr a.1 net b.2 ∧ H.Only a.1 (HNet.objs net))
    ⟨rfl, hn, Heap.Only.refl _ _⟩ (fun i _ a b b' hR he => ?_) e
  obtain ⟨L, f1, he⟩ := res_inv he
  obtain ⟨⟨s1, L1⟩, f2, he⟩ := res_inv he
  obtain ⟨w, f3, he⟩ := res_inv he
  cases he
  obtain ⟨-, rfl⟩ := lset_ok f3
  obtain ⟨r1, r2, r3⟩ := hR
  obtain ⟨h, eh, hi⟩ := r2.at (lget_ok f1)
  rw [lget_of eh, bind_ok, r1]
  exact (HLayer.update_sim hfo hi (hs.layer eh) f2).mono
    (fun r q => ⟨q.1, r2.step' hs eh q.2.1 q.2.2, r3.trans (Heap.Only.layer eh q.2.2)⟩)

theorem HNet.reseting_sim [Zero α] [Add α] [Mul α] (hn : HNet.Is addr H net v) (hs : AllApart (HNet.objs net)) {v' : Net α}
    (e : Net.reseting v = .ok v') :
    Ok (HNet.reseting net H) (fun r => HNet.Is addr r.1 r.2 v' ∧ H.Only r.1 (HNet.objs net) ∧ HNet.objs r.2 = HNet.objs net ∧
      r.2.map HLayer.value = net.map HLayer.value) := by
  unfold Net.reseting at e
  unfold HNet.reseting
  rw [hn.len]
  refine forN_sim (fun (a : Heap α × HNet α) (b : Net α) => HNet.Is addr a.1 a.2 b ∧ H.Only a.1 (HNet.objs net) ∧
    HNet.objs a.2 = HNet.objs net ∧ a.2.map HLayer.value = net.map HLayer.value) ⟨hn, Heap.Only.refl _ _, rfl, rfl⟩ (fun i _ a b b' hR he => ?_) e
  obtain ⟨L, f1, he⟩ := res_inv he
  obtain ⟨L1, f2, he⟩ := res_inv he
  obtain ⟨-, rfl⟩ := lset_ok he
  obtain ⟨r2, r3, r4, r5⟩ := hR
  obtain ⟨h, eh, hi⟩ := r2.at (lget_ok f1)
  have hs' : AllApart (HNet.objs a.2) := by rw [r4]; exact hs
  rw [lget_of eh, bind_ok]
  refine (HLayer.reset_sim hi (hs'.layer eh) f2).bind (fun ⟨H1, l1⟩ q => ?_)
  dsimp only at q ⊢
  have hlt := (List.getElem?_eq_some_iff.1 eh).1
  unfold lset
  rw [if_pos hlt, bind_ok]
  refine Ok_ok.2 ⟨r2.step hs' eh q.1 q.2.1, r3.trans ?_, (HNet.set_objs eh q.2.2.1).trans r4, (HNet.set_values eh q.2.2.2).trans r5⟩
  rw [← r4]; exact Heap.Only.layer eh q.2.1

theorem HNet.accumulating_sim [Zero α] [Add α] [Mul α] (hn : HNet.Is addr H net v) (hs : AllApart (HNet.objs net)) {v' : Net α}
    (e : Net.accumulating v = .ok v') :
    Ok (HNet.accumulating net H) (fun r => HNet.Is addr r.1 r.2 v' ∧ H.Only r.1 (HNet.objs net) ∧ HNet.objs r.2 = HNet.objs net ∧
      r.2.map HLayer.value = net.map HLayer.value) := by
  unfold Net.accumulating at e
  unfold HNet.accumulating
  rw [hn.len]
  refine forN_sim (fun (a : Heap α × HNet α) (b : Net α) => HNet.Is addr a.1 a.2 b ∧ H.Only a.1 (HNet.objs net) ∧
    HNet.objs a.2 = HNet.objs net ∧ a.2.map HLayer.value = net.map HLayer.value) ⟨hn, Heap.Only.refl _ _, rfl, rfl⟩ (fun i _ a b b' hR he => ?_) e
  obtain ⟨L, f1, he⟩ := res_inv he
  obtain ⟨L1, f2, he⟩ := res_inv he
  obtain ⟨-, rfl⟩ := lset_ok he
  obtain ⟨r2, r3, r4, r5⟩ := hR
  obtain ⟨h, eh, hi⟩ := r2.at (lget_ok f1)
  have hs' : AllApart (HNet.objs a.2) := by rw [r4]; exact hs
  rw [lget_of eh, bind_ok]
  refine (HLayer.accumulate_sim hi (hs'.layer eh) f2).bind (fun ⟨H1, l1⟩ q => ?_)
  dsimp only at q ⊢
  have hlt := (List.getElem?_eq_some_iff.1 eh).1
  unfold lset
  rw [if_pos hlt, bind_ok]
  refine Ok_ok.2 ⟨r2.step hs' eh q.1 q.2.1, r3.trans ?_, (HNet.set_objs eh q.2.2.1).trans r4, (HNet.set_values eh q.2.2.2).trans r5⟩
  rw [← r4]; exact Heap.Only.layer eh q.2.1

end Net

section Train
variable {addr : Ptr → Nat} {t0 t : HTrain α σ} {o : σ} {w w' : Train α} {X Y : List Obj} {xs ys : List (Ten α)}

/-- `t` is the training state `t0` after some work; its value is now `(o, w)`. -/
structure HTrain.Run (addr : Ptr → Nat) (t0 t : HTrain α σ) (st : σ × Train α) : Prop where
  is : t.Is addr st
  objs : HNet.objs t.net = HNet.objs t0.net
  delta : t.delta = t0.delta
  loss : t.loss = t0.loss
  values : t.net.map HLayer.value = t0.net.map HLayer.value
  only : t0.heap.Only t.heap t0.owned

theorem HTrain.Run.start {st : σ × Train α} (h : t0.Is addr st) : HTrain.Run addr t0 t0 st :=
  ⟨h, rfl, rfl, rfl, rfl, Heap.Only.refl _ _⟩

theorem HTrain.Run.ownedEq {st : σ × Train α} (h : HTrain.Run addr t0 t st) : t.owned = t0.owned := by
  unfold HTrain.owned; rw [h.objs, h.delta]

theorem HTrain.owned_net {t : HTrain α σ} {o : Obj} (h : o ∈ HNet.objs t.net) : o ∈ t.owned := List.mem_append_left _ h
theorem HTrain.owned_delta {t : HTrain α σ} : t.delta ∈ t.owned := List.mem_append_right _ (List.mem_singleton.2 rfl)

theorem AllApart.ofOwned (h : AllApart t.owned) : AllApart (HNet.objs t.net) := (List.pairwise_append.1 h).1
theorem AllApart.ofDelta (h : AllApart t.owned) : ∀ o ∈ HNet.objs t.net, Obj.Apart o t.delta :=
  fun o ho => (List.pairwise_append.1 h).2.2 o ho _ (List.mem_singleton.2 rfl)

theorem HTrain.Data.at {st : σ × Train α} (hd : t0.Data X xs) (h : HTrain.Run addr t0 t st) {i : Nat} {x : Ten α} (e : lget xs i = .ok x) :
    ∃ o, lget X i = .ok o ∧ t.heap.KeepsT o x ∧ ∀ q ∈ t.owned, Obj.Apart q o := by
  obtain ⟨o, eo, ho⟩ := forall₂_at hd.holds (lget_ok e)
  have hap := hd.apart o (List.mem_of_getElem? eo)
  refine ⟨o, lget_of eo, ho.frame h.only hap, ?_⟩
  rw [h.ownedEq]; exact hap

theorem HTrain.feedforward_sim [Zero α] [_root_.One α] [Add α] [Mul α] [LT α] [DecidableLT α] (hs : AllApart t0.owned)
    (h : HTrain.Run addr t0 t (o, w)) {q : Obj} {x : Ten α} (hx : t.heap.KeepsT q x)
    (ha : ∀ l, t.net[0]? = some l → ∀ o ∈ l.scratch, Obj.Apart o q) (e : w.feedforward x = .ok w') :
    Ok (t.feedforward q) (fun t' => HTrain.Run addr t0 t' (o, w') ∧ t'.net = t.net) := by
  have hs' : AllApart t.owned := by rw [h.ownedEq]; exact hs
  obtain ⟨⟨n1, y⟩, e1, e⟩ := res_inv e
  cases e
  unfold HTrain.feedforward
  refine (HNet.feedforward_sim h.is.net hs'.ofOwned hx ha e1).bind (fun ⟨H1, v1⟩ q => Ok_ok.2 ?_)
  dsimp only at q
  have hon : t.heap.Only H1 t.owned := q.2.1.mono (fun _ ho => HTrain.owned_net ho)
  exact ⟨⟨⟨h.is.opt, q.1, h.is.delta.frame q.2.1 hs'.ofDelta, h.is.loss⟩, h.objs, h.delta, h.loss, h.values, h.only.trans (h.ownedEq ▸ hon)⟩, rfl⟩

theorem HTrain.backprop_sim [Zero α] [_root_.One α] [Add α] [Mul α] (hs : AllApart t0.owned)
    (h : HTrain.Run addr t0 t (o, w)) {q p : Obj} {x y : Ten α} (hx : t.heap.KeepsT q x) (hy : t.heap.KeepsT p y)
    (ax : ∀ o ∈ t.owned, Obj.Apart o q) (ay : Obj.Apart t.delta p) (e : w.backprop x y = .ok w') :
    Ok (t.backprop q p) (fun t' => HTrain.Run addr t0 t' (o, w') ∧ t'.net = t.net) := by
  have hs' : AllApart t.owned := by rw [h.ownedEq]; exact hs
  obtain ⟨L, e1, e⟩ := res_inv e
  obtain ⟨ls, e2, e⟩ := res_inv e
  obtain ⟨dl, e3, e⟩ := res_inv e
  obtain ⟨n1, e4, e⟩ := res_inv e
  cases e
  obtain ⟨d1, e5, e3⟩ := res_inv e3
  cases e3
  unfold HTrain.backprop
  rw [h.is.net.len]
  obtain ⟨hl, el, il⟩ := h.is.net.at (lget_ok e1)
  rw [lget_of el, bind_ok]
  rcases h.is.loss with ⟨-, c⟩ | ⟨g, l, c1, c2, c3⟩
  · rw [show w.loss = none from c] at e2; cases e2
  rw [show w.loss = some l from c2] at e2
  cases e2
  have e2' : derefHLoss t.loss = .ok g := by rw [c1]; rfl
  rw [e2', bind_ok]
  have kd := h.is.delta
  refine (c3.df t.heap t.delta p hl.value _ _ _ _ kd.2.2.2 hy.2.2.2 il.value.2.2.2 ay
    (hs'.ofDelta _ (HNet.mem_objs el _ hl.value_mem)).symm e5).bind (fun H1 h1 => ?_)
  have a1 : ∀ q' ∈ [t.delta], ∀ o ∈ HNet.objs t.net, Obj.Apart q' o := fun q' hq' o ho => by
    rw [List.mem_singleton.1 hq']; exact (hs'.ofDelta o ho).symm
  have n1' : HNet.Is addr H1 t.net w.net := List.Forall₂.imp (fun a b hab => hab) (by
    refine List.forall₂_iff_get.2 ⟨h.is.net.len, fun k hk hk' => ?_⟩
    exact ((List.forall₂_iff_get.1 h.is.net).2 k hk hk').frame h1.2
      (fun q' hq' o ho => a1 q' hq' o (HNet.mem_objs (List.getElem?_eq_getElem hk) o ho)))
  have hx1 : H1.KeepsT q x := hx.frame h1.2 (fun q' hq' => by rw [List.mem_singleton.1 hq']; exact ax _ HTrain.owned_delta)
  have hd1 : H1.KeepsT t.delta { w.delta with data := d1 } := ⟨kd.1, kd.2.1, kd.2.2.1, h1.1⟩
  refine (HNet.backprop_sim n1' hs'.ofOwned hx1 hd1 (fun o ho => ax o (HTrain.owned_net ho)) hs'.ofDelta e4).bind (fun H2 h2 => Ok_ok.2 ?_)
  have o1 : t.heap.Only H1 t.owned := h1.2.mono (fun q' hq' => by rw [List.mem_singleton.1 hq']; exact HTrain.owned_delta)
  have o2 : H1.Only H2 t.owned := h2.2.mono (fun _ ho => HTrain.owned_net ho)
  exact ⟨⟨⟨h.is.opt, h2.1, hd1.frame h2.2 hs'.ofDelta, Or.inr ⟨g, _, c1, c2, c3⟩⟩, h.objs, h.delta, h.loss, h.values,
    h.only.trans (h.ownedEq ▸ o1.trans o2)⟩, rfl⟩

theorem HTrain.sample_sim [Zero α] [_root_.One α] [Add α] [Mul α] [LT α] [DecidableLT α] (hs : AllApart t0.owned)
    (hX : t0.Data X xs) (hY : t0.Data Y ys) (i : Nat) (h : HTrain.Run addr t0 t (o, w)) (e : w.sample xs ys i = .ok w') :
    Ok (t.sample X Y i) (fun t' => HTrain.Run addr t0 t' (o, w')) := by
  obtain ⟨x, e1, e⟩ := res_inv e
  obtain ⟨w1, e2, e⟩ := res_inv e
  obtain ⟨y, e3, e⟩ := res_inv e
  obtain ⟨q, eq, kq, aq⟩ := hX.at h e1
  unfold HTrain.sample
  rw [eq, bind_ok]
  refine (HTrain.feedforward_sim hs h kq (fun l hl o ho => aq o (HTrain.owned_net (HNet.mem_objs hl o (l.scratch_mem o ho)))) e2).bind
    (fun t1 h1 => ?_)
  obtain ⟨p, ep, kp, ap⟩ := hY.at h1.1 e3
  obtain ⟨q', eq', kq', aq'⟩ := hX.at h1.1 e1
  cases eq.symm.trans eq'
  rw [ep, bind_ok]
  exact (HTrain.backprop_sim hs h1.1 kq' kp aq' (ap _ HTrain.owned_delta) e).mono (fun t' h' => h'.1)

theorem HTrain.updating_sim [Zero α] [Add α] [Mul α] [_root_.One α] [DecidableEq α] {hu : HUpd σ α} {u : Upd σ α} (hfo : HUpd.Follows addr hu u)
    (hs : AllApart t0.owned) {st st' : σ × Train α} {alpha : α} (h : HTrain.Run addr t0 t st) (e : Train.updating u alpha st = .ok st') :
    Ok (t.updating hu alpha) (fun t' => HTrain.Run addr t0 t' st') := by
  have hs' : AllApart t.owned := by rw [h.ownedEq]; exact hs
  obtain ⟨⟨s1, n1⟩, e1, e⟩ := res_inv e
  cases e
  unfold HTrain.updating
  rw [h.is.opt]
  refine (HNet.updating_sim hfo h.is.net hs'.ofOwned e1).bind (fun ⟨H1, s2⟩ q => Ok_ok.2 ?_)
  dsimp only at q
  have o1 : t.heap.Only H1 t.owned := q.2.2.mono (fun _ ho => HTrain.owned_net ho)
  exact ⟨⟨q.1, q.2.1, h.is.delta.frame q.2.2 hs'.ofDelta, h.is.loss⟩, h.objs, h.delta, h.loss, h.values, h.only.trans (h.ownedEq ▸ o1)⟩

theorem HTrain.reseting_sim [Zero α] [Add α] [Mul α] (hs : AllApart t0.owned) (h : HTrain.Run addr t0 t (o, w)) (e : w.reseting = .ok w') :
    Ok t.reseting (fun t' => HTrain.Run addr t0 t' (o, w')) := by
  have hs' : AllApart t.owned := by rw [h.ownedEq]; exact hs
  obtain ⟨n1, e1, e⟩ := res_inv e
  cases e
  unfold HTrain.reseting
  refine (HNet.reseting_sim h.is.net hs'.ofOwned e1).bind (fun ⟨H1, l1⟩ q => Ok_ok.2 ?_)
  dsimp only at q
  have o1 : t.heap.Only H1 t.owned := q.2.1.mono (fun _ ho => HTrain.owned_net ho)
  exact ⟨⟨h.is.opt, q.1, h.is.delta.frame q.2.1 hs'.ofDelta, h.is.loss⟩, q.2.2.1.trans h.objs, h.delta, h.loss, q.2.2.2.trans h.values,
    h.only.trans (h.ownedEq ▸ o1)⟩

theorem HTrain.accumulating_sim [Zero α] [Add α] [Mul α] (hs : AllApart t0.owned) (h : HTrain.Run addr t0 t (o, w)) (e : w.accumulating = .ok w') :
    Ok t.accumulating (fun t' => HTrain.Run addr t0 t' (o, w')) := by
  have hs' : AllApart t.owned := by rw [h.ownedEq]; exact hs
  obtain ⟨n1, e1, e⟩ := res_inv e
  cases e
  unfold HTrain.accumulating
  refine (HNet.accumulating_sim h.is.net hs'.ofOwned e1).bind (fun ⟨H1, l1⟩ q => Ok_ok.2 ?_)
  dsimp only at q
  have o1 : t.heap.Only H1 t.owned := q.2.1.mono (fun _ ho => HTrain.owned_net ho)
  exact ⟨⟨h.is.opt, q.1, h.is.delta.frame q.2.1 hs'.ofDelta, h.is.loss⟩, q.2.2.1.trans h.objs, h.delta, h.loss, q.2.2.2.trans h.values,
    h.only.trans (h.ownedEq ▸ o1)⟩

theorem HTrain.sampleAcc_sim [Zero α] [_root_.One α] [Add α] [Mul α] [LT α] [DecidableLT α] (hs : AllApart t0.owned)
    (hX : t0.Data X xs) (hY : t0.Data Y ys) (i : Nat) (h : HTrain.Run addr t0 t (o, w)) (e : w.sampleAcc xs ys i = .ok w') :
    Ok (t.sampleAcc X Y i) (fun t' => HTrain.Run addr t0 t' (o, w')) := by
  obtain ⟨w1, e1, e⟩ := res_inv e
  exact (HTrain.sample_sim hs hX hY i h e1).bind (fun t1 h1 => HTrain.accumulating_sim hs h1 e)

section Loops
variable [Zero α] [_root_.One α] [Add α] [Mul α] [LT α] [DecidableLT α] [DecidableEq α] {hu : HUpd σ α} {u : Upd σ α}
  {st st' : σ × Train α}

theorem HTrain.epoch_sim (hfo : HUpd.Follows addr hu u) (hs : AllApart t0.owned) (hX : t0.Data X xs) (hY : t0.Data Y ys) {alpha : α}
    (h : HTrain.Run addr t0 t st) (e : Train.epoch u xs ys alpha st = .ok st') :
    Ok (t.epoch hu X Y alpha) (fun t' => HTrain.Run addr t0 t' st') := by
  obtain ⟨w1, e1, e⟩ := res_inv e
  obtain ⟨w2, e2, e⟩ := res_inv e
  unfold HTrain.epoch
  refine (HTrain.reseting_sim hs h e1).bind (fun t1 h1 => ?_)
  rw [hX.holds.length_eq]
  refine Ok.bind (P := fun t2 => HTrain.Run addr t0 t2 (st.1, w2))
    (forN_sim (fun (a : HTrain α σ) (b : Train α) => HTrain.Run addr t0 a (st.1, b)) h1
      (fun i _ a b b' hR he => HTrain.sampleAcc_sim hs hX hY i hR he) e2) (fun t2 h2 => ?_)
  exact HTrain.updating_sim hfo hs h2 e

theorem HTrain.batch_sim [Div α] [NatCast α] (hfo : HUpd.Follows addr hu u) (hs : AllApart t0.owned) (hX : t0.Data X xs) (hY : t0.Data Y ys) {n : Nat}
    (h : HTrain.Run addr t0 t st) (e : Train.batch u xs ys n st = .ok st') :
    Ok (t.batch hu X Y n) (fun t' => HTrain.Run addr t0 t' st') := by
  obtain ⟨al, e1, e⟩ := res_inv e
  unfold HTrain.batch
  rw [hX.holds.length_eq, e1, bind_ok]
  exact forN_sim (fun (a : HTrain α σ) (b : σ × Train α) => HTrain.Run addr t0 a b) h
    (fun i _ a b b' hR he => HTrain.epoch_sim hfo hs hX hY hR he) e

theorem HTrain.fill_sim (hs : AllApart t0.owned) (hX : t0.Data X xs) (hY : t0.Data Y ys) {limit k k' : Nat}
    (h : HTrain.Run addr t0 t (o, w)) (e : w.fill xs ys limit k = .ok (w', k')) :
    Ok (t.fill X Y limit k) (fun r => HTrain.Run addr t0 r.1 (o, w') ∧ r.2 = k') := by
  unfold HTrain.fill
  refine forN_sim (fun (a : HTrain α σ × Nat) (b : Train α × Nat) => HTrain.Run addr t0 a.1 (o, b.1) ∧ a.2 = b.2) ⟨h, rfl⟩
    (fun i _ a b b' hR he => ?_) e
  obtain ⟨w1, e1, e⟩ := res_inv he
  cases e
  rw [hR.2]
  exact (HTrain.sampleAcc_sim hs hX hY _ hR.1 e1).bind (fun t1 h1 => Ok_ok.2 ⟨h1, rfl⟩)

theorem HTrain.miniStep_sim (hfo : HUpd.Follows addr hu u) (hs : AllApart t0.owned) (hX : t0.Data X xs) (hY : t0.Data Y ys) {alpha : α} {m : Nat}
    {k : Nat × Nat} {r' : (σ × Train α) × Nat × Nat} (h : HTrain.Run addr t0 t st) (e : Train.miniStep u xs ys m alpha (st, k) = .ok r') :
    Ok (HTrain.miniStep hu X Y m alpha (t, k)) (fun r => HTrain.Run addr t0 r.1 r'.1 ∧ r.2 = r'.2) := by
  obtain ⟨w1, e1, e⟩ := res_inv e
  obtain ⟨⟨w2, k2⟩, e2, e⟩ := res_inv e
  obtain ⟨s3, e3, e⟩ := res_inv e
  cases e
  unfold HTrain.miniStep
  dsimp only
  refine (HTrain.reseting_sim hs h e1).bind (fun t1 h1 => ?_)
  refine (HTrain.fill_sim hs hX hY h1 e2).bind (fun ⟨t2, j⟩ h2 => ?_)
  dsimp only at h2 ⊢
  refine (HTrain.updating_sim hfo hs h2.1 e3).bind (fun t3 h3 => Ok_ok.2 ⟨h3, ?_⟩)
  rw [h2.2]

theorem HTrain.miniBatch_sim [Div α] [NatCast α] (hfo : HUpd.Follows addr hu u) (hs : AllApart t0.owned) (hX : t0.Data X xs) (hY : t0.Data Y ys) {n m : Nat}
    (h : HTrain.Run addr t0 t st) (e : Train.miniBatch u xs ys n m st = .ok st') :
    Ok (t.miniBatch hu X Y n m) (fun t' => HTrain.Run addr t0 t' st') := by
  obtain ⟨al, e1, e⟩ := res_inv e
  obtain ⟨sc, e2, e⟩ := res_inv e
  unfold HTrain.miniBatch
  rw [e1, bind_ok, hX.holds.length_eq, e2, bind_ok]
  refine forN_sim (fun (a : HTrain α σ) (b : σ × Train α) => HTrain.Run addr t0 a b) h (fun i _ a b b' hR he => ?_) e
  obtain ⟨r, e3, he⟩ := res_inv he
  cases he
  unfold HTrain.miniEpoch
  refine Ok.bind (P := fun q => HTrain.Run addr t0 q.1 r.1 ∧ q.2 = r.2)
    (forN_sim (fun (a : HTrain α σ × Nat × Nat) (b : (σ × Train α) × Nat × Nat) => HTrain.Run addr t0 a.1 b.1 ∧ a.2 = b.2) ⟨hR, rfl⟩
      (fun i _ a b b' hR he => ?_) e3) (fun q hq => Ok_ok.2 hq.1)
  obtain ⟨a1, a2⟩ := a
  obtain ⟨b1, b2⟩ := b
  obtain ⟨hR1, hR2⟩ := hR
  dsimp only at hR1 hR2
  subst hR2
  exact HTrain.miniStep_sim hfo hs hX hY hR1 he

theorem HTrain.stochastic_sim (hfo : HUpd.Follows addr hu u) (hs : AllApart t0.owned) (hX : t0.Data X xs) (hY : t0.Data Y ys) {n : Nat}
    {gen : Gen γ ρ Nat} {c : γ} {g g' : ρ} (h : HTrain.Run addr t0 t st) (e : Train.stochastic u xs ys n gen c g st = .ok (st', g')) :
    Ok (t.stochastic hu X Y n gen c g) (fun r => HTrain.Run addr t0 r.1 st' ∧ r.2 = g') := by
  obtain ⟨⟨s1, c1, g1⟩, e1, e⟩ := res_inv e
  cases e
  unfold HTrain.stochastic
  refine Ok.bind (P := fun q => HTrain.Run addr t0 q.1 st' ∧ q.2 = (c1, g'))
    (forN_sim (fun (a : HTrain α σ × γ × ρ) (b : (σ × Train α) × γ × ρ) => HTrain.Run addr t0 a.1 b.1 ∧ a.2 = b.2) ⟨h, rfl⟩
      (fun i _ a b b' hR he => ?_) e1) (fun ⟨q1, q2, q3⟩ hq => Ok_ok.2 ⟨hq.1, ?_⟩)
  · obtain ⟨a1, a2⟩ := a
    obtain ⟨b1, b2⟩ := b
    obtain ⟨hR1, hR2⟩ := hR
    dsimp only at hR1 hR2 he ⊢
    subst hR2
    obtain ⟨k, f1, he⟩ := res_inv he
    obtain ⟨w1, f2, he⟩ := res_inv he
    obtain ⟨s1, f3, he⟩ := res_inv he
    cases he
    rw [hX.holds.length_eq, f1, bind_ok]
    refine (HTrain.sample_sim hs hX hY k hR1 f2).bind (fun t1 h1 => ?_)
    exact (HTrain.updating_sim hfo hs h1 f3).bind (fun t2 h2 => Ok_ok.2 ⟨h2, rfl⟩)
  · have := hq.2
    dsimp only at this ⊢
    injection this

end Loops

theorem HTrain.lossMean_sim [Zero α] [_root_.One α] [Add α] [Mul α] [Div α] [NatCast α] [LT α] [DecidableLT α] (hs : AllApart t0.owned)
    (hX : t0.Data X xs) (hY : t0.Data Y ys) (h : HTrain.Run addr t0 t (o, w)) {v : α} (e : w.lossMean xs ys = .ok (v, w')) :
    Ok (t.lossMean X Y) (fun r => r.1 = v ∧ HTrain.Run addr t0 r.2 (o, w')) := by
  have hs' : AllApart t.owned := by rw [h.ownedEq]; exact hs
  obtain ⟨⟨r, n1⟩, e1, e⟩ := res_inv e
  dsimp only at e
  unfold HTrain.lossMean
  rw [hY.holds.length_eq]
  have run : ∀ (H1 : Heap α) (n2 : Net α), HNet.Is addr H1 t.net n2 → t.heap.Only H1 (HNet.objs t.net) →
      HTrain.Run addr t0 { t with heap := H1 } (o, { w with net := n2 }) := fun H1 n2 k1 k2 =>
    ⟨⟨h.is.opt, k1, h.is.delta.frame k2 hs'.ofDelta, h.is.loss⟩, h.objs, h.delta, h.loss, h.values,
      h.only.trans (h.ownedEq ▸ (k2.mono (fun _ ho => HTrain.owned_net ho)))⟩
  refine Ok.bind (P := fun q => q.1 = r ∧ HNet.Is addr q.2 t.net n1 ∧ t.heap.Only q.2 (HNet.objs t.net))
    (forN_sim (fun (a : α × Heap α) (b : α × Net α) => a.1 = b.1 ∧ HNet.Is addr a.2 t.net b.2 ∧ t.heap.Only a.2 (HNet.objs t.net))
      ⟨rfl, h.is.net, Heap.Only.refl _ _⟩ (fun i _ a b b' hR he => ?_) e1) (fun ⟨q1, q2⟩ hq => ?_)
  · obtain ⟨a1, a2⟩ := a
    obtain ⟨b1, b2⟩ := b
    obtain ⟨hR1, hR2, hR3⟩ := hR
    dsimp only at hR1 hR2 hR3 he ⊢
    subst hR1
    obtain ⟨ls, f1, he⟩ := res_inv he
    obtain ⟨y, f2, he⟩ := res_inv he
    obtain ⟨x, f3, he⟩ := res_inv he
    obtain ⟨⟨n2, v2⟩, f4, he⟩ := res_inv he
    obtain ⟨ee, f5, he⟩ := res_inv he
    cases he
    rcases h.is.loss with ⟨-, c⟩ | ⟨g, l, c1, c2, c3⟩
    · rw [show w.loss = none from c] at f1; cases f1
    rw [show w.loss = some l from c2] at f1
    cases f1
    rw [c1]
    show Ok (lget Y i >>= _) _
    have hr := run a2 b2 hR2 hR3
    obtain ⟨p, ep, -, -⟩ := hY.at hr f2
    obtain ⟨q, eq, kq, aq⟩ := hX.at hr f3
    rw [ep, bind_ok, eq, bind_ok]
    refine (HNet.feedforward_sim hR2 hs'.ofOwned kq
      (fun l' hl' o ho => aq o (HTrain.owned_net (HNet.mem_objs hl' o (l'.scratch_mem o ho)))) f4).bind (fun ⟨H1, v1⟩ k => ?_)
    dsimp only at k ⊢
    obtain ⟨k1, k2, k3, -⟩ := k
    obtain ⟨p', ep', kp', -⟩ := hY.at (run H1 n2 k1 (hR3.trans k2)) f2
    cases ep.symm.trans ep'
    rw [c3.f H1 p v1 _ _ _ kp'.2.2.2 k3.2.2.2 f5, bind_ok]
    exact Ok_ok.2 ⟨rfl, k1, hR3.trans k2⟩
  · dsimp only at hq ⊢
    by_cases hz : ys.length = 0
    · rw [if_pos hz] at e; cases e
    rw [if_neg hz] at e ⊢
    cases e
    refine Ok_ok.2 ⟨by rw [hq.1], run q2 n1 hq.2.1 hq.2.2⟩

end Train

end Trixy
