import Verif.Spec.ConvExact
import Verif.Proof.ConvAdj
/- Convolution layer over arbitrary arithmetic. -/
namespace Trixy
set_option linter.unusedSectionVars false

variable {α γ ρ σ : Type} [Zero α] [Add α] [Mul α]
variable {l : Conv α} {d h w fc fh fw pad sv sh : Nat} {b : Nat → α} {W : Nat → Nat → Nat → Nat → α}
  {gb : Nat → α} {gW : Nat → Nat → Nat → Nat → α}

theorem convAccum_exact {input Wt : Ten α} {x V : Nat → Nat → Nat → α} (hx : TenIs input d h w x)
    (hW : TenIs Wt d fh fw V) {i0 j0 i j : Nat} (h1 : i0 < h) (h2 : j0 < w) (h3 : i < fh) (h4 : j < fw) (sum : α) :
    convAccum d input Wt i0 j0 i j sum = .ok (iter d sum (fun c s => s + x c i0 j0 * V c i j)) := by
  unfold convAccum
  refine forN_pure (fun c hc s => ?_)
  rw [hx.get hc h1 h2, bind_ok, hW.get hc h3 h4, bind_ok]; rfl

theorem Conv.cell_exact (hl : l.Wf d h w fc fh fw pad sv sh b W gb gW) {input Wt : Ten α} {x V : Nat → Nat → Nat → α}
    (hx : TenIs input d h w x) (hW : TenIs Wt d fh fw V) (z : α) {oy ox : Nat} (hy : oy < extent h fh pad sv)
    (hox : ox < extent w fw pad sh) :
    l.cell input Wt z oy ox = .ok (iter fh z (fun i s => iter fw s (fun j s =>
      if Inside pad h (sv * oy + i) ∧ Inside pad w (sh * ox + j)
      then iter d s (fun c s => s + x c (sv * oy + i - pad) (sh * ox + j - pad) * V c i j)
      else s))) := by
  unfold Conv.cell
  obtain ⟨e1, e2, e3⟩ := hl.isz
  obtain ⟨e4, e5, e6⟩ := hl.par
  obtain ⟨e7, e8, e9, e10⟩ := hl.fil
  rw [e2, e3, e4, e5, e6, e8, e9, e10]
  have g1 := stride_le hl.geo.sv hl.geo.fitH hy
  have g2 := stride_le hl.geo.sh hl.geo.fitW hox
  have w1 := hl.geo.wordH
  have w2 := hl.geo.wordW
  refine forN_pure (fun i hi s => forN_pure (fun j hj s => ?_))
  have a1 : wadd (wmul sv oy) i = sv * oy + i := by rw [wmul_eq (by omega), wadd_eq (by omega)]
  have a2 : wadd (wmul sh ox) j = sh * ox + j := by rw [wmul_eq (by omega), wadd_eq (by omega)]
  simp only [a1, a2]
  have t1 := wsub_test (a := sv * oy + i) (p := pad) (n := h) (by omega) (by omega)
  have t2 := wsub_test (a := sh * ox + j) (p := pad) (n := w) (by omega) (by omega)
  by_cases hin : Inside pad h (sv * oy + i) ∧ Inside pad w (sh * ox + j)
  · rw [if_pos hin]
    unfold Inside at hin
    rw [if_neg (by rw [t1, t2]; tauto), wsub_eq hin.1.1 (by omega), wsub_eq hin.2.1 (by omega),
      convAccum_exact hx hW hin.1.2 hin.2.2 hi hj]
  · rw [if_neg hin]
    unfold Inside at hin
    rw [if_pos (by rw [t1, t2]; tauto)]

theorem Conv.forward_exact (hl : l.Wf d h w fc fh fw pad sv sh b W gb gW) {input : Ten α} {x : Nat → Nat → Nat → α}
    (hx : TenIs input d h w x) :
    Ok (l.forward input) (fun l' => l'.Wf d h w fc fh fw pad sv sh b W gb gW ∧
      TenIs l'.value fc (extent h fh pad sv) (extent w fw pad sh) (corrExact d h w fh fw pad sv sh b W x) ∧
      l' = { l with value := l'.value }) := by
  unfold Conv.forward
  obtain ⟨v, hv⟩ := hl.value
  obtain ⟨e4, e5, e6⟩ := hl.osz
  refine Ok.bind (P := fun t => TenIs t fc (extent h fh pad sv) (extent w fw pad sh) (corrExact d h w fh fw pad sv sh b W x)) ?_
    (fun t ht => ?_)
  · rw [hl.fil.1, e5, e6]
    refine forN_ten (new := corrExact d h w fh fw pad sv sh b W x) hv (fun f oy ox hf hy hox r g hr _ => ?_)
    obtain ⟨Wt, q1, q2⟩ := hl.Ws.get hf
    rw [hl.B.get hf, bind_ok, q1, bind_ok, Conv.cell_exact hl hx q2 _ hy hox, bind_ok]
    exact hr.set hf hy hox _
  · exact Ok_ok.2 ⟨{ hl with value := ⟨_, ht⟩ }, ht, rfl⟩

theorem convGradChan_exact {input G : Ten α} {x g : Nat → Nat → Nat → α} (hx : TenIs input d h w x) (hG : TenIs G d fh fw g)
    (dv : α) {i0 j0 i j : Nat} (h1 : i0 < h) (h2 : j0 < w) (h3 : i < fh) (h4 : j < fw) :
    Ok (convGradChan d input dv i0 j0 i j G) (fun G' => TenIs G' d fh fw
      (fun c i' j' => if i' = i ∧ j' = j then g c i' j' + dv * x c i0 j0 else g c i' j')) := by
  unfold convGradChan
  refine (forN_spec (fun n G' => TenIs G' d fh fw
      (fun c i' j' => if c < n ∧ i' = i ∧ j' = j then g c i' j' + dv * x c i0 j0 else g c i' j'))
      (hG.congr (fun _ _ _ _ _ _ => by rw [if_neg (by omega)])) (fun n hn G' hG' => ?_)).mono
      (fun G' hG' => hG'.congr (fun c i' j' hc _ _ => ?_))
  · rw [hG'.get hn h3 h4, bind_ok, hx.get hn h1 h2, bind_ok]
    refine (hG'.set hn h3 h4 _).mono (fun G'' h'' => h''.congr (fun c i' j' _ _ _ => ?_))
    by_cases e : c = n ∧ i' = i ∧ j' = j
    · obtain ⟨rfl, rfl, rfl⟩ := e
      rw [if_pos ⟨rfl, rfl, rfl⟩, if_neg (by omega), if_pos (by omega)]
    · rw [if_neg e]
      by_cases e2 : c < n ∧ i' = i ∧ j' = j
      · rw [if_pos e2, if_pos (by omega)]
      · rw [if_neg e2, if_neg (by omega)]
  · by_cases e : i' = i ∧ j' = j
    · rw [if_pos ⟨hc, e⟩, if_pos e]
    · rw [if_neg (fun h => e h.2), if_neg e]

theorem Conv.gradCell_exact (hl : l.Wf d h w fc fh fw pad sv sh b W gb gW) {input G : Ten α} {x g : Nat → Nat → Nat → α}
    (hx : TenIs input d h w x) (hG : TenIs G d fh fw g) (dv : α) {Y X : Nat} (hY : Y + fh ≤ h + 2 * pad)
    (hX : X + fw ≤ w + 2 * pad) :
    Ok (l.gradCell input dv Y X G) (fun G' => TenIs G' d fh fw (fun c i j =>
      if Inside pad h (Y + i) ∧ Inside pad w (X + j) then g c i j + dv * x c (Y + i - pad) (X + j - pad) else g c i j)) := by
  unfold Conv.gradCell
  obtain ⟨e1, e2, e3⟩ := hl.isz
  obtain ⟨e4, e5, e6⟩ := hl.par
  obtain ⟨e7, e8, e9, e10⟩ := hl.fil
  rw [e2, e3, e4, e8, e9, e10]
  have w1 := hl.geo.wordH
  have w2 := hl.geo.wordW
  let T : Nat → Nat → Nat → α := fun c i j =>
    if Inside pad h (Y + i) ∧ Inside pad w (X + j) then g c i j + dv * x c (Y + i - pad) (X + j - pad) else g c i j
  refine (forN_spec (fun i G' => TenIs G' d fh fw (fun c i' j' => if i' < i then T c i' j' else g c i' j'))
    (hG.congr (fun _ _ _ _ _ _ => by rw [if_neg (by omega)])) (fun i hi G1 hG1 => ?_)).mono
    (fun G' hG' => hG'.congr (fun c i j hc hi hj => by rw [if_pos hi]))
  refine (forN_spec (fun j G' => TenIs G' d fh fw (fun c i' j' => if i' < i ∨ (i' = i ∧ j' < j) then T c i' j' else g c i' j'))
    (hG1.congr (fun _ _ _ _ _ _ => ?_)) (fun j hj G2 hG2 => ?_)).mono
    (fun G' hG' => hG'.congr (fun c i' j' hc hi' hj' => ?_))
  · rename_i i' _ _ _ _
    by_cases e : i' < i
    · rw [if_pos e, if_pos (Or.inl e)]
    · rw [if_neg e, if_neg (by omega)]
  · have a1 : wadd i Y = Y + i := by rw [wadd_eq (by omega), Nat.add_comm]
    have a2 : wadd j X = X + j := by rw [wadd_eq (by omega), Nat.add_comm]
    simp only [a1, a2]
    have t1 := wsub_test (a := Y + i) (p := pad) (n := h) (by omega) (by omega)
    have t2 := wsub_test (a := X + j) (p := pad) (n := w) (by omega) (by omega)
    by_cases hin : (pad ≤ Y + i ∧ Y + i - pad < h) ∧ (pad ≤ X + j ∧ X + j - pad < w)
    · rw [if_neg (by rw [t1, t2]; tauto), wsub_eq hin.1.1 (by omega), wsub_eq hin.2.1 (by omega)]
      refine (convGradChan_exact hx hG2 dv hin.1.2 hin.2.2 hi hj).mono (fun G' hG' => hG'.congr (fun c i' j' _ _ _ => ?_))
      by_cases e : i' = i ∧ j' = j
      · obtain ⟨rfl, rfl⟩ := e
        rw [if_pos ⟨rfl, rfl⟩, if_neg (by omega), if_pos (by omega)]
        exact (if_pos (c := Inside pad h (Y + i') ∧ Inside pad w (X + j')) hin).symm
      · rw [if_neg e]
        by_cases e2 : i' < i ∨ (i' = i ∧ j' < j)
        · rw [if_pos e2, if_pos (by omega)]
        · rw [if_neg e2, if_neg (by omega)]
    · rw [if_pos (by rw [t1, t2]; tauto)]
      refine Ok_ok.2 (hG2.congr (fun c i' j' _ _ _ => ?_))
      by_cases e2 : i' < i ∨ (i' = i ∧ j' < j)
      · rw [if_pos e2, if_pos (by omega)]
      · rw [if_neg e2]
        by_cases e : i' = i ∧ j' = j
        · obtain ⟨rfl, rfl⟩ := e
          rw [if_pos (by omega)]
          exact (if_neg (c := Inside pad h (Y + i') ∧ Inside pad w (X + j')) hin).symm
        · rw [if_neg (by omega)]
  · by_cases e : i' < i ∨ (i' = i ∧ j' < fw)
    · rw [if_pos e, if_pos (by omega)]
    · rw [if_neg e, if_neg (by omega)]

theorem Conv.gradF_exact (hl : l.Wf d h w fc fh fw pad sv sh b W gb gW) {input buff G : Ten α} {x g bf : Nat → Nat → Nat → α}
    {gB : Buf α} {gbv : Nat → α} {BH BW : Nat}
    (hx : TenIs input d h w x) (hbf : TenIs buff fc BH BW bf) (hBH : BH + fh ≤ h + 2 * pad + 1) (hBW : BW + fw ≤ w + 2 * pad + 1)
    (hG : TenIs G d fh fw g) (hgB : VecIs gB fc gbv) {f : Nat} (hf : f < fc) :
    Ok (forN buff.h (G, gB) (fun y s => forN buff.w s (fun x s => do
      let dv ← buff.get f y x
      let G ← l.gradCell input dv y x s.1
      let gb ← s.2.get f
      let gB ← s.2.set f (gb + dv)
      return (G, gB)))) (fun s =>
      TenIs s.1 d fh fw (fun c i j => filterGradExact h w pad BH BW (g c i j) x bf f c i j) ∧
      VecIs s.2 fc (fun k => if k = f then biasGradExact BH BW (gbv k) bf f else gbv k)) := by
  rw [hbf.2.1, hbf.2.2.1]
  let T : Nat → Nat → Nat → Nat → Nat → α → α := fun c i j Y X s =>
    if Inside pad h (Y + i) ∧ Inside pad w (X + j) then s + bf f Y X * x c (Y + i - pad) (X + j - pad) else s
  refine (forN_spec (fun y (s : Ten α × Buf α) =>
      TenIs s.1 d fh fw (fun c i j => iter y (g c i j) (fun Y s => iter BW s (T c i j Y))) ∧
      VecIs s.2 fc (fun k => if k = f then iter y (gbv k) (fun Y s => iter BW s (fun X s => s + bf f Y X)) else gbv k))
      ⟨hG.congr (fun _ _ _ _ _ _ => rfl), hgB.congr (fun k _ => by simp)⟩ (fun y hy s hs => ?_))
  refine (forN_spec (fun n (s : Ten α × Buf α) =>
      TenIs s.1 d fh fw (fun c i j => iter n (iter y (g c i j) (fun Y s => iter BW s (T c i j Y))) (T c i j y)) ∧
      VecIs s.2 fc (fun k => if k = f then iter n (iter y (gbv k) (fun Y s => iter BW s (fun X s => s + bf f Y X))) (fun X s => s + bf f y X)
        else gbv k))
      ⟨hs.1.congr (fun _ _ _ _ _ _ => rfl), hs.2.congr (fun k _ => rfl)⟩ (fun n hn s hs => ?_)).mono (fun s hs => ?_)
  · rw [hbf.get hf hy hn, bind_ok]
    refine (Conv.gradCell_exact hl hx hs.1 _ (by omega) (by omega)).bind (fun G' hG' => ?_)
    rw [hs.2.get hf, bind_ok]
    refine (hs.2.set hf _).bind (fun gB' hgB' => Ok_ok.2 ⟨hG'.congr (fun c i j _ _ _ => rfl), hgB'.congr (fun k _ => ?_)⟩)
    by_cases e : k = f
    · subst e; simp only [if_true]; rfl
    · simp only [e, if_false]
  · exact ⟨hs.1.congr (fun c i j _ _ _ => rfl), hs.2.congr (fun k _ => rfl)⟩

theorem Conv.grads_exact (hl : l.Wf d h w fc fh fw pad sv sh b W gb gW) {input buff : Ten α} {x bf : Nat → Nat → Nat → α}
    {BH BW : Nat} (hx : TenIs input d h w x) (hbf : TenIs buff fc BH BW bf) (hBH : BH + fh ≤ h + 2 * pad + 1)
    (hBW : BW + fw ≤ w + 2 * pad + 1) :
    Ok (l.grads input buff) (fun s =>
      WsIs s.1 fc d fh fw (fun f c i j => filterGradExact h w pad BH BW (gW f c i j) x bf f c i j) ∧
      VecIs s.2 fc (fun f => biasGradExact BH BW (gb f) bf f)) := by
  unfold Conv.grads
  rw [hl.fil.1]
  refine (forN_spec (fun n (s : List (Ten α) × Buf α) =>
      WsIs s.1 fc d fh fw (fun f c i j => if f < n then filterGradExact h w pad BH BW (gW f c i j) x bf f c i j else gW f c i j) ∧
      VecIs s.2 fc (fun f => if f < n then biasGradExact BH BW (gb f) bf f else gb f))
      ⟨hl.gradWs.congr (fun f c i j _ _ _ _ => by simp), hl.gradB.congr (fun f _ => by simp)⟩ (fun f hf s hs => ?_)).mono
      (fun s hs => ⟨hs.1.congr (fun f c i j hf _ _ _ => by rw [if_pos hf]), hs.2.congr (fun f hf => by rw [if_pos hf])⟩)
  obtain ⟨G, e1, hG⟩ := hs.1.get hf
  rw [e1, bind_ok]
  refine (Conv.gradF_exact hl hx hbf hBH hBW hG hs.2 hf).bind (fun r hr => ?_)
  refine (hs.1.set hf hr.1).bind (fun Gs hGs => Ok_ok.2 ⟨hGs.congr (fun k c i j _ _ _ _ => ?_), hr.2.congr (fun k _ => ?_)⟩)
  · by_cases e : k = f
    · subst e; simp
    · have h1 : k < f + 1 ↔ k < f := by omega
      simp only [e, if_false, h1]
  · by_cases e : k = f
    · subst e; simp
    · have h1 : k < f + 1 ↔ k < f := by omega
      simp only [e, if_false, h1]

theorem Conv.deltaFilters_exact (hl : l.Wf d h w fc fh fw pad sv sh b W gb gW) {buff : Ten α} {bf : Nat → Nat → Nat → α}
    {BH BW : Nat} (hbf : TenIs buff fc BH BW bf) {c i j i0 j0 : Nat} (hc : c < d) (hi : i < fh) (hj : j < fw) (h1 : i0 < BH)
    (h2 : j0 < BW) (hfw1 : fh < W64) (hfw2 : fw < W64) (sum : α) :
    l.deltaFilters buff c i j i0 j0 sum =
      .ok (iter fc sum (fun f s => s + W f c (fh - 1 - i) (fw - 1 - j) * bf f i0 j0)) := by
  unfold Conv.deltaFilters
  obtain ⟨e7, e8, e9, e10⟩ := hl.fil
  rw [e7, e9, e10]
  refine forN_pure (fun f hf s => ?_)
  obtain ⟨Wt, q1, q2⟩ := hl.Ws.get hf
  have a1 : wsub (wsub fh 1) i = fh - 1 - i := by
    rw [wsub_eq (a := fh) (b := 1) (by omega) (by omega), wsub_eq (by omega) (by omega)]
  have a2 : wsub (wsub fw 1) j = fw - 1 - j := by
    rw [wsub_eq (a := fw) (b := 1) (by omega) (by omega), wsub_eq (by omega) (by omega)]
  rw [q1, bind_ok, a1, a2, q2.get hc (by omega) (by omega), bind_ok, hbf.get hf h1 h2, bind_ok]
  rfl

theorem Conv.deltaCell_exact (hl : l.Wf d h w fc fh fw pad sv sh b W gb gW) {buff : Ten α} {bf : Nat → Nat → Nat → α}
    {BH BW : Nat} (hbf : TenIs buff fc BH BW bf) (hBH : BH + fh ≤ h + 2 * pad + 1) (hBW : BW + fw ≤ w + 2 * pad + 1)
    {c y x : Nat} (hc : c < d) (hy : y < h) (hx : x < w) :
    l.deltaCell buff c y x = .ok (convDeltaExact fc fh fw pad BH BW W bf c y x) := by
  unfold Conv.deltaCell convDeltaExact
  obtain ⟨e7, e8, e9, e10⟩ := hl.fil
  rw [e9, e10, hl.par.1, hbf.2.1, hbf.2.2.1]
  have w1 := hl.geo.wordH
  have w2 := hl.geo.wordW
  have f1 := hl.geo.fitH
  have f2 := hl.geo.fitW
  refine forN_pure (fun i hi s => forN_pure (fun j hj s => ?_))
  have t1 := wdelta_test (y := y) (i := i) (f := fh) (p := pad) (n := BH) (by omega) hi (by omega) (by omega) (by omega) (by omega)
  have t2 := wdelta_test (y := x) (i := j) (f := fw) (p := pad) (n := BW) (by omega) hj (by omega) (by omega) (by omega) (by omega)
  dsimp only
  by_cases hin : Inside (fh - 1 - i) BH (y + pad) ∧ Inside (fw - 1 - j) BW (x + pad)
  · rw [if_pos hin]
    unfold Inside at hin
    rw [if_neg (by rw [t1, t2]; tauto), wdelta_val (by omega) hi (by omega) (by omega) (by omega) hin.1.1,
      wdelta_val (by omega) hj (by omega) (by omega) (by omega) hin.2.1,
      Conv.deltaFilters_exact hl hbf hc hi hj hin.1.2 hin.2.2 (by omega) (by omega)]
  · rw [if_neg hin]
    unfold Inside at hin
    rw [if_pos (by rw [t1, t2]; tauto)]

theorem Conv.deltas_exact (hl : l.Wf d h w fc fh fw pad sv sh b W gb gW) {buff : Ten α} {bf : Nat → Nat → Nat → α}
    {BH BW : Nat} (hbf : TenIs buff fc BH BW bf) (hBH : BH + fh ≤ h + 2 * pad + 1) (hBW : BW + fw ≤ w + 2 * pad + 1) :
    Ok (l.deltas buff) (fun D => TenIs D d h w (convDeltaExact fc fh fw pad BH BW W bf)) := by
  unfold Conv.deltas
  obtain ⟨v, hv⟩ := hl.delta
  rw [hl.isz.2.1, hl.isz.2.2, hl.fil.2.1]
  refine forN_ten' hv (fun c y x hc hy hx r g hr _ => ?_)
  rw [Conv.deltaCell_exact hl hbf hBH hBW hc hy hx, bind_ok]
  exact hr.set hc hy hx _

theorem Conv.backward_exact (hl : l.Wf d h w fc fh fw pad sv sh b W gb gW) {input idelta : Ten α} {x u : Nat → Nat → Nat → α}
    (hx : TenIs input d h w x) (hu : TenIs idelta fc (extent h fh pad sv) (extent w fw pad sh) u) (full : Bool) :
    Ok (l.backward input idelta full) (fun l' =>
      l'.Wf d h w fc fh fw pad sv sh b W
        (fun f => biasGradExact (sv * (extent h fh pad sv - 1) + 1) (sh * (extent w fw pad sh - 1) + 1) (gb f) (spreadFn sv sh u) f)
        (fun f c i j => filterGradExact h w pad (sv * (extent h fh pad sv - 1) + 1) (sh * (extent w fw pad sh - 1) + 1)
          (gW f c i j) x (spreadFn sv sh u) f c i j) ∧
      TenIs l'.delta d h w (convDeltaExact fc fh fw pad (sv * (extent h fh pad sv - 1) + 1) (sh * (extent w fw pad sh - 1) + 1) W
        (spreadFn sv sh u)) ∧
      l' = { l with buff := l'.buff, gradWs := l'.gradWs, gradB := l'.gradB, delta := l'.delta }) := by
  unfold Conv.backward
  have s1 := hl.geo.sv
  have s2 := hl.geo.sh
  have b1 := extent_fit s1 hl.geo.fitH
  have b2 := extent_fit s2 hl.geo.fitW
  refine (Conv.spread_spec hl hu).bind (fun B hB => ?_)
  refine (Conv.grads_exact hl hx hB (by omega) (by omega)).bind (fun G hG => ?_)
  refine (Conv.deltas_exact hl hB (by omega) (by omega)).bind (fun D hD => ?_)
  exact Ok_ok.2 ⟨{ hl with gradWs := hG.1, gradB := hG.2, delta := ⟨_, hD⟩, buff := ⟨_, hB, fun f Y X hn => if_neg hn⟩ }, hD, rfl⟩

end Trixy
