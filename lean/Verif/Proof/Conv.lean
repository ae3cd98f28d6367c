import Verif.Spec.Conv
import Verif.Proof.FC
import Verif.Proof.Loops
import Verif.Proof.Word
import Mathlib.Algebra.BigOperators.Ring.Finset
import Mathlib.Tactic.Ring
import Mathlib.Tactic.Tauto
/- The convolution layer: forward, spread, gradients, delta. -/
namespace Trixy
open Finset

variable {α γ ρ σ : Type}

/-! ### Geometry -/

theorem extent_fit {h fh pad s : Nat} (_hs : 1 ≤ s) (hf : fh ≤ h + 2 * pad) :
    s * (extent h fh pad s - 1) + fh ≤ h + 2 * pad := by
  unfold extent
  have := Nat.mul_div_le (h + 2 * pad - fh) s
  rw [Nat.add_sub_cancel]; omega

theorem extent_max {h fh pad s : Nat} (hs : 1 ≤ s) (hf : fh ≤ h + 2 * pad) :
    h + 2 * pad < s * extent h fh pad s + fh := by
  unfold extent
  have := Nat.lt_mul_div_succ (h + 2 * pad - fh) (b := s) (by omega)
  omega

theorem extent_pos (h fh pad s : Nat) : 1 ≤ extent h fh pad s := Nat.succ_pos _

theorem stride_le {h fh pad s y : Nat} (hs : 1 ≤ s) (hf : fh ≤ h + 2 * pad) (hy : y < extent h fh pad s) :
    s * y + fh ≤ h + 2 * pad := by
  have h1 := extent_fit hs hf
  have h2 : s * y ≤ s * (extent h fh pad s - 1) := Nat.mul_le_mul_left _ (by omega)
  omega

theorem convExtent_eq {h fh pad s : Nat} (hs : 1 ≤ s) (hf : fh ≤ h + 2 * pad) (hw : h + 2 * pad + 1 < W64) :
    convExtent h fh pad s = .ok (extent h fh pad s) := by
  unfold convExtent
  rw [if_neg (by omega)]
  have e : wadd (wsub h fh) (wmul 2 pad) = h + 2 * pad - fh := by
    unfold wadd wsub wmul W64 at *; omega
  rw [e]
  unfold extent
  have : (h + 2 * pad - fh) / s ≤ h + 2 * pad - fh := Nat.div_le_self _ _
  rw [wadd_eq (by omega)]

/-! ### Padding -/

theorem padded_in [Zero α] {x : Nat → Nat → Nat → α} {h w c a b p q : Nat} (h1 : p ≤ a ∧ a - p < h) (h2 : q ≤ b ∧ b - q < w) :
    padded x h w c ((a : Int) - p) ((b : Int) - q) = x c (a - p) (b - q) := by
  unfold padded
  rw [if_pos (by omega)]
  congr 1 <;> omega

theorem padded_out [Zero α] {x : Nat → Nat → Nat → α} {h w c a b p q : Nat}
    (hn : ¬ ((p ≤ a ∧ a - p < h) ∧ (q ≤ b ∧ b - q < w))) : padded x h w c ((a : Int) - p) ((b : Int) - q) = 0 := by
  unfold padded
  rw [if_neg (by omega)]

/-! ### Containers of tensors -/

theorem WsIs.get {Ws : List (Ten α)} {fc d h w : Nat} {W : Nat → Nat → Nat → Nat → α} (hW : WsIs Ws fc d h w W) {f : Nat}
    (hf : f < fc) : ∃ t, lget Ws f = .ok t ∧ TenIs t d h w (W f) := by
  obtain ⟨t, h1, h2⟩ := hW.2 f hf
  exact ⟨t, by unfold lget; rw [h1], h2⟩

theorem WsIs.set {Ws : List (Ten α)} {fc d h w : Nat} {W : Nat → Nat → Nat → Nat → α} (hW : WsIs Ws fc d h w W) {f : Nat}
    (hf : f < fc) {t : Ten α} {V : Nat → Nat → Nat → α} (ht : TenIs t d h w V) :
    Ok (lset Ws f t) (fun Ws' => WsIs Ws' fc d h w (fun k => if k = f then V else W k)) := by
  unfold lset
  rw [if_pos (by rw [hW.1]; exact hf)]
  refine Ok_ok.2 ⟨by simp [hW.1], fun k hk => ?_⟩
  rw [List.getElem?_set]
  by_cases e : f = k
  · subst e; rw [if_pos rfl, if_pos (by rw [hW.1]; exact hf)]; dsimp only; rw [if_pos rfl]; exact ⟨t, rfl, ht⟩
  · have e' : ¬ k = f := fun h => e h.symm
    dsimp only; rw [if_neg e, if_neg e']; exact hW.2 k hk

theorem WsIs.congr {Ws : List (Ten α)} {fc d h w : Nat} {W V : Nat → Nat → Nat → Nat → α} (hW : WsIs Ws fc d h w W)
    (e : ∀ f c i j, f < fc → c < d → i < h → j < w → W f c i j = V f c i j) : WsIs Ws fc d h w V :=
  ⟨hW.1, fun f hf => by
    obtain ⟨t, h1, h2⟩ := hW.2 f hf
    exact ⟨t, h1, h2.congr (fun c i j hc hi hj => e f c i j hf hc hi hj)⟩⟩

theorem WsIs_replicate {fc d h w : Nat} {t : Ten α} {V : Nat → Nat → Nat → α} (ht : TenIs t d h w V) :
    WsIs (List.replicate fc t) fc d h w (fun _ => V) :=
  ⟨by simp, fun f hf => ⟨t, by simp [hf], ht⟩⟩

theorem Conv.make_Wf [Zero α] {d h w fc fh fw pad sv sh : Nat} (geo : Geo h w fh fw pad sv sh) (hfc : 1 ≤ fc) (kB : Nat)
    (kW : Nat → Nat) : Ok (Conv.make d h w fc fh fw pad sv sh kB kW : Res (Conv α)) (fun l =>
      l.Wf d h w fc fh fw pad sv sh (fun _ => 0) (fun _ _ _ _ => 0) (fun _ => 0) (fun _ _ _ _ => 0) ∧
      l.keyB = kB ∧ l.keyW = kW) := by
  unfold Conv.make
  rw [convExtent_eq geo.sv geo.fitH geo.wordH, bind_ok, convExtent_eq geo.sh geo.fitW geo.wordW, bind_ok]
  simp only []
  rw [if_neg (by omega)]
  have b1 : wadd (wmul sv (wsub (extent h fh pad sv) 1)) 1 = sv * (extent h fh pad sv - 1) + 1 := by
    have h1 := extent_fit geo.sv geo.fitH
    have h3 := geo.wordH
    have h4 := extent_pos h fh pad sv
    have h5 : extent h fh pad sv < W64 := by
      unfold extent; have := Nat.div_le_self (h + 2 * pad - fh) sv; omega
    rw [wsub_eq h4 h5, wmul_eq (by omega), wadd_eq (by omega)]
  have b2 : wadd (wmul sh (wsub (extent w fw pad sh) 1)) 1 = sh * (extent w fw pad sh - 1) + 1 := by
    have h1 := extent_fit geo.sh geo.fitW
    have h3 := geo.wordW
    have h4 := extent_pos w fw pad sh
    have h5 : extent w fw pad sh < W64 := by
      unfold extent; have := Nat.div_le_self (w + 2 * pad - fw) sh; omega
    rw [wsub_eq h4 h5, wmul_eq (by omega), wadd_eq (by omega)]
  rw [b1, b2]
  exact Ok_ok.2 ⟨{
    geo := geo
    isz := ⟨rfl, rfl, rfl⟩
    osz := ⟨rfl, rfl, rfl⟩
    par := ⟨rfl, rfl, rfl⟩
    fil := ⟨rfl, rfl, rfl, rfl⟩
    B := VecIs_filled fc 0
    Ws := WsIs_replicate (TenIs_fill d fh fw 0)
    value := ⟨_, TenIs_fill _ _ _ 0⟩
    gradWs := WsIs_replicate (TenIs_fill d fh fw 0)
    gradB := VecIs_filled fc 0
    delta := ⟨_, TenIs_fill _ _ _ 0⟩
    buff := ⟨_, TenIs_fill _ _ _ 0, fun _ _ _ _ => rfl⟩ }, rfl, rfl⟩

/-! ### Forward -/

section Forward
variable [CommSemiring α]

theorem convAccum_spec {d h w fh fw : Nat} {input W : Ten α} {x V : Nat → Nat → Nat → α} (hx : TenIs input d h w x)
    (hW : TenIs W d fh fw V) {i0 j0 i j : Nat} (h1 : i0 < h) (h2 : j0 < w) (h3 : i < fh) (h4 : j < fw) (sum : α) :
    convAccum d input W i0 j0 i j sum = .ok (sum + ∑ c ∈ range d, x c i0 j0 * V c i j) := by
  unfold convAccum
  refine forN_add (fun c hc s => ?_)
  rw [hx.get hc h1 h2, bind_ok, hW.get hc h3 h4, bind_ok]; rfl

variable {l : Conv α} {d h w fc fh fw pad sv sh : Nat} {b : Nat → α} {W : Nat → Nat → Nat → Nat → α}
  {gb : Nat → α} {gW : Nat → Nat → Nat → Nat → α}

theorem Conv.cell_spec (hl : l.Wf d h w fc fh fw pad sv sh b W gb gW) {input Wt : Ten α} {x V : Nat → Nat → Nat → α}
    (hx : TenIs input d h w x) (hW : TenIs Wt d fh fw V) (z : α) {oy ox : Nat} (hy : oy < extent h fh pad sv)
    (hox : ox < extent w fw pad sh) :
    l.cell input Wt z oy ox = .ok (z + ∑ i ∈ range fh, ∑ j ∈ range fw, ∑ c ∈ range d,
      padded x h w c ((sv : Int) * oy + i - pad) ((sh : Int) * ox + j - pad) * V c i j) := by
  unfold Conv.cell
  obtain ⟨e1, e2, e3⟩ := hl.isz
  obtain ⟨e4, e5, e6⟩ := hl.par
  obtain ⟨e7, e8, e9, e10⟩ := hl.fil
  rw [e2, e3, e4, e5, e6, e8, e9, e10]
  have g1 := stride_le hl.geo.sv hl.geo.fitH hy
  have g2 := stride_le hl.geo.sh hl.geo.fitW hox
  have w1 := hl.geo.wordH
  have w2 := hl.geo.wordW
  refine forN_add (fun i hi s => forN_add (fun j hj s => ?_))
  have a1 : wadd (wmul sv oy) i = sv * oy + i := by rw [wmul_eq (by omega), wadd_eq (by omega)]
  have a2 : wadd (wmul sh ox) j = sh * ox + j := by rw [wmul_eq (by omega), wadd_eq (by omega)]
  simp only [a1, a2]
  have t1 := wsub_test (a := sv * oy + i) (p := pad) (n := h) (by omega) (by omega)
  have t2 := wsub_test (a := sh * ox + j) (p := pad) (n := w) (by omega) (by omega)
  have c1 : ((sv : Int) * oy + i - pad) = ((sv * oy + i : Nat) : Int) - pad := by push_cast; ring
  have c2 : ((sh : Int) * ox + j - pad) = ((sh * ox + j : Nat) : Int) - pad := by push_cast; ring
  rw [c1, c2]
  by_cases hin : (pad ≤ sv * oy + i ∧ sv * oy + i - pad < h) ∧ (pad ≤ sh * ox + j ∧ sh * ox + j - pad < w)
  · rw [if_neg (by rw [t1, t2]; tauto), wsub_eq hin.1.1 (by omega), wsub_eq hin.2.1 (by omega),
      convAccum_spec hx hW hin.1.2 hin.2.2 hi hj]
    refine congrArg Except.ok (congrArg (s + ·) (Finset.sum_congr rfl (fun c _ => ?_)))
    rw [padded_in hin.1 hin.2]
  · rw [if_pos (by rw [t1, t2]; tauto)]
    have : ∑ c ∈ range d, padded x h w c (((sv * oy + i : Nat) : Int) - pad) (((sh * ox + j : Nat) : Int) - pad) * V c i j = 0 :=
      Finset.sum_eq_zero (fun c _ => by rw [padded_out hin, zero_mul])
    rw [this, add_zero]

theorem Conv.forward_spec (hl : l.Wf d h w fc fh fw pad sv sh b W gb gW) {input : Ten α} {x : Nat → Nat → Nat → α}
    (hx : TenIs input d h w x) :
    Ok (l.forward input) (fun l' => l'.Wf d h w fc fh fw pad sv sh b W gb gW ∧
      TenIs l'.value fc (extent h fh pad sv) (extent w fw pad sh) (corr d h w fh fw pad sv sh b W x) ∧
      l' = { l with value := l'.value }) := by
  unfold Conv.forward
  obtain ⟨v, hv⟩ := hl.value
  obtain ⟨e4, e5, e6⟩ := hl.osz
  refine Ok.bind (P := fun t => TenIs t fc (extent h fh pad sv) (extent w fw pad sh) (corr d h w fh fw pad sv sh b W x)) ?_
    (fun t ht => ?_)
  · rw [hl.fil.1, e5, e6]
    refine forN_ten (new := corr d h w fh fw pad sv sh b W x) hv (fun f oy ox hf hy hox r g hr _ => ?_)
    obtain ⟨Wt, q1, q2⟩ := hl.Ws.get hf
    rw [hl.B.get hf, bind_ok, q1, bind_ok, Conv.cell_spec hl hx q2 _ hy hox, bind_ok]
    exact hr.set hf hy hox _
  · exact Ok_ok.2 ⟨{ hl with value := ⟨_, ht⟩ }, ht, rfl⟩

end Forward

/-! ### Backward -/

section Spread
variable [Zero α]
variable {l : Conv α} {d h w fc fh fw pad sv sh : Nat} {b : Nat → α} {W : Nat → Nat → Nat → Nat → α}
  {gb : Nat → α} {gW : Nat → Nat → Nat → Nat → α}

theorem Conv.spread_spec (hl : l.Wf d h w fc fh fw pad sv sh b W gb gW) {idelta : Ten α} {u : Nat → Nat → Nat → α}
    (hu : TenIs idelta fc (extent h fh pad sv) (extent w fw pad sh) u) :
    Ok (l.spread idelta) (fun B => TenIs B fc (sv * (extent h fh pad sv - 1) + 1) (sh * (extent w fw pad sh - 1) + 1)
      (spreadFn sv sh u)) := by
  unfold Conv.spread
  obtain ⟨v, hv, hz⟩ := hl.buff
  obtain ⟨e4, e5, e6⟩ := hl.osz
  obtain ⟨_, p2, p3⟩ := hl.par
  rw [hv.1, e5, e6, p2, p3]
  have s1 := hl.geo.sv
  have s2 := hl.geo.sh
  set OH := extent h fh pad sv with hOH
  set OW := extent w fw pad sh with hOW
  have := forN3_spec (A := fc) (B := OH) (C := OW) (s := l.buff)
    (body := fun d i j B => do
      let a ← idelta.get d i j
      B.set d (wmul i sv) (wmul j sh) a)
    (fun a b c B => TenIs B fc (sv * (OH - 1) + 1) (sh * (OW - 1) + 1) (fun f Y X =>
      if sv ∣ Y ∧ sh ∣ X then
        if f < a ∨ (f = a ∧ (Y / sv < b ∨ (Y / sv = b ∧ X / sh < c))) then u f (Y / sv) (X / sh) else v f Y X
      else 0))
    (hv.congr (fun f Y X _ _ _ => by
      by_cases e : sv ∣ Y ∧ sh ∣ X
      · rw [if_pos e, if_neg (by generalize Y / sv = q1; generalize X / sh = q2; omega)]
      · rw [if_neg e, hz f Y X e]))
    (fun a b c ha hb hc B hB => by
      rw [hu.get ha hb hc, bind_ok]
      have g1 := stride_le s1 hl.geo.fitH hb
      have g2 := stride_le s2 hl.geo.fitW hc
      have w1 := hl.geo.wordH
      have w2 := hl.geo.wordW
      have m1 : wmul b sv = sv * b := by rw [wmul_eq (by rw [Nat.mul_comm]; omega), Nat.mul_comm]
      have m2 : wmul c sh = sh * c := by rw [wmul_eq (by rw [Nat.mul_comm]; omega), Nat.mul_comm]
      have l1 : sv * b ≤ sv * (OH - 1) := Nat.mul_le_mul_left _ (by omega)
      have l2 : sh * c ≤ sh * (OW - 1) := Nat.mul_le_mul_left _ (by omega)
      rw [m1, m2]
      refine (hB.set ha (by omega) (by omega) _).mono (fun B' hB' => hB'.congr (fun f Y X _ _ _ => ?_))
      by_cases e : sv ∣ Y ∧ sh ∣ X
      · obtain ⟨⟨y', rfl⟩, ⟨x', rfl⟩⟩ := e
        have d1 : sv * y' / sv = y' := Nat.mul_div_cancel_left _ (by omega)
        have d2 : sh * x' / sh = x' := Nat.mul_div_cancel_left _ (by omega)
        have i1 : sv * y' = sv * b ↔ y' = b := Nat.mul_right_inj (by omega)
        have i2 : sh * x' = sh * c ↔ x' = c := Nat.mul_right_inj (by omega)
        rw [d1, d2]
        simp only [i1, i2, Nat.dvd_mul_right, and_self, if_true]
        by_cases e2 : f = a ∧ y' = b ∧ x' = c
        · obtain ⟨rfl, rfl, rfl⟩ := e2
          rw [if_pos ⟨rfl, rfl, rfl⟩, if_pos (by omega)]
        · rw [if_neg e2]
          by_cases e3 : f < a ∨ (f = a ∧ (y' < b ∨ (y' = b ∧ x' < c)))
          · rw [if_pos e3, if_pos (by omega)]
          · rw [if_neg e3, if_neg (by omega)]
      · rw [if_neg e, if_neg, if_neg e]
        rintro ⟨_, rfl, rfl⟩
        exact e ⟨Nat.dvd_mul_right _ _, Nat.dvd_mul_right _ _⟩)
    (fun a b B _ _ hB => hB.congr (fun f Y X _ _ hX => by
      by_cases e : sv ∣ Y ∧ sh ∣ X
      · have hLT : X / sh < OW := by
          obtain ⟨x', rfl⟩ := e.2
          rw [Nat.mul_div_cancel_left _ (by omega)]
          have : 1 ≤ OW := extent_pos _ _ _ _
          by_contra hc
          have : sh * OW ≤ sh * x' := Nat.mul_le_mul_left _ (by omega)
          have : sh * (OW - 1) + sh = sh * OW := by rw [Nat.mul_sub]; have : sh ≤ sh * OW := Nat.le_mul_of_pos_right _ (by omega); omega
          omega
        rw [if_pos e, if_pos e]
        by_cases e3 : f < a ∨ (f = a ∧ (Y / sv < b ∨ (Y / sv = b ∧ X / sh < OW)))
        · rw [if_pos e3, if_pos (by revert e3 hLT; generalize Y / sv = q1; generalize X / sh = q2; omega)]
        · rw [if_neg e3, if_neg (by revert e3 hLT; generalize Y / sv = q1; generalize X / sh = q2; omega)]
      · rw [if_neg e, if_neg e]))
    (fun a B _ hB => hB.congr (fun f Y X _ hY _ => by
      by_cases e : sv ∣ Y ∧ sh ∣ X
      · have hLT : Y / sv < OH := by
          obtain ⟨x', rfl⟩ := e.1
          rw [Nat.mul_div_cancel_left _ (by omega)]
          have : 1 ≤ OH := extent_pos _ _ _ _
          by_contra hc
          have : sv * OH ≤ sv * x' := Nat.mul_le_mul_left _ (by omega)
          have : sv * (OH - 1) + sv = sv * OH := by rw [Nat.mul_sub]; have : sv ≤ sv * OH := Nat.le_mul_of_pos_right _ (by omega); omega
          omega
        rw [if_pos e, if_pos e]
        by_cases e3 : f < a ∨ (f = a ∧ (Y / sv < OH ∨ (Y / sv = OH ∧ X / sh < 0)))
        · rw [if_pos e3, if_pos (by revert e3 hLT; generalize Y / sv = q1; generalize X / sh = q2; omega)]
        · rw [if_neg e3, if_neg (by revert e3 hLT; generalize Y / sv = q1; generalize X / sh = q2; omega)]
      · rw [if_neg e, if_neg e]))
  refine this.mono (fun B hB => hB.congr (fun f Y X hf _ _ => ?_))
  unfold spreadFn
  by_cases e : sv ∣ Y ∧ sh ∣ X
  · rw [if_pos e, if_pos e, if_pos (Or.inl hf)]
  · rw [if_neg e, if_neg e]

end Spread

section Backward
variable [CommSemiring α]
variable {l : Conv α} {d h w fc fh fw pad sv sh : Nat} {b : Nat → α} {W : Nat → Nat → Nat → Nat → α}
  {gb : Nat → α} {gW : Nat → Nat → Nat → Nat → α}

theorem convGradChan_spec {input G : Ten α} {x g : Nat → Nat → Nat → α} (hx : TenIs input d h w x) (hG : TenIs G d fh fw g)
    (dv : α) {i0 j0 i j : Nat} (h1 : i0 < h) (h2 : j0 < w) (h3 : i < fh) (h4 : j < fw) :
    Ok (convGradChan d input dv i0 j0 i j G) (fun G' => TenIs G' d fh fw
      (fun c i' j' => if i' = i ∧ j' = j then g c i' j' + dv * x c i0 j0 else g c i' j')) := by
  unfold convGradChan
  refine (forN_spec (fun n G' => TenIs G' d fh fw
      (fun c i' j' => if c < n ∧ i' = i ∧ j' = j then g c i' j' + dv * x c i0 j0 else g c i' j'))
      (hG.congr (fun _ _ _ _ _ _ => by rw [if_neg (by omega)])) (fun n hn G' hG' => ?_)).mono
      (fun G' hG' => hG'.congr (fun c i' j' hc _ _ => ?_))
  · rw [hG'.get hn h3 h4, bind_ok, hx.get hn h1 h2, bind_ok]
    refine (hG'.set hn h3 h4 _).mono (fun G'' h'' => h''.congr (fun c i' j' _ _ _ => ?_))
    by_cases e : c = n ∧ i' = i ∧ j' = j
    · obtain ⟨rfl, rfl, rfl⟩ := e
      rw [if_pos ⟨rfl, rfl, rfl⟩, if_neg (by omega), if_pos (by omega)]
    · rw [if_neg e]
      by_cases e2 : c < n ∧ i' = i ∧ j' = j
      · rw [if_pos e2, if_pos (by omega)]
      · rw [if_neg e2, if_neg (by omega)]
  · by_cases e : i' = i ∧ j' = j
    · rw [if_pos ⟨hc, e⟩, if_pos e]
    · rw [if_neg (fun h => e h.2), if_neg e]

theorem Conv.gradCell_spec (hl : l.Wf d h w fc fh fw pad sv sh b W gb gW) {input G : Ten α} {x g : Nat → Nat → Nat → α}
    (hx : TenIs input d h w x) (hG : TenIs G d fh fw g) (dv : α) {Y X : Nat} (hY : Y + fh ≤ h + 2 * pad)
    (hX : X + fw ≤ w + 2 * pad) :
    Ok (l.gradCell input dv Y X G) (fun G' => TenIs G' d fh fw (fun c i j =>
      g c i j + dv * padded x h w c ((Y : Int) + i - pad) ((X : Int) + j - pad))) := by
  unfold Conv.gradCell
  obtain ⟨e1, e2, e3⟩ := hl.isz
  obtain ⟨e4, e5, e6⟩ := hl.par
  obtain ⟨e7, e8, e9, e10⟩ := hl.fil
  rw [e2, e3, e4, e8, e9, e10]
  have w1 := hl.geo.wordH
  have w2 := hl.geo.wordW
  let T : Nat → Nat → Nat → α := fun c i j => g c i j + dv * padded x h w c ((Y : Int) + i - pad) ((X : Int) + j - pad)
  refine (forN_spec (fun i G' => TenIs G' d fh fw (fun c i' j' => if i' < i then T c i' j' else g c i' j'))
    (hG.congr (fun _ _ _ _ _ _ => by rw [if_neg (by omega)])) (fun i hi G1 hG1 => ?_)).mono
    (fun G' hG' => hG'.congr (fun c i j hc hi hj => by rw [if_pos hi]))
  refine (forN_spec (fun j G' => TenIs G' d fh fw (fun c i' j' => if i' < i ∨ (i' = i ∧ j' < j) then T c i' j' else g c i' j'))
    (hG1.congr (fun _ _ _ _ _ _ => ?_)) (fun j hj G2 hG2 => ?_)).mono
    (fun G' hG' => hG'.congr (fun c i' j' hc hi' hj' => ?_))
  · rename_i i' _ _ _ _
    by_cases e : i' < i
    · rw [if_pos e, if_pos (Or.inl e)]
    · rw [if_neg e, if_neg (by omega)]
  · have a1 : wadd i Y = Y + i := by rw [wadd_eq (by omega), Nat.add_comm]
    have a2 : wadd j X = X + j := by rw [wadd_eq (by omega), Nat.add_comm]
    simp only [a1, a2]
    have t1 := wsub_test (a := Y + i) (p := pad) (n := h) (by omega) (by omega)
    have t2 := wsub_test (a := X + j) (p := pad) (n := w) (by omega) (by omega)
    by_cases hin : (pad ≤ Y + i ∧ Y + i - pad < h) ∧ (pad ≤ X + j ∧ X + j - pad < w)
    · rw [if_neg (by rw [t1, t2]; tauto), wsub_eq hin.1.1 (by omega), wsub_eq hin.2.1 (by omega)]
      refine (convGradChan_spec hx hG2 dv hin.1.2 hin.2.2 hi hj).mono (fun G' hG' => hG'.congr (fun c i' j' _ _ _ => ?_))
      by_cases e : i' = i ∧ j' = j
      · obtain ⟨rfl, rfl⟩ := e
        rw [if_pos ⟨rfl, rfl⟩, if_neg (by omega), if_pos (by omega)]
        show _ = g c i' j' + dv * padded x h w c ((Y : Int) + i' - pad) ((X : Int) + j' - pad)
        have c1 : ((Y : Int) + i' - pad) = ((Y + i' : Nat) : Int) - pad := by push_cast; ring
        have c2 : ((X : Int) + j' - pad) = ((X + j' : Nat) : Int) - pad := by push_cast; ring
        rw [c1, c2, padded_in hin.1 hin.2]
      · rw [if_neg e]
        by_cases e2 : i' < i ∨ (i' = i ∧ j' < j)
        · rw [if_pos e2, if_pos (by omega)]
        · rw [if_neg e2, if_neg (by omega)]
    · rw [if_pos (by rw [t1, t2]; tauto)]
      refine Ok_ok.2 (hG2.congr (fun c i' j' _ _ _ => ?_))
      by_cases e2 : i' < i ∨ (i' = i ∧ j' < j)
      · rw [if_pos e2, if_pos (by omega)]
      · rw [if_neg e2]
        by_cases e : i' = i ∧ j' = j
        · obtain ⟨rfl, rfl⟩ := e
          rw [if_pos (by omega)]
          show _ = g c i' j' + dv * padded x h w c ((Y : Int) + i' - pad) ((X : Int) + j' - pad)
          have c1 : ((Y : Int) + i' - pad) = ((Y + i' : Nat) : Int) - pad := by push_cast; ring
          have c2 : ((X : Int) + j' - pad) = ((X + j' : Nat) : Int) - pad := by push_cast; ring
          rw [c1, c2, padded_out hin, mul_zero, add_zero]
        · rw [if_neg (by omega)]
  · by_cases e : i' < i ∨ (i' = i ∧ j' < fw)
    · rw [if_pos e, if_pos (by omega)]
    · rw [if_neg e, if_neg (by omega)]

theorem Conv.gradF_spec (hl : l.Wf d h w fc fh fw pad sv sh b W gb gW) {input buff G : Ten α} {x g bf : Nat → Nat → Nat → α}
    {gB : Buf α} {gbv : Nat → α} {BH BW : Nat}
    (hx : TenIs input d h w x) (hbf : TenIs buff fc BH BW bf) (hBH : BH + fh ≤ h + 2 * pad + 1) (hBW : BW + fw ≤ w + 2 * pad + 1)
    (hG : TenIs G d fh fw g) (hgB : VecIs gB fc gbv) {f : Nat} (hf : f < fc) :
    Ok (forN buff.h (G, gB) (fun y s => forN buff.w s (fun x s => do
      let dv ← buff.get f y x
      let G ← l.gradCell input dv y x s.1
      let gb ← s.2.get f
      let gB ← s.2.set f (gb + dv)
      return (G, gB)))) (fun s =>
      TenIs s.1 d fh fw (fun c i j => g c i j + ∑ Y ∈ range BH, ∑ X ∈ range BW,
        bf f Y X * padded x h w c ((Y : Int) + i - pad) ((X : Int) + j - pad)) ∧
      VecIs s.2 fc (fun k => if k = f then gbv k + ∑ Y ∈ range BH, ∑ X ∈ range BW, bf f Y X else gbv k)) := by
  rw [hbf.2.1, hbf.2.2.1]
  let T : Nat → Nat → Nat → Nat → Nat → α := fun Y X c i j =>
    bf f Y X * padded x h w c ((Y : Int) + i - pad) ((X : Int) + j - pad)
  refine (forN_spec (fun y (s : Ten α × Buf α) => TenIs s.1 d fh fw (fun c i j => g c i j + ∑ Y ∈ range y, ∑ X ∈ range BW, T Y X c i j) ∧
      VecIs s.2 fc (fun k => if k = f then gbv k + ∑ Y ∈ range y, ∑ X ∈ range BW, bf f Y X else gbv k))
      ⟨hG.congr (fun _ _ _ _ _ _ => by simp), hgB.congr (fun k _ => by simp)⟩ (fun y hy s hs => ?_))
  refine (forN_spec (fun n (s : Ten α × Buf α) => TenIs s.1 d fh fw (fun c i j => g c i j + ∑ Y ∈ range y, ∑ X ∈ range BW, T Y X c i j +
        ∑ X ∈ range n, T y X c i j) ∧
      VecIs s.2 fc (fun k => if k = f then gbv k + ∑ Y ∈ range y, ∑ X ∈ range BW, bf f Y X + ∑ X ∈ range n, bf f y X else gbv k))
      ⟨hs.1.congr (fun _ _ _ _ _ _ => by simp), hs.2.congr (fun k _ => by simp)⟩ (fun n hn s hs => ?_)).mono (fun s hs => ?_)
  · rw [hbf.get hf hy hn, bind_ok]
    refine (Conv.gradCell_spec hl hx hs.1 _ (by omega) (by omega)).bind (fun G' hG' => ?_)
    rw [hs.2.get hf, bind_ok]
    refine (hs.2.set hf _).bind (fun gB' hgB' => Ok_ok.2 ⟨hG'.congr (fun c i j _ _ _ => ?_), hgB'.congr (fun k _ => ?_)⟩)
    · rw [Finset.sum_range_succ, ← add_assoc]
    · by_cases e : k = f
      · subst e; simp only [if_true]; rw [Finset.sum_range_succ, ← add_assoc]
      · simp only [e, if_false]
  · refine ⟨hs.1.congr (fun c i j _ _ _ => ?_), hs.2.congr (fun k _ => ?_)⟩
    · rw [Finset.sum_range_succ, ← add_assoc]
    · by_cases e : k = f
      · subst e; simp only [if_true]; rw [Finset.sum_range_succ, ← add_assoc]
      · simp only [e, if_false]

theorem Conv.grads_spec (hl : l.Wf d h w fc fh fw pad sv sh b W gb gW) {input buff : Ten α} {x bf : Nat → Nat → Nat → α}
    {BH BW : Nat} (hx : TenIs input d h w x) (hbf : TenIs buff fc BH BW bf) (hBH : BH + fh ≤ h + 2 * pad + 1)
    (hBW : BW + fw ≤ w + 2 * pad + 1) :
    Ok (l.grads input buff) (fun s =>
      WsIs s.1 fc d fh fw (fun f c i j => gW f c i j + ∑ Y ∈ range BH, ∑ X ∈ range BW,
        bf f Y X * padded x h w c ((Y : Int) + i - pad) ((X : Int) + j - pad)) ∧
      VecIs s.2 fc (fun f => gb f + ∑ Y ∈ range BH, ∑ X ∈ range BW, bf f Y X)) := by
  unfold Conv.grads
  rw [hl.fil.1]
  refine (forN_spec (fun n (s : List (Ten α) × Buf α) =>
      WsIs s.1 fc d fh fw (fun f c i j => if f < n then gW f c i j + ∑ Y ∈ range BH, ∑ X ∈ range BW,
        bf f Y X * padded x h w c ((Y : Int) + i - pad) ((X : Int) + j - pad) else gW f c i j) ∧
      VecIs s.2 fc (fun f => if f < n then gb f + ∑ Y ∈ range BH, ∑ X ∈ range BW, bf f Y X else gb f))
      ⟨hl.gradWs.congr (fun f c i j _ _ _ _ => by simp), hl.gradB.congr (fun f _ => by simp)⟩ (fun f hf s hs => ?_)).mono
      (fun s hs => ⟨hs.1.congr (fun f c i j hf _ _ _ => by rw [if_pos hf]), hs.2.congr (fun f hf => by rw [if_pos hf])⟩)
  obtain ⟨G, e1, hG⟩ := hs.1.get hf
  rw [e1, bind_ok]
  refine (Conv.gradF_spec hl hx hbf hBH hBW hG hs.2 hf).bind (fun r hr => ?_)
  refine (hs.1.set hf hr.1).bind (fun Gs hGs => Ok_ok.2 ⟨hGs.congr (fun k c i j _ _ _ _ => ?_), hr.2.congr (fun k _ => ?_)⟩)
  · by_cases e : k = f
    · subst e; simp
    · have h1 : k < f + 1 ↔ k < f := by omega
      simp only [e, if_false, h1]
  · by_cases e : k = f
    · subst e; simp
    · have h1 : k < f + 1 ↔ k < f := by omega
      simp only [e, if_false, h1]

theorem Conv.deltaFilters_spec (hl : l.Wf d h w fc fh fw pad sv sh b W gb gW) {buff : Ten α} {bf : Nat → Nat → Nat → α}
    {BH BW : Nat} (hbf : TenIs buff fc BH BW bf) {c i j i0 j0 : Nat} (hc : c < d) (hi : i < fh) (hj : j < fw) (h1 : i0 < BH)
    (h2 : j0 < BW) (hfw1 : fh < W64) (hfw2 : fw < W64) (sum : α) :
    l.deltaFilters buff c i j i0 j0 sum =
      .ok (sum + ∑ f ∈ range fc, W f c (fh - 1 - i) (fw - 1 - j) * bf f i0 j0) := by
  unfold Conv.deltaFilters
  obtain ⟨e7, e8, e9, e10⟩ := hl.fil
  rw [e7, e9, e10]
  refine forN_add (fun f hf s => ?_)
  obtain ⟨Wt, q1, q2⟩ := hl.Ws.get hf
  have a1 : wsub (wsub fh 1) i = fh - 1 - i := by
    rw [wsub_eq (a := fh) (b := 1) (by omega) (by omega), wsub_eq (by omega) (by omega)]
  have a2 : wsub (wsub fw 1) j = fw - 1 - j := by
    rw [wsub_eq (a := fw) (b := 1) (by omega) (by omega), wsub_eq (by omega) (by omega)]
  rw [q1, bind_ok, a1, a2, q2.get hc (by omega) (by omega), bind_ok, hbf.get hf h1 h2, bind_ok]
  rfl

theorem Conv.deltaCell_spec (hl : l.Wf d h w fc fh fw pad sv sh b W gb gW) {buff : Ten α} {bf : Nat → Nat → Nat → α}
    {BH BW : Nat} (hbf : TenIs buff fc BH BW bf) (hBH : BH + fh ≤ h + 2 * pad + 1) (hBW : BW + fw ≤ w + 2 * pad + 1)
    {c y x : Nat} (hc : c < d) (hy : y < h) (hx : x < w) :
    l.deltaCell buff c y x = .ok (∑ i ∈ range fh, ∑ j ∈ range fw,
      if (i ≤ y + pad ∧ y + pad - i < BH) ∧ (j ≤ x + pad ∧ x + pad - j < BW) then
        ∑ f ∈ range fc, W f c i j * bf f (y + pad - i) (x + pad - j) else 0) := by
  unfold Conv.deltaCell
  obtain ⟨e7, e8, e9, e10⟩ := hl.fil
  rw [e9, e10, hl.par.1, hbf.2.1, hbf.2.2.1]
  have w1 := hl.geo.wordH
  have w2 := hl.geo.wordW
  have f1 := hl.geo.fitH
  have f2 := hl.geo.fitW
  let T : Nat → Nat → α := fun i j =>
    if (i ≤ y + pad ∧ y + pad - i < BH) ∧ (j ≤ x + pad ∧ x + pad - j < BW) then
        ∑ f ∈ range fc, W f c i j * bf f (y + pad - i) (x + pad - j) else 0
  rw [forN_add (t := fun i => ∑ j ∈ range fw, T (fh - 1 - i) (fw - 1 - j)) (fun i hi s => forN_add (fun j hj s => ?_))]
  · rw [zero_add, Finset.sum_range_reflect (fun i => ∑ j ∈ range fw, T i (fw - 1 - j)) fh]
    exact congrArg Except.ok (Finset.sum_congr rfl (fun i _ => Finset.sum_range_reflect (fun j => T i j) fw))
  · have t1 := wdelta_test (y := y) (i := i) (f := fh) (p := pad) (n := BH) (by omega) hi (by omega) (by omega) (by omega) (by omega)
    have t2 := wdelta_test (y := x) (i := j) (f := fw) (p := pad) (n := BW) (by omega) hj (by omega) (by omega) (by omega) (by omega)
    dsimp only
    by_cases hin : (fh - 1 - i ≤ y + pad ∧ y + pad - (fh - 1 - i) < BH) ∧ (fw - 1 - j ≤ x + pad ∧ x + pad - (fw - 1 - j) < BW)
    · rw [if_neg (by rw [t1, t2]; tauto), wdelta_val (by omega) hi (by omega) (by omega) (by omega) hin.1.1,
        wdelta_val (by omega) hj (by omega) (by omega) (by omega) hin.2.1,
        Conv.deltaFilters_spec hl hbf hc hi hj hin.1.2 hin.2.2 (by omega) (by omega)]
      show _ = Except.ok (s + (if _ then _ else _))
      rw [if_pos hin]
    · rw [if_pos (by rw [t1, t2]; tauto)]
      show _ = Except.ok (s + (if _ then _ else _))
      rw [if_neg hin, add_zero]

theorem Conv.deltas_spec (hl : l.Wf d h w fc fh fw pad sv sh b W gb gW) {buff : Ten α} {bf : Nat → Nat → Nat → α}
    {BH BW : Nat} (hbf : TenIs buff fc BH BW bf) (hBH : BH + fh ≤ h + 2 * pad + 1) (hBW : BW + fw ≤ w + 2 * pad + 1) :
    Ok (l.deltas buff) (fun D => TenIs D d h w (fun c y x => ∑ i ∈ range fh, ∑ j ∈ range fw,
      if (i ≤ y + pad ∧ y + pad - i < BH) ∧ (j ≤ x + pad ∧ x + pad - j < BW) then
        ∑ f ∈ range fc, W f c i j * bf f (y + pad - i) (x + pad - j) else 0)) := by
  unfold Conv.deltas
  obtain ⟨v, hv⟩ := hl.delta
  rw [hl.isz.2.1, hl.isz.2.2, hl.fil.2.1]
  refine forN_ten' hv (fun c y x hc hy hx r g hr _ => ?_)
  rw [Conv.deltaCell_spec hl hbf hBH hBW hc hy hx, bind_ok]
  exact hr.set hc hy hx _

end Backward

/-! ### Sums over the stride grid -/

section Grid
variable [AddCommMonoid α]

theorem sum_grid {s n : Nat} (hs : 1 ≤ s) (hn : 1 ≤ n) (a : Nat → α) (F : Nat → Nat → α)
    (hF : ∀ k, k < n → F (s * k) k = a k) :
    ∑ Y ∈ range (s * (n - 1) + 1), (if s ∣ Y then F Y (Y / s) else 0) = ∑ k ∈ range n, a k := by
  rw [← Finset.sum_filter]
  have e : (range (s * (n - 1) + 1)).filter (fun Y => s ∣ Y) = (range n).image (fun k => s * k) := by
    ext Y
    simp only [mem_filter, mem_range, mem_image]
    constructor
    · rintro ⟨h1, k, rfl⟩
      refine ⟨k, ?_, rfl⟩
      by_contra hc
      have : s * n ≤ s * k := Nat.mul_le_mul_left _ (by omega)
      have : s * (n - 1) + s = s * n := by
        rw [Nat.mul_sub]; have : s ≤ s * n := Nat.le_mul_of_pos_right _ (by omega); omega
      omega
    · rintro ⟨k, hk, rfl⟩
      have : s * k ≤ s * (n - 1) := Nat.mul_le_mul_left _ (by omega)
      exact ⟨by omega, Nat.dvd_mul_right _ _⟩
  rw [e, Finset.sum_image (fun a _ b _ h => Nat.eq_of_mul_eq_mul_left (by omega) h)]
  refine Finset.sum_congr rfl (fun k hk => ?_)
  rw [Nat.mul_div_cancel_left _ (by omega)]
  exact hF k (mem_range.1 hk)

theorem sum_grid2 {s t n m : Nat} (hs : 1 ≤ s) (ht : 1 ≤ t) (hn : 1 ≤ n) (hm : 1 ≤ m) (F : Nat → Nat → Nat → Nat → α) :
    ∑ Y ∈ range (s * (n - 1) + 1), ∑ X ∈ range (t * (m - 1) + 1),
      (if s ∣ Y ∧ t ∣ X then F Y X (Y / s) (X / t) else 0) =
    ∑ k ∈ range n, ∑ q ∈ range m, F (s * k) (t * q) k q := by
  have e : ∀ Y, ∑ X ∈ range (t * (m - 1) + 1), (if s ∣ Y ∧ t ∣ X then F Y X (Y / s) (X / t) else 0) =
      if s ∣ Y then (fun Y k => ∑ q ∈ range m, F Y (t * q) k q) Y (Y / s) else 0 := by
    intro Y
    by_cases h : s ∣ Y
    · simp only [h, true_and, if_true]
      exact sum_grid ht hm (fun q => F Y (t * q) (Y / s) q) (fun X q => F Y X (Y / s) q) (fun _ _ => rfl)
    · simp [h]
  rw [Finset.sum_congr rfl (fun Y _ => e Y)]
  exact sum_grid hs hn (fun k => ∑ q ∈ range m, F (s * k) (t * q) k q) (fun Y k => ∑ q ∈ range m, F Y (t * q) k q)
    (fun _ _ => rfl)

/-- A window condition is a sum over the grid points that satisfy it. -/
theorem sum_hit {s t n m i j S T : Nat} (hs : 1 ≤ s) (ht : 1 ≤ t) (hn : 1 ≤ n) (hm : 1 ≤ m) (a : Nat → Nat → α) :
    (if (i ≤ S ∧ S - i < s * (n - 1) + 1) ∧ (j ≤ T ∧ T - j < t * (m - 1) + 1) then
      (if s ∣ S - i ∧ t ∣ T - j then a ((S - i) / s) ((T - j) / t) else 0) else 0) =
    ∑ k ∈ range n, ∑ q ∈ range m, if s * k + i = S ∧ t * q + j = T then a k q else 0 := by
  have lt : ∀ {s n k : Nat}, 1 ≤ s → 1 ≤ n → (s * k < s * (n - 1) + 1 ↔ k < n) := by
    intro s n k hs hn
    constructor
    · intro h
      by_contra hc
      have : s * n ≤ s * k := Nat.mul_le_mul_left _ (by omega)
      have : s * (n - 1) + s = s * n := by
        rw [Nat.mul_sub]; have : s ≤ s * n := Nat.le_mul_of_pos_right _ (by omega); omega
      omega
    · intro h
      have : s * k ≤ s * (n - 1) := Nat.mul_le_mul_left _ (by omega)
      omega
  by_cases hex : ∃ k q, (k < n ∧ s * k + i = S) ∧ (q < m ∧ t * q + j = T)
  · obtain ⟨k, q, ⟨hk, rfl⟩, ⟨hq, rfl⟩⟩ := hex
    rw [Nat.add_sub_cancel, Nat.add_sub_cancel, if_pos ⟨⟨by omega, (lt hs hn).2 hk⟩, ⟨by omega, (lt ht hm).2 hq⟩⟩,
      if_pos ⟨Nat.dvd_mul_right _ _, Nat.dvd_mul_right _ _⟩, Nat.mul_div_cancel_left _ (by omega),
      Nat.mul_div_cancel_left _ (by omega), Finset.sum_eq_single k, Finset.sum_eq_single q]
    · rw [if_pos ⟨rfl, rfl⟩]
    · intro q' _ hne
      rw [if_neg]; rintro ⟨_, h⟩
      have h' : t * q' = t * q := by omega
      exact hne (Nat.eq_of_mul_eq_mul_left (by omega) h')
    · intro hh; exact absurd (mem_range.2 hq) hh
    · intro k' _ hne
      refine Finset.sum_eq_zero (fun q' _ => ?_)
      rw [if_neg]; rintro ⟨h, _⟩
      have h' : s * k' = s * k := by omega
      exact hne (Nat.eq_of_mul_eq_mul_left (by omega) h')
    · intro hh; exact absurd (mem_range.2 hk) hh
  · have r : ∑ k ∈ range n, ∑ q ∈ range m, (if s * k + i = S ∧ t * q + j = T then a k q else 0) = 0 :=
      Finset.sum_eq_zero (fun k hk => Finset.sum_eq_zero (fun q hq => by
        rw [if_neg]; rintro ⟨h1, h2⟩
        exact hex ⟨k, q, ⟨mem_range.1 hk, h1⟩, ⟨mem_range.1 hq, h2⟩⟩))
    rw [r]
    by_cases h1 : (i ≤ S ∧ S - i < s * (n - 1) + 1) ∧ (j ≤ T ∧ T - j < t * (m - 1) + 1)
    · rw [if_pos h1, if_neg]
      rintro ⟨⟨k, ek⟩, ⟨q, eq⟩⟩
      rw [ek, eq] at h1
      exact hex ⟨k, q, ⟨(lt hs hn).1 h1.1.2, by omega⟩, ⟨(lt ht hm).1 h1.2.2, by omega⟩⟩
    · rw [if_neg h1]

theorem padded_hit {x : Nat → Nat → Nat → α} {h w c a b p : Nat} :
    padded x h w c ((a : Int) - p) ((b : Int) - p) =
      ∑ y ∈ range h, ∑ z ∈ range w, if a = y + p ∧ b = z + p then x c y z else 0 := by
  by_cases hin : (p ≤ a ∧ a - p < h) ∧ (p ≤ b ∧ b - p < w)
  · rw [padded_in hin.1 hin.2, Finset.sum_eq_single (a - p), Finset.sum_eq_single (b - p)]
    · rw [if_pos (by omega)]
    · intro z _ hz; rw [if_neg (by omega)]
    · intro hh; exact absurd (mem_range.2 hin.2.2) hh
    · intro y _ hy; exact Finset.sum_eq_zero (fun z _ => by rw [if_neg (by omega)])
    · intro hh; exact absurd (mem_range.2 hin.1.2) hh
  · rw [padded_out hin]
    symm
    refine Finset.sum_eq_zero (fun y hy => Finset.sum_eq_zero (fun z hz => ?_))
    have := mem_range.1 hy
    have := mem_range.1 hz
    rw [if_neg (by omega)]

end Grid

/-! ### The backward pass in terms of output cells -/

section Final
variable [CommSemiring α]
variable {l : Conv α} {d h w fc fh fw pad sv sh : Nat} {b : Nat → α} {W : Nat → Nat → Nat → Nat → α}
  {gb : Nat → α} {gW : Nat → Nat → Nat → Nat → α}

theorem Conv.backward_spec (hl : l.Wf d h w fc fh fw pad sv sh b W gb gW) {input idelta : Ten α} {x u : Nat → Nat → Nat → α}
    (hx : TenIs input d h w x) (hu : TenIs idelta fc (extent h fh pad sv) (extent w fw pad sh) u) (full : Bool) :
    Ok (l.backward input idelta full) (fun l' =>
      l'.Wf d h w fc fh fw pad sv sh b W
        (fun f => gb f + ∑ oy ∈ range (extent h fh pad sv), ∑ ox ∈ range (extent w fw pad sh), u f oy ox)
        (fun f c i j => gW f c i j + ∑ oy ∈ range (extent h fh pad sv), ∑ ox ∈ range (extent w fw pad sh),
          u f oy ox * padded x h w c ((sv : Int) * oy + i - pad) ((sh : Int) * ox + j - pad)) ∧
      TenIs l'.delta d h w (convDelta fc fh fw pad sv sh (extent h fh pad sv) (extent w fw pad sh) W u) ∧
      l' = { l with buff := l'.buff, gradWs := l'.gradWs, gradB := l'.gradB, delta := l'.delta }) := by
  unfold Conv.backward
  have s1 := hl.geo.sv
  have s2 := hl.geo.sh
  have n1 := extent_pos h fh pad sv
  have n2 := extent_pos w fw pad sh
  have b1 := extent_fit s1 hl.geo.fitH
  have b2 := extent_fit s2 hl.geo.fitW
  refine (Conv.spread_spec hl hu).bind (fun B hB => ?_)
  refine (Conv.grads_spec hl hx hB (by omega) (by omega)).bind (fun G hG => ?_)
  refine (Conv.deltas_spec hl hB (by omega) (by omega)).bind (fun D hD => ?_)
  have hD' : TenIs D d h w (convDelta fc fh fw pad sv sh (extent h fh pad sv) (extent w fw pad sh) W u) := by
    refine hD.congr (fun c y z _ _ _ => ?_)
    unfold convDelta
    refine Finset.sum_congr rfl (fun i _ => Finset.sum_congr rfl (fun j _ => ?_))
    have e := sum_hit (i := i) (j := j) (S := y + pad) (T := z + pad) s1 s2 n1 n2 (fun oy ox => ∑ f ∈ range fc, u f oy ox * W f c i j)
    rw [← e]
    congr 1
    unfold spreadFn
    by_cases hd : sv ∣ y + pad - i ∧ sh ∣ z + pad - j
    · simp only [hd, and_self, if_true]
      exact Finset.sum_congr rfl (fun f _ => mul_comm _ _)
    · simp only [hd, if_false, mul_zero, Finset.sum_const_zero]
  refine Ok_ok.2 ⟨{ hl with gradWs := hG.1.congr (fun f c i j _ _ _ _ => ?_), gradB := hG.2.congr (fun f _ => ?_),
                            delta := ⟨_, hD'⟩, buff := ⟨_, hB, fun f Y X hn => if_neg hn⟩ }, hD', rfl⟩
  · congr 1
    have := sum_grid2 s1 s2 n1 n2 (fun Y X k q => u f k q * padded x h w c ((Y : Int) + i - pad) ((X : Int) + j - pad))
    push_cast at this
    rw [← this]
    refine Finset.sum_congr rfl (fun Y _ => Finset.sum_congr rfl (fun X _ => ?_))
    unfold spreadFn
    by_cases hd : sv ∣ Y ∧ sh ∣ X
    · rw [if_pos hd, if_pos hd]
    · rw [if_neg hd, if_neg hd, zero_mul]
  · congr 1
    have := sum_grid2 s1 s2 n1 n2 (fun Y X k q => u f k q)
    rw [← this]
    rfl

end Final

end Trixy
