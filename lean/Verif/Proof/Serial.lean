import Verif.Proof.ConvAdj
import Verif.Proof.FC
import Verif.Proof.Net
import Verif.Proof.ContainerWorld
import Verif.Spec.Serial
namespace Trixy
set_option linter.unusedSectionVars false

variable {α β : Type}

/-- Reading `bs` gives `y`, whatever follows. -/
def Reads {Y : Type} (get : List β → Res (Y × List β)) (bs : List β) (y : Y) : Prop := ∀ rest, get (bs ++ rest) = .ok (y, rest)

theorem putMany_ok {X : Type} {put : X → Res (List β)} {get : Nat → List β → Res (X × List β)} {Q : X → X → Prop} :
    ∀ (xs : List X) (k : Nat), (∀ i x, xs[i]? = some x → RoundTrip (put x) (get (k + i)) (fun y => Q x y)) →
      ∃ bs ys, putMany put xs = .ok bs ∧ Reads (getMany get xs.length k) bs ys ∧ List.Forall₂ Q xs ys := by
  intro xs
  induction xs with
  | nil => intro k _; exact ⟨[], [], rfl, fun rest => rfl, .nil⟩
  | cons x xs ih =>
    intro k h
    obtain ⟨b, y, h1, h2, h3⟩ := h 0 x rfl
    obtain ⟨bs, ys, i1, i2, i3⟩ := ih (k + 1) (fun i z hz => by
      have := h (i + 1) z hz
      rwa [show k + 1 + i = k + (i + 1) by omega])
    refine ⟨b ++ bs, y :: ys, ?_, fun rest => ?_, .cons h3 i3⟩
    · rw [putMany, h1, bind_ok, i1, bind_ok]; rfl
    · show getMany get (xs.length + 1) k _ = _
      rw [getMany, List.append_assoc]
      rw [show get k (b ++ (bs ++ rest)) = .ok (y, bs ++ rest) from h2 _, bind_ok]
      dsimp only
      rw [i2, bind_ok]; rfl

theorem Forall₂_eq {X : Type} : ∀ {xs ys : List X}, List.Forall₂ (fun a b => a = b) xs ys → xs = ys
  | _, _, .nil => rfl
  | _, _, .cons h t => by rw [h, Forall₂_eq t]

section
variable {c : Codec α β} (hc : c.Lawful)
include hc

theorem read_nat {n : Nat} (hn : n < W64) : Reads c.getNat (c.putNat n) n := hc.nat n hn

theorem read_shape {s : Shape} (h1 : s.d < W64) (h2 : s.h < W64) (h3 : s.w < W64) (h4 : s.size < W64) :
    Reads c.getShape (c.putShape s) s := by
  intro rest
  unfold Codec.getShape Codec.putShape
  simp only [List.append_assoc]
  rw [hc.nat _ h1, bind_ok]; dsimp only
  rw [hc.nat _ h2, bind_ok]; dsimp only
  rw [hc.nat _ h3, bind_ok]; dsimp only
  rw [hc.nat _ h4, bind_ok]; rfl

theorem read_cells {b : Buf α} {n : Nat} (hb : Full b n) :
    ∃ bs, putMany c.putCell b = .ok bs ∧ Reads (getMany (fun _ => c.getCell) n 0) bs b := by
  obtain ⟨f, hf⟩ := hb
  obtain ⟨bs, ys, h1, h2, h3⟩ := putMany_ok (put := c.putCell) (get := fun _ => c.getCell) (Q := fun a b => a = b) b 0
    (fun i x hx => by
      have hi : i < n := by
        rw [← hf.1]
        exact (List.getElem?_eq_some_iff.1 hx).1
      have := hf.2 i hi
      rw [hx] at this
      injection this with this
      subst this
      refine ⟨c.putVal (f i), some (f i), rfl, fun rest => ?_, rfl⟩
      unfold Codec.getCell
      rw [hc.val, bind_ok]; rfl)
  have e := Forall₂_eq h3
  subst e
  rw [hf.1] at h2
  exact ⟨bs, h1, h2⟩

theorem read_tensor {s : Shape} {b : Buf α} (h1 : s.d < W64) (h2 : s.h < W64) (h3 : s.w < W64) (h4 : s.size < W64)
    (hb : Full b s.size) : ∃ bs, c.putTensor s b = .ok bs ∧ Reads c.getTensor bs (s, b) := by
  obtain ⟨cells, e1, e2⟩ := read_cells hc hb
  have hlen : b.length = s.size := by obtain ⟨f, hf⟩ := hb; exact hf.1
  refine ⟨c.putShape s ++ c.putNat s.size ++ cells, ?_, fun rest => ?_⟩
  · unfold Codec.putTensor
    rw [if_neg (by omega), List.take_of_length_le (by omega), e1, bind_ok]; rfl
  · unfold Codec.getTensor
    simp only [List.append_assoc]
    rw [read_shape hc h1 h2 h3 h4, bind_ok]; dsimp only
    rw [hc.nat _ h4, bind_ok]; dsimp only
    rw [e2, bind_ok]; rfl

theorem read_vec {b : Buf α} {n : Nat} (hb : Full b n) (hn : n < W64) :
    ∃ bs, c.putVec b = .ok bs ∧ Reads c.getVec bs b := by
  have hlen : b.length = n := by obtain ⟨f, hf⟩ := hb; exact hf.1
  have e : (vecShape b.length).size = n := by
    show wmul (wmul 1 b.length) 1 = n
    have e0 : wmul 1 n = n := by rw [wmul_eq (by rw [Nat.one_mul]; exact hn), Nat.one_mul]
    rw [hlen, e0, wmul_eq (by rw [Nat.mul_one]; exact hn), Nat.mul_one]
  have one : (1 : Nat) < W64 := by decide
  obtain ⟨bs, h1, h2⟩ := read_tensor hc (s := vecShape b.length) (b := b) one (by show b.length < W64; omega) one
    (by omega) (by rw [e]; exact hb)
  refine ⟨bs, h1, fun rest => ?_⟩
  unfold Codec.getVec
  rw [h2, bind_ok]; rfl

theorem read_mat {m : Mat α} {h w : Nat} (hm : MFull m h w) (hs : Small3 1 h w) :
    ∃ bs, c.putMat m = .ok bs ∧ Reads c.getMat bs m := by
  obtain ⟨f, hf⟩ := hm
  obtain ⟨e1, e2, e3⟩ := hf
  have hb : Full m.data (h * w) := ⟨_, MatIs.flat ⟨e1, e2, e3⟩⟩
  obtain ⟨_, s2, s3, s4, s5⟩ := hs
  rw [Nat.one_mul] at s5
  have e : wmul m.h m.w = h * w := by rw [e1, e2, wmul_eq s5]
  obtain ⟨bs, h1, h2⟩ := read_tensor hc (s := ⟨0, m.h, m.w, wmul m.h m.w⟩) (b := m.data) (by show 0 < W64; decide)
    (by show m.h < W64; omega) (by show m.w < W64; omega) (by show wmul m.h m.w < W64; omega) (by rw [e]; exact hb)
  refine ⟨bs, h1, fun rest => ?_⟩
  unfold Codec.getMat
  rw [h2, bind_ok]; rfl

omit hc in
theorem Small3.size {a b d : Nat} (hs : Small3 a b d) : (Shape.mk3 a b d).size = a * b * d := by
  show wmul (wmul a b) d = _
  rw [wmul_eq hs.2.2.2.1, wmul_eq hs.2.2.2.2]

theorem read_ten {t : Ten α} {d h w : Nat} {f} (ht : TenIs t d h w f) (hs : Small3 d h w) :
    ∃ bs, c.putTen t = .ok bs ∧ Reads c.getTen bs t := by
  have hb : Full t.data (d * h * w) := ⟨_, TenIs.flat ht⟩
  obtain ⟨e1, e2, e3, _⟩ := ht
  have e : (Shape.mk3 t.d t.h t.w).size = d * h * w := by rw [e1, e2, e3]; exact hs.size
  obtain ⟨s1, s2, s3, s4, s5⟩ := hs
  obtain ⟨bs, h1, h2⟩ := read_tensor hc (s := Shape.mk3 t.d t.h t.w) (b := t.data) (by show t.d < W64; omega)
    (by show t.h < W64; omega) (by show t.w < W64; omega) (by omega) (by rw [e]; exact hb)
  refine ⟨bs, h1, fun rest => ?_⟩
  unfold Codec.getTen
  rw [h2, bind_ok]; rfl

theorem read_act {R : Registry α} {a : Act α} (ha : R.Has a) : Reads (c.getAct R) (c.putAct R a) a := by
  intro rest
  unfold Codec.getAct Codec.putAct
  rw [hc.nat _ ha.1, bind_ok]; dsimp only
  rw [ha.2]; rfl

theorem read_dense {R : Registry α} {n m : Nat} {B : Buf α} {W : Mat α} {a : Act α} (hB : Full B m) (hW : MFull W n m) (ha : R.Has a)
    (hs : Small3 1 n m) : ∃ bs, c.putDense R n m B W a = .ok bs ∧
      Reads (c.getDense R) bs (Shape.mk3 1 1 n, Shape.mk3 1 1 m, B, W, a) := by
  obtain ⟨_, s2, s3, s4, s5⟩ := id hs
  obtain ⟨b1, p1, r1⟩ := read_vec hc hB s3
  obtain ⟨b2, p2, r2⟩ := read_mat hc hW hs
  have one : (1 : Nat) < W64 := by decide
  have k1 : Small3 1 1 n := ⟨one, one, s2, one, by simpa using s2⟩
  have k2 : Small3 1 1 m := ⟨one, one, s3, one, by simpa using s3⟩
  refine ⟨c.putShape (Shape.mk3 1 1 n) ++ c.putShape (Shape.mk3 1 1 m) ++ b1 ++ b2 ++ c.putAct R a, ?_, fun rest => ?_⟩
  · unfold Codec.putDense
    rw [p1, bind_ok, p2, bind_ok]; rfl
  · unfold Codec.getDense
    simp only [List.append_assoc]
    rw [read_shape hc k1.1 k1.2.1 k1.2.2.1 (by rw [k1.size]; exact k1.2.2.2.2), bind_ok]; dsimp only
    rw [read_shape hc k2.1 k2.2.1 k2.2.2.1 (by rw [k2.size]; exact k2.2.2.2.2), bind_ok]; dsimp only
    rw [r1, bind_ok]; dsimp only
    rw [r2, bind_ok]; dsimp only
    rw [read_act hc ha, bind_ok]; rfl

end

theorem tenOf_row [Zero α] {n : Nat} (hn : n < W64) : RowIs (tenOf (Shape.mk3 1 1 n) : Ten α) n (fun _ => 0) := by
  have one : (1 : Nat) < W64 := by decide
  have k : Small3 1 1 n := ⟨one, one, hn, one, by simpa using hn⟩
  refine ⟨rfl, rfl, rfl, ?_⟩
  show VecIs (filled (Shape.mk3 1 1 n).size 0) n _
  rw [k.size, show 1 * 1 * n = n by omega]
  exact VecIs_filled n 0

theorem tenOf_is [Zero α] {d h w : Nat} (hs : Small3 d h w) : TenIs (tenOf (Shape.mk3 d h w) : Ten α) d h w (fun _ _ _ => 0) := by
  have : (tenOf (Shape.mk3 d h w) : Ten α) = Ten.fill d h w 0 := by
    unfold tenOf Ten.fill filled
    rw [hs.size]; rfl
  rw [this]
  exact TenIs_fill d h w 0

theorem FC.prepare_Wf [Zero α] {n m kB kW : Nat} {B : Buf α} {W : Mat α} {a : Act α} {b : Nat → α} {V : Nat → Nat → α}
    (hB : VecIs B m b) (hW : MatIs W n m V) (hn : n < W64) (hm : m < W64) :
    (FC.prepare kB kW (Shape.mk3 1 1 n) (Shape.mk3 1 1 m) B W a).Wf n m b V where
  isize := rfl
  osize := rfl
  B := hB
  W := hW
  value := ⟨_, tenOf_row hm⟩
  buff := (VecIs_filled m 0).full
  gradB := (VecIs_filled m 0).full
  gradW := (MatIs_fill n m 0).full
  gradBs := (VecIs_filled m 0).full
  gradWs := (MatIs_fill n m 0).full
  delta := ⟨_, tenOf_row hn⟩

theorem Conv.prepare_Wf [Zero α] {l : Conv α} {d h w fc fh fw pad sv sh b W gb gW} (hl : l.Wf d h w fc fh fw pad sv sh b W gb gW)
    (hfc : 1 ≤ fc) (hs : ConvSmall d h w fc fh fw pad sv sh) (kB : Nat) (kW : Nat → Nat) :
    ∃ l', Conv.prepare kB kW (Shape.mk3 l.id l.ih l.iw) (Shape.mk3 l.od l.oh l.ow) l.pad l.sv l.sh l.B l.Ws = .ok l' ∧
      l'.Wf d h w fc fh fw pad sv sh b W (fun _ => 0) (fun _ _ _ _ => 0) ∧ l'.B = l.B ∧ l'.Ws = l.Ws := by
  obtain ⟨e1, e2, e3⟩ := hl.isz
  obtain ⟨e4, e5, e6⟩ := hl.osz
  obtain ⟨e7, e8, e9⟩ := hl.par
  obtain ⟨W0, hW0, ht⟩ := hl.Ws.2 0 hfc
  have hlen := hl.Ws.1
  cases hw : l.Ws with
  | nil => rw [hw] at hW0; cases hW0
  | cons W1 Wt =>
    rw [hw] at hW0
    injection hW0 with hW0
    subst hW0
    refine ⟨_, rfl, ?_, rfl, rfl⟩
    rw [hw] at hlen
    have geo := hl.geo
    have b1 : wadd (wmul sv (wsub (extent h fh pad sv) 1)) 1 = sv * (extent h fh pad sv - 1) + 1 := by
      have h4 := extent_pos h fh pad sv
      have h5 := hs.out.2.1
      have h6 := hs.buf.2.1
      rw [wsub_eq h4 h5, wmul_eq (by omega), wadd_eq h6]
    have b2 : wadd (wmul sh (wsub (extent w fw pad sh) 1)) 1 = sh * (extent w fw pad sh - 1) + 1 := by
      have h4 := extent_pos w fw pad sh
      have h5 := hs.out.2.2.1
      have h6 := hs.buf.2.2.1
      rw [wsub_eq h4 h5, wmul_eq (by omega), wadd_eq h6]
    have z : TenIs (⟨W1.d, W1.h, W1.w, filled W1.data.length 0⟩ : Ten α) d fh fw (fun _ _ _ => 0) := by
      have hz : (⟨W1.d, W1.h, W1.w, filled W1.data.length 0⟩ : Ten α) = Ten.fill d fh fw 0 := by
        rw [ht.1, ht.2.1, ht.2.2.1, ht.2.2.2.1]; rfl
      rw [hz]; exact TenIs_fill d fh fw 0
    exact {
      geo := geo
      isz := hl.isz
      osz := hl.osz
      par := hl.par
      fil := ⟨hlen, ht.1, ht.2.1, ht.2.2.1⟩
      B := hl.B
      Ws := by have := hl.Ws; rw [hw] at this; exact this
      value := ⟨_, by
        show TenIs (tenOf (Shape.mk3 l.od l.oh l.ow)) _ _ _ _
        rw [e4, e5, e6]; exact tenOf_is hs.out⟩
      gradWs := by
        show WsIs (List.replicate (W1 :: Wt).length _) _ _ _ _ _
        rw [hlen]; exact WsIs_replicate z
      gradB := by
        show VecIs (filled (W1 :: Wt).length 0) _ _
        rw [hlen]; exact VecIs_filled fc 0
      delta := ⟨_, by
        show TenIs (tenOf (Shape.mk3 l.id l.ih l.iw)) _ _ _ _
        rw [e1, e2, e3]; exact tenOf_is hs.inp⟩
      buff := ⟨_, by
        show TenIs (tenOf (Shape.mk3 l.od (wadd (wmul l.sv (wsub l.oh 1)) 1) (wadd (wmul l.sh (wsub l.ow 1)) 1))) _ _ _ _
        rw [e4, e5, e6, e8, e9, b1, b2]; exact tenOf_is hs.buf, fun _ _ _ _ => rfl⟩ }

/-- What loading a saved layer gives. -/
structure Layer.Same [CommSemiring α] [LinearOrder α] (l l' : Layer α) : Prop where
  params : l'.params = l.params
  computes : ∀ s s' F, l.Computes s s' F → l'.Computes s s' F
  dense : ∀ p, l.IsDense p → l'.IsDense p
  clean : ∀ f : FC α, l' = .fc f → f.accumulated = false
  sizes : l'.sizes = l.sizes

section
variable {c : Codec α β} (hc : c.Lawful)
include hc

theorem read_conv [Zero α] {l : Conv α} {d h w fc fh fw pad sv sh b W gb gW} (hl : l.Wf d h w fc fh fw pad sv sh b W gb gW)
    (hfc : 1 ≤ fc) (hs : ConvSmall d h w fc fh fw pad sv sh) (kB : Nat) (kW : Nat → Nat) :
    ∃ bs l', c.putConv l = .ok bs ∧ Reads (c.getConv kB kW) bs l' ∧
      l'.Wf d h w fc fh fw pad sv sh b W (fun _ => 0) (fun _ _ _ _ => 0) ∧ l'.B = l.B ∧ l'.Ws = l.Ws := by
  obtain ⟨l', hl1, hl2⟩ := Conv.prepare_Wf hl hfc hs kB kW
  obtain ⟨e1, e2, e3⟩ := hl.isz
  obtain ⟨e4, e5, e6⟩ := hl.osz
  obtain ⟨e7, e8, e9⟩ := hl.par
  have hfc' : fc < W64 := hs.out.1
  obtain ⟨b1, p1, r1⟩ := read_vec hc (⟨_, hl.B⟩ : Full l.B fc) hfc'
  obtain ⟨b2, ws, p2, r2, q2⟩ := putMany_ok (put := c.putTen) (get := fun _ => c.getTen) (Q := fun a b => a = b) l.Ws 0
    (fun i x hx => by
      have hi : i < fc := by
        rw [← hl.Ws.1]
        exact (List.getElem?_eq_some_iff.1 hx).1
      obtain ⟨t, h1, h2⟩ := hl.Ws.2 i hi
      rw [hx] at h1
      injection h1 with h1
      subst h1
      obtain ⟨bs, k1, k2⟩ := read_ten hc h2 hs.fil
      exact ⟨bs, x, k1, k2, rfl⟩)
  have e := Forall₂_eq q2
  subst e
  have k1 : Small3 l.id l.ih l.iw := by rw [e1, e2, e3]; exact hs.inp
  have k2 : Small3 l.od l.oh l.ow := by rw [e4, e5, e6]; exact hs.out
  refine ⟨c.putShape (Shape.mk3 l.id l.ih l.iw) ++ c.putShape (Shape.mk3 l.od l.oh l.ow) ++ c.putNat l.pad ++ c.putNat l.sv ++
    c.putNat l.sh ++ b1 ++ (c.putNat l.Ws.length ++ b2), l', ?_, fun rest => ?_, hl2⟩
  · unfold Codec.putConv
    rw [p1, bind_ok, p2, bind_ok]; rfl
  · unfold Codec.getConv
    simp only [List.append_assoc]
    rw [read_shape hc k1.1 k1.2.1 k1.2.2.1 (by rw [k1.size]; exact k1.2.2.2.2), bind_ok]; dsimp only
    rw [read_shape hc k2.1 k2.2.1 k2.2.2.1 (by rw [k2.size]; exact k2.2.2.2.2), bind_ok]; dsimp only
    rw [hc.nat _ (by rw [e7]; exact hs.par.1), bind_ok]; dsimp only
    rw [hc.nat _ (by rw [e8]; exact hs.par.2.1), bind_ok]; dsimp only
    rw [hc.nat _ (by rw [e9]; exact hs.par.2.2), bind_ok]; dsimp only
    rw [r1, bind_ok]; dsimp only
    rw [hc.nat _ (by rw [hl.Ws.1]; exact hfc'), bind_ok]; dsimp only
    rw [r2, bind_ok]; dsimp only
    rw [hl1, bind_ok]; rfl

omit hc in
/-- The geometry of a layer is determined by its members. -/
theorem Conv.Wf.geo_eq [Zero α] {l : Conv α} {d h w fc fh fw pad sv sh b W gb gW} {d' h' w' fc' fh' fw' pad' sv' sh' b' W' gb' gW'}
    (hl : l.Wf d h w fc fh fw pad sv sh b W gb gW) (hl' : l.Wf d' h' w' fc' fh' fw' pad' sv' sh' b' W' gb' gW') :
    d' = d ∧ h' = h ∧ w' = w ∧ fc' = fc ∧ fh' = fh ∧ fw' = fw ∧ pad' = pad ∧ sv' = sv ∧ sh' = sh :=
  ⟨hl'.isz.1.symm.trans hl.isz.1, hl'.isz.2.1.symm.trans hl.isz.2.1, hl'.isz.2.2.symm.trans hl.isz.2.2,
    hl'.fil.1.symm.trans hl.fil.1, hl'.fil.2.2.1.symm.trans hl.fil.2.2.1, hl'.fil.2.2.2.symm.trans hl.fil.2.2.2,
    hl'.par.1.symm.trans hl.par.1, hl'.par.2.1.symm.trans hl.par.2.1, hl'.par.2.2.symm.trans hl.par.2.2⟩

omit hc in
theorem conv_sizes [Zero α] {l l' : Conv α} {d h w fc fh fw pad sv sh b W gb gW b' W' gb' gW'}
    (hl : l.Wf d h w fc fh fw pad sv sh b W gb gW) (hl' : l'.Wf d h w fc fh fw pad sv sh b' W' gb' gW') :
    ((l'.id, l'.ih, l'.iw), (l'.od, l'.oh, l'.ow)) = ((l.id, l.ih, l.iw), (l.od, l.oh, l.ow)) := by
  rw [hl.isz.1, hl.isz.2.1, hl.isz.2.2, hl.osz.1, hl.osz.2.1, hl.osz.2.2, hl'.isz.1, hl'.isz.2.1, hl'.isz.2.2, hl'.osz.1,
    hl'.osz.2.1, hl'.osz.2.2]

theorem read_layer [CommSemiring α] [LinearOrder α] {R : Registry α} {l : Layer α} (hs : l.Savable R) (kB : Nat) (kW : Nat → Nat) :
    RoundTrip (c.putLayer R l) (c.getLayer R kB kW) (fun l' => l.Same l') := by
  cases hs with
  | @fc l n m b W hl ha hs =>
    obtain ⟨bs, p, r⟩ := read_dense hc (R := R) ⟨_, hl.B⟩ ⟨_, hl.W⟩ ha hs
    refine ⟨c.putNat 0 ++ bs, .fc (FC.prepare kB (kW 0) (Shape.mk3 1 1 n) (Shape.mk3 1 1 m) l.B l.W l.act), ?_, fun rest => ?_, ?_⟩
    · unfold Codec.putLayer; dsimp only
      rw [hl.isize, hl.osize, p, bind_ok]; rfl
    · unfold Codec.getLayer
      rw [List.append_assoc, hc.nat 0 (by decide), bind_ok]; dsimp only
      unfold Codec.getObject; dsimp only
      rw [r, bind_ok]; rfl
    · refine ⟨rfl, fun s s' F hF => ?_, fun p hp => ?_, fun f hf => ?_, by show ((1, 1, n), (1, 1, m)) = ((1, 1, l.isize), (1, 1, l.osize)); rw [hl.isize, hl.osize]⟩
      · cases hF with
        | @fc _ d h w m' b' W' F' D' hl' ha' =>
          have e1 : d * h * w = n := hl'.isize.symm.trans hl.isize
          have e2 : m' = m := hl'.osize.symm.trans hl.osize
          subst e2; subst e1
          exact .fc (FC.prepare_Wf hl'.B hl'.W hs.2.1 hs.2.2.1) ha'
      · obtain ⟨f, e, hw, ha'⟩ := hp
        injection e with e
        subst e
        have e1 : p.n = n := hw.isize.symm.trans hl.isize
        have e2 : p.m = m := hw.osize.symm.trans hl.osize
        refine ⟨_, rfl, ?_, ha'⟩
        rw [← e1, ← e2]
        exact FC.prepare_Wf hw.B hw.W (by rw [e1]; exact hs.2.1) (by rw [e2]; exact hs.2.2.1)
      · injection hf with hf
        rw [← hf]; rfl
  | @rawFC l n m b W h1 h2 hB hW ha hs =>
    obtain ⟨bs, p, r⟩ := read_dense hc (R := R) ⟨_, hB⟩ ⟨_, hW⟩ ha hs
    refine ⟨c.putNat 3 ++ bs, .rawFC (RawFC.prepare (Shape.mk3 1 1 n) (Shape.mk3 1 1 m) l.B l.W l.act), ?_, fun rest => ?_, ?_⟩
    · unfold Codec.putLayer; dsimp only
      rw [h1, h2, p, bind_ok]; rfl
    · unfold Codec.getLayer
      rw [List.append_assoc, hc.nat 3 (by decide), bind_ok]; dsimp only
      unfold Codec.getObject; dsimp only
      rw [r, bind_ok]; rfl
    · refine ⟨rfl, fun s s' F hF => ?_, fun p hp => ?_, fun f hf => ?_, by show ((1, 1, n), (1, 1, m)) = ((1, 1, l.isize), (1, 1, l.osize)); rw [h1, h2]⟩
      · cases hF with
        | @rawFC _ d h w m' b' W' F' D' v0 hB' hW' hv ha' =>
          have e2 : m' = m := hB'.1.symm.trans hB.1
          subst e2
          exact .rawFC hB' hW' (tenOf_row hs.2.2.1) ha'
      · obtain ⟨f, e, _⟩ := hp
        cases e
      · cases hf
  | @conv l d h w fc fh fw pad sv sh b W gb gW hl hfc hs =>
    obtain ⟨bs, l', p, r, hw, hB, hWs⟩ := read_conv hc hl hfc hs kB kW
    refine ⟨c.putNat 1 ++ bs, .conv l', ?_, fun rest => ?_, ?_⟩
    · unfold Codec.putLayer; dsimp only
      rw [p, bind_ok]; rfl
    · unfold Codec.getLayer
      rw [List.append_assoc, hc.nat 1 (by decide), bind_ok]; dsimp only
      unfold Codec.getObject; dsimp only
      rw [r, bind_ok]; rfl
    · refine ⟨?_, fun s s' F hF => ?_, fun p hp => ?_, fun f hf => ?_, ?_⟩
      · show l'.B :: l'.Ws.map _ = l.B :: l.Ws.map _
        rw [hB, hWs]
      · cases hF with
        | @conv _ d' h' w' fc' fh' fw' pad' sv' sh' b' W' gb' gW' hl' =>
          obtain ⟨rfl, rfl, rfl, rfl, rfl, rfl, rfl, rfl, rfl⟩ := hl.geo_eq hl'
          exact .conv { hw with B := by rw [hB]; exact hl'.B, Ws := by rw [hWs]; exact hl'.Ws }
      · obtain ⟨f, e, _⟩ := hp
        cases e
      · cases hf
      · exact conv_sizes hl hw
  | @rawConv l d h w fc fh fw pad sv sh b W gb gW hl hfc hs =>
    obtain ⟨bs, l', p, r, hw, hB, hWs⟩ := read_conv hc hl hfc hs kB kW
    refine ⟨c.putNat 4 ++ bs, .rawConv l', ?_, fun rest => ?_, ?_⟩
    · unfold Codec.putLayer; dsimp only
      rw [p, bind_ok]; rfl
    · unfold Codec.getLayer
      rw [List.append_assoc, hc.nat 4 (by decide), bind_ok]; dsimp only
      unfold Codec.getObject; dsimp only
      rw [r, bind_ok]; rfl
    · refine ⟨?_, fun s s' F hF => ?_, fun p hp => ?_, fun f hf => ?_, ?_⟩
      · show l'.B :: l'.Ws.map _ = l.B :: l.Ws.map _
        rw [hB, hWs]
      · cases hF with
        | @rawConv _ d' h' w' fc' fh' fw' pad' sv' sh' b' W' gb' gW' hl' =>
          obtain ⟨rfl, rfl, rfl, rfl, rfl, rfl, rfl, rfl, rfl⟩ := hl.geo_eq hl'
          exact .rawConv { hw with B := by rw [hB]; exact hl'.B, Ws := by rw [hWs]; exact hl'.Ws }
      · obtain ⟨f, e, _⟩ := hp
        cases e
      · cases hf
      · exact conv_sizes hl hw

theorem read_net [CommSemiring α] [LinearOrder α] {R : Registry α} {net : Net α} (hn : net.length < W64)
    (hs : ∀ l ∈ net, l.Savable R) (addr : Nat → Nat × (Nat → Nat)) :
    RoundTrip (c.putNet R net) (c.getNet R addr) (fun net' => List.Forall₂ Layer.Same net net') := by
  obtain ⟨bs, ys, p, r, q⟩ := putMany_ok (put := c.putLayer R) (get := fun i => c.getLayer R (addr i).1 (addr i).2)
    (Q := Layer.Same) net 0 (fun i x hx => read_layer hc (hs x (List.mem_of_getElem? hx)) _ _)
  refine ⟨c.putNat net.length ++ bs, ys, ?_, fun rest => ?_, q⟩
  · unfold Codec.putNet
    rw [p, bind_ok]; rfl
  · unfold Codec.getNet
    rw [List.append_assoc, hc.nat _ hn, bind_ok]; dsimp only
    exact r rest

end

theorem same_params [CommSemiring α] [LinearOrder α] : ∀ {net net' : Net α}, List.Forall₂ Layer.Same net net' →
    net'.map Layer.params = net.map Layer.params
  | _, _, .nil => rfl
  | _, _, .cons h t => by rw [List.map_cons, List.map_cons, h.params, same_params t]

theorem same_sizes [CommSemiring α] [LinearOrder α] : ∀ {net net' : Net α}, List.Forall₂ Layer.Same net net' →
    net'.map Layer.sizes = net.map Layer.sizes
  | _, _, .nil => rfl
  | _, _, .cons h t => by rw [List.map_cons, List.map_cons, h.sizes, same_sizes t]

theorem same_computes [CommSemiring α] [LinearOrder α] : ∀ {net net' : Net α}, List.Forall₂ Layer.Same net net' →
    ∀ s s' F, net.Computes s s' F → net'.Computes s s' F := by
  intro net net' h
  induction h with
  | nil => intro s s' F hF; exact hF
  | cons h t ih =>
    intro s s' F hF
    cases hF with
    | cons h1 h2 => exact .cons (h.computes _ _ _ h1) (ih _ _ _ h2)

theorem same_dense [CommSemiring α] [LinearOrder α] : ∀ {net net' : Net α}, List.Forall₂ Layer.Same net net' →
    ∀ ps, net.IsDense ps → net'.IsDense ps := by
  intro net net' h
  induction h with
  | nil => intro ps hp; exact hp
  | cons h t ih =>
    intro ps hp
    cases hp with
    | cons h1 h2 => exact .cons (h.dense _ h1) (ih _ h2)

theorem same_clean [CommSemiring α] [LinearOrder α] : ∀ {net net' : Net α}, List.Forall₂ Layer.Same net net' → net'.Clean := by
  intro net net' h
  induction h with
  | nil => intro l hl; cases hl
  | cons h t ih =>
    intro l hl f hf
    cases hl with
    | head => exact h.clean f hf
    | tail _ hl => exact ih l hl f hf

theorem FlatIs.ext {s t : Ten α} {sh : Nat × Nat × Nat} {v : Nat → α} (a : FlatIs s sh v) (b : FlatIs t sh v) : s = t := by
  have hd := BufIs.ext a.2.2.2 b.2.2.2
  have e1 := a.1.trans b.1.symm
  have e2 := a.2.1.trans b.2.1.symm
  have e3 := a.2.2.1.trans b.2.2.1.symm
  cases s; cases t
  simp_all

end Trixy
