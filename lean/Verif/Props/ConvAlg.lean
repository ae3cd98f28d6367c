import Verif.Props.Conv
import Verif.Props.FC
import Verif.Props.Order
import Verif.Props.Volume
import Verif.Spec.ConvAlg
/- Property C106 (convolution layers act locally, linearly and the same everywhere). -/
namespace Trixy
set_option linter.unusedSectionVars false
open Finset

variable {α : Type}

theorem TenIs.same {t t' : Ten α} {d h w : Nat} {f : Nat → Nat → Nat → α} (ht : TenIs t d h w f) (ht' : TenIs t' d h w f) : t = t' := by
  have e := ht.flat.ext ht'.flat
  obtain ⟨a1, a2, a3, _⟩ := ht
  obtain ⟨b1, b2, b3, _⟩ := ht'
  cases t; cases t'
  simp only at *
  subst a1 a2 a3 b1 b2 b3 e
  rfl

section
variable [CommSemiring α]

theorem conv_gives {l : Conv α} {d h w fc fh fw pad sv sh : Nat} {b : Nat → α} {W : Nat → Nat → Nat → Nat → α} {gb : Nat → α}
    {gW : Nat → Nat → Nat → Nat → α} (hl : l.Wf d h w fc fh fw pad sv sh b W gb gW) {x : Ten α} {v : Nat → Nat → Nat → α} (hx : TenIs x d h w v) :
    ConvGives l x fc (extent h fh pad sv) (extent w fw pad sh) (corr d h w fh fw pad sv sh b W v) := by
  obtain ⟨l', e, q⟩ := C31_forward l d h w fc fh fw pad sv sh b W gb gW hl x v hx
  exact ⟨l', e, q.1⟩

theorem corr_congr {d h w fh fw pad sv sh : Nat} {b : Nat → α} {W : Nat → Nat → Nat → Nat → α} {h' w' pad' : Nat} {v v' : Nat → Nat → Nat → α} {f oy ox oy' ox' : Nat}
    (hp : ∀ c i j, c < d → i < fh → j < fw → padded v' h' w' c ((sv : Int) * oy' + i - pad') ((sh : Int) * ox' + j - pad') =
      padded v h w c ((sv : Int) * oy + i - pad) ((sh : Int) * ox + j - pad)) :
    corr d h' w' fh fw pad' sv sh b W v' f oy' ox' = corr d h w fh fw pad sv sh b W v f oy ox := by
  unfold corr
  congr 1
  refine sum_congr rfl (fun i hi => sum_congr rfl (fun j hj => sum_congr rfl (fun c hc => ?_)))
  rw [hp c i j (mem_range.1 hc) (mem_range.1 hi) (mem_range.1 hj)]

/-- Moving the image by whole strides moves the output, at all output cells whose window ends inside the frame (without padding: all output cells). -/
theorem C106_shift (l : Conv α) (d h w fc fh fw pad sv sh : Nat) (b : Nat → α) (W : Nat → Nat → Nat → Nat → α) (gb : Nat → α)
    (gW : Nat → Nat → Nat → Nat → α) (hl : l.Wf d h w fc fh fw pad sv sh b W gb gW) (x x' : Ten α) (v v' : Nat → Nat → Nat → α)
    (hx : TenIs x d h w v) (hx' : TenIs x' d h w v') (A B : Nat) (hm : Moved h w (sv * A) (sh * B) v v') :
    ∃ y y', ConvGives l x fc (extent h fh pad sv) (extent w fw pad sh) y ∧ ConvGives l x' fc (extent h fh pad sv) (extent w fw pad sh) y' ∧
      ∀ f oy ox, f < fc → oy + A < extent h fh pad sv → ox + B < extent w fw pad sh →
        sv * (oy + A) + fh ≤ h + pad → sh * (ox + B) + fw ≤ w + pad → y' f (oy + A) (ox + B) = y f oy ox := by
  refine ⟨_, _, conv_gives hl hx, conv_gives hl hx', fun f oy ox _ _ _ h1 h2 => corr_congr (fun c i j _ hi hj => ?_)⟩
  have e1 : (sv : Int) * ((oy + A : Nat) : Int) = sv * oy + ((sv * A : Nat) : Int) := by push_cast; ring
  have e2 : (sh : Int) * ((ox + B : Nat) : Int) = sh * ox + ((sh * B : Nat) : Int) := by push_cast; ring
  have h1' : (sv : Int) * oy + ((sv * A : Nat) : Int) + fh ≤ h + pad := by rw [← e1]; exact_mod_cast h1
  have h2' : (sh : Int) * ox + ((sh * B : Nat) : Int) + fw ≤ w + pad := by rw [← e2]; exact_mod_cast h2
  rw [e1, e2]
  generalize sv * A = a at *
  generalize sh * B = a' at *
  generalize hR : (sv : Int) * oy + i - pad = R
  generalize hC : (sh : Int) * ox + j - pad = C
  have e3 : (sv : Int) * oy + (a : Int) + i - pad = R + a := by omega
  have e4 : (sh : Int) * ox + (a' : Int) + j - pad = C + a' := by omega
  rw [e3, e4]
  unfold padded
  by_cases hin : 0 ≤ R ∧ R < h ∧ 0 ≤ C ∧ C < w
  · rw [if_pos hin, if_pos (by omega), hm _ _ _ (by omega) (by omega), if_pos (by omega)]
    congr 1 <;> omega
  · rw [if_neg hin]
    by_cases hin' : 0 ≤ R + a ∧ R + a < h ∧ 0 ≤ C + a' ∧ C + a' < w
    · rw [if_pos hin', hm _ _ _ (by omega) (by omega), if_neg (by omega)]
    · rw [if_neg hin']

/-- An output cell depends on its window only. -/
theorem C106_local (l : Conv α) (d h w fc fh fw pad sv sh : Nat) (b : Nat → α) (W : Nat → Nat → Nat → Nat → α) (gb : Nat → α)
    (gW : Nat → Nat → Nat → Nat → α) (hl : l.Wf d h w fc fh fw pad sv sh b W gb gW) (x x' : Ten α) (v v' : Nat → Nat → Nat → α)
    (hx : TenIs x d h w v) (hx' : TenIs x' d h w v') :
    ∃ y y', ConvGives l x fc (extent h fh pad sv) (extent w fw pad sh) y ∧ ConvGives l x' fc (extent h fh pad sv) (extent w fw pad sh) y' ∧
      ∀ oy ox, (∀ c i j, c < d → i < h → j < w → InWindow fh fw pad sv sh oy ox i j → v' c i j = v c i j) → ∀ f, y' f oy ox = y f oy ox := by
  refine ⟨_, _, conv_gives hl hx, conv_gives hl hx', fun oy ox he f => corr_congr (fun c i j hc hi hj => ?_)⟩
  unfold padded
  split
  · next hin =>
    have e1 : ((sv * oy : Nat) : Int) = sv * oy := by push_cast; ring
    have e2 : ((sh * ox : Nat) : Int) = sh * ox := by push_cast; ring
    refine he c _ _ hc (by omega) (by omega) ?_
    unfold InWindow
    rw [← e1, ← e2] at hin ⊢
    omega
  · rfl

/-- Padding by `p` is the same as putting a border of `p` zeros around the image. -/
theorem C106_padding (l k : Conv α) (d h w fc fh fw pad sv sh : Nat) (b : Nat → α) (W : Nat → Nat → Nat → Nat → α) (gb gb' : Nat → α)
    (gW gW' : Nat → Nat → Nat → Nat → α) (hl : l.Wf d h w fc fh fw pad sv sh b W gb gW)
    (hk : k.Wf d (h + 2 * pad) (w + 2 * pad) fc fh fw 0 sv sh b W gb' gW') (x x' : Ten α) (v v' : Nat → Nat → Nat → α)
    (hx : TenIs x d h w v) (hx' : TenIs x' d (h + 2 * pad) (w + 2 * pad) v') (hb : Bordered h w pad v v') :
    ∃ l' k', l.forward x = .ok l' ∧ k.forward x' = .ok k' ∧ k'.value = l'.value := by
  obtain ⟨l', e, q⟩ := conv_gives hl hx
  obtain ⟨k', e', q'⟩ := conv_gives hk hx'
  refine ⟨l', k', e, e', ?_⟩
  have e1 : extent (h + 2 * pad) fh 0 sv = extent h fh pad sv := rfl
  have e2 : extent (w + 2 * pad) fw 0 sh = extent w fw pad sh := rfl
  rw [e1, e2] at q'
  refine (q'.congr (fun f oy ox _ _ _ => ?_)).same q
  refine corr_congr (fun c i j _ _ _ => ?_)
  generalize (sv : Int) * oy + i = R
  generalize (sh : Int) * ox + j = C
  unfold padded
  by_cases hin : 0 ≤ R - pad ∧ R - pad < h ∧ 0 ≤ C - pad ∧ C - pad < w
  · rw [if_pos hin, if_pos (by omega), hb _ _ _ (by omega) (by omega), if_pos (by omega)]
    congr 1 <;> omega
  · rw [if_neg hin]
    split
    · rw [hb _ _ _ (by omega) (by omega), if_neg (by omega)]
    · rfl

/-- Renaming the filters renames the output channels; renaming the input channels together with those of the filters changes nothing. -/
theorem C106_rename (l k : Conv α) (d h w fc fh fw pad sv sh : Nat) (b b' : Nat → α) (W W' : Nat → Nat → Nat → Nat → α) (gb gb' : Nat → α)
    (gW gW' : Nat → Nat → Nat → Nat → α) (hl : l.Wf d h w fc fh fw pad sv sh b W gb gW) (hk : k.Wf d h w fc fh fw pad sv sh b' W' gb' gW')
    (ρ τ : Nat → Nat) (hρ : Reorders d ρ) (hb : ∀ f, f < fc → b' (τ f) = b f)
    (hW : ∀ f c i j, f < fc → c < d → i < fh → j < fw → W' (τ f) (ρ c) i j = W f c i j) (x x' : Ten α) (v v' : Nat → Nat → Nat → α)
    (hx : TenIs x d h w v) (hx' : TenIs x' d h w v') (hv : ∀ c y z, c < d → y < h → z < w → v' (ρ c) y z = v c y z) :
    ∃ y y', ConvGives l x fc (extent h fh pad sv) (extent w fw pad sh) y ∧ ConvGives k x' fc (extent h fh pad sv) (extent w fw pad sh) y' ∧
      ∀ f oy ox, f < fc → y' (τ f) oy ox = y f oy ox := by
  refine ⟨_, _, conv_gives hl hx, conv_gives hk hx', fun f oy ox hf => ?_⟩
  unfold corr
  rw [hb f hf]
  congr 1
  refine sum_congr rfl (fun i hi => sum_congr rfl (fun j hj => ?_))
  rw [← hρ.sum (fun c => padded v' h w c ((sv : Int) * oy + i - pad) ((sh : Int) * ox + j - pad) * W' (τ f) c i j)]
  refine sum_congr rfl (fun c hc => ?_)
  rw [hW f c i j hf (mem_range.1 hc) (mem_range.1 hi) (mem_range.1 hj)]
  congr 1
  unfold padded
  split
  · exact hv _ _ _ (mem_range.1 hc) (by omega) (by omega)
  · rfl

/-- `1 × 1` filters with stride 1 and no padding: the same weighted sums of the channels at every pixel. -/
theorem C106_pointwise (l : Conv α) (d h w fc : Nat) (hh : 1 ≤ h) (hw : 1 ≤ w) (b : Nat → α) (W : Nat → Nat → Nat → Nat → α) (gb : Nat → α)
    (gW : Nat → Nat → Nat → Nat → α) (hl : l.Wf d h w fc 1 1 0 1 1 b W gb gW) (x : Ten α) (v : Nat → Nat → Nat → α) (hx : TenIs x d h w v) :
    ConvGives l x fc h w (fun f y z => b f + ∑ c ∈ range d, v c y z * W f c 0 0) := by
  obtain ⟨l', e, q⟩ := conv_gives hl hx
  have e1 : extent h 1 0 1 = h := by unfold extent; rw [Nat.div_one]; omega
  have e2 : extent w 1 0 1 = w := by unfold extent; rw [Nat.div_one]; omega
  rw [e1, e2] at q
  refine ⟨l', e, q.congr (fun f y z _ hy hz => ?_)⟩
  unfold corr padded
  simp only [range_one, sum_singleton]
  congr 1
  refine sum_congr rfl (fun c _ => ?_)
  rw [if_pos (by push_cast; omega)]
  congr 2 <;> push_cast <;> omega

/-- A filter that covers the whole image makes the convolution a fully connected layer without activation: same value, same gradients, same delta. -/
theorem C106_dense [DecidableEq α] (l : Conv α) (k : FC α) (d h w fc sv sh : Nat) (b : Nat → α) (W : Nat → Nat → Nat → Nat → α) (V : Nat → Nat → α)
    (hl : l.Wf d h w fc h w 0 sv sh b W (fun _ => 0) (fun _ _ _ _ => 0)) (hk : k.Wf (d * h * w) fc b V) (ha : k.act.Is fc (fun v => v) (fun _ _ => 1))
    (hV : ∀ f c y z, f < fc → c < d → y < h → z < w → V ((c * h + y) * w + z) f = W f c y z)
    (x u : Ten α) (v g : Nat → Nat → Nat → α) (hx : TenIs x d h w v) (hu : TenIs u fc 1 1 g) :
    ∃ l₁ k₁ l₂ k₂, l.forward x = .ok l₁ ∧ k.forward x = .ok k₁ ∧ l₁.value.data = k₁.value.data ∧
      l₁.backward x u true = .ok l₂ ∧ k₁.backward x u true = .ok k₂ ∧ l₂.gradB = k₂.gradB ∧
      (∃ G : Nat → Nat → α, MatIs k₂.gradW (d * h * w) fc G ∧ WsIs l₂.gradWs fc d h w (fun f c y z => G ((c * h + y) * w + z) f)) ∧
      l₂.delta.data = k₂.delta.data := by
  have e1 : extent h h 0 sv = 1 := by unfold extent; simp
  have e2 : extent w w 0 sh = 1 := by unfold extent; simp
  obtain ⟨l₁, f1, w1, q1, _⟩ := Conv.forward_spec hl hx
  obtain ⟨k₁, f2, w2, q2, s2, r2⟩ := FC.forward_spec hk ha hx.flat
  rw [e1, e2] at q1
  have hin : ∀ c i j, c < d → i < h → j < w → padded v h w c ((sv : Int) * ((0 : Nat) : Int) + i - ((0 : Nat) : Int)) ((sh : Int) * ((0 : Nat) : Int) + j - ((0 : Nat) : Int)) = v c i j := by
    intro c i j _ hi hj
    unfold padded
    rw [if_pos (by simp; omega)]
    congr 1 <;> simp
  have hone : ∀ f, f < fc * 1 * 1 → f / 1 / 1 = f ∧ f / 1 % 1 = 0 ∧ f % 1 = 0 := fun f _ => by simp [Nat.mod_one]
  obtain ⟨l₂, f3, w3, q3, _⟩ := Conv.backward_spec w1 hx (by rw [e1, e2]; exact hu) true
  have hu' : VecIs u.data fc (fun f => g f 0 0) := by
    have := hu.flat
    rw [Nat.mul_one, Nat.mul_one] at this
    exact this.congr (fun f _ => by simp [Nat.mod_one])
  obtain ⟨k₂, f4, w4, q4, q5, q6, _⟩ := FC.backward_spec w2 (by rw [r2]; exact ha) hx.flat hu' s2 true
  refine ⟨l₁, k₁, l₂, k₂, f1, f2, ?_, f3, f4, ?_, ⟨_, q5, ?_⟩, ?_⟩
  · have q1' := q1.flat
    rw [Nat.mul_one, Nat.mul_one] at q1'
    refine (q1'.congr (fun f hf => ?_)).ext q2.2.2.2
    simp only [Nat.div_one, Nat.mod_one]
    unfold affine corr
    rw [foldSum_zero_eq, sum_flat3, add_comm]
    congr 1
    refine ((sum_congr rfl (fun i _ => sum_comm)).trans sum_comm).trans (sum_congr rfl (fun c hc => sum_congr rfl (fun y hy => sum_congr rfl (fun z hz => ?_))))
    rw [mem_range] at hc hy hz
    obtain ⟨i1, i2, i3⟩ := idx3_split (i := c) hy hz
    rw [hin c y z hc hy hz, hV f c y z hf hc hy hz]
    simp only [i1, i2, i3]
  · have := w3.gradB
    rw [e1, e2] at this
    refine (this.congr (fun f _ => ?_)).ext q4
    simp
  · have := w3.gradWs
    rw [e1, e2] at this
    refine ⟨this.1, fun f hf => ?_⟩
    obtain ⟨t, h1, h2⟩ := this.2 f hf
    refine ⟨t, h1, h2.congr (fun c y z hc hy hz => ?_)⟩
    obtain ⟨i1, i2, i3⟩ := idx3_split (i := c) hy hz
    simp only [range_one, sum_singleton, zero_add, one_mul]
    rw [hin c y z hc hy hz]
    simp only [i1, i2, i3]
    exact mul_comm _ _
  · have hd := (q6 rfl).2.2.2
    refine (q3.flat.congr (fun p hp => ?_)).ext hd
    rw [e1, e2, foldSum_zero_eq]
    have hw : 0 < w := Nat.pos_of_mul_pos_left (Nat.zero_lt_of_lt hp)
    have hpw : p / w < d * h := Nat.div_lt_of_lt_mul (by rwa [Nat.mul_comm])
    have hh : 0 < h := Nat.pos_of_mul_pos_left (Nat.zero_lt_of_lt hpw)
    have hc : p / w / h < d := Nat.div_lt_of_lt_mul (by rwa [Nat.mul_comm])
    have hy : p / w % h < h := Nat.mod_lt _ hh
    have hz : p % w < w := Nat.mod_lt _ hw
    have hp' : p = (p / w / h * h + p / w % h) * w + p % w := by
      rw [Nat.div_add_mod' (p / w) h, Nat.div_add_mod' p w]
    generalize p / w / h = c at *
    generalize p / w % h = y at *
    generalize p % w = z at *
    subst hp'
    unfold convDelta
    simp only [range_one, sum_singleton, Nat.mul_zero, Nat.zero_add, Nat.add_zero, one_mul]
    rw [sum_eq_single y (fun i _ hi => sum_eq_zero (fun j _ => if_neg (fun e => hi e.1))) (fun hn => absurd (mem_range.2 hy) hn),
      sum_eq_single z (fun j _ hj => if_neg (fun e => hj e.2)) (fun hn => absurd (mem_range.2 hz) hn), if_pos ⟨rfl, rfl⟩]
    refine sum_congr rfl (fun f hf => ?_)
    rw [hV f c y z (mem_range.1 hf) hc hy hz, mul_comm]

end

/-- Linearity: apart from the biases, the output for `s·x + t·x'` is `s` times the output for `x` plus `t` times the output for `x'`. -/
theorem C106_linear [CommRing α] (l : Conv α) (d h w fc fh fw pad sv sh : Nat) (b : Nat → α) (W : Nat → Nat → Nat → Nat → α) (gb : Nat → α)
    (gW : Nat → Nat → Nat → Nat → α) (hl : l.Wf d h w fc fh fw pad sv sh b W gb gW) (s t : α) (x₁ x₂ x₃ : Ten α) (v₁ v₂ : Nat → Nat → Nat → α)
    (h₁ : TenIs x₁ d h w v₁) (h₂ : TenIs x₂ d h w v₂) (h₃ : TenIs x₃ d h w (fun c y z => s * v₁ c y z + t * v₂ c y z)) :
    ∃ y₁ y₂ y₃, ConvGives l x₁ fc (extent h fh pad sv) (extent w fw pad sh) y₁ ∧ ConvGives l x₂ fc (extent h fh pad sv) (extent w fw pad sh) y₂ ∧
      ConvGives l x₃ fc (extent h fh pad sv) (extent w fw pad sh) y₃ ∧
      ∀ f oy ox, y₃ f oy ox - b f = s * (y₁ f oy ox - b f) + t * (y₂ f oy ox - b f) := by
  refine ⟨_, _, _, conv_gives hl h₁, conv_gives hl h₂, conv_gives hl h₃, fun f oy ox => ?_⟩
  unfold corr
  simp only [add_sub_cancel_left, mul_sum, ← sum_add_distrib]
  refine sum_congr rfl (fun i _ => sum_congr rfl (fun j _ => sum_congr rfl (fun c _ => ?_)))
  unfold padded
  split <;> ring

/-! ### Non-vacuity -/

/-- The tensor with contents `v`. -/
def imgOf (d h w : Nat) (v : Nat → Nat → Nat → α) : Ten α := ⟨d, h, w, Buf.of ((List.range (d * h * w)).map (fun p => v (p / w / h) (p / w % h) (p % w)))⟩

theorem imgOf_Is (d h w : Nat) (v : Nat → Nat → Nat → α) : TenIs (imgOf d h w v) d h w v := by
  have h1 : VecIs (imgOf d h w v).data (d * h * w) (fun p => v (p / w / h) (p / w % h) (p % w)) := by
    have := VecIs_of ((List.range (d * h * w)).map (fun p => v (p / w / h) (p / w % h) (p % w))) (fun p => v (p / w / h) (p / w % h) (p % w)) (fun i hi => by simp)
    simpa [imgOf] using this
  refine (TenIs.of_flat rfl rfl rfl h1).congr (fun i j k _ hj hk => ?_)
  obtain ⟨e1, e2, e3⟩ := idx3_split (i := i) (h := h) (w := w) hj hk
  show v (((i * h + j) * w + k) / w / h) (((i * h + j) * w + k) / w % h) (((i * h + j) * w + k) % w) = v i j k
  rw [e1, e2, e3]

/-- There is a layer for every geometry and all parameters, and an image for all contents. -/
theorem conv_any [Zero α] (d h w fc fh fw pad sv sh : Nat) (geo : Geo h w fh fw pad sv sh) (hfc : 1 ≤ fc) (b : Nat → α) (W : Nat → Nat → Nat → Nat → α) :
    ∃ l : Conv α, l.Wf d h w fc fh fw pad sv sh b W (fun _ => 0) (fun _ _ _ _ => 0) := by
  obtain ⟨l, _, hl, _⟩ := Conv.make_Wf (α := α) (d := d) geo hfc 0 (fun f => f + 1)
  refine ⟨{ l with B := Buf.of ((List.range fc).map b), Ws := (List.range fc).map (fun f => imgOf d fh fw (W f)) }, { hl with B := ?_, Ws := ?_ }⟩
  · have := VecIs_of ((List.range fc).map b) b (fun i hi => by simp)
    simpa using this
  · exact ⟨by simp, fun f hf => ⟨imgOf d fh fw (W f), by simp [hf], imgOf_Is _ _ _ _⟩⟩

/-- A 3×4 image with two channels, 2×2 filters with stride 1, and the image moved down by one row and right by two columns. -/
def caX : Ten Int := imgOf 2 3 4 (fun c y z => (c + 1) * (3 * y + z * z + 1))
def caX' : Ten Int := imgOf 2 3 4 (fun c y z => if 1 ≤ y ∧ 2 ≤ z then (c + 1) * (3 * (y - 1 : Nat) + (z - 2 : Nat) * (z - 2 : Nat) + 1) else 0)
def caConv (h w fh fw pad sv sh : Nat) : Res (Conv Int) := do
  let l ← Conv.make 2 h w 1 fh fw pad sv sh 0 (fun f => f + 1)
  return { l with B := Buf.of [5], Ws := [imgOf 2 fh fw (fun c i j => c + 2 * i - j)] }
def caRun (l : Res (Conv Int)) (x : Ten Int) : Res (Buf Int) := do
  let l ← l
  let l ← l.forward x
  return l.value.data

example : Moved 3 4 (1 * 1) (1 * 2) (fun c y z => ((c : Int) + 1) * (3 * y + z * z + 1))
    (fun c y z => if 1 ≤ y ∧ 2 ≤ z then ((c : Int) + 1) * (3 * (y - 1 : Nat) + (z - 2 : Nat) * (z - 2 : Nat) + 1) else 0) :=
  fun _ _ _ _ _ => rfl

/-- Outputs: the first of the first row has become the third of the second row. -/
example : caRun (caConv 3 4 2 2 0 1 1) caX = .ok (Buf.of [62, 84, 134, 104, 126, 176]) ∧
    caRun (caConv 3 4 2 2 0 1 1) caX' = .ok (Buf.of [5, 10, 23, 5, 24, 62]) := by
  refine ⟨?_, ?_⟩ <;> decide +kernel

/-- Padding 1 (vertical stride 2) against the bordered 5×6 image. -/
example : caRun (caConv 3 4 2 2 1 2 1) caX = .ok (Buf.of [10, 23, 46, 95, 85, 36, 104, 126, 176, 159]) ∧
    caRun (caConv 5 6 2 2 0 2 1) (imgOf 2 5 6 (fun c y z => if (1 ≤ y ∧ y < 3 + 1) ∧ 1 ≤ z ∧ z < 4 + 1 then
      ((c : Int) + 1) * (3 * (y - 1 : Nat) + (z - 1 : Nat) * (z - 1 : Nat) + 1) else 0)) = .ok (Buf.of [10, 23, 46, 95, 85, 36, 104, 126, 176, 159]) := by
  refine ⟨?_, ?_⟩ <;> decide +kernel

/-- There is a fully connected layer for all parameters. -/
theorem fc_any [Zero α] (n m : Nat) (b : Nat → α) (W : Nat → Nat → α) (act : Act α) : ∃ k : FC α, k.Wf n m b W ∧ k.act = act := by
  let B : Buf α := Buf.of ((List.range m).map b)
  let M : Mat α := ⟨n, m, Buf.of ((List.range (n * m)).map (fun q => W (q / m) (q % m)))⟩
  refine ⟨{ FC.make n m act 0 1 with B := B, W := M }, { FC.Wf_make n m act 0 1 with B := ?_, W := ?_ }, rfl⟩
  · have := VecIs_of ((List.range m).map b) b (fun i hi => by simp)
    simpa [B] using this
  · refine ⟨rfl, rfl, by simp [M, Buf.of], fun i j hi hj => ?_⟩
    have h1 : i * m + j < n * m := idx2_lt hi hj
    simp [M, Buf.of, h1, idx2_div hj, idx2_mod hj]

/-- The hypotheses of `C106_dense` for any filters on 2×3 images with two channels. -/
example (b : Nat → ℚ) (W : Nat → Nat → Nat → Nat → ℚ) : ∃ (l : Conv ℚ) (k : FC ℚ),
    l.Wf 2 2 3 4 2 3 0 1 1 b W (fun _ => 0) (fun _ _ _ _ => 0) ∧ k.Wf (2 * 2 * 3) 4 b (fun p f => W f (p / 3 / 2) (p / 3 % 2) (p % 3)) ∧
    k.act.Is 4 (fun v => v) (fun _ _ => 1) ∧
    ∀ f c y z, f < 4 → c < 2 → y < 2 → z < 3 → (fun p f => W f (p / 3 / 2) (p / 3 % 2) (p % 3)) ((c * 2 + y) * 3 + z) f = W f c y z := by
  obtain ⟨l, hl⟩ := conv_any 2 2 3 4 2 3 0 1 1 (by constructor <;> simp [W64]) (by omega) b W
  obtain ⟨k, hk, ha⟩ := fc_any (2 * 2 * 3) 4 b (fun p f => W f (p / 3 / 2) (p / 3 % 2) (p % 3)) (Act.elementwise (fun x => x) (fun _ => 1))
  refine ⟨l, k, hl, hk, by rw [ha]; exact Act.Is.elementwise (fun x => x) (fun _ => 1) 4, fun f c y z _ _ hy hz => ?_⟩
  obtain ⟨e1, e2, e3⟩ := idx3_split (i := c) hy hz
  simp only [e1, e2, e3]

end Trixy
