import Verif.Proof.Conv
import Verif.Proof.Deriv
import Verif.Proof.Optim
/- The convolution as a bilinear map: adjoint, pairing, derivatives along curves; parameter updates. -/
namespace Trixy
open Finset

variable {α γ ρ σ : Type}

/-! ### Exchanging sums -/

section Comm
variable [AddCommMonoid α]

theorem sum_in2 (S A B : Finset Nat) (g : Nat → Nat → Nat → α) :
    ∑ s ∈ S, ∑ a ∈ A, ∑ b ∈ B, g s a b = ∑ a ∈ A, ∑ b ∈ B, ∑ s ∈ S, g s a b := by
  rw [Finset.sum_comm]
  exact Finset.sum_congr rfl (fun a _ => Finset.sum_comm)

theorem sum_in3 (S A B C : Finset Nat) (g : Nat → Nat → Nat → Nat → α) :
    ∑ s ∈ S, ∑ a ∈ A, ∑ b ∈ B, ∑ c ∈ C, g s a b c = ∑ a ∈ A, ∑ b ∈ B, ∑ c ∈ C, ∑ s ∈ S, g s a b c := by
  rw [Finset.sum_comm]
  exact Finset.sum_congr rfl (fun a _ => sum_in2 S B C _)

theorem sum_in4 (S A B C D : Finset Nat) (g : Nat → Nat → Nat → Nat → Nat → α) :
    ∑ s ∈ S, ∑ a ∈ A, ∑ b ∈ B, ∑ c ∈ C, ∑ d ∈ D, g s a b c d =
      ∑ a ∈ A, ∑ b ∈ B, ∑ c ∈ C, ∑ d ∈ D, ∑ s ∈ S, g s a b c d := by
  rw [Finset.sum_comm]
  exact Finset.sum_congr rfl (fun a _ => sum_in3 S B C D _)

theorem sum_pair_comm {A B C D : Finset Nat} (g : Nat → Nat → Nat → Nat → α) :
    ∑ a ∈ A, ∑ b ∈ B, ∑ c ∈ C, ∑ d ∈ D, g a b c d = ∑ c ∈ C, ∑ d ∈ D, ∑ a ∈ A, ∑ b ∈ B, g a b c d := by
  rw [Finset.sum_congr rfl (fun a _ => sum_in2 B C D (g a))]
  exact sum_in2 A C D (fun a c d => ∑ b ∈ B, g a b c d)

theorem sum_congr2 {A B : Nat} {f g : Nat → Nat → α} (h : ∀ a b, a < A → b < B → f a b = g a b) :
    ∑ a ∈ range A, ∑ b ∈ range B, f a b = ∑ a ∈ range A, ∑ b ∈ range B, g a b :=
  Finset.sum_congr rfl (fun a ha => Finset.sum_congr rfl (fun b hb => h a b (mem_range.1 ha) (mem_range.1 hb)))

theorem sum_congr3 {A B C : Nat} {f g : Nat → Nat → Nat → α} (h : ∀ a b c, a < A → b < B → c < C → f a b c = g a b c) :
    ∑ a ∈ range A, ∑ b ∈ range B, ∑ c ∈ range C, f a b c = ∑ a ∈ range A, ∑ b ∈ range B, ∑ c ∈ range C, g a b c :=
  Finset.sum_congr rfl (fun a ha => sum_congr2 (fun b c hb hc => h a b c (mem_range.1 ha) hb hc))

theorem sum_congr4 {A B C D : Nat} {f g : Nat → Nat → Nat → Nat → α} (h : ∀ a b c d, f a b c d = g a b c d) :
    ∑ a ∈ range A, ∑ b ∈ range B, ∑ c ∈ range C, ∑ d ∈ range D, f a b c d =
      ∑ a ∈ range A, ∑ b ∈ range B, ∑ c ∈ range C, ∑ d ∈ range D, g a b c d :=
  Finset.sum_congr rfl (fun a _ => sum_congr3 (fun b c d _ _ _ => h a b c d))

end Comm

section Adj
variable [CommSemiring α]

/-- ⟨u, corr₀(W, v)⟩ = ⟨convDelta(W, u), v⟩. -/
theorem conv_adjoint (d h w fc fh fw pad sv sh OH OW : Nat) (W : Nat → Nat → Nat → Nat → α) (u v : Nat → Nat → Nat → α) :
    ∑ f ∈ range fc, ∑ oy ∈ range OH, ∑ ox ∈ range OW, u f oy ox * (∑ i ∈ range fh, ∑ j ∈ range fw, ∑ c ∈ range d,
        padded v h w c ((sv : Int) * oy + i - pad) ((sh : Int) * ox + j - pad) * W f c i j) =
      ∑ c ∈ range d, ∑ y ∈ range h, ∑ x ∈ range w, convDelta fc fh fw pad sv sh OH OW W u c y x * v c y x := by
  let G : Nat → Nat → Nat → Nat → Nat → Nat → Nat → Nat → α := fun f oy ox i j c y z =>
    if sv * oy + i = y + pad ∧ sh * ox + j = z + pad then u f oy ox * W f c i j * v c y z else 0
  have L : ∀ f oy ox, u f oy ox * (∑ i ∈ range fh, ∑ j ∈ range fw, ∑ c ∈ range d,
        padded v h w c ((sv : Int) * oy + i - pad) ((sh : Int) * ox + j - pad) * W f c i j) =
      ∑ i ∈ range fh, ∑ j ∈ range fw, ∑ c ∈ range d, ∑ y ∈ range h, ∑ z ∈ range w, G f oy ox i j c y z := by
    intro f oy ox
    rw [Finset.mul_sum]
    refine Finset.sum_congr rfl (fun i _ => ?_)
    rw [Finset.mul_sum]
    refine Finset.sum_congr rfl (fun j _ => ?_)
    rw [Finset.mul_sum]
    refine Finset.sum_congr rfl (fun c _ => ?_)
    have c1 : ((sv : Int) * oy + i - pad) = ((sv * oy + i : Nat) : Int) - pad := by push_cast; ring
    have c2 : ((sh : Int) * ox + j - pad) = ((sh * ox + j : Nat) : Int) - pad := by push_cast; ring
    rw [c1, c2, padded_hit, Finset.sum_mul, Finset.mul_sum]
    refine Finset.sum_congr rfl (fun y _ => ?_)
    rw [Finset.sum_mul, Finset.mul_sum]
    refine Finset.sum_congr rfl (fun z _ => ?_)
    show _ = if _ then _ else _
    split
    · ring
    · rw [zero_mul, mul_zero]
  have R : ∀ c y z, convDelta fc fh fw pad sv sh OH OW W u c y z * v c y z =
      ∑ i ∈ range fh, ∑ j ∈ range fw, ∑ oy ∈ range OH, ∑ ox ∈ range OW, ∑ f ∈ range fc, G f oy ox i j c y z := by
    intro c y z
    unfold convDelta
    rw [Finset.sum_mul]
    refine Finset.sum_congr rfl (fun i _ => ?_)
    rw [Finset.sum_mul]
    refine Finset.sum_congr rfl (fun j _ => ?_)
    rw [Finset.sum_mul]
    refine Finset.sum_congr rfl (fun oy _ => ?_)
    rw [Finset.sum_mul]
    refine Finset.sum_congr rfl (fun ox _ => ?_)
    by_cases hc : sv * oy + i = y + pad ∧ sh * ox + j = z + pad
    · rw [if_pos hc, Finset.sum_mul]
      refine Finset.sum_congr rfl (fun f _ => ?_)
      show _ = if _ then _ else _
      rw [if_pos hc]
    · rw [if_neg hc, zero_mul]
      symm
      refine Finset.sum_eq_zero (fun f _ => ?_)
      show (if _ then _ else _) = _
      rw [if_neg hc]
  rw [sum_congr3 (fun f oy ox _ _ _ => L f oy ox), sum_congr3 (fun c y z _ _ _ => R c y z)]
  -- both sides: order (c, y, z, i, j, oy, ox, f)
  have s1 : ∀ c y z, ∑ i ∈ range fh, ∑ j ∈ range fw, ∑ oy ∈ range OH, ∑ ox ∈ range OW, ∑ f ∈ range fc, G f oy ox i j c y z =
      ∑ f ∈ range fc, ∑ oy ∈ range OH, ∑ ox ∈ range OW, ∑ i ∈ range fh, ∑ j ∈ range fw, G f oy ox i j c y z := by
    intro c y z
    rw [← sum_in4 (range fc)]
    refine Finset.sum_congr rfl (fun f _ => ?_)
    exact sum_pair_comm _
  rw [sum_congr3 (fun c y z _ _ _ => s1 c y z), ← sum_in3 (range fc)]
  refine Finset.sum_congr rfl (fun f _ => ?_)
  rw [← sum_in3 (range OH)]
  refine Finset.sum_congr rfl (fun oy _ => ?_)
  rw [← sum_in3 (range OW)]
  refine Finset.sum_congr rfl (fun ox _ => ?_)
  rw [← sum_in3 (range fh)]
  refine Finset.sum_congr rfl (fun i _ => ?_)
  rw [← sum_in3 (range fw)]

/-- Pairing with the filters: ⟨u, corr₀(W', x)⟩ = ⟨filter gradient, W'⟩. -/
theorem conv_pair_W (d h w fc fh fw pad sv sh OH OW : Nat) (W' : Nat → Nat → Nat → Nat → α) (u x : Nat → Nat → Nat → α) :
    ∑ f ∈ range fc, ∑ oy ∈ range OH, ∑ ox ∈ range OW, u f oy ox * (∑ i ∈ range fh, ∑ j ∈ range fw, ∑ c ∈ range d,
        padded x h w c ((sv : Int) * oy + i - pad) ((sh : Int) * ox + j - pad) * W' f c i j) =
      ∑ f ∈ range fc, ∑ c ∈ range d, ∑ i ∈ range fh, ∑ j ∈ range fw, (∑ oy ∈ range OH, ∑ ox ∈ range OW,
        u f oy ox * padded x h w c ((sv : Int) * oy + i - pad) ((sh : Int) * ox + j - pad)) * W' f c i j := by
  refine Finset.sum_congr rfl (fun f _ => ?_)
  have R : ∀ c i j : Nat, (∑ oy ∈ range OH, ∑ ox ∈ range OW,
        u f oy ox * padded x h w c ((sv : Int) * oy + i - pad) ((sh : Int) * ox + j - pad)) * W' f c i j =
      ∑ oy ∈ range OH, ∑ ox ∈ range OW,
        u f oy ox * padded x h w c ((sv : Int) * oy + i - pad) ((sh : Int) * ox + j - pad) * W' f c i j := by
    intro c i j
    rw [Finset.sum_mul]
    exact Finset.sum_congr rfl (fun oy _ => Finset.sum_mul ..)
  rw [sum_congr3 (fun c i j _ _ _ => R c i j)]
  have e : ∑ c ∈ range d, ∑ i ∈ range fh, ∑ j ∈ range fw, ∑ oy ∈ range OH, ∑ ox ∈ range OW,
        u f oy ox * padded x h w c ((sv : Int) * oy + i - pad) ((sh : Int) * ox + j - pad) * W' f c i j =
      ∑ c ∈ range d, ∑ oy ∈ range OH, ∑ ox ∈ range OW, ∑ i ∈ range fh, ∑ j ∈ range fw,
        u f oy ox * padded x h w c ((sv : Int) * oy + i - pad) ((sh : Int) * ox + j - pad) * W' f c i j := by
    exact Finset.sum_congr rfl (fun c _ => sum_pair_comm _)
  rw [e, sum_in4 (range d)]
  refine sum_congr2 (fun oy ox _ _ => ?_)
  rw [Finset.mul_sum]
  refine Finset.sum_congr rfl (fun i _ => ?_)
  rw [Finset.mul_sum]
  refine Finset.sum_congr rfl (fun j _ => ?_)
  rw [Finset.mul_sum]
  exact Finset.sum_congr rfl (fun c _ => by ring)

end Adj

/-! ### Derivatives along curves -/

theorem hasDerivAt_padded {xc : ℝ → Nat → Nat → Nat → ℝ} {x' : Nat → Nat → Nat → ℝ} {t0 : ℝ} {d h w c : Nat} {i j : Int}
    (hc : c < d) (hx : ∀ c y z, c < d → y < h → z < w → HasDerivAt (fun t => xc t c y z) (x' c y z) t0) :
    HasDerivAt (fun t => padded (xc t) h w c i j) (padded x' h w c i j) t0 := by
  unfold padded
  by_cases hin : 0 ≤ i ∧ i < h ∧ 0 ≤ j ∧ j < w
  · simp only [hin, and_self, if_true]
    exact hx c _ _ hc (by omega) (by omega)
  · simp only [hin, if_false]
    exact hasDerivAt_const _ _

theorem hasDerivAt_corr {d h w fh fw pad sv sh fc : Nat} {bc : ℝ → Nat → ℝ} {Wc : ℝ → Nat → Nat → Nat → Nat → ℝ}
    {xc : ℝ → Nat → Nat → Nat → ℝ} {b' : Nat → ℝ} {W' : Nat → Nat → Nat → Nat → ℝ} {x' : Nat → Nat → Nat → ℝ} {t0 : ℝ}
    (hb : ∀ f, f < fc → HasDerivAt (fun t => bc t f) (b' f) t0)
    (hW : ∀ f c i j, f < fc → c < d → i < fh → j < fw → HasDerivAt (fun t => Wc t f c i j) (W' f c i j) t0)
    (hx : ∀ c y z, c < d → y < h → z < w → HasDerivAt (fun t => xc t c y z) (x' c y z) t0) {f : Nat} (hf : f < fc)
    (oy ox : Nat) :
    HasDerivAt (fun t => corr d h w fh fw pad sv sh (bc t) (Wc t) (xc t) f oy ox)
      (b' f + ((∑ i ∈ range fh, ∑ j ∈ range fw, ∑ c ∈ range d,
          padded x' h w c ((sv : Int) * oy + i - pad) ((sh : Int) * ox + j - pad) * Wc t0 f c i j) +
        ∑ i ∈ range fh, ∑ j ∈ range fw, ∑ c ∈ range d,
          padded (xc t0) h w c ((sv : Int) * oy + i - pad) ((sh : Int) * ox + j - pad) * W' f c i j)) t0 := by
  unfold corr
  refine (hb f hf).fun_add ?_
  rw [← Finset.sum_add_distrib]
  refine hasDerivAt_sum (fun i hi => ?_)
  rw [← Finset.sum_add_distrib]
  refine hasDerivAt_sum (fun j hj => ?_)
  rw [← Finset.sum_add_distrib]
  exact hasDerivAt_sum (fun c hc => (hasDerivAt_padded hc hx).fun_mul (hW f c i j hf hc hi hj))

/-- The derivative of ⟨u, corr⟩ along curves of bias, filters and input is the pairing of the three gradients. -/
theorem conv_curve {d h w fh fw pad sv sh fc OH OW : Nat} {bc : ℝ → Nat → ℝ} {Wc : ℝ → Nat → Nat → Nat → Nat → ℝ}
    {xc : ℝ → Nat → Nat → Nat → ℝ} {b' : Nat → ℝ} {W' : Nat → Nat → Nat → Nat → ℝ} {x' u : Nat → Nat → Nat → ℝ} {t0 : ℝ}
    (hb : ∀ f, f < fc → HasDerivAt (fun t => bc t f) (b' f) t0)
    (hW : ∀ f c i j, f < fc → c < d → i < fh → j < fw → HasDerivAt (fun t => Wc t f c i j) (W' f c i j) t0)
    (hx : ∀ c y z, c < d → y < h → z < w → HasDerivAt (fun t => xc t c y z) (x' c y z) t0) :
    HasDerivAt (fun t => ∑ f ∈ range fc, ∑ oy ∈ range OH, ∑ ox ∈ range OW,
        u f oy ox * corr d h w fh fw pad sv sh (bc t) (Wc t) (xc t) f oy ox)
      (∑ f ∈ range fc, (∑ oy ∈ range OH, ∑ ox ∈ range OW, u f oy ox) * b' f +
       ∑ f ∈ range fc, ∑ c ∈ range d, ∑ i ∈ range fh, ∑ j ∈ range fw, (∑ oy ∈ range OH, ∑ ox ∈ range OW,
        u f oy ox * padded (xc t0) h w c ((sv : Int) * oy + i - pad) ((sh : Int) * ox + j - pad)) * W' f c i j +
       ∑ c ∈ range d, ∑ y ∈ range h, ∑ x ∈ range w, convDelta fc fh fw pad sv sh OH OW (Wc t0) u c y x * x' c y x) t0 := by
  rw [← conv_adjoint, ← conv_pair_W, add_assoc, ← Finset.sum_add_distrib, ← Finset.sum_add_distrib]
  refine hasDerivAt_sum (fun f hf => ?_)
  rw [Finset.sum_mul, ← Finset.sum_add_distrib, ← Finset.sum_add_distrib]
  refine hasDerivAt_sum (fun oy hoy => ?_)
  rw [Finset.sum_mul, ← Finset.sum_add_distrib, ← Finset.sum_add_distrib]
  refine hasDerivAt_sum (fun ox hox => ?_)
  have := (hasDerivAt_corr (pad := pad) (sv := sv) (sh := sh) hb hW hx hf oy ox).const_mul (u f oy ox)
  rw [mul_add, mul_add, add_comm (u f oy ox * ∑ i ∈ range fh, ∑ j ∈ range fw, ∑ c ∈ range d,
    padded x' h w c _ _ * _)] at this
  exact this

/-! ### Flat views -/

theorem TenIs.flat {t : Ten α} {d h w : Nat} {f : Nat → Nat → Nat → α} (ht : TenIs t d h w f) :
    VecIs t.data (d * h * w) (fun k => f (k / w / h) (k / w % h) (k % w)) := by
  refine ⟨ht.2.2.2.1, fun k hk => ?_⟩
  have hw : 0 < w := Nat.pos_of_mul_pos_left (Nat.zero_lt_of_lt hk)
  have h1 : k / w < d * h := Nat.div_lt_of_lt_mul (by rwa [Nat.mul_comm])
  have hh : 0 < h := Nat.pos_of_mul_pos_left (Nat.zero_lt_of_lt h1)
  have h2 : k / w / h < d := Nat.div_lt_of_lt_mul (by rwa [Nat.mul_comm])
  have e : (k / w / h * h + k / w % h) * w + k % w = k := by
    rw [Nat.mul_comm (k / w / h), Nat.div_add_mod, Nat.mul_comm]; exact Nat.div_add_mod k w
  have := ht.2.2.2.2 _ _ _ h2 (Nat.mod_lt (k / w) hh) (Nat.mod_lt k hw)
  rwa [e] at this

theorem TenIs.of_flat {d h w : Nat} {t : Ten α} {v : Nat → α} (hd : t.d = d) (hh : t.h = h) (hw : t.w = w)
    (hv : VecIs t.data (d * h * w) v) : TenIs t d h w (fun i j k => v ((i * h + j) * w + k)) :=
  ⟨hd, hh, hw, hv.length, fun _ _ _ hi hj hk => hv.2 _ (idx3_lt hi hj hk)⟩

theorem idx3_split {i j k h w : Nat} (hj : j < h) (hk : k < w) :
    ((i * h + j) * w + k) / w / h = i ∧ ((i * h + j) * w + k) / w % h = j ∧ ((i * h + j) * w + k) % w = k := by
  rw [idx2_div hk, idx2_mod hk, idx2_div hj, idx2_mod hj]
  exact ⟨rfl, rfl, rfl⟩

/-- Element-wise operation on the data of a tensor. -/
theorem TenIs.onData {t : Ten α} {d h w : Nat} {f : Nat → Nat → Nat → α} {op : Nat → α → α} {b : Buf α} (ht : TenIs t d h w f)
    (hb : VecIs b (d * h * w) (fun k => op k (f (k / w / h) (k / w % h) (k % w)))) :
    TenIs { t with data := b } d h w (fun i j k => op ((i * h + j) * w + k) (f i j k)) := by
  refine (TenIs.of_flat (t := { t with data := b }) ht.1 ht.2.1 ht.2.2.1 hb).congr (fun i j k _ hj hk => ?_)
  obtain ⟨e1, e2, e3⟩ := idx3_split (i := i) hj hk
  rw [e1, e2, e3]

/-! ### Updates -/

section Upd
variable {d h w fc fh fw pad sv sh : Nat} {b : Nat → α} {W : Nat → Nat → Nat → Nat → α}
  {gb : Nat → α} {gW : Nat → Nat → Nat → Nat → α}

theorem convScale_spec [Mul α] {Gs : List (Ten α)} (hG : WsIs Gs fc d fh fw gW) (alpha : α) :
    Ok (convScale alpha Gs) (fun Gs' => WsIs Gs' fc d fh fw (fun f c i j => gW f c i j * alpha)) := by
  unfold convScale
  rw [hG.1]
  refine (forN_spec (fun n Gs' => WsIs Gs' fc d fh fw (fun f c i j => if f < n then gW f c i j * alpha else gW f c i j))
    (hG.congr (fun f c i j _ _ _ _ => by simp)) (fun f hf Gs' hG' => ?_)).mono
    (fun Gs' hG' => hG'.congr (fun f c i j hf _ _ _ => by rw [if_pos hf]))
  obtain ⟨G, e, hGf⟩ := hG'.get hf
  rw [e, bind_ok]
  obtain ⟨dd, e2, hdd⟩ := scaleInto_spec hGf.flat alpha
  have e3 : G.onData (fun d => scaleInto d alpha) = .ok { G with data := dd } := by
    unfold Ten.onData; dsimp only; rw [e2]; rfl
  rw [e3, bind_ok]
  have hT : TenIs { G with data := dd } d fh fw (fun c i j => gW f c i j * alpha) := by
    have := TenIs.onData (op := fun _ a => a * alpha) hGf hdd
    exact this.congr (fun c i j _ _ _ => by simp)
  refine (hG'.set hf hT).mono (fun Gs'' h'' => h''.congr (fun k c i j _ _ _ _ => ?_))
  by_cases e : k = f
  · subst e; simp
  · have h1 : k < f + 1 ↔ k < f := by omega
    simp only [e, if_false, h1]

theorem convUpdW_gd [Mul α] [Sub α] {Ws Gs : List (Ten α)} (hW : WsIs Ws fc d fh fw W) (hG : WsIs Gs fc d fh fw gW)
    (keyW : Nat → Nat) (lr : α) :
    Ok (convUpdW (gdUpdate (α := α)) keyW fc lr Ws Gs) (fun r => r.1 = lr ∧
      WsIs r.2.1 fc d fh fw (fun f c i j => W f c i j - gW f c i j * lr) ∧
      WsIs r.2.2 fc d fh fw (fun f c i j => gW f c i j * lr)) := by
  unfold convUpdW
  refine (forN_spec (fun n (r : α × List (Ten α) × List (Ten α)) => r.1 = lr ∧
      WsIs r.2.1 fc d fh fw (fun f c i j => if f < n then W f c i j - gW f c i j * lr else W f c i j) ∧
      WsIs r.2.2 fc d fh fw (fun f c i j => if f < n then gW f c i j * lr else gW f c i j))
    ⟨rfl, hW.congr (fun f c i j _ _ _ _ => by simp), hG.congr (fun f c i j _ _ _ _ => by simp)⟩ (fun f hf r hr => ?_)).mono
    (fun r hr => ⟨hr.1, hr.2.1.congr (fun f c i j hf _ _ _ => by rw [if_pos hf]),
      hr.2.2.congr (fun f c i j hf _ _ _ => by rw [if_pos hf])⟩)
  obtain ⟨W1, e1, h1⟩ := hr.2.1.get hf
  obtain ⟨G1, e2, h2⟩ := hr.2.2.get hf
  rw [e1, bind_ok, e2, bind_ok, hr.1]
  have h1' : TenIs W1 d fh fw (W f) := h1.congr (fun c i j _ _ _ => by simp)
  have h2' : TenIs G1 d fh fw (gW f) := h2.congr (fun c i j _ _ _ => by simp)
  refine (gd_spec h1'.flat h2'.flat).bind (fun q hq => ?_)
  obtain ⟨q1, q2, q3⟩ := hq
  have t1 : TenIs { W1 with data := q.2.1 } d fh fw (fun c i j => W f c i j - gW f c i j * lr) := by
    refine (TenIs.of_flat (t := { W1 with data := q.2.1 }) h1.1 h1.2.1 h1.2.2.1 q2).congr (fun i j k _ hj hk => ?_)
    obtain ⟨e1, e2, e3⟩ := idx3_split (i := i) hj hk
    rw [e1, e2, e3]
  have t2 : TenIs { G1 with data := q.2.2 } d fh fw (fun c i j => gW f c i j * lr) := by
    refine (TenIs.of_flat (t := { G1 with data := q.2.2 }) h2.1 h2.2.1 h2.2.2.1 q3).congr (fun i j k _ hj hk => ?_)
    obtain ⟨e1, e2, e3⟩ := idx3_split (i := i) hj hk
    rw [e1, e2, e3]
  refine (hr.2.1.set hf t1).bind (fun Ws' hWs' => (hr.2.2.set hf t2).bind (fun Gs' hGs' => Ok_ok.2 ⟨q1, ?_, ?_⟩))
  · refine hWs'.congr (fun k c i j _ _ _ _ => ?_)
    by_cases e : k = f
    · subst e; simp
    · have h1 : k < f + 1 ↔ k < f := by omega
      simp only [e, if_false, h1]
  · refine hGs'.congr (fun k c i j _ _ _ _ => ?_)
    by_cases e : k = f
    · subst e; simp
    · have h1 : k < f + 1 ↔ k < f := by omega
      simp only [e, if_false, h1]

theorem Conv.update_gd [Zero α] [Mul α] [Sub α] {l : Conv α} (hl : l.Wf d h w fc fh fw pad sv sh b W gb gW) (lr alpha : α) :
    Ok (l.update (gdUpdate (α := α)) lr alpha) (fun r => r.1 = lr ∧
      r.2.Wf d h w fc fh fw pad sv sh (fun f => b f - gb f * alpha * lr) (fun f c i j => W f c i j - gW f c i j * alpha * lr)
        (fun f => gb f * alpha * lr) (fun f c i j => gW f c i j * alpha * lr) ∧
      r.2 = { l with B := r.2.B, Ws := r.2.Ws, gradWs := r.2.gradWs, gradB := r.2.gradB }) := by
  unfold Conv.update
  refine (convScale_spec hl.gradWs alpha).bind (fun Gs hGs => ?_)
  refine (scaleInto_spec hl.gradB alpha).bind (fun gB hgB => ?_)
  rw [hl.Ws.1]
  refine (convUpdW_gd hl.Ws hGs l.keyW lr).bind (fun r hr => ?_)
  obtain ⟨r1, r2, r3⟩ := hr
  dsimp only
  rw [r1]
  refine (gd_spec hl.B hgB).bind (fun q hq => ?_)
  exact Ok_ok.2 ⟨hq.1, { hl with B := hq.2.1, Ws := r2, gradWs := r3, gradB := hq.2.2 }, rfl⟩

/-- With any optimizer that keeps its buffers initialised, the filters and their gradients stay initialised. -/
theorem convUpdW_full {upd : Upd σ α} {size : Nat → Nat} {I : σ → Prop} (hu : UpdOk upd size I) {Ws Gs : List (Ten α)}
    (hW : WsIs Ws fc d fh fw W) (hG : WsIs Gs fc d fh fw gW) (keyW : Nat → Nat) (hk : ∀ f, f < fc → size (keyW f) = d * fh * fw)
    (s : σ) (hs : I s) :
    Ok (convUpdW upd keyW fc s Ws Gs) (fun r => I r.1 ∧ (∃ W', WsIs r.2.1 fc d fh fw W') ∧ ∃ G', WsIs r.2.2 fc d fh fw G') := by
  unfold convUpdW
  refine (forN_spec (fun _ (r : σ × List (Ten α) × List (Ten α)) => I r.1 ∧ (∃ W', WsIs r.2.1 fc d fh fw W') ∧
      ∃ G', WsIs r.2.2 fc d fh fw G') ⟨hs, ⟨_, hW⟩, ⟨_, hG⟩⟩ (fun f hf r hr => ?_))
  obtain ⟨r1, ⟨W', r2⟩, ⟨G', r3⟩⟩ := hr
  obtain ⟨W1, e1, h1⟩ := r2.get hf
  obtain ⟨G1, e2, h2⟩ := r3.get hf
  rw [e1, bind_ok, e2, bind_ok]
  refine (hu r.1 (keyW f) W1.data G1.data r1 (by rw [hk f hf]; exact h1.flat.full) (by rw [hk f hf]; exact h2.flat.full)).bind
    (fun q hq => ?_)
  rw [hk f hf] at hq
  obtain ⟨q1, ⟨v2, q2⟩, ⟨v3, q3⟩⟩ := hq
  have t1 := TenIs.of_flat (t := { W1 with data := q.2.1 }) h1.1 h1.2.1 h1.2.2.1 q2
  have t2 := TenIs.of_flat (t := { G1 with data := q.2.2 }) h2.1 h2.2.1 h2.2.2.1 q3
  exact (r2.set hf t1).bind (fun Ws' hWs' => (r3.set hf t2).bind (fun Gs' hGs' => Ok_ok.2 ⟨q1, ⟨_, hWs'⟩, ⟨_, hGs'⟩⟩))

theorem Conv.update_full [Zero α] [Mul α] {upd : Upd σ α} {size : Nat → Nat} {I : σ → Prop} (hu : UpdOk upd size I) {l : Conv α}
    (hl : l.Wf d h w fc fh fw pad sv sh b W gb gW) (hk : ∀ f, f < fc → size (l.keyW f) = d * fh * fw)
    (hkB : size l.keyB = fc) (s : σ) (hs : I s) (alpha : α) :
    Ok (l.update upd s alpha) (fun r => I r.1 ∧ (∃ b W gb gW, r.2.Wf d h w fc fh fw pad sv sh b W gb gW) ∧
      r.2 = { l with B := r.2.B, Ws := r.2.Ws, gradWs := r.2.gradWs, gradB := r.2.gradB }) := by
  unfold Conv.update
  refine (convScale_spec hl.gradWs alpha).bind (fun Gs hGs => ?_)
  refine (scaleInto_spec hl.gradB alpha).bind (fun gB hgB => ?_)
  rw [hl.Ws.1]
  refine (convUpdW_full hu hl.Ws hGs l.keyW hk s hs).bind (fun r hr => ?_)
  obtain ⟨r1, ⟨W', r2⟩, ⟨G', r3⟩⟩ := hr
  refine (hu r.1 l.keyB l.B gB r1 (by rw [hkB]; exact hl.B.full) (by rw [hkB]; exact hgB.full)).bind (fun q hq => ?_)
  rw [hkB] at hq
  obtain ⟨q1, ⟨v2, q2⟩, ⟨v3, q3⟩⟩ := hq
  exact Ok_ok.2 ⟨q1, ⟨_, _, _, _, { hl with B := q2, Ws := r2, gradWs := r3, gradB := q3 }⟩, rfl⟩

theorem convFill_spec (gen : Gen γ ρ α) (c : γ) {Ws : List (Ten α)} (hW : WsIs Ws fc d fh fw W) (g : ρ) :
    Ok (forN fc (Ws, g) (fun f s => do
      let W ← lget s.1 f
      let (d, g) ← fillBy gen c s.2 W.data
      let Ws ← lset s.1 f { W with data := d }
      return (Ws, g))) (fun r => ∃ W', WsIs r.1 fc d fh fw W') := by
  refine (forN_spec (fun _ (r : List (Ten α) × ρ) => ∃ W', WsIs r.1 fc d fh fw W') ⟨_, hW⟩ (fun f hf r hr => ?_))
  obtain ⟨W', hr⟩ := hr
  obtain ⟨W1, e1, h1⟩ := hr.get hf
  rw [e1, bind_ok]
  refine (fillBy_full gen c r.2 W1.data).bind (fun q hq => ?_)
  rw [h1.2.2.2.1] at hq
  obtain ⟨v, hv⟩ := hq
  have t1 := TenIs.of_flat (t := { W1 with data := q.1 }) h1.1 h1.2.1 h1.2.2.1 hv
  exact (hr.set hf t1).bind (fun Ws' hWs' => Ok_ok.2 ⟨_, hWs'⟩)

theorem Conv.init_spec [Zero α] {l : Conv α} (hl : l.Wf d h w fc fh fw pad sv sh b W gb gW) (gen : Gen γ ρ α) (c : γ) (g : ρ) :
    Ok (l.init gen c g) (fun r => (∃ b W, r.1.Wf d h w fc fh fw pad sv sh b W gb gW) ∧
      r.1 = { l with B := r.1.B, Ws := r.1.Ws }) := by
  unfold Conv.init
  rw [hl.Ws.1]
  refine (convFill_spec gen c hl.Ws g).bind (fun r hr => ?_)
  obtain ⟨W', hr⟩ := hr
  refine (fillBy_full gen c r.2 l.B).bind (fun q hq => ?_)
  rw [hl.B.length] at hq
  obtain ⟨v, hv⟩ := hq
  exact Ok_ok.2 ⟨⟨_, _, { hl with B := hv, Ws := hr }⟩, rfl⟩

end Upd

end Trixy
