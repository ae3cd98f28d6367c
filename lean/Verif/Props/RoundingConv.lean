import Verif.Props.Rounding
import Verif.Props.ConvExact
/- C78 for the backward pass of a convolution. -/
namespace Trixy
set_option linter.unusedSectionVars false

open Finset

section
variable {α : Type} [Zero α] [Add α] [Sub α] [Mul α] {R : Rounding α}

theorem spread_near {sv sh fc OH OW : Nat} (hsv : 1 ≤ sv) (hsh : 1 ≤ sh) {u : Nat → Nat → Nat → α} {U ε : Nat → Nat → Nat → ℝ}
    (hu : ∀ f oy ox, f < fc → oy < OH → ox < OW → R.Near (u f oy ox) (U f oy ox) (ε f oy ox)) {f Y X : Nat} (hf : f < fc)
    (hY : Y < sv * (OH - 1) + 1) (hX : X < sh * (OW - 1) + 1) (n1 : 1 ≤ OH) (n2 : 1 ≤ OW) :
    R.Near (spreadFn sv sh u f Y X) (spreadFn sv sh U f Y X) (spreadFn sv sh ε f Y X) := by
  unfold spreadFn
  split
  · rename_i hd
    refine hu f _ _ hf ?_ ?_
    · have : Y / sv ≤ OH - 1 := Nat.div_le_of_le_mul (by omega)
      omega
    · have : X / sh ≤ OW - 1 := Nat.div_le_of_le_mul (by omega)
      omega
  · exact ⟨R.zero.1, by simp [R.zero.2]⟩

theorem spread_abs (sv sh : Nat) (U : Nat → Nat → Nat → ℝ) (f Y X : Nat) :
    |spreadFn sv sh U f Y X| = spreadFn sv sh (fun f y x => |U f y x|) f Y X := by
  unfold spreadFn; split <;> simp

theorem spread_add (sv sh : Nat) (U ε : Nat → Nat → Nat → ℝ) (f Y X : Nat) :
    spreadFn sv sh U f Y X + spreadFn sv sh ε f Y X = spreadFn sv sh (fun f y x => U f y x + ε f y x) f Y X := by
  unfold spreadFn; split <;> simp

theorem padded_abs (V : Nat → Nat → Nat → ℝ) (h w c : Nat) (y x : Int) :
    |padded V h w c y x| = padded (fun c i j => |V c i j|) h w c y x := by
  unfold padded; split <;> simp

theorem padded_add (V δ : Nat → Nat → Nat → ℝ) (h w c : Nat) (y x : Int) :
    padded V h w c y x + padded δ h w c y x = padded (fun c i j => V c i j + δ c i j) h w c y x := by
  unfold padded; split <;> simp

theorem spread_sum {sv sh OH OW : Nat} (s1 : 1 ≤ sv) (s2 : 1 ≤ sh) (n1 : 1 ≤ OH) (n2 : 1 ≤ OW) (U : Nat → Nat → Nat → ℝ) (f : Nat)
    (x : Nat → Nat → Nat → ℝ) :
    ∑ Y ∈ range (sv * (OH - 1) + 1), ∑ X ∈ range (sh * (OW - 1) + 1), spreadFn sv sh U f Y X = biasGrad OH OW f x U := by
  have := sum_grid2 s1 s2 n1 n2 (fun Y X k q => U f k q)
  unfold biasGrad
  rw [← this]
  rfl

theorem spread_filter {h w pad sv sh OH OW : Nat} (s1 : 1 ≤ sv) (s2 : 1 ≤ sh) (n1 : 1 ≤ OH) (n2 : 1 ≤ OW) (U x : Nat → Nat → Nat → ℝ)
    (f c i j : Nat) :
    ∑ Y ∈ range (sv * (OH - 1) + 1), ∑ X ∈ range (sh * (OW - 1) + 1),
      spreadFn sv sh U f Y X * padded x h w c ((Y : Int) + i - pad) ((X : Int) + j - pad) = filterGrad h w pad sv sh OH OW f c i j x U := by
  have := sum_grid2 s1 s2 n1 n2 (fun Y X k q => U f k q * padded x h w c ((Y : Int) + i - pad) ((X : Int) + j - pad))
  push_cast at this
  unfold filterGrad
  rw [← this]
  refine Finset.sum_congr rfl (fun Y _ => Finset.sum_congr rfl (fun X _ => ?_))
  unfold spreadFn
  by_cases hd : sv ∣ Y ∧ sh ∣ X
  · rw [if_pos hd, if_pos hd]
  · rw [if_neg hd, if_neg hd, zero_mul]

theorem spread_delta {fc fh fw pad sv sh OH OW : Nat} (s1 : 1 ≤ sv) (s2 : 1 ≤ sh) (n1 : 1 ≤ OH) (n2 : 1 ≤ OW)
    (W : Nat → Nat → Nat → Nat → ℝ) (U : Nat → Nat → Nat → ℝ) (c y x : Nat) :
    ∑ i ∈ range fh, ∑ j ∈ range fw, (if Inside (fh - 1 - i) (sv * (OH - 1) + 1) (y + pad) ∧ Inside (fw - 1 - j) (sh * (OW - 1) + 1) (x + pad)
      then ∑ f ∈ range fc, W f c (fh - 1 - i) (fw - 1 - j) * spreadFn sv sh U f (y + pad - (fh - 1 - i)) (x + pad - (fw - 1 - j)) else 0) =
    convDelta fc fh fw pad sv sh OH OW W U c y x := by
  rw [Finset.sum_range_reflect (fun i => ∑ j ∈ range fw, (if Inside i (sv * (OH - 1) + 1) (y + pad) ∧ Inside (fw - 1 - j) (sh * (OW - 1) + 1) (x + pad)
      then ∑ f ∈ range fc, W f c i (fw - 1 - j) * spreadFn sv sh U f (y + pad - i) (x + pad - (fw - 1 - j)) else 0)) fh]
  unfold convDelta
  refine Finset.sum_congr rfl (fun i _ => ?_)
  rw [Finset.sum_range_reflect (fun j => if Inside i (sv * (OH - 1) + 1) (y + pad) ∧ Inside j (sh * (OW - 1) + 1) (x + pad)
      then ∑ f ∈ range fc, W f c i j * spreadFn sv sh U f (y + pad - i) (x + pad - j) else 0) fw]
  refine Finset.sum_congr rfl (fun j _ => ?_)
  have e := sum_hit (i := i) (j := j) (S := y + pad) (T := x + pad) s1 s2 n1 n2 (fun oy ox => ∑ f ∈ range fc, U f oy ox * W f c i j)
  rw [← e]
  unfold Inside
  congr 1
  unfold spreadFn
  by_cases hd : sv ∣ y + pad - i ∧ sh ∣ x + pad - j
  · simp only [hd, and_self, if_true]
    exact Finset.sum_congr rfl (fun f _ => mul_comm _ _)
  · simp only [hd, if_false, mul_zero, Finset.sum_const_zero]

/-- One bias gradient. -/
theorem biasGrad_near {sv sh fc OH OW : Nat} (s1 : 1 ≤ sv) (s2 : 1 ≤ sh) (n1 : 1 ≤ OH) (n2 : 1 ≤ OW) {g : α} {G e : ℝ} (hg : R.Near g G e)
    {u : Nat → Nat → Nat → α} {U ε x : Nat → Nat → Nat → ℝ}
    (hu : ∀ f oy ox, f < fc → oy < OH → ox < OW → R.Near (u f oy ox) (U f oy ox) (ε f oy ox)) {f : Nat} (hf : f < fc) {N : Nat}
    (hN : N = (sv * (OH - 1) + 1) * (sh * (OW - 1) + 1))
    (hM : (1 + R.u) ^ (N + 1) * (|G| + e + biasGrad OH OW f x (fun f y x => |U f y x| + ε f y x)) ≤ R.M) :
    R.Near (biasGradExact (sv * (OH - 1) + 1) (sh * (OW - 1) + 1) g (spreadFn sv sh u) f) (G + biasGrad OH OW f x U)
      ((1 + R.u) ^ (N + 1) * (|G| + e + biasGrad OH OW f x (fun f y x => |U f y x| + ε f y x)) - (|G| + biasGrad OH OW f x (fun f y x => |U f y x|))) := by
  have st : StepOk R 1 ((sv * (OH - 1) + 1) * ((sh * (OW - 1) + 1) * 1)) (fun s => iter (sv * (OH - 1) + 1) s (fun Y s => iter (sh * (OW - 1) + 1) s (fun X s =>
      s + spreadFn sv sh u f Y X)))
      (∑ Y ∈ range (sv * (OH - 1) + 1), ∑ X ∈ range (sh * (OW - 1) + 1), spreadFn sv sh U f Y X)
      (∑ Y ∈ range (sv * (OH - 1) + 1), ∑ X ∈ range (sh * (OW - 1) + 1), |spreadFn sv sh U f Y X|)
      (∑ Y ∈ range (sv * (OH - 1) + 1), ∑ X ∈ range (sh * (OW - 1) + 1), (|spreadFn sv sh U f Y X| + spreadFn sv sh ε f Y X)) :=
    StepOk.iter (fun Y hY => StepOk.iter (fun X hX =>
      StepOk.add ((Approx.of_near (spread_near s1 s2 hu hf hY hX n1 n2)).mono (by omega) (le_refl _))))
  simp only [spread_abs, spread_add, spread_sum s1 s2 n1 n2 _ _ x, Nat.mul_one] at st
  rw [← hN] at st
  have h1 := st.2 1 g G |G| (|G| + e) (le_refl _) ((Approx.of_near hg).mono (by omega) (le_refl _)) (by rw [Nat.add_comm]; exact hM)
  rw [Nat.add_comm 1 N] at h1
  exact h1.near

/-- One cell of a filter gradient. -/
theorem filterGrad_near {h w d pad sv sh fc OH OW : Nat} (s1 : 1 ≤ sv) (s2 : 1 ≤ sh) (n1 : 1 ≤ OH) (n2 : 1 ≤ OW) {g : α} {G e : ℝ} (hg : R.Near g G e)
    {u x : Nat → Nat → Nat → α} {U ε V δ : Nat → Nat → Nat → ℝ}
    (hx : ∀ c i j, c < d → i < h → j < w → R.Near (x c i j) (V c i j) (δ c i j))
    (hu : ∀ f oy ox, f < fc → oy < OH → ox < OW → R.Near (u f oy ox) (U f oy ox) (ε f oy ox)) {f c i j : Nat} (hf : f < fc) (hc : c < d) {N : Nat}
    (hN : N = (sv * (OH - 1) + 1) * (sh * (OW - 1) + 1))
    (hM : (1 + R.u) ^ (N + 1) * (|G| + e + (filterGrad h w pad sv sh OH OW f c i j (fun c y x => |V c y x| + δ c y x) (fun f y x => |U f y x| + ε f y x) +
      N * R.η)) ≤ R.M) :
    R.Near (filterGradExact h w pad (sv * (OH - 1) + 1) (sh * (OW - 1) + 1) g x (spreadFn sv sh u) f c i j)
      (G + filterGrad h w pad sv sh OH OW f c i j V U)
      ((1 + R.u) ^ (N + 1) * (|G| + e + (filterGrad h w pad sv sh OH OW f c i j (fun c y x => |V c y x| + δ c y x) (fun f y x => |U f y x| + ε f y x) +
        N * R.η)) - (|G| + filterGrad h w pad sv sh OH OW f c i j (fun c y x => |V c y x|) (fun f y x => |U f y x|))) := by
  have st : StepOk R 1 ((sv * (OH - 1) + 1) * ((sh * (OW - 1) + 1) * 1)) (fun s => iter (sv * (OH - 1) + 1) s (fun Y s => iter (sh * (OW - 1) + 1) s (fun X s =>
      if Inside pad h (Y + i) ∧ Inside pad w (X + j) then s + spreadFn sv sh u f Y X * x c (Y + i - pad) (X + j - pad) else s)))
      (∑ Y ∈ range (sv * (OH - 1) + 1), ∑ X ∈ range (sh * (OW - 1) + 1), spreadFn sv sh U f Y X * padded V h w c ((Y : Int) + i - pad) ((X : Int) + j - pad))
      (∑ Y ∈ range (sv * (OH - 1) + 1), ∑ X ∈ range (sh * (OW - 1) + 1), |spreadFn sv sh U f Y X| * |padded V h w c ((Y : Int) + i - pad) ((X : Int) + j - pad)|)
      (∑ Y ∈ range (sv * (OH - 1) + 1), ∑ X ∈ range (sh * (OW - 1) + 1), ((|spreadFn sv sh U f Y X| + spreadFn sv sh ε f Y X) *
        (|padded V h w c ((Y : Int) + i - pad) ((X : Int) + j - pad)| + padded δ h w c ((Y : Int) + i - pad) ((X : Int) + j - pad)) + R.η)) := by
    refine StepOk.iter (fun Y hY => StepOk.iter (fun X hX => ?_))
    by_cases hin : Inside pad h (Y + i) ∧ Inside pad w (X + j)
    · simp only [if_pos hin]
      have hp : ∀ (Z : Nat → Nat → Nat → ℝ), padded Z h w c ((Y : Int) + i - pad) ((X : Int) + j - pad) = Z c (Y + i - pad) (X + j - pad) := by
        intro Z
        have := padded_in (x := Z) (c := c) (a := Y + i) (b := X + j) hin.1 hin.2
        push_cast at this
        exact this
      simp only [hp]
      exact StepOk.mulAdd (Approx.of_near (spread_near s1 s2 hu hf hY hX n1 n2)) (Approx.of_near (hx c _ _ hc hin.1.2 hin.2.2))
    · simp only [if_neg hin]
      have hp : ∀ (Z : Nat → Nat → Nat → ℝ), padded Z h w c ((Y : Int) + i - pad) ((X : Int) + j - pad) = 0 := by
        intro Z
        have := padded_out (x := Z) (c := c) (a := Y + i) (b := X + j) hin
        push_cast at this
        exact this
      simp only [hp]
      exact (StepOk.skip 1 (by simp [R.η0])).congr (by simp) (by simp)
  simp only [spread_abs, spread_add, padded_abs, padded_add, Finset.sum_add_distrib, spread_filter s1 s2 n1 n2, Nat.mul_one, Finset.sum_const, card_range,
    nsmul_eq_mul, ← mul_assoc] at st
  rw [← Nat.cast_mul, ← hN] at st
  have h1 := st.2 1 g G |G| (|G| + e) (le_refl _) ((Approx.of_near hg).mono (by omega) (le_refl _)) (by rw [Nat.add_comm]; exact hM)
  rw [Nat.add_comm 1 N] at h1
  exact h1.near

/-- One cell of the outgoing delta. -/
theorem convDelta_near {fc fh fw pad sv sh OH OW : Nat} (s1 : 1 ≤ sv) (s2 : 1 ≤ sh) (n1 : 1 ≤ OH) (n2 : 1 ≤ OW)
    {W : Nat → Nat → Nat → Nat → α} {u : Nat → Nat → Nat → α} {U ε : Nat → Nat → Nat → ℝ} {c y x : Nat}
    (hW : ∀ f i j, f < fc → i < fh → j < fw → R.fin (W f c i j))
    (hu : ∀ f oy ox, f < fc → oy < OH → ox < OW → R.Near (u f oy ox) (U f oy ox) (ε f oy ox)) {N : Nat} (hN : N = fh * fw * fc)
    (hM : (1 + R.u) ^ (N + 1) * (convDelta fc fh fw pad sv sh OH OW (fun f c i j => |R.val (W f c i j)|) (fun f y x => |U f y x| + ε f y x) c y x + N * R.η) ≤ R.M) :
    R.Near (convDeltaExact fc fh fw pad (sv * (OH - 1) + 1) (sh * (OW - 1) + 1) W (spreadFn sv sh u) c y x)
      (convDelta fc fh fw pad sv sh OH OW (fun f c i j => R.val (W f c i j)) U c y x)
      ((1 + R.u) ^ (N + 1) * (convDelta fc fh fw pad sv sh OH OW (fun f c i j => |R.val (W f c i j)|) (fun f y x => |U f y x| + ε f y x) c y x + N * R.η) -
        convDelta fc fh fw pad sv sh OH OW (fun f c i j => |R.val (W f c i j)|) (fun f y x => |U f y x|) c y x) := by
  have st : StepOk R 1 (fh * (fw * (fc * 1))) (fun s => iter fh s (fun i s => iter fw s (fun j s =>
      if Inside (fh - 1 - i) (sv * (OH - 1) + 1) (y + pad) ∧ Inside (fw - 1 - j) (sh * (OW - 1) + 1) (x + pad)
      then iter fc s (fun f s => s + W f c (fh - 1 - i) (fw - 1 - j) * spreadFn sv sh u f (y + pad - (fh - 1 - i)) (x + pad - (fw - 1 - j))) else s)))
      (∑ i ∈ range fh, ∑ j ∈ range fw, (if Inside (fh - 1 - i) (sv * (OH - 1) + 1) (y + pad) ∧ Inside (fw - 1 - j) (sh * (OW - 1) + 1) (x + pad)
        then ∑ f ∈ range fc, R.val (W f c (fh - 1 - i) (fw - 1 - j)) * spreadFn sv sh U f (y + pad - (fh - 1 - i)) (x + pad - (fw - 1 - j)) else 0))
      (∑ i ∈ range fh, ∑ j ∈ range fw, (if Inside (fh - 1 - i) (sv * (OH - 1) + 1) (y + pad) ∧ Inside (fw - 1 - j) (sh * (OW - 1) + 1) (x + pad)
        then ∑ f ∈ range fc, |R.val (W f c (fh - 1 - i) (fw - 1 - j))| * spreadFn sv sh (fun f y x => |U f y x|) f (y + pad - (fh - 1 - i)) (x + pad - (fw - 1 - j)) else 0))
      (∑ i ∈ range fh, ∑ j ∈ range fw, ((if Inside (fh - 1 - i) (sv * (OH - 1) + 1) (y + pad) ∧ Inside (fw - 1 - j) (sh * (OW - 1) + 1) (x + pad)
        then ∑ f ∈ range fc, |R.val (W f c (fh - 1 - i) (fw - 1 - j))| *
          spreadFn sv sh (fun f y x => |U f y x| + ε f y x) f (y + pad - (fh - 1 - i)) (x + pad - (fw - 1 - j)) else 0) + fc * R.η)) := by
    refine StepOk.iter (fun i hi => StepOk.iter (fun j hj => ?_))
    by_cases hin : Inside (fh - 1 - i) (sv * (OH - 1) + 1) (y + pad) ∧ Inside (fw - 1 - j) (sh * (OW - 1) + 1) (x + pad)
    · simp only [if_pos hin]
      have e : (fc : ℝ) * R.η = ∑ f ∈ range fc, R.η := by simp
      rw [e, ← Finset.sum_add_distrib]
      refine StepOk.iter (fun f hf => ?_)
      have := StepOk.mulAdd (Approx.exact (hW f (fh - 1 - i) (fw - 1 - j) hf (by omega) (by omega)))
        (Approx.of_near (spread_near s1 s2 hu hf hin.1.2 hin.2.2 n1 n2))
      simp only [spread_abs, spread_add] at this
      exact this
    · simp only [if_neg hin]
      exact StepOk.skip _ (by have := R.η0; positivity)
  simp only [Finset.sum_add_distrib, Finset.sum_const, card_range, nsmul_eq_mul, Nat.mul_one, ← mul_assoc] at st
  rw [spread_delta s1 s2 n1 n2 (fun f c i j => R.val (W f c i j)), spread_delta s1 s2 n1 n2 (fun f c i j => |R.val (W f c i j)|),
    spread_delta s1 s2 n1 n2 (fun f c i j => |R.val (W f c i j)|), ← Nat.cast_mul, ← Nat.cast_mul, ← hN] at st
  have h1 := st.2 1 0 0 0 0 (le_refl _) (Approx.zero'.mono (by omega) (le_refl _)) (by rw [Nat.add_comm, zero_add]; exact hM)
  rw [Nat.add_comm 1 N, zero_add, zero_add, zero_add] at h1
  exact h1.near

end

variable {α : Type} [Zero α] [Add α] [Sub α] [Mul α] (R : Rounding α)

/-- The backward pass of a convolution: every gradient and every cell of the outgoing delta is near its exact value. `V`, `U` are the exact input
and incoming delta (known within `δ`, `ε`), `Gb`, `GW` what the gradient members held before (within `eb`, `eW`). The loops run over the
`N` cells of the delta spread over the stride grid, so `N + 1` is the number of roundings on a path; `filterGrad`, `biasGrad` and
`convDelta` (Spec/Conv.lean) are the exact gradients. -/
theorem C78_convolution_backward (l : Conv α) (d h w fc fh fw pad sv sh : Nat) (b : Nat → α)
    (W : Nat → Nat → Nat → Nat → α) (gb : Nat → α) (gW : Nat → Nat → Nat → Nat → α)
    (hl : l.Wf d h w fc fh fw pad sv sh b W gb gW) (OH OW N : Nat) (hOH : OH = extent h fh pad sv) (hOW : OW = extent w fw pad sh)
    (hN : N = (sv * (OH - 1) + 1) * (sh * (OW - 1) + 1))
    (x dl : Ten α) (v u : Nat → Nat → Nat → α) (hx : TenIs x d h w v) (hd : TenIs dl fc OH OW u) (full : Bool)
    (V δ U ε : Nat → Nat → Nat → ℝ) (Gb eb : Nat → ℝ) (GW eW : Nat → Nat → Nat → Nat → ℝ)
    (hv : ∀ c i j, c < d → i < h → j < w → R.Near (v c i j) (V c i j) (δ c i j))
    (hu : ∀ f oy ox, f < fc → oy < OH → ox < OW → R.Near (u f oy ox) (U f oy ox) (ε f oy ox))
    (hW : ∀ f c i j, f < fc → c < d → i < fh → j < fw → R.fin (W f c i j))
    (hgb : ∀ f, f < fc → R.Near (gb f) (Gb f) (eb f))
    (hgW : ∀ f c i j, f < fc → c < d → i < fh → j < fw → R.Near (gW f c i j) (GW f c i j) (eW f c i j))
    (hMb : ∀ f, f < fc → (1 + R.u) ^ (N + 1) * (|Gb f| + eb f + biasGrad OH OW f V (fun f y x => |U f y x| + ε f y x)) ≤ R.M)
    (hMW : ∀ f c i j, f < fc → c < d → i < fh → j < fw → (1 + R.u) ^ (N + 1) * (|GW f c i j| + eW f c i j +
      (filterGrad h w pad sv sh OH OW f c i j (fun c y x => |V c y x| + δ c y x) (fun f y x => |U f y x| + ε f y x) + N * R.η)) ≤ R.M)
    (hMD : ∀ c y x, c < d → y < h → x < w → (1 + R.u) ^ (fh * fw * fc + 1) *
      (convDelta fc fh fw pad sv sh OH OW (fun f c i j => |R.val (W f c i j)|) (fun f y x => |U f y x| + ε f y x) c y x + (fh * fw * fc : Nat) * R.η) ≤ R.M) :
    Ok (l.backward x dl full) (fun l' => ∃ β ω ψ, VecIs l'.gradB fc β ∧ WsIs l'.gradWs fc d fh fw ω ∧ TenIs l'.delta d h w ψ ∧
      (∀ f, f < fc → R.Near (β f) (Gb f + biasGrad OH OW f V U)
        ((1 + R.u) ^ (N + 1) * (|Gb f| + eb f + biasGrad OH OW f V (fun f y x => |U f y x| + ε f y x)) -
          (|Gb f| + biasGrad OH OW f V (fun f y x => |U f y x|)))) ∧
      (∀ f c i j, f < fc → c < d → i < fh → j < fw → R.Near (ω f c i j) (GW f c i j + filterGrad h w pad sv sh OH OW f c i j V U)
        ((1 + R.u) ^ (N + 1) * (|GW f c i j| + eW f c i j +
          (filterGrad h w pad sv sh OH OW f c i j (fun c y x => |V c y x| + δ c y x) (fun f y x => |U f y x| + ε f y x) + N * R.η)) -
          (|GW f c i j| + filterGrad h w pad sv sh OH OW f c i j (fun c y x => |V c y x|) (fun f y x => |U f y x|)))) ∧
      (∀ c y x, c < d → y < h → x < w → R.Near (ψ c y x) (convDelta fc fh fw pad sv sh OH OW (fun f c i j => R.val (W f c i j)) U c y x)
        ((1 + R.u) ^ (fh * fw * fc + 1) *
          (convDelta fc fh fw pad sv sh OH OW (fun f c i j => |R.val (W f c i j)|) (fun f y x => |U f y x| + ε f y x) c y x + (fh * fw * fc : Nat) * R.η) -
          convDelta fc fh fw pad sv sh OH OW (fun f c i j => |R.val (W f c i j)|) (fun f y x => |U f y x|) c y x))) := by
  have n1 := extent_pos h fh pad sv
  have n2 := extent_pos w fw pad sh
  rw [← hOH] at n1
  rw [← hOW] at n2
  have key := C70_backward l d h w fc fh fw pad sv sh b W gb gW hl x dl v u hx (by rw [← hOH, ← hOW]; exact hd) full
  rw [← hOH, ← hOW] at key
  refine key.mono (fun l' q => ⟨_, _, _, q.1, q.2.1, q.2.2.1, fun f hf => ?_, fun f c i j hf hc hi hj => ?_, fun c y x hc hy hx => ?_⟩)
  · exact biasGrad_near hl.geo.sv hl.geo.sh n1 n2 (hgb f hf) hu hf hN (hMb f hf)
  · exact filterGrad_near hl.geo.sv hl.geo.sh n1 n2 (hgW f c i j hf hc hi hj) hv hu hf hc hN (hMW f c i j hf hc hi hj)
  · exact convDelta_near hl.geo.sv hl.geo.sh n1 n2 (fun f i j hf hi hj => hW f c i j hf hc hi hj) hu rfl (hMD c y x hc hy hx)

/-- A StohasticGradDescent update. -/
theorem C78_stochastic_descent (o : Sgd α) (k n : Nat) (P Q : Buf α) (p g : Nat → α) (hP : VecIs P n p) (hQ : VecIs Q n g)
    (X Y e f : Nat → ℝ) (hp : R.NearVec n p X e) (hg : R.NearVec n g Y f) (hlr : R.fin o.lr) (hal : R.fin o.alpha)
    (hM : ∀ i, i < n → (1 + R.u) * (((|X i| + e i) * |R.val o.alpha| + R.η) + ((|Y i| + f i) * |R.val o.lr| + R.η)) ≤ R.M) :
    Ok (sgdUpdate o k P Q) (fun r => ∃ p', VecIs r.2.1 n p' ∧ R.NearVec n p' (fun i => X i * R.val o.alpha - Y i * R.val o.lr)
      (fun i => (1 + R.u) ^ 2 * (((|X i| + e i) * |R.val o.alpha| + R.η) + ((|Y i| + f i) * |R.val o.lr| + R.η)) -
        (|X i| * |R.val o.alpha| + |Y i| * |R.val o.lr|))) := by
  refine (sgd_spec hP hQ).mono (fun r q => ⟨_, q.2.1, fun i hi => ?_⟩)
  have e0 : 0 ≤ e i := le_trans (abs_nonneg _) (hp i hi).2
  have f0 : 0 ≤ f i := le_trans (abs_nonneg _) (hg i hi).2
  have n0 : 0 ≤ (|Y i| + f i) * |R.val o.lr| := mul_nonneg (by linarith [abs_nonneg (Y i)]) (abs_nonneg _)
  have n1 : 0 ≤ (|X i| + e i) * |R.val o.alpha| := mul_nonneg (by linarith [abs_nonneg (X i)]) (abs_nonneg _)
  have hB := hM i hi
  have hle : ((|X i| + e i) * |R.val o.alpha| + R.η) + ((|Y i| + f i) * |R.val o.lr| + R.η) ≤ R.M := by
    have := mul_le_mul_of_nonneg_right R.one (show 0 ≤ ((|X i| + e i) * |R.val o.alpha| + R.η) + ((|Y i| + f i) * |R.val o.lr| + R.η) by linarith [R.η0])
    linarith
  have h1 := (Approx.of_near (hg i hi)).mul (Approx.exact hlr) (by simpa using (by linarith [R.η0] : (|Y i| + f i) * |R.val o.lr| ≤ R.M))
  have h2 := (Approx.of_near (hp i hi)).mul (Approx.exact hal) (by simpa using (by linarith [R.η0] : (|X i| + e i) * |R.val o.alpha| ≤ R.M))
  exact (h2.sub h1 (by simpa using hB)).near

/-- A Momentum update of a parameter whose velocity `v` is near `V`: the new velocity and the new parameter. -/
theorem C78_momentum (o : Mom α) (k n : Nat) (P Q : Buf α) (p g v : Nat → α) (hP : VecIs P n p) (hQ : VecIs Q n g)
    (hb : (o.buff.get k n).length = n) (hv : VecIs (o.opt.get k n) n v) (X Y V e f ev : Nat → ℝ) (hp : R.NearVec n p X e) (hg : R.NearVec n g Y f)
    (hV : R.NearVec n v V ev) (hlr : R.fin o.lr) (hmu : R.fin o.mu)
    (hM : ∀ i, i < n → (1 + R.u) ^ 2 * ((|X i| + e i) + (((|V i| + ev i) * |R.val o.mu| + R.η) + (|R.val o.lr| * (|Y i| + f i) + R.η))) ≤ R.M) :
    Ok (momUpdate o k P Q) (fun r => (∃ v', VecIs (r.1.opt.get k n) n v' ∧ R.NearVec n v' (fun i => V i * R.val o.mu - R.val o.lr * Y i)
        (fun i => (1 + R.u) ^ 2 * (((|V i| + ev i) * |R.val o.mu| + R.η) + (|R.val o.lr| * (|Y i| + f i) + R.η)) - (|V i| * |R.val o.mu| + |R.val o.lr| * |Y i|))) ∧
      ∃ p', VecIs r.2.1 n p' ∧ R.NearVec n p' (fun i => X i + (V i * R.val o.mu - R.val o.lr * Y i))
        (fun i => (1 + R.u) ^ 3 * ((|X i| + e i) + (((|V i| + ev i) * |R.val o.mu| + R.η) + (|R.val o.lr| * (|Y i| + f i) + R.η))) -
          (|X i| + (|V i| * |R.val o.mu| + |R.val o.lr| * |Y i|)))) := by
  refine (mom_spec hP hQ hb hv).mono (fun r q => ?_)
  have key : ∀ i, i < n → Approx R 2 (v i * o.mu - o.lr * g i) (V i * R.val o.mu - R.val o.lr * Y i) (|V i| * |R.val o.mu| + |R.val o.lr| * |Y i|)
      (((|V i| + ev i) * |R.val o.mu| + R.η) + (|R.val o.lr| * (|Y i| + f i) + R.η)) ∧
      Approx R 3 (p i + (v i * o.mu - o.lr * g i)) (X i + (V i * R.val o.mu - R.val o.lr * Y i)) (|X i| + (|V i| * |R.val o.mu| + |R.val o.lr| * |Y i|))
      ((|X i| + e i) + (((|V i| + ev i) * |R.val o.mu| + R.η) + (|R.val o.lr| * (|Y i| + f i) + R.η))) := by
    intro i hi
    have e0 : 0 ≤ e i := le_trans (abs_nonneg _) (hp i hi).2
    have f0 : 0 ≤ f i := le_trans (abs_nonneg _) (hg i hi).2
    have v0 : 0 ≤ ev i := le_trans (abs_nonneg _) (hV i hi).2
    have n0 : 0 ≤ |R.val o.lr| * (|Y i| + f i) := mul_nonneg (abs_nonneg _) (by linarith [abs_nonneg (Y i)])
    have n1 : 0 ≤ (|V i| + ev i) * |R.val o.mu| := mul_nonneg (by linarith [abs_nonneg (V i)]) (abs_nonneg _)
    have hB := hM i hi
    have pos : 0 ≤ ((|V i| + ev i) * |R.val o.mu| + R.η) + (|R.val o.lr| * (|Y i| + f i) + R.η) := by linarith [R.η0]
    have hle : ∀ k ≤ 2, (1 + R.u) ^ k * (((|V i| + ev i) * |R.val o.mu| + R.η) + (|R.val o.lr| * (|Y i| + f i) + R.η)) ≤ R.M := fun k hk =>
      le_trans (pw_mono R hk pos (by linarith [abs_nonneg (X i)])) hB
    have hl0 := hle 0 (by omega)
    rw [pow_zero, one_mul] at hl0
    have h1 := (Approx.exact hlr).mul (Approx.of_near (hg i hi)) (by simpa using (by linarith [R.η0] : |R.val o.lr| * (|Y i| + f i) ≤ R.M))
    have h2 := (Approx.of_near (hV i hi)).mul (Approx.exact hmu) (by simpa using (by linarith [R.η0] : (|V i| + ev i) * |R.val o.mu| ≤ R.M))
    have h3 := h2.sub h1 (by simpa using hle 1 (by omega))
    refine ⟨h3, ?_⟩
    exact ((Approx.of_near (hp i hi)).mono (k' := 2) (by omega) (le_refl _)).add h3 hB
  exact ⟨⟨_, q.2.2.2.1, fun i hi => (key i hi).1.near⟩, ⟨_, q.2.2.2.2.1, fun i hi => (key i hi).2.near⟩⟩

/-- The hypotheses are met by a convolution 1×1×2 → 1×1×1 in 23-bit arithmetic, with input (0.1, 2) and delta 3;
the gradient of the first filter cell is then near 0.3. -/
example : ∃ (l l' : Conv (Fl 23)) (x dl : Ten (Fl 23)) (ω : Nat → Nat → Nat → Nat → Fl 23), l.backward x dl true = .ok l' ∧ WsIs l'.gradWs 1 1 1 2 ω ∧
    |(ω 0 0 0 0).x - 0.3| ≤ 1 / 10 ^ 6 := by
  obtain ⟨l, _, hl, _, _⟩ := Conv.make_Wf (α := Fl 23) (d := 1) (h := 1) (w := 2) (fc := 1) (fh := 1) (fw := 2) (pad := 0) (sv := 1) (sh := 1)
    ⟨by decide, by decide, by decide, by decide, by decide, by decide⟩ (by decide) 0 (fun f => f + 1)
  have hx : TenIs (⟨1, 1, 2, Buf.of [⟨0.1⟩, ⟨2⟩]⟩ : Ten (Fl 23)) 1 1 2 (fun _ _ j => if j = 0 then ⟨0.1⟩ else ⟨2⟩) := by
    refine ⟨rfl, rfl, rfl, rfl, fun c i j hc hi hj => ?_⟩
    have : c = 0 := by omega
    have : i = 0 := by omega
    have : j = 0 ∨ j = 1 := by omega
    subst_vars
    rcases this with rfl | rfl <;> rfl
  have hd : TenIs (⟨1, 1, 1, Buf.of [⟨3⟩]⟩ : Ten (Fl 23)) 1 1 1 (fun _ _ _ => ⟨3⟩) := by
    refine ⟨rfl, rfl, rfl, rfl, fun c i j hc hi hj => ?_⟩
    have : c = 0 := by omega
    have : i = 0 := by omega
    have : j = 0 := by omega
    subst_vars
    rfl
  have zero : ∀ M, (flRounding 23 M).val 0 = 0 := fun _ => rfl
  have hu : (flRounding 23 1000).u = 1 / 2 ^ 23 := rfl
  have hη : (flRounding 23 1000).η = 0 := rfl
  have hM : (flRounding 23 1000).M = 1000 := rfl
  obtain ⟨l', e, β, ω, ψ, h1, h2, h3, h4, h5, h6⟩ := C78_convolution_backward (flRounding 23 1000) l 1 1 2 1 1 2 0 1 1 _ _ _ _ hl 1 1 1 rfl rfl rfl _ _ _ _ hx hd true
    (fun _ _ j => if j = 0 then 0.1 else 2) (fun _ _ _ => 0) (fun _ _ _ => 3) (fun _ _ _ => 0) (fun _ => 0) (fun _ => 0) (fun _ _ _ _ => 0) (fun _ _ _ _ => 0)
    (fun c i j _ _ _ => ⟨trivial, by dsimp only [flRounding]; split <;> simp⟩) (fun f oy ox _ _ _ => ⟨trivial, by simp [flRounding]⟩)
    (fun _ _ _ _ _ _ _ _ => trivial) (fun _ _ => ⟨trivial, by simp [zero]⟩) (fun _ _ _ _ _ _ _ _ => ⟨trivial, by simp [zero]⟩)
    (fun f _ => by rw [hu, hM]; norm_num [biasGrad])
    (fun f c i j _ _ hi hj => by
      have : i = 0 := by omega
      have : j = 0 ∨ j = 1 := by omega
      subst_vars
      rw [hu, hM, hη]
      rcases this with rfl | rfl <;> norm_num [filterGrad, padded])
    (fun c y x _ hy hx => by
      have : y = 0 := by omega
      have : x = 0 ∨ x = 1 := by omega
      subst_vars
      rw [hu, hM, hη]
      rcases this with rfl | rfl <;> norm_num [convDelta, sum_range_succ, zero])
  refine ⟨l, l', _, _, ω, e, h2, ?_⟩
  have := (h5 0 0 0 0 (by omega) (by omega) (by omega) (by omega)).2
  have e1 : (0 : ℝ) + filterGrad 1 2 0 1 1 1 1 0 0 0 0 (fun _ _ j => if j = 0 then 0.1 else 2) (fun _ _ _ => 3) = 0.3 := by norm_num [filterGrad, padded]
  rw [hu, hη, e1] at this
  refine le_trans this ?_
  norm_num [filterGrad, padded]

/-- The hypotheses of `C78_momentum` are met by a new Momentum object and parameters of any length, all ones. -/
example (n : Nat) (lr mu : Fl 23) (P G : Buf (Fl 23)) (hP : VecIs P n (fun _ => 1)) (hG : VecIs G n (fun _ => 1)) :
    Ok (momUpdate (Mom.make lr mu) 0 P G) (fun r => ∃ p', VecIs r.2.1 n p' ∧ ∀ i, i < n → |(p' i).x - (1 - lr.x)| ≤
      (1 + 1 / 2 ^ 23) ^ 3 * (1 + |lr.x|) - (1 + |lr.x|)) := by
  have one : ∀ M, (flRounding 23 M).val 1 = 1 := fun _ => rfl
  have zero : ∀ M, (flRounding 23 M).val 0 = 0 := fun _ => rfl
  have hη : ∀ M, (flRounding 23 M).η = 0 := fun _ => rfl
  refine (C78_momentum (flRounding 23 ((1 + 1 / 2 ^ 23) ^ 2 * (1 + |lr.x|))) (Mom.make lr mu) 0 n P G (fun _ => 1) (fun _ => 1) (fun _ => 0) hP hG
    (by show (filled n (0 : Fl 23)).length = n; simp [filled]) (VecIs_filled n 0) (fun _ => 1) (fun _ => 1) (fun _ => 0) (fun _ => 0) (fun _ => 0) (fun _ => 0)
    (fun i _ => ⟨trivial, by rw [one]; simp⟩) (fun i _ => ⟨trivial, by rw [one]; simp⟩) (fun i _ => ⟨trivial, by rw [zero]; simp⟩) trivial trivial ?_).mono (fun r h => ?_)
  · intro i _
    simp only [hη]
    simp [flRounding, Mom.make]
  · obtain ⟨_, p', h1, h2⟩ := h
    refine ⟨p', h1, fun i hi => ?_⟩
    have := (h2 i hi).2
    simp only [hη] at this
    simpa [flRounding, Mom.make, sub_eq_add_neg] using this

end Trixy
