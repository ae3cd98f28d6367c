import Verif.Spec.Represent
import Verif.Proof.Represent
import Verif.Props.Symmetry
import Verif.Props.Activation
import Verif.Props.Descent
/-
Property C126: what networks of the library can represent. Networks with one hidden layer of `ReLU` units reproduce any finite set of samples exactly, classify
any finite set of labelled points with any confidence below 1, and approximate every continuous function on a box. Networks without a non-linear activation
compute affine functions only, and no dense layer behind them changes that.
-/
namespace Trixy
open Finset
set_option linter.unusedSectionVars false

theorem reluNet_fits (n k m : Nat) (act : LibAct) (A : Nat → Nat → ℝ) (b : Nat → ℝ) (C : Nat → Nat → ℝ) (c : Nat → ℝ) : libFits n (reluNet n k m act A b C c) m := ⟨rfl, rfl, rfl⟩

theorem reluNet_out (n k m : Nat) (act : LibAct) (A : Nat → Nat → ℝ) (b : Nat → ℝ) (C : Nat → Nat → ℝ) (c : Nat → ℝ) (v : Nat → ℝ) :
    libOut (reluNet n k m act A b C c) v = act.fn m (fun j => ∑ q ∈ range k, max (∑ i ∈ range n, v i * A i q + b q) 0 * C q j + c j) := rfl

/-- Such networks exist: with at least one unit in both layers. -/
theorem C126_exists (n k m : Nat) (hk : 0 < k) (hm : 0 < m) (act : LibAct) (A : Nat → Nat → ℝ) (b : Nat → ℝ) (C : Nat → Nat → ℝ) (c : Nat → ℝ) :
    ∃ net : Net ℝ, net.IsLib (reluNet n k m act A b C c) n m :=
  isLib_exists _ n m (by simp [reluNet]) (by show 2 < W64; decide) (reluNet_fits ..) (by
    intro l hl
    simp only [reluNet, List.mem_cons, List.not_mem_nil, or_false] at hl
    rcases hl with rfl | rfl
    · exact hk
    · exact hm)

/-- Hidden weights and biases for `N` different points, such that output weights for any values exist. -/
theorem memorise (n N : Nat) (v : Nat → Nat → ℝ) (hv : DistinctInputs n N v) :
    ∃ (A : Nat → Nat → ℝ) (b : Nat → ℝ), ∀ y : Nat → ℝ, ∃ w : Nat → ℝ, ∀ i, i < N → ∑ k ∈ range N, max (∑ q ∈ range n, v i q * A q k + b k) 0 * w k = y i := by
  obtain ⟨a, ha⟩ := direction n v (range N)
  obtain ⟨b, hb⟩ := hinges (fun i => ∑ q ∈ range n, v i q * a q) (range N)
    (fun i hi j hj e => hv i j (mem_range.1 hi) (mem_range.1 hj) (ha i hi j hj e))
  refine ⟨fun q _ => a q, fun k => -b k, fun y => ?_⟩
  obtain ⟨w, hw⟩ := hb y
  exact ⟨w, fun i hi => by simpa only [sub_eq_add_neg] using hw i (mem_range.2 hi)⟩

/-- Any `N` different inputs, any outputs: with `N` hidden `ReLU` units and `Identity` outputs the network returns exactly these outputs. The hidden layer depends on the
inputs only. -/
theorem C126_memorises (n m N : Nat) (v : Nat → Nat → ℝ) (hv : DistinctInputs n N v) :
    ∃ (A : Nat → Nat → ℝ) (b : Nat → ℝ), ∀ y : Nat → Nat → ℝ, ∃ C : Nat → Nat → ℝ, ∀ net : Net ℝ,
      net.IsLib (reluNet n N m (.elem .identity) A b C (fun _ => 0)) n m → ∀ i, i < N → net.Returns n m (v i) (y i) := by
  obtain ⟨A, b, h⟩ := memorise n N v hv
  refine ⟨A, b, fun y => ?_⟩
  choose w hw using fun j => h (fun i => y i j)
  refine ⟨fun k j => w j k, fun net hn i hi x hx => (hn.out hx).mono (fun r hr => ?_)⟩
  rw [reluNet_out] at hr
  have e : (LibAct.elem ActKind.identity).fn m (fun j => ∑ q ∈ range N, max (∑ p ∈ range n, v i p * A p q + b q) 0 * w j q + (fun _ => (0 : ℝ)) j) = y i := by
    funext j
    show ∑ q ∈ range N, max (∑ p ∈ range n, v i p * A p q + b q) 0 * w j q + 0 = y i j
    rw [add_zero]; exact hw j i hi
  rwa [e] at hr

/-- Consequently the mean loss that `Training::loss` reports on these samples is 0. -/
theorem C126_no_loss (n m N : Nat) (v y : Nat → Nat → ℝ) (hv : DistinctInputs n N v) (k : LibLoss) :
    ∃ (A : Nat → Nat → ℝ) (b : Nat → ℝ) (C : Nat → Nat → ℝ), ∀ t : Train ℝ, t.IsLib (reluNet n N m (.elem .identity) A b C (fun _ => 0)) n m k.obj →
      ∀ idata odata : List (Ten ℝ), DataIs idata odata n m ((List.range N).map (fun i => (v i, y i))) → 0 < N →
        ∀ s : Nat × Nat × Nat, s.1 * s.2.1 * s.2.2 = n → (∀ x ∈ idata, (x.d, x.h, x.w) = s) → Ok (t.lossMean idata odata) (fun r => r.1 = 0) := by
  obtain ⟨A, b, h⟩ := memorise n N v hv
  choose w hw using fun j => h (fun i => y i j)
  refine ⟨A, b, fun k j => w j k, fun t ht idata odata hd hN s hs hsh => ?_⟩
  refine (loss_dense t _ n m (k.fn m) k.dL (IsLib.toIs ht (k.obj_Is m)) ⟨_, ht.loss, k.obj_Is m⟩ idata odata _ hd (by simp; omega) s hs hsh).mono (fun r hr => ?_)
  rw [hr, libMean_eq]
  unfold libMean
  have hz : ((List.range N).map (fun i => (v i, y i))).map (fun vw => k.fn m vw.2 (libOut (reluNet n N m (.elem .identity) A b (fun k j => w j k) (fun _ => 0)) vw.1)) =
      (List.range N).map (fun _ => (0 : ℝ)) := by
    rw [List.map_map]
    refine List.map_congr_left (fun i hi => ?_)
    have hi := List.mem_range.1 hi
    have e : libOut (reluNet n N m (.elem .identity) A b (fun k j => w j k) (fun _ => 0)) (v i) = y i := by
      rw [reluNet_out]
      funext j
      show ∑ q ∈ range N, max (∑ p ∈ range n, v i p * A p q + b q) 0 * w j q + 0 = y i j
      rw [add_zero]; exact hw j i hi
    show k.fn m (y i) (libOut _ (v i)) = 0
    rw [e]
    cases k <;> simp [LibLoss.fn, mseFn, lcFn]
  rw [hz]
  simp

/-- Any `N` different points with any classes: with `N` hidden units and `SoftMax` outputs the network gives each point its class with probability at least `1 - δ`. -/
theorem C126_classifies (n m N : Nat) (v : Nat → Nat → ℝ) (hv : DistinctInputs n N v) (cls : Nat → Nat) (hc : ∀ i, i < N → cls i < m) (δ : ℝ) (hδ : 0 < δ) :
    ∃ (A : Nat → Nat → ℝ) (b : Nat → ℝ) (C : Nat → Nat → ℝ), ∀ net : Net ℝ, net.IsLib (reluNet n N m .softmax A b C (fun _ => 0)) n m →
      ∀ i, i < N → net.ReturnsWith n m (v i) (fun p => 1 - δ ≤ p (cls i)) := by
  obtain ⟨A, b, h⟩ := memorise n N v hv
  choose w hw using fun j => h (fun i => if j = cls i then Real.log (m / δ) else 0)
  refine ⟨A, b, fun k j => w j k, fun net hn i hi x hx => (hn.out hx).mono (fun r hr => ⟨_, hr, ?_⟩)⟩
  have hm : (0 : ℝ) < m := by exact_mod_cast Nat.lt_of_le_of_lt (Nat.zero_le _) (hc i hi)
  show 1 - δ ≤ libOut (reluNet n N m .softmax A b (fun k j => w j k) (fun _ => 0)) (v i) (cls i)
  rw [reluNet_out]
  have e : (fun j => ∑ q ∈ range N, max (∑ p ∈ range n, v i p * A p q + b q) 0 * w j q + (fun _ => (0 : ℝ)) j) = fun j => if j = cls i then Real.log (m / δ) else 0 := by
    funext j
    show ∑ q ∈ range N, max (∑ p ∈ range n, v i p * A p q + b q) 0 * w j q + 0 = _
    rw [add_zero]; exact hw j i hi
  rw [e]
  show 1 - δ ≤ softmaxFn m (fun j => if j = cls i then Real.log (m / δ) else 0) (cls i)
  unfold softmaxFn
  dsimp only
  rw [if_pos rfl, Real.exp_log (by positivity)]
  have hs : ∑ j ∈ range m, Real.exp (if j = cls i then Real.log (m / δ) else 0) ≤ m / δ + m := by
    rw [← Finset.add_sum_erase _ _ (mem_range.2 (hc i hi)), if_pos rfl, Real.exp_log (by positivity)]
    have : ∑ j ∈ (range m).erase (cls i), Real.exp (if j = cls i then Real.log (m / δ) else 0) ≤ ∑ j ∈ (range m).erase (cls i), (1 : ℝ) :=
      sum_le_sum (fun j hj => by rw [if_neg (mem_erase.1 hj).1, Real.exp_zero])
    have h2 : ∑ j ∈ (range m).erase (cls i), (1 : ℝ) ≤ m := by
      rw [sum_const, nsmul_eq_mul, mul_one]
      exact_mod_cast (card_erase_le).trans (by simp)
    linarith
  have hpos : 0 < ∑ j ∈ range m, Real.exp (if j = cls i then Real.log (m / δ) else 0) :=
    sum_pos (fun j _ => Real.exp_pos _) ⟨cls i, mem_range.2 (hc i hi)⟩
  rw [le_div_iff₀ hpos]
  rcases le_or_gt 1 δ with h1 | h1
  · have : (1 - δ) * ∑ j ∈ range m, Real.exp (if j = cls i then Real.log (m / δ) else 0) ≤ 0 := mul_nonpos_of_nonpos_of_nonneg (by linarith) hpos.le
    have h3 : 0 < m / δ := by positivity
    linarith
  · have h3 := mul_le_mul_of_nonneg_left hs (by linarith : (0 : ℝ) ≤ 1 - δ)
    have h4 : (1 - δ) * (m / δ + m) = m / δ - m * δ := by field_simp; ring
    nlinarith

/-- Every continuous function on a box, every accuracy: with enough hidden `ReLU` units (one layer for all outputs) and suitable parameters, the outputs of the network are
that close to the function for all inputs of the box. -/
theorem C126_approximates (n m : Nat) (R : ℝ) (hR : 0 < R) (f : Nat → (Fin n → ℝ) → ℝ) (hf : ∀ j, j < m → ContinuousOn (f j) {u | ∀ i, |u i| ≤ R}) (ε : ℝ) (hε : 0 < ε) :
    ∃ k, 0 < k ∧ ∃ (A : Nat → Nat → ℝ) (b : Nat → ℝ) (C : Nat → Nat → ℝ) (c : Nat → ℝ), ∀ net : Net ℝ, net.IsLib (reluNet n k m (.elem .identity) A b C c) n m →
      ∀ v : Nat → ℝ, (∀ i, i < n → |v i| ≤ R) → net.ReturnsWith n m v (fun p => ∀ j, j < m → |p j - f j (fun i => v i)| ≤ ε) := by
  obtain ⟨k, A, b, h⟩ := reached_all m f (fun j hj => reached hR (f j) (hf j hj)) ε hε
  have h' : ∀ j, ∃ (w : Nat → ℝ) (c : ℝ), j < m → ∀ v : Nat → ℝ, (∀ i, i < n → |v i| ≤ R) →
      |∑ q ∈ range (k + 1), max (∑ i ∈ range n, v i * beside k (A i) (fun _ => 0) q + beside k b (fun _ => 0) q) 0 * w q + c - f j (fun i => v i)| ≤ ε := by
    intro j
    by_cases hj : j < m
    · obtain ⟨w, c, h1⟩ := (h j hj).left 1 (fun _ _ => 0) (fun _ => 0)
      exact ⟨w, c, fun _ => h1⟩
    · exact ⟨fun _ => 0, 0, fun h => absurd h hj⟩
  choose w c hw using h'
  refine ⟨k + 1, by omega, fun i => beside k (A i) (fun _ => 0), beside k b (fun _ => 0), fun q j => w j q, c, fun net hn v hv x hx => (hn.out hx).mono (fun r hr => ⟨_, hr, fun j hj => ?_⟩)⟩
  exact hw j hj v hv

/-! ### Limits -/

/-- Affine dependence: inputs with the same sum have outputs with the same sum. -/
theorem identity_out (ls : List LibLayer) (h : AllIdentity ls) : ∀ (n m : Nat), libFits n ls m → ∀ v w v' w' : Nat → ℝ, (∀ i, i < n → v i + w i = v' i + w' i) →
    ∀ j, j < m → libOut ls v j + libOut ls w j = libOut ls v' j + libOut ls w' j := by
  induction ls with
  | nil => intro n m hf v w v' w' hs j hj; exact hs j (by have : n = m := hf; omega)
  | cons l ls ih =>
    intro n m hf v w v' w' hs
    have hl := h l (List.mem_cons_self ..)
    refine ih (fun a ha => h a (List.mem_cons_of_mem _ ha)) l.m m hf.2 _ _ _ _ (fun j _ => ?_)
    rw [hl]
    show (∑ i ∈ range l.n, v i * l.W i j + l.b j) + (∑ i ∈ range l.n, w i * l.W i j + l.b j) = (∑ i ∈ range l.n, v' i * l.W i j + l.b j) + (∑ i ∈ range l.n, w' i * l.W i j + l.b j)
    have e : ∑ i ∈ range l.n, v i * l.W i j + ∑ i ∈ range l.n, w i * l.W i j = ∑ i ∈ range l.n, v' i * l.W i j + ∑ i ∈ range l.n, w' i * l.W i j := by
      rw [← sum_add_distrib, ← sum_add_distrib]
      refine sum_congr rfl (fun i hi => ?_)
      have := hs i (by rw [← hf.1]; exact mem_range.1 hi)
      rw [← add_mul, ← add_mul, this]
    linarith

/-- However many layers: if all activations are `Identity`, the predictions for inputs with the same sum have the same sum. -/
theorem C126_identity (ls : List LibLayer) (n m : Nat) (net : Net ℝ) (h : net.IsLib ls n m) (hi : AllIdentity ls) (v w v' w' : Nat → ℝ)
    (hs : ∀ i, i < n → v i + w i = v' i + w' i) : ∃ y z y' z' : Nat → ℝ, net.Returns n m v y ∧ net.Returns n m w z ∧ net.Returns n m v' y' ∧ net.Returns n m w' z' ∧
      ∀ j, j < m → y j + z j = y' j + z' j :=
  ⟨_, _, _, _, fun _ hx => h.out hx, fun _ hx => h.out hx, fun _ hx => h.out hx, fun _ hx => h.out hx, identity_out ls hi n m h.fits v w v' w' hs⟩

/-- Exclusive or cannot be learnt without a hidden non-linearity: `Identity` layers followed by a layer with any monotone activation. No threshold separates the
predictions for (0,1), (1,0) from those for (0,0), (1,1). -/
theorem C126_no_xor (ls : List LibLayer) (l : LibLayer) (net : Net ℝ) (h : net.IsLib (ls ++ [l]) 2 1) (hi : AllIdentity ls) (k : ActKind) (hk : l.act = .elem k) (h1 : k ≠ .gelu) (h2 : k ≠ .swish)
    (θ : ℝ) : ¬ (net.ReturnsWith 2 1 (pairIn 0 0) (fun p => p 0 < θ) ∧ net.ReturnsWith 2 1 (pairIn 1 1) (fun p => p 0 < θ) ∧
      net.ReturnsWith 2 1 (pairIn 0 1) (fun p => θ ≤ p 0) ∧ net.ReturnsWith 2 1 (pairIn 1 0) (fun p => θ ≤ p 0)) := by
  rintro ⟨a00, a11, a01, a10⟩
  have get : ∀ (v : Nat → ℝ) (Q : (Nat → ℝ) → Prop), (∀ p p' : Nat → ℝ, p 0 = p' 0 → Q p → Q p') → net.ReturnsWith 2 1 v Q → Q (libOut (ls ++ [l]) v) := by
    intro v Q hQ hv
    have hx : VecIs (⟨1, 1, 2, (List.range 2).map (fun i => some (v i))⟩ : Ten ℝ).data 2 v := VecIs_of' v 2
    obtain ⟨r, e, y, hy, hq⟩ := hv _ hx
    obtain ⟨r', e', hy'⟩ := h.out hx
    rw [e] at e'
    cases e'
    exact hQ y _ ((VecIs.unique hy.2.2.2 hy'.2.2.2).2 0 (by decide)) hq
  obtain ⟨q, hf1, hf2⟩ := libFits_append ls [l] h.fits
  have hm : l.m = 1 := hf2.2
  have hn : l.n = q := hf2.1
  have out : ∀ v, libOut (ls ++ [l]) v 0 = k.fn (∑ i ∈ range l.n, libOut ls v i * l.W i 0 + l.b 0) := fun v => by
    rw [libOut_append]
    show l.act.fn l.m (l.pre _) 0 = _
    rw [hk]; rfl
  have g00 := get _ _ (fun p p' e hp => by rw [← e]; exact hp) a00
  have g11 := get _ _ (fun p p' e hp => by rw [← e]; exact hp) a11
  have g01 := get _ _ (fun p p' e hp => by rw [← e]; exact hp) a01
  have g10 := get _ _ (fun p p' e hp => by rw [← e]; exact hp) a10
  rw [out] at g00 g11 g01 g10
  have mono := k.fn_mono h1 h2
  have lt : ∀ {x y : ℝ}, k.fn x < θ → θ ≤ k.fn y → x < y := fun hx hy => lt_of_not_ge (fun hge => absurd (mono hge) (by linarith))
  have s := identity_out ls hi 2 q hf1 (pairIn 0 0) (pairIn 1 1) (pairIn 0 1) (pairIn 1 0) (fun i hi => by unfold pairIn; split <;> norm_num)
  have e : ∑ i ∈ range l.n, libOut ls (pairIn 0 0) i * l.W i 0 + ∑ i ∈ range l.n, libOut ls (pairIn 1 1) i * l.W i 0 =
      ∑ i ∈ range l.n, libOut ls (pairIn 0 1) i * l.W i 0 + ∑ i ∈ range l.n, libOut ls (pairIn 1 0) i * l.W i 0 := by
    rw [← sum_add_distrib, ← sum_add_distrib]
    refine sum_congr rfl (fun i hi => ?_)
    have := s i (by rw [← hn]; exact mem_range.1 hi)
    rw [← add_mul, ← add_mul, this]
  have d1 := lt g00 g01
  have d2 := lt g11 g10
  linarith

/-- Two hidden `ReLU` units compute exclusive or. -/
theorem C126_xor (net : Net ℝ) (h : net.IsLib (reluNet 2 2 1 (.elem .identity) (fun _ _ => 1) (fun q => -(q : ℝ)) (fun q _ => 1 - 3 * q) (fun _ => 0)) 2 1) :
    net.ReturnsWith 2 1 (pairIn 0 0) (fun p => p 0 = 0) ∧ net.ReturnsWith 2 1 (pairIn 1 1) (fun p => p 0 = 0) ∧
      net.ReturnsWith 2 1 (pairIn 0 1) (fun p => p 0 = 1) ∧ net.ReturnsWith 2 1 (pairIn 1 0) (fun p => p 0 = 1) := by
  have out : ∀ v, libOut (reluNet 2 2 1 (.elem .identity) (fun _ _ => 1) (fun q => -(q : ℝ)) (fun q _ => 1 - 3 * q) (fun _ => 0)) v 0 = max (v 0 + v 1) 0 - 2 * max (v 0 + v 1 - 1) 0 := fun v => by
    rw [reluNet_out]
    show ∑ q ∈ range 2, max (∑ i ∈ range 2, v i * 1 + -(q : ℝ)) 0 * (1 - 3 * (q : ℝ)) + 0 = _
    simp only [sum_range_succ, sum_range_zero]
    norm_num
    ring_nf
  refine ⟨fun x hx => ?_, fun x hx => ?_, fun x hx => ?_, fun x hx => ?_⟩ <;>
  · refine (h.out hx).mono (fun r hr => ⟨_, hr, ?_⟩)
    dsimp only
    rw [out]
    norm_num [pairIn]

/-- Non-vacuity: the four points of exclusive or are different, and the network above exists. -/
example : DistinctInputs 2 4 (fun i => pairIn (i / 2 : Nat) (i % 2 : Nat)) ∧
    ∃ net : Net ℝ, net.IsLib (reluNet 2 2 1 (.elem .identity) (fun _ _ => 1) (fun q => -(q : ℝ)) (fun q _ => 1 - 3 * q) (fun _ => 0)) 2 1 := by
  refine ⟨fun i j hi hj h => ?_, C126_exists 2 2 1 (by decide) (by decide) ..⟩
  have h0 := h 0 (by decide)
  have h1 := h 1 (by decide)
  simp only [pairIn, if_true, one_ne_zero, if_false, Nat.cast_inj] at h0 h1
  omega

end Trixy
