import Verif.Props.Pool
import Verif.Props.ConvAlg
import Verif.Props.Activation
/- Property C107 (max pooling commutes with monotone functions, composes, and depends on the values of each window only). -/
namespace Trixy
set_option linter.unusedSectionVars false

variable {α : Type} [LinearOrder α]

theorem WindowMax.unique {x x' : Nat → Nat → Nat → α} {sv sh c p q sv' sh' c' p' q' : Nat} {m m' : α} (h : WindowMax x sv sh c p q m)
    (h' : WindowMax x' sv' sh' c' p' q' m') (h1 : ∀ a b, a < sv → b < sh → ∃ a' b', a' < sv' ∧ b' < sh' ∧ x c (p * sv + a) (q * sh + b) ≤ x' c' (p' * sv' + a') (q' * sh' + b'))
    (h2 : ∀ a b, a < sv' → b < sh' → ∃ a' b', a' < sv ∧ b' < sh ∧ x' c' (p' * sv' + a) (q' * sh' + b) ≤ x c (p * sv + a') (q * sh + b')) : m = m' := by
  obtain ⟨⟨a, b, ha, hb, e⟩, hm⟩ := h
  obtain ⟨⟨a', b', ha', hb', e'⟩, hm'⟩ := h'
  refine le_antisymm ?_ ?_
  · obtain ⟨i, j, hi, hj, hle⟩ := h1 a b ha hb
    rw [e]
    exact hle.trans (hm' ⟨i, j, hi, hj, rfl⟩)
  · obtain ⟨i, j, hi, hj, hle⟩ := h2 a' b' ha' hb'
    rw [e']
    exact hle.trans (hm ⟨i, j, hi, hj, rfl⟩)

/-- The output depends on the set of values of each window only: cells may be rearranged and repeated inside a window. -/
theorem C107_rearrange (l k : Pool α) (d oh ow sv sh : Nat) (hl : l.Wf d oh ow sv sh) (hk : k.Wf d oh ow sv sh) (g g' : α → α)
    (hla : l.act = Act.elementwise g g') (hka : k.act = Act.elementwise g g') (x x' : Ten α) (v v' : Nat → Nat → Nat → α)
    (hx : TenIs x d (oh * sv) (ow * sh) v) (hx' : TenIs x' d (oh * sv) (ow * sh) v')
    (hs : ∀ c p q, c < d → p < oh → q < ow → ∀ r, (∃ a b, a < sv ∧ b < sh ∧ v c (p * sv + a) (q * sh + b) = r) ↔
      ∃ a b, a < sv ∧ b < sh ∧ v' c (p * sv + a) (q * sh + b) = r) :
    ∃ l' k', l.forwardRaw x = .ok l' ∧ k.forwardRaw x' = .ok k' ∧ k'.value = l'.value := by
  obtain ⟨l', e1, mx, h1, h2, _⟩ := C34_forward l d oh ow sv sh hl g g' hla x v hx
  obtain ⟨k', e2, mx', h1', h2', _⟩ := C34_forward k d oh ow sv sh hk g g' hka x' v' hx'
  refine ⟨l', k', e1, e2, (h2'.congr (fun c p q hc hp hq => ?_)).same h2⟩
  refine congrArg g ((h1 c p q hc hp hq).unique (h1' c p q hc hp hq) (fun a b ha hb => ?_) (fun a b ha hb => ?_)).symm
  · obtain ⟨a', b', h3, h4, h5⟩ := (hs c p q hc hp hq _).1 ⟨a, b, ha, hb, rfl⟩
    exact ⟨a', b', h3, h4, h5.ge⟩
  · obtain ⟨a', b', h3, h4, h5⟩ := (hs c p q hc hp hq _).2 ⟨a, b, ha, hb, rfl⟩
    exact ⟨a', b', h3, h4, h5.ge⟩

/-- Pooling after a monotone function is the function after pooling: applying `φ` to the input of a layer with activation `g` has the effect of
the activation `g ∘ φ`. -/
theorem C107_monotone (l k : Pool α) (d oh ow sv sh : Nat) (hl : l.Wf d oh ow sv sh) (hk : k.Wf d oh ow sv sh) (φ : α → α) (hφ : Monotone φ)
    (g g₁ g₂ : α → α) (hla : l.act = Act.elementwise g g₁) (hka : k.act = Act.elementwise (fun a => g (φ a)) g₂) (x x' : Ten α)
    (v : Nat → Nat → Nat → α) (hx : TenIs x d (oh * sv) (ow * sh) v) (hx' : TenIs x' d (oh * sv) (ow * sh) (fun c y z => φ (v c y z))) :
    ∃ l' k', l.forwardRaw x' = .ok l' ∧ k.forwardRaw x = .ok k' ∧ l'.value = k'.value := by
  obtain ⟨l', e1, mx, h1, h2, _⟩ := C34_forward l d oh ow sv sh hl g g₁ hla x' _ hx'
  obtain ⟨k', e2, mx', h1', h2', _⟩ := C34_forward k d oh ow sv sh hk _ g₂ hka x v hx
  refine ⟨l', k', e1, e2, (h2.congr (fun c p q hc hp hq => ?_)).same h2'⟩
  refine congrArg g ((h1 c p q hc hp hq).unique (x' := fun c y z => φ (v c y z)) (m' := φ (mx' c p q)) ?_ (fun a b ha hb => ⟨a, b, ha, hb, le_rfl⟩) (fun a b ha hb => ⟨a, b, ha, hb, le_rfl⟩))
  obtain ⟨⟨a, b, ha, hb, e⟩, hm⟩ := h1' c p q hc hp hq
  refine ⟨⟨a, b, ha, hb, congrArg φ e⟩, ?_⟩
  rintro r ⟨a, b, ha, hb, rfl⟩
  exact hφ (hm ⟨a, b, ha, hb, rfl⟩)

/-- Two pooling layers one after the other (the first without activation) are one pooling layer with the products of the strides. -/
theorem C107_compose (l₁ l₂ k : Pool α) (d oh ow sv₁ sh₁ sv₂ sh₂ : Nat) (h₁ : l₁.Wf d (oh * sv₂) (ow * sh₂) sv₁ sh₁) (h₂ : l₂.Wf d oh ow sv₂ sh₂)
    (hk : k.Wf d oh ow (sv₂ * sv₁) (sh₂ * sh₁)) (i' g g₂ g₃ : α → α) (ha₁ : l₁.act = Act.elementwise (fun a => a) i')
    (ha₂ : l₂.act = Act.elementwise g g₂) (hak : k.act = Act.elementwise g g₃) (x : Ten α) (v : Nat → Nat → Nat → α)
    (hx : TenIs x d (oh * sv₂ * sv₁) (ow * sh₂ * sh₁) v) :
    ∃ l₁' l₂' k', l₁.forwardRaw x = .ok l₁' ∧ l₂.forwardRaw l₁'.value = .ok l₂' ∧ k.forwardRaw x = .ok k' ∧ l₂'.value = k'.value := by
  obtain ⟨l₁', e1, mx, h1, h2, _⟩ := C34_forward l₁ d _ _ sv₁ sh₁ h₁ _ i' ha₁ x v hx
  obtain ⟨l₂', e2, my, h3, h4, _⟩ := C34_forward l₂ d oh ow sv₂ sh₂ h₂ g g₂ ha₂ l₁'.value mx h2
  obtain ⟨k', e3, mz, h5, h6, _⟩ := C34_forward k d oh ow _ _ hk g g₃ hak x v (by rw [← Nat.mul_assoc, ← Nat.mul_assoc]; exact hx)
  refine ⟨l₁', l₂', k', e1, e2, e3, (h4.congr (fun c p q hc hp hq => ?_)).same h6⟩
  have hs1 := h₁.hsv
  have hs2 := h₁.hsh
  refine congrArg g ((h3 c p q hc hp hq).unique (h5 c p q hc hp hq) (fun a b ha hb => ?_) (fun a b ha hb => ?_))
  · obtain ⟨⟨a', b', ha', hb', e⟩, _⟩ := h1 c (p * sv₂ + a) (q * sh₂ + b) hc (idx2_lt hp ha) (idx2_lt hq hb)
    refine ⟨a * sv₁ + a', b * sh₁ + b', idx2_lt ha ha', idx2_lt hb hb', ?_⟩
    rw [e]
    exact le_of_eq (congrArg₂ (v c) (by ring) (by ring))
  · refine ⟨a / sv₁, b / sh₁, Nat.div_lt_of_lt_mul (by rwa [Nat.mul_comm]), Nat.div_lt_of_lt_mul (by rwa [Nat.mul_comm]), ?_⟩
    have h7 : a / sv₁ < sv₂ := Nat.div_lt_of_lt_mul (by rwa [Nat.mul_comm])
    have h8 : b / sh₁ < sh₂ := Nat.div_lt_of_lt_mul (by rwa [Nat.mul_comm])
    refine (h1 c (p * sv₂ + a / sv₁) (q * sh₂ + b / sh₁) hc (idx2_lt hp h7) (idx2_lt hq h8)).2 ⟨a % sv₁, b % sh₁, Nat.mod_lt _ hs1, Nat.mod_lt _ hs2, ?_⟩
    refine congrArg₂ (v c) ?_ ?_
    · rw [Nat.add_mul, Nat.mul_assoc, Nat.add_assoc, Nat.div_add_mod' a sv₁]
    · rw [Nat.add_mul, Nat.mul_assoc, Nat.add_assoc, Nat.div_add_mod' b sh₁]

/-- The library: a layer with one of its monotone activations (all element-wise ones but `GELU` and `Swish`) gives what a layer with `Identity` gives
on the activated input. -/
theorem C107_library (k : ActKind) (hg : k ≠ .gelu) (hs : k ≠ .swish) (l m : Pool ℝ) (d oh ow sv sh : Nat) (hl : l.Wf d oh ow sv sh) (hm : m.Wf d oh ow sv sh)
    (ha : l.act = k.obj) (i' : ℝ → ℝ) (hi : m.act = Act.elementwise (fun a => a) i') (x x' : Ten ℝ) (v : Nat → Nat → Nat → ℝ)
    (hx : TenIs x d (oh * sv) (ow * sh) v) (hx' : TenIs x' d (oh * sv) (ow * sh) (fun c y z => k.fn (v c y z))) :
    ∃ l' m', l.forwardRaw x = .ok l' ∧ m.forwardRaw x' = .ok m' ∧ l'.value = m'.value := by
  obtain ⟨m', l', e1, e2, e⟩ := C107_monotone m l d oh ow sv sh hm hl k.fn (k.fn_mono hg hs) (fun a => a) i' k.cd hi
    (by rw [ha, k.obj_eq, k.cf_fun]) x x' v hx hx'
  exact ⟨l', m', e2, e1, e.symm⟩

/-! ### Non-vacuity: 4×4 images, 2×2 windows twice -/

def paId : Act Int := Act.elementwise (fun a => a) (fun _ => 1)
def paRun (sv sh : Nat) (x : Ten Int) : Res (Ten Int) := do
  let l ← Pool.make x.d x.h x.w sv sh paId
  let l ← l.forwardRaw x
  return l.value
def paX : Ten Int := ⟨1, 4, 4, Buf.of [3, 1, 4, 1, 5, 9, 2, 6, 5, 3, 5, 8, 9, 7, 9, 3]⟩

example : paRun 2 2 paX = .ok ⟨1, 2, 2, Buf.of [9, 6, 9, 9]⟩ ∧ (paRun 2 2 paX >>= paRun 2 1) = .ok ⟨1, 1, 2, Buf.of [9, 9]⟩ ∧
    paRun (2 * 2) (1 * 2) paX = .ok ⟨1, 1, 2, Buf.of [9, 9]⟩ := by
  refine ⟨?_, ?_, ?_⟩ <;> decide +kernel

/-- Reading the windows backwards changes nothing. -/
example : paRun 2 2 ⟨1, 4, 4, Buf.of [9, 5, 6, 2, 1, 3, 1, 4, 7, 9, 3, 9, 3, 5, 8, 5]⟩ = paRun 2 2 paX := by decide +kernel

example : (∀ c p q : Nat, c < 1 → p < 2 → q < 2 → ∀ r : Int, (∃ a b : Nat, a < 2 ∧ b < 2 ∧ (fun (_ : Nat) (y z : Nat) => (y : Int) * 4 + z) c (p * 2 + a) (q * 2 + b) = r) ↔
    ∃ a b : Nat, a < 2 ∧ b < 2 ∧ (fun (_ : Nat) (y z : Nat) => ((y / 2 * 2 + (1 - y % 2) : Nat) : Int) * 4 + (z / 2 * 2 + (1 - z % 2) : Nat)) c (p * 2 + a) (q * 2 + b) = r) := by
  intro c p q _ _ _ r
  constructor
  · rintro ⟨a, b, ha, hb, rfl⟩
    refine ⟨1 - a, 1 - b, by omega, by omega, ?_⟩
    dsimp only
    have h1 : (p * 2 + (1 - a)) / 2 * 2 + (1 - (p * 2 + (1 - a)) % 2) = p * 2 + a := by omega
    have h2 : (q * 2 + (1 - b)) / 2 * 2 + (1 - (q * 2 + (1 - b)) % 2) = q * 2 + b := by omega
    rw [h1, h2]
  · rintro ⟨a, b, ha, hb, rfl⟩
    refine ⟨1 - a, 1 - b, by omega, by omega, ?_⟩
    dsimp only
    have h1 : (p * 2 + a) / 2 * 2 + (1 - (p * 2 + a) % 2) = p * 2 + (1 - a) := by omega
    have h2 : (q * 2 + b) / 2 * 2 + (1 - (q * 2 + b) % 2) = q * 2 + (1 - b) := by omega
    rw [h1, h2]

end Trixy
