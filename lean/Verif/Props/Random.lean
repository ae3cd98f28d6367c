import Verif.Model.Random
import Verif.Proof.Base
import Verif.Proof.Word
import Mathlib.Algebra.Order.Field.Basic
import Mathlib.Algebra.Field.Basic
import Mathlib.Data.Rat.Defs
import Mathlib.Tactic.Ring
import Mathlib.Tactic.Linarith
import Mathlib.Tactic.Positivity
/-
Properties C61 (random numbers stay in the interval) and C62 (work splitting).
-/
namespace Trixy

/-! ## C61 -/

theorem IntTy.cast_rep {t : IntTy} (hb : 0 < t.bits) {x : Int} (h : t.Rep x) : t.cast x = x := by
  unfold IntTy.cast
  have hp : (2 : Int) ^ t.bits = 2 * 2 ^ (t.bits - 1) := by
    obtain ⟨b, hb⟩ : ∃ b, t.bits = b + 1 := ⟨t.bits - 1, by omega⟩
    rw [hb, Nat.add_sub_cancel, pow_succ]; ring
  have : (x - t.lo) % 2 ^ t.bits = x - t.lo := by
    refine Int.emod_eq_of_lt ?_ ?_
    · have := h.1; omega
    · have h2 := h.2
      unfold IntTy.lo IntTy.hi at *
      split at h2 <;> split <;> simp_all <;> omega
  rw [this]; ring

theorem IntTy.arith_rep {t : IntTy} {x : Int} (h : t.Rep x) : t.arith x = .ok x := by
  unfold IntTy.arith; rw [if_pos h]

theorem IntTy.promote_rep {t : IntTy} {x : Int} (h : t.Rep x) : t.promote.Rep x := by
  unfold IntTy.promote
  split
  · rename_i hb
    have p31 : (2 : Int) ^ (t.bits - 1) ≤ 2 ^ 31 := by
      exact_mod_cast Nat.pow_le_pow_right (by norm_num) (by omega : t.bits - 1 ≤ 31)
    have p31' : (2 : Int) ^ t.bits ≤ 2 ^ 31 := by
      exact_mod_cast Nat.pow_le_pow_right (by norm_num) (by omega : t.bits ≤ 31)
    unfold IntTy.Rep IntTy.lo IntTy.hi at *
    cases hs : t.signed <;> simp only [hs, if_true, Bool.false_eq_true, if_false] at h ⊢ <;> constructor <;> norm_num at * <;> omega
  · exact h

/-- The integral generator: for `min ≤ max` of type `T`, an interval length representable in the type of the computation, and a
generator value that `T` represents, the call is defined, lies in `[min, max]`, and is `min + g mod (max - min + 1)`. -/
theorem C61_integral (t : IntTy) (hb : 0 < t.bits) (g min max : Int) (hmin : t.Rep min) (hmax : t.Rep max) (hle : min ≤ max)
    (hlen : t.promote.Rep (max - min + 1)) (hg : t.Rep g) (h0 : 0 ≤ g) :
    ∃ r, randomIntegral t g min max = .ok r ∧ min ≤ r ∧ r ≤ max ∧ r = min + g % (max - min + 1) := by
  have hlen' : t.promote.Rep (max - min) := by
    have hl := hlen.2
    refine ⟨?_, by omega⟩
    have : t.promote.lo ≤ 0 := by
      unfold IntTy.lo; split
      · have : (0 : Int) < 2 ^ (t.promote.bits - 1) := by positivity
        omega
      · exact le_refl _
    omega
  have hd : 0 < max - min + 1 := by omega
  have hm : g.tmod (max - min + 1) = g % (max - min + 1) := Int.tmod_eq_emod_of_nonneg h0
  have m0 := Int.emod_nonneg g (show max - min + 1 ≠ 0 by omega)
  have m1 := Int.emod_lt_of_pos g hd
  have hr : t.Rep (g % (max - min + 1) + min) := ⟨by have := hmin.1; omega, by have := hmax.2; omega⟩
  refine ⟨g % (max - min + 1) + min, ?_, by omega, by omega, by omega⟩
  unfold randomIntegral
  rw [IntTy.cast_rep hb hg, IntTy.arith_rep hlen', bind_ok, IntTy.arith_rep hlen, bind_ok, if_neg (by omega),
    if_neg (fun h => by have := h.2.2; omega), hm, IntTy.arith_rep (IntTy.promote_rep hr), bind_ok, IntTy.cast_rep hb hr]
  rfl

/-- Every value of the interval is reached if the generator can return its offset; in particular both ends. -/
theorem C61_reaches (t : IntTy) (hb : 0 < t.bits) (min max v : Int) (hmin : t.Rep min) (hmax : t.Rep max)
    (hlen : t.promote.Rep (max - min + 1)) (hg : t.Rep (v - min)) (h1 : min ≤ v) (h2 : v ≤ max) :
    randomIntegral t (v - min) min max = .ok v := by
  obtain ⟨r, e, _, _, h⟩ := C61_integral t hb (v - min) min max hmin hmax (by omega) hlen hg (by omega)
  rw [e, h, Int.emod_eq_of_lt (by omega) (by omega)]
  congr 1
  ring

/-- The full range of an unsigned type of at least 32 bits divides by zero; the full range of a signed one overflows. -/
theorem C61_full_range (bits : Nat) (hb : 32 ≤ bits) (g : Int) :
    randomIntegral ⟨bits, false⟩ g (IntTy.lo ⟨bits, false⟩) (IntTy.hi ⟨bits, false⟩) = .error .divByZero ∧
    randomIntegral ⟨bits, true⟩ g (IntTy.lo ⟨bits, true⟩) (IntTy.hi ⟨bits, true⟩) = .error .overflow := by
  obtain ⟨b, rfl⟩ : ∃ b, bits = b + 1 := ⟨bits - 1, by omega⟩
  have hp : (0 : Int) < 2 ^ b := by positivity
  have hp2 : (1 : Int) < 2 ^ b := by
    have : (2 : Int) ^ 1 ≤ 2 ^ b := by exact_mod_cast Nat.pow_le_pow_right (by norm_num) (by omega : 1 ≤ b)
    omega
  constructor
  · unfold randomIntegral
    simp only [IntTy.promote, show ¬ (b + 1 < 32) by omega, if_false]
    have h2b : (1 : Int) ≤ 2 ^ (b + 1) := by rw [pow_succ]; omega
    rw [IntTy.arith_rep (by constructor <;> simp [IntTy.lo, IntTy.hi]; exact h2b), bind_ok]
    have : IntTy.arith ⟨b + 1, false⟩ (IntTy.hi ⟨b + 1, false⟩ - IntTy.lo ⟨b + 1, false⟩ + 1) = .ok 0 := by
      unfold IntTy.arith
      rw [if_neg (fun h => by have := h.2; simp [IntTy.lo, IntTy.hi] at this)]
      simp [IntTy.cast, IntTy.lo, IntTy.hi]
    rw [this, bind_ok, if_pos rfl]
  · unfold randomIntegral
    simp only [IntTy.promote, show ¬ (b + 1 < 32) by omega, if_false]
    have : IntTy.arith ⟨b + 1, true⟩ (IntTy.hi ⟨b + 1, true⟩ - IntTy.lo ⟨b + 1, true⟩) = .error .overflow := by
      unfold IntTy.arith
      rw [if_neg (fun h => by have := h.2; simp [IntTy.lo, IntTy.hi] at this; omega), if_pos rfl]
    rw [this, bind_err]

/-- The generator value must be representable: with `short` and a generator that returns 40000 the result is outside [0, 9]. -/
theorem C61_narrow : randomIntegral ⟨16, true⟩ 40000 0 9 = .ok (-6) := by decide +kernel

section
variable {K : Type} [Field K] [LinearOrder K] [IsStrictOrderedRing K]

/-- The floating generator: in `[min, max]` for every generator value in `0 … gmax`, both ends are attained. -/
theorem C61_floating (g gmax : Int) (min max : K) (hg : 0 ≤ g) (hgm : g ≤ gmax) (h0 : 0 < gmax) (hle : min ≤ max) :
    ∃ r, randomFloating g gmax min max = .ok r ∧ min ≤ r ∧ r ≤ max ∧ (g = 0 → r = min) ∧ (g = gmax → r = max) := by
  have hp : (0 : K) < gmax := by exact_mod_cast h0
  refine ⟨(max - min) * ((g : K) / gmax) + min, ?_, ?_, ?_, ?_, ?_⟩
  · unfold randomFloating randomUnit
    rw [if_neg (by omega)]; rfl
  · have h1 : (0 : K) ≤ (g : K) / gmax := div_nonneg (by exact_mod_cast hg) hp.le
    have h2 : 0 ≤ max - min := sub_nonneg.2 hle
    have := mul_nonneg h2 h1
    linarith
  · have h1 : (g : K) / gmax ≤ 1 := div_le_one_of_le₀ (by exact_mod_cast hgm) hp.le
    have h2 : 0 ≤ max - min := sub_nonneg.2 hle
    have := mul_le_mul_of_nonneg_left h1 h2
    linarith
  · rintro rfl; simp
  · rintro rfl
    rw [div_self hp.ne']; ring

/-- The floating generator is monotone in the generator's value. -/
theorem C61_monotone (g g' gmax : Int) (min max r r' : K) (hg : g ≤ g') (h0 : 0 < gmax) (hle : min ≤ max)
    (h : randomFloating g gmax min max = .ok r) (h' : randomFloating g' gmax min max = .ok r') : r ≤ r' := by
  have hp : (0 : K) < gmax := by exact_mod_cast h0
  unfold randomFloating randomUnit at h h'
  rw [if_neg (by omega), bind_ok] at h h'
  cases h; cases h'
  have h1 : (g : K) / gmax ≤ (g' : K) / gmax := div_le_div_of_nonneg_right (by exact_mod_cast hg) hp.le
  have := mul_le_mul_of_nonneg_left h1 (sub_nonneg.2 hle)
  linarith
end

/-- Non-vacuity: `long long`, `int`, `unsigned char`. -/
example : randomIntegral ⟨64, true⟩ 1804289383 (-5) 5 = .ok (-5 + 1804289383 % 11) := by decide +kernel
example : (⟨64, true⟩ : IntTy).promote.Rep (5 - (-5) + 1) ∧ (⟨64, true⟩ : IntTy).Rep 2147483647 := by decide +kernel
example : randomIntegral ⟨8, false⟩ 200 0 255 = .ok 200 := by decide +kernel
example : randomFloating 3 4 (1 : ℚ) 5 = .ok 4 := by decide +kernel

/-! ## C62 -/

/-- Work splitting, for every size, thread limit and minimum block size. -/
theorem C62_parallel_info (m hw size : Nat) (hm : 0 < m) (hs : size < W64) :
    ∃ threads block, parallelInfo m hw size = .ok (threads, block) ∧ 1 ≤ threads ∧
      threads ≤ max 1 ((size + (m - 1)) / m) ∧ threads ≤ (if hw = 0 then 2 else hw) ∧
      threads * block ≤ size ∧ size < threads * (block + 1) ∧
      (0 < size → threads = min (if hw = 0 then 2 else hw) ((size + (m - 1)) / m)) ∧ (0 < size → 0 < block) := by
  by_cases h0 : size = 0
  · subst h0
    refine ⟨1, 0, by unfold parallelInfo; rw [if_pos rfl], le_refl _, ?_, ?_, by simp, by simp, fun h => by omega, fun h => by omega⟩
    · exact le_max_left _ _
    · split <;> omega
  · have hpos : 0 < size := Nat.pos_of_ne_zero h0
    have e1 : wsub size 1 = size - 1 := by rw [wsub_eq hpos hs]
    have hq : (size - 1) / m + 1 = (size + (m - 1)) / m := by
      have e : size + (m - 1) = (size - 1) + m := by clear hs; omega
      rw [e, Nat.add_div_right _ hm]
    have hle : (size - 1) / m + 1 ≤ size := by
      have h1 : (size - 1) / m ≤ size - 1 := Nat.div_le_self (size - 1) m
      exact le_trans (Nat.succ_le_succ h1) (le_of_eq (Nat.sub_add_cancel hpos))
    have e2 : wadd ((size - 1) / m) 1 = (size + (m - 1)) / m := by
      unfold wadd; rw [Nat.mod_eq_of_lt (lt_of_le_of_lt hle hs), hq]
    have hc : 1 ≤ (size + (m - 1)) / m := hq ▸ Nat.succ_le_succ (Nat.zero_le _)
    have hcs : (size + (m - 1)) / m ≤ size := hq ▸ hle
    let H : Nat := if hw = 0 then 2 else hw
    have hH : 1 ≤ H := by show 1 ≤ if hw = 0 then 2 else hw; split <;> omega
    let T : Nat := min H ((size + (m - 1)) / m)
    have hT : 1 ≤ T := le_min hH hc
    have hT2 : T ≤ (size + (m - 1)) / m := Nat.min_le_right _ _
    have hT3 : T ≤ H := Nat.min_le_left _ _
    refine ⟨T, size / T, ?_, hT, le_trans hT2 (le_max_right _ _), hT3, Nat.mul_div_le _ _, ?_, fun _ => rfl, fun _ => Nat.div_pos (le_trans hT2 hcs) hT⟩
    · unfold parallelInfo
      rw [if_neg h0]
      unfold quot
      rw [if_neg (by omega), bind_ok, e1, e2]
      show (if T = 0 then _ else _) >>= _ = _
      rw [if_neg (by omega)]
      rfl
    · exact Nat.lt_mul_div_succ size hT

/-- Each thread but the last of a `threads`-way split gets at least the rounded-down share; splitting never leaves more than
`threads - 1` elements for a remainder. -/
theorem C62_remainder (m hw size threads block : Nat) (hm : 0 < m) (hs : size < W64) (h : parallelInfo m hw size = .ok (threads, block)) :
    size - threads * block < threads := by
  obtain ⟨t, b, e, h1, _, _, h2, h3, _⟩ := C62_parallel_info m hw size hm hs
  rw [h] at e
  cases e
  rw [Nat.mul_add] at h3
  omega

example : parallelInfo 100 8 1000 = .ok (8, 125) := by decide +kernel
example : parallelInfo 100 0 1000 = .ok (2, 500) := by decide +kernel
example : parallelInfo 100 8 150 = .ok (2, 75) := by decide +kernel

end Trixy
