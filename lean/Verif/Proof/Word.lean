import Verif.Model.Base
/- `size_t` arithmetic. -/
namespace Trixy

theorem wadd_eq {a b : Nat} (h : a + b < W64) : wadd a b = a + b := Nat.mod_eq_of_lt h
theorem wmul_eq {a b : Nat} (h : a * b < W64) : wmul a b = a * b := Nat.mod_eq_of_lt h
theorem wsub_eq {a b : Nat} (h : b ≤ a) (ha : a < W64) : wsub a b = a - b := by
  unfold wsub W64 at *; omega

/-- The out-of-range test on `a - p` in `size_t` is the test `a - p ∉ [0, n)` over the integers. -/
theorem wsub_test {a p n : Nat} (hp : p + n ≤ W64) (ha : a < W64) :
    (n ≤ wsub a p) ↔ ¬ (p ≤ a ∧ a - p < n) := by
  unfold wsub W64 at *; omega

theorem wsub_val {a p n : Nat} (ha : a < W64) (hpa : p ≤ a) (_h : a - p < n) : wsub a p = a - p := wsub_eq hpa ha

/-- `y + i - (f - 1 - p)` in `size_t` for `f ≥ 1`: the integer `y + i + p - (f - 1)` reduced modulo 2^64. -/
theorem wdelta_test {y i f p n : Nat} (hf : 1 ≤ f) (hif : i < f) (hy : y + p < W64) (hfw : f < W64) (hpw : p < W64)
    (hn : n + (f - 1) ≤ W64 + p) :
    (n ≤ wsub (wadd y i) (wsub (wsub f 1) p)) ↔ ¬ (f - 1 - i ≤ y + p ∧ y + p - (f - 1 - i) < n) := by
  unfold wsub wadd W64 at *; omega

theorem wdelta_val {y i f p : Nat} (hf : 1 ≤ f) (hif : i < f) (hy : y + p < W64) (hfw : f < W64) (hpw : p < W64)
    (h : f - 1 - i ≤ y + p) : wsub (wadd y i) (wsub (wsub f 1) p) = y + p - (f - 1 - i) := by
  unfold wsub wadd W64 at *; omega

end Trixy
