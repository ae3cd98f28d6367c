import Verif.Proof.Mat
import Verif.Proof.Sum
/- Nested loops. -/
namespace Trixy

variable {α σ : Type _}

@[simp] theorem iter_zero (s : σ) (f : Nat → σ → σ) : iter 0 s f = s := rfl
theorem iter_succ (n : Nat) (s : σ) (f : Nat → σ → σ) : iter (n + 1) s f = f n (iter n s f) := rfl

theorem iter_congr {n : Nat} {s : σ} {f g : Nat → σ → σ} (h : ∀ i, i < n → ∀ s, f i s = g i s) : iter n s f = iter n s g := by
  induction n with
  | zero => rfl
  | succ n ih => rw [iter_succ, iter_succ, ih (fun i hi => h i (by omega)), h n (by omega)]

/-- Loop whose body is a pure function of the accumulator. -/
theorem forN_pure {n : Nat} {s : σ} {body : Nat → σ → Res σ} {f : Nat → σ → σ}
    (h : ∀ i, i < n → ∀ s, body i s = .ok (f i s)) : forN n s body = .ok (iter n s f) := by
  induction n with
  | zero => rfl
  | succ n ih => rw [forN_succ, ih (fun i hi => h i (by omega)), bind_ok, h n (by omega)]; rfl

/-- An accumulator that adds `t i` in step `i`. -/
theorem iter_add [AddCommMonoid α] {n : Nat} {z : α} {f : Nat → α → α} {t : Nat → α}
    (h : ∀ i, i < n → ∀ s, f i s = s + t i) : iter n z f = z + ∑ i ∈ Finset.range n, t i := by
  induction n with
  | zero => simp
  | succ n ih => rw [iter_succ, ih (fun i hi => h i (by omega)), h n (by omega), Finset.sum_range_succ, add_assoc]

/-- Loop adding `t i` in step `i`. -/
theorem forN_add [AddCommMonoid α] {n : Nat} {z : α} {body : Nat → α → Res α} {t : Nat → α}
    (h : ∀ i, i < n → ∀ s, body i s = .ok (s + t i)) : forN n z body = .ok (z + ∑ i ∈ Finset.range n, t i) := by
  rw [forN_pure (f := fun i s => s + t i) h, iter_add (t := t) (fun _ _ _ => rfl)]

theorem forN3_spec {A B C : Nat} (P : Nat → Nat → Nat → σ → Prop) {s : σ} {body : Nat → Nat → Nat → σ → Res σ}
    (h0 : P 0 0 0 s)
    (hs : ∀ a b c, a < A → b < B → c < C → ∀ s, P a b c s → Ok (body a b c s) (P a b (c + 1)))
    (h1 : ∀ a b s, a < A → b < B → P a b C s → P a (b + 1) 0 s) (h2 : ∀ a s, a < A → P a B 0 s → P (a + 1) 0 0 s) :
    Ok (forN A s (fun a s => forN B s (fun b s => forN C s (fun c s => body a b c s)))) (P A 0 0) := by
  refine forN_spec (fun a s => P a 0 0 s) h0 (fun a ha s hP => ?_)
  refine (forN_spec (fun b s => P a b 0 s) hP (fun b hb s hP => ?_)).mono (fun s h => h2 a s ha h)
  exact (forN_spec (fun c s => P a b c s) hP (fun c hc s hP => hs a b c ha hb hc s hP)).mono (fun s h => h1 a b s ha hb h)

/-- Triple loop writing cell (a,b,c) in iteration (a,b,c). -/
theorem forN_ten {d h w : Nat} {t : Ten α} {f : Nat → Nat → Nat → Option α} {new : Nat → Nat → Nat → α}
    {body : Nat → Nat → Nat → Ten α → Res (Ten α)} (ht : TenB t d h w f)
    (hb : ∀ i j k, i < d → j < h → k < w → ∀ r g, TenB r d h w g → g i j k = f i j k →
      Ok (body i j k r) (fun r' => TenB r' d h w
        (fun i' j' k' => if i' = i ∧ j' = j ∧ k' = k then some (new i j k) else g i' j' k'))) :
    Ok (forN d t (fun i r => forN h r (fun j r => forN w r (fun k r => body i j k r)))) (fun r => TenIs r d h w new) := by
  have := forN3_spec (A := d) (B := h) (C := w) (s := t) (body := body)
    (fun a b c r => TenB r d h w (fun i j k =>
      if i < a ∨ (i = a ∧ (j < b ∨ (j = b ∧ k < c))) then some (new i j k) else f i j k))
    (ht.congr (fun i j k _ _ _ => by rw [if_neg (by omega)]))
    (fun a b c ha hb' hc r hr => by
      refine (hb a b c ha hb' hc r _ hr (by rw [if_neg (by omega)])).mono (fun r' h' => h'.congr (fun i j k _ _ _ => ?_))
      by_cases e : i = a ∧ j = b ∧ k = c
      · obtain ⟨rfl, rfl, rfl⟩ := e
        rw [if_pos ⟨rfl, rfl, rfl⟩, if_pos (by omega)]
      · rw [if_neg e]
        by_cases e2 : i < a ∨ (i = a ∧ (j < b ∨ (j = b ∧ k < c)))
        · rw [if_pos e2, if_pos (by omega)]
        · rw [if_neg e2, if_neg (by omega)])
    (fun a b r _ _ hr => hr.congr (fun i j k hi hj hk => by
      by_cases e2 : i < a ∨ (i = a ∧ (j < b ∨ (j = b ∧ k < w)))
      · rw [if_pos e2, if_pos (by omega)]
      · rw [if_neg e2, if_neg (by omega)]))
    (fun a r _ hr => hr.congr (fun i j k hi hj hk => by
      by_cases e2 : i < a ∨ (i = a ∧ (j < h ∨ (j = h ∧ k < 0)))
      · rw [if_pos e2, if_pos (by omega)]
      · rw [if_neg e2, if_neg (by omega)]))
  exact this.mono (fun r hr => TenB.congr hr (fun i j k hi hj hk => by rw [if_pos (Or.inl hi)]))

/-- Triple loop in the order (row, column, channel) writing cell (channel, row, column). -/
theorem forN_ten' {d h w : Nat} {t : Ten α} {f : Nat → Nat → Nat → Option α} {new : Nat → Nat → Nat → α}
    {body : Nat → Nat → Nat → Ten α → Res (Ten α)} (ht : TenB t d h w f)
    (hb : ∀ i j k, i < d → j < h → k < w → ∀ r g, TenB r d h w g → g i j k = f i j k →
      Ok (body j k i r) (fun r' => TenB r' d h w
        (fun i' j' k' => if i' = i ∧ j' = j ∧ k' = k then some (new i j k) else g i' j' k'))) :
    Ok (forN h t (fun j r => forN w r (fun k r => forN d r (fun i r => body j k i r)))) (fun r => TenIs r d h w new) := by
  have := forN3_spec (A := h) (B := w) (C := d) (s := t) (body := body)
    (fun a b c r => TenB r d h w (fun i j k =>
      if j < a ∨ (j = a ∧ (k < b ∨ (k = b ∧ i < c))) then some (new i j k) else f i j k))
    (ht.congr (fun i j k _ _ _ => by rw [if_neg (by omega)]))
    (fun a b c ha hb' hc r hr => by
      refine (hb c a b hc ha hb' r _ hr (by rw [if_neg (by omega)])).mono (fun r' h' => h'.congr (fun i j k _ _ _ => ?_))
      by_cases e : i = c ∧ j = a ∧ k = b
      · obtain ⟨rfl, rfl, rfl⟩ := e
        rw [if_pos ⟨rfl, rfl, rfl⟩, if_pos (by omega)]
      · rw [if_neg e]
        by_cases e2 : j < a ∨ (j = a ∧ (k < b ∨ (k = b ∧ i < c)))
        · rw [if_pos e2, if_pos (by omega)]
        · rw [if_neg e2, if_neg (by omega)])
    (fun a b r _ _ hr => hr.congr (fun i j k hi hj hk => by
      by_cases e2 : j < a ∨ (j = a ∧ (k < b ∨ (k = b ∧ i < d)))
      · rw [if_pos e2, if_pos (by omega)]
      · rw [if_neg e2, if_neg (by omega)]))
    (fun a r _ hr => hr.congr (fun i j k hi hj hk => by
      by_cases e2 : j < a ∨ (j = a ∧ (k < w ∨ (k = w ∧ i < 0)))
      · rw [if_pos e2, if_pos (by omega)]
      · rw [if_neg e2, if_neg (by omega)]))
  exact this.mono (fun r hr => TenB.congr hr (fun i j k hi hj hk => by rw [if_pos (Or.inl hj)]))

end Trixy
