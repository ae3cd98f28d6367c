import Verif.Proof.Pool
import Verif.Props.Conv
/- Properties C34–C36 (max-pooling). -/
namespace Trixy
open Finset

variable {α : Type}

/-- The Identity activation (ActivationLess.hpp: `identity`, `identity_derived`). -/
def idAct [One α] : Act α := Act.elementwise (fun a => a) (fun _ => 1)

/-! ## C34 inference layer -/

/-- For an element-wise activation `g` and strides dividing the input size: `value()` is `g` of the window maxima; no access
leaves input or output; nothing else changes and the layer is ready for the next call. -/
theorem C34_forward [LinearOrder α] (l : Pool α) (d oh ow sv sh : Nat) (hl : l.Wf d oh ow sv sh) (g g' : α → α)
    (ha : l.act = Act.elementwise g g') (x : Ten α) (v : Nat → Nat → Nat → α) (hx : TenIs x d (oh * sv) (ow * sh) v) :
    Ok (l.forwardRaw x) (fun l' => ∃ mx : Nat → Nat → Nat → α,
      (∀ c p q, c < d → p < oh → q < ow → WindowMax v sv sh c p q (mx c p q)) ∧
      TenIs l'.value d oh ow (fun c p q => g (mx c p q)) ∧ l' = { l with value := l'.value } ∧ l'.Wf d oh ow sv sh) := by
  refine (Pool.forwardRaw_spec hl hx (by rw [ha]; exact Act.Is.elementwise g g' _)).mono (fun l' q => ?_)
  obtain ⟨mx, h1, h2, h3⟩ := q
  have h2' : TenIs l'.value d oh ow (fun c p q => g (mx c p q)) := h2.congr (fun c p q _ hp hq => by
    obtain ⟨e1, e2, e3⟩ := idx3_split (i := c) hp hq
    dsimp only
    rw [e1, e2, e3])
  refine ⟨mx, h1, h2', h3, ?_⟩
  rw [h3]
  exact { hl with value := ⟨_, h2'⟩ }

/-- From the constructor: any sequence of forward calls with inputs of the right shape, then one more. -/
theorem C34_history [LinearOrder α] [Zero α] (d oh ow sv sh : Nat) (hsv : 1 ≤ sv) (hsh : 1 ≤ sh) (g g' : α → α)
    (xs : List (Ten α)) (hxs : ∀ x ∈ xs, ∃ v, TenIs x d (oh * sv) (ow * sh) v) (x : Ten α) (v : Nat → Nat → Nat → α)
    (hx : TenIs x d (oh * sv) (ow * sh) v) :
    Ok (do let l ← Pool.make d (oh * sv) (ow * sh) sv sh (Act.elementwise g g')
           let l ← xs.foldlM (fun l x => l.forwardRaw x) l
           l.forwardRaw x) (fun l' => ∃ mx : Nat → Nat → Nat → α,
      (∀ c p q, c < d → p < oh → q < ow → WindowMax v sv sh c p q (mx c p q)) ∧
      TenIs l'.value d oh ow (fun c p q => g (mx c p q))) := by
  refine (Pool.make_Wf d oh ow sv sh hsv hsh (Act.elementwise g g')).bind (fun l hl => ?_)
  have run : ∀ (xs : List (Ten α)), (∀ x ∈ xs, ∃ v, TenIs x d (oh * sv) (ow * sh) v) → ∀ l : Pool α, l.Wf d oh ow sv sh →
      l.act = Act.elementwise g g' → Ok (xs.foldlM (fun l x => l.forwardRaw x) l)
        (fun l' => l'.Wf d oh ow sv sh ∧ l'.act = Act.elementwise g g') := by
    intro xs
    induction xs with
    | nil => intro _ l hl ha; exact Ok_ok.2 ⟨hl, ha⟩
    | cons y ys ih =>
      intro hys l hl ha
      rw [List.foldlM_cons]
      obtain ⟨vy, hvy⟩ := hys y (by simp)
      refine (C34_forward l d oh ow sv sh hl g g' ha y vy hvy).bind (fun l' q => ?_)
      obtain ⟨_, _, _, h3, h4⟩ := q
      exact ih (fun x hx => hys x (by simp [hx])) l' h4 (by rw [h3]; exact ha)
  refine (run xs hxs l hl.1 hl.2.1).bind (fun l' q => ?_)
  refine (C34_forward l' d oh ow sv sh q.1 g g' q.2 x v hx).mono (fun l'' q => ?_)
  obtain ⟨mx, h1, h2, _⟩ := q
  exact ⟨mx, h1, h2⟩

/-- If a stride does not divide the corresponding size, forward on a constructed layer reads outside the input (for every
non-empty input). -/
theorem C34_nondividing [LinearOrder α] [Zero α] (d h w sv sh : Nat) (hd : 1 ≤ d) (hh : 1 ≤ h) (hw : 1 ≤ w) (hsv : 1 ≤ sv)
    (hsh : 1 ≤ sh) (hnd : ¬ (sv ∣ h ∧ sh ∣ w)) (act : Act α) (x : Ten α) (v : Nat → Nat → Nat → α) (hx : TenIs x d h w v) :
    (do let l ← Pool.make d h w sv sh act; l.forwardRaw x : Res (Pool α)) = .error .oob := by
  unfold Pool.make poolExtent
  rw [if_neg (by omega), bind_ok, if_neg (by omega), bind_ok]
  show Pool.forwardRaw x _ = _
  unfold Pool.forwardRaw
  dsimp only
  -- reading a cell of the input
  have hget : ∀ c i j, x.get c i j = .error .oob ∨ ∃ a, x.get c i j = .ok a := fun c i j => by
    unfold Ten.get; exact Buf.get_may hx.flat _
  have hbad : ∀ c i j, d * h * w ≤ (c * h + i) * w + j → x.get c i j = .error .oob := fun c i j hle => by
    unfold Ten.get; rw [hx.2.1, hx.2.2.1]; exact BufIs.get_oob hx.flat hle
  -- one step of the scan either works or stops
  have cell : ∀ c i j (a b : Nat) (m : α),
      (do let v ← x.get c (i + a) (j + b); return if m < v then v else m : Res α) = .error .oob ∨
      Ok (do let v ← x.get c (i + a) (j + b); return if m < v then v else m : Res α) (fun _ => True) := by
    intro c i j a b m
    rcases hget c (i + a) (j + b) with h | ⟨v, h⟩
    · rw [h]; exact Or.inl rfl
    · rw [h]; exact Or.inr ⟨_, rfl, trivial⟩
  have scan : ∀ c i j, poolScan x sv sh c i j = .error .oob ∨ Ok (poolScan x sv sh c i j) (fun _ => True) := by
    intro c i j
    unfold poolScan
    rcases hget c i j with h | ⟨m, h⟩
    · rw [h]; exact Or.inl rfl
    · rw [h, bind_ok]
      exact forN_may (fun _ => True) trivial (fun a _ m _ => forN_may (fun _ => True) trivial (fun b _ m _ => cell c i j a b m))
  have scanBad : ∀ c i j a b, a < sv → b < sh → d * h * w ≤ (c * h + (i + a)) * w + (j + b) →
      poolScan x sv sh c i j = .error .oob := by
    intro c i j a b ha hb hle
    unfold poolScan
    rcases hget c i j with h | ⟨m, h⟩
    · rw [h]; rfl
    · rw [h, bind_ok]
      refine forN_stop (k := a) (fun _ => True) ha trivial (fun a _ m _ => forN_may (fun _ => True) trivial (fun b _ m _ => cell c i j a b m)) (fun m _ => ?_)
      refine forN_stop (k := b) (fun _ => True) hb trivial (fun b _ m _ => cell c i j a b m) (fun m _ => ?_)
      rw [hbad c (i + a) (j + b) hle]; rfl
  have body : ∀ c p q (t : Ten α),
      (do let m ← poolScan x sv sh c (p * sv) (q * sh); t.set c (p * sv / sv) (q * sh / sh) m : Res (Ten α)) = .error .oob ∨
      Ok (do let m ← poolScan x sv sh c (p * sv) (q * sh); t.set c (p * sv / sv) (q * sh / sh) m : Res (Ten α)) (fun _ => True) := by
    intro c p q t
    rcases scan c (p * sv) (q * sh) with h | ⟨m, h, _⟩
    · rw [h]; exact Or.inl rfl
    · rw [h, bind_ok]
      rcases t.set_may c (p * sv / sv) (q * sh / sh) m with h' | ⟨t', h'⟩
      · exact Or.inl h'
      · exact Or.inr ⟨t', h', trivial⟩
  -- the last rounds
  have last : ∀ n s, 1 ≤ n → 1 ≤ s → rounds n s - 1 < rounds n s ∧ (rounds n s - 1) * s < n ∧ n ≤ (rounds n s - 1) * s + s := by
    intro n s hn hs
    unfold rounds
    have e : (n + s - 1) / s = (n - 1) / s + 1 := by
      have : n + s - 1 = (n - 1) + s := by omega
      rw [this, Nat.add_div_right _ (by omega)]
    rw [e, Nat.add_sub_cancel]
    have h1 := Nat.div_mul_le_self (n - 1) s
    have h2 := Nat.lt_div_mul_add (a := n - 1) (b := s) (by omega)
    omega
  obtain ⟨l1, l2, l3⟩ := last h sv hh hsv
  obtain ⟨m1, m2, m3⟩ := last w sh hw hsh
  have pen : poolScan x sv sh (d - 1) ((rounds h sv - 1) * sv) ((rounds w sh - 1) * sh) = .error .oob := by
    have ed : (d - 1) * h + h = d * h := by
      have := Nat.sub_mul d 1 h; have : h ≤ d * h := Nat.le_mul_of_pos_left _ (by omega); omega
    by_cases hv : sv ∣ h
    · have hhz : ¬ sh ∣ w := fun h' => hnd ⟨hv, h'⟩
      have hne : w ≠ (rounds w sh - 1) * sh + sh := fun e => hhz ⟨rounds w sh - 1 + 1, by
        rw [Nat.mul_add, Nat.mul_comm sh, Nat.mul_one]; exact e⟩
      refine scanBad _ _ _ (h - 1 - (rounds h sv - 1) * sv) (w - (rounds w sh - 1) * sh) (by omega) (by omega) ?_
      have e1 : (d - 1) * h + ((rounds h sv - 1) * sv + (h - 1 - (rounds h sv - 1) * sv)) = d * h - 1 := by omega
      have e2 : (rounds w sh - 1) * sh + (w - (rounds w sh - 1) * sh) = w := by omega
      rw [e1, e2]
      have := Nat.sub_mul (d * h) 1 w
      have : 1 * w ≤ d * h * w := Nat.mul_le_mul_right _ (Nat.mul_pos hd hh)
      omega
    · have hne : h ≠ (rounds h sv - 1) * sv + sv := fun e => hv ⟨rounds h sv - 1 + 1, by
        rw [Nat.mul_add, Nat.mul_comm sv, Nat.mul_one]; exact e⟩
      refine scanBad _ _ _ (h - (rounds h sv - 1) * sv) 0 (by omega) (by omega) ?_
      have e1 : (d - 1) * h + ((rounds h sv - 1) * sv + (h - (rounds h sv - 1) * sv)) = d * h := by omega
      rw [e1]; omega
  have key : forN d (Ten.fill d (h / sv) (w / sh) 0 : Ten α) (fun c t => forN (rounds h sv) t (fun p t => forN (rounds w sh) t (fun q t => do
      let m ← poolScan x sv sh c (p * sv) (q * sh)
      t.set c (p * sv / sv) (q * sh / sh) m))) = .error .oob := by
    refine forN_stop (k := d - 1) (fun _ => True) (by omega) trivial
      (fun c _ t _ => forN_may (fun _ => True) trivial (fun p _ t _ => forN_may (fun _ => True) trivial (fun q _ t _ => body c p q t))) (fun t _ => ?_)
    refine forN_stop (k := rounds h sv - 1) (fun _ => True) l1 trivial
      (fun p _ t _ => forN_may (fun _ => True) trivial (fun q _ t _ => body (d - 1) p q t)) (fun t _ => ?_)
    refine forN_stop (k := rounds w sh - 1) (fun _ => True) m1 trivial (fun q _ t _ => body (d - 1) _ q t) (fun t _ => ?_)
    rw [pen]; rfl
  rw [key]; rfl

/-- Non-vacuity: 1×2×4 input, 2×2 windows; and 1×3×2 input with vertical stride 2. -/
example : (do let l ← Pool.make 1 2 4 2 2 idAct
              let l ← l.forwardRaw ⟨1, 2, 4, Buf.of [1, 2, 7, 8, 5, 3, 7, -1]⟩
              return l.value : Res (Ten Int)) = .ok ⟨1, 1, 2, Buf.of [5, 8]⟩ := by decide +kernel
example : (do let l ← Pool.make 1 3 2 2 2 idAct
              let l ← l.forwardRaw ⟨1, 3, 2, Buf.of [1, 2, 7, 8, 5, 3]⟩
              return l.value : Res (Ten Int)) = .error .oob := by decide +kernel

/-! ## C35 training layer, forward -/

/-- VIOLATED: whatever the layer's state, the training layer's `value()` after forward does not depend on the input: it is
the activation of the back-propagation buffer. -/
theorem C35_violated [LinearOrder α] [Zero α] [One α] (l : Pool α) (d oh ow sv sh : Nat) (hl : l.Wf d oh ow sv sh)
    (F D : (Nat → α) → Nat → α) (ha : l.act.Is (d * oh * ow) F D) (x x' : Ten α)
    (hx : ∃ v, TenIs x d (oh * sv) (ow * sh) v) (hx' : ∃ v, TenIs x' d (oh * sv) (ow * sh) v) :
    ∃ r r' : Pool α, l.forward x = .ok r ∧ l.forward x' = .ok r' ∧ r.value = r'.value := by
  obtain ⟨bf, hb⟩ := hl.buff
  obtain ⟨v, hx⟩ := hx
  obtain ⟨v', hx'⟩ := hx'
  obtain ⟨r, e, q⟩ := Pool.forward_spec hl hx hb ha
  obtain ⟨r', e', q'⟩ := Pool.forward_spec hl hx' hb ha
  refine ⟨r, r', e, e', ?_⟩
  have hd := BufIs.ext q.2.1.flat q'.2.1.flat
  have t1 := q.2.1
  have t2 := q'.2.1
  have a1 := t1.1.trans t2.1.symm
  have a2 := t1.2.1.trans t2.2.1.symm
  have a3 := t1.2.2.1.trans t2.2.2.1.symm
  revert hd a1 a2 a3
  generalize r.value = a
  generalize r'.value = b
  intro hd a1 a2 a3
  obtain ⟨_, _, _, _⟩ := a
  obtain ⟨_, _, _, _⟩ := b
  dsimp only at hd a1 a2 a3
  rw [hd, a1, a2, a3]

/-- VIOLATED, concretely: on a fresh layer with Identity the result is zero for every input — wrong whenever some window
maximum is not zero. -/
theorem C35_fresh_violated [LinearOrder α] [Zero α] [One α] (d oh ow sv sh : Nat) (hsv : 1 ≤ sv) (hsh : 1 ≤ sh)
    (x : Ten α) (v : Nat → Nat → Nat → α) (hx : TenIs x d (oh * sv) (ow * sh) v) :
    Ok (do let l ← Pool.make d (oh * sv) (ow * sh) sv sh idAct; l.forward x) (fun l' => TenIs l'.value d oh ow (fun _ _ _ => 0)) := by
  refine (Pool.make_Wf d oh ow sv sh hsv hsh idAct).bind (fun l hl => ?_)
  refine (Pool.forward_spec hl.1 hx hl.2.2 (by rw [hl.2.1]; exact Act.Is.elementwise _ _ _)).mono (fun l' q => q.2.1)

/-- What holds: forward is defined on every input of the right shape, whatever the history, and keeps the layer usable. -/
theorem C35_defined_partial [LinearOrder α] [Zero α] [One α] (l : Pool α) (d oh ow sv sh : Nat) (hl : l.Wf d oh ow sv sh)
    (F D : (Nat → α) → Nat → α) (ha : l.act.Is (d * oh * ow) F D) (x : Ten α) (v : Nat → Nat → Nat → α)
    (hx : TenIs x d (oh * sv) (ow * sh) v) : Ok (l.forward x) (fun l' => l'.Wf d oh ow sv sh ∧ l'.act = l.act) := by
  obtain ⟨bf, hb⟩ := hl.buff
  exact (Pool.forward_spec hl hx hb ha).mono (fun l' q => ⟨q.1, by rw [q.2.2.2]⟩)

/-- Non-vacuity: the training layer on the input of the first example of C34. -/
example : (do let l ← Pool.make 1 2 4 2 2 idAct
              let l ← l.forward ⟨1, 2, 4, Buf.of [1, 2, 7, 8, 5, 3, 7, -1]⟩
              return (l.value, l.mask) : Res (Ten Int × Ten Int)) =
    .ok (⟨1, 1, 2, Buf.of [0, 0]⟩, ⟨1, 2, 4, Buf.of [0, 0, 0, 1, 1, 0, 0, 0]⟩) := by decide +kernel

/-! ## C36 training layer, backward -/

/-- With Identity, in any state of the layer: after forward(x) and backward(x, u), `delta()` carries `u` of the window at
the first maximum of each window and 0 elsewhere; each window's delta sums to its `u`. -/
theorem C36_backward [LinearOrder α] [Semiring α] (l : Pool α) (d oh ow sv sh : Nat) (hl : l.Wf d oh ow sv sh) (ha : l.act = idAct)
    (x dl : Ten α) (v u : Nat → Nat → Nat → α) (hx : TenIs x d (oh * sv) (ow * sh) v) (hd : TenIs dl d oh ow u) (full : Bool) :
    Ok (do let l ← l.forward x; l.backward x dl full) (fun l' => ∃ δ, TenIs l'.delta d (oh * sv) (ow * sh) δ ∧
      (∀ c y z, c < d → y < oh * sv → z < ow * sh → (FirstMax v sv sh c y z → δ c y z = u c (y / sv) (z / sh)) ∧
        (¬ FirstMax v sv sh c y z → δ c y z = 0)) ∧
      (∀ c p q, c < d → p < oh → q < ow →
        ∑ a ∈ range sv, ∑ b ∈ range sh, δ c (p * sv + a) (q * sh + b) = u c p q) ∧
      l'.Wf d oh ow sv sh ∧ l'.act = idAct) := by
  obtain ⟨bf, hb⟩ := hl.buff
  have hact := Act.Is.elementwise (α := α) (fun a => a) (fun _ => 1) (d * oh * ow)
  refine (Pool.forward_spec hl hx hb (by rw [ha]; exact hact)).bind (fun l1 q1 => ?_)
  obtain ⟨hwf, _, ⟨mk, hmk, hM⟩, e1⟩ := q1
  have hb1 : TenIs l1.buff d oh ow bf := by rw [e1]; exact hb
  refine (Pool.backward_spec hwf hb1 hmk hd (F := fun v i => v i) (D := fun _ _ => 1) (by rw [e1, ha]; exact hact) full).mono
    (fun l2 q2 => ?_)
  obtain ⟨g1, _, g3, g4⟩ := q2
  have hfirst : ∀ c y z, c < d → y < oh * sv → z < ow * sh →
      (FirstMax v sv sh c y z → (1 : α) * u c (y / sv) (z / sh) * mk c y z = u c (y / sv) (z / sh)) ∧
      (¬ FirstMax v sv sh c y z → (1 : α) * u c (y / sv) (z / sh) * mk c y z = 0) := by
    intro c y z hc hy hz
    have := hM c y z hc hy hz
    exact ⟨fun hF => by rw [this.1 hF, one_mul, mul_one], fun hF => by rw [this.2 hF, mul_zero]⟩
  refine ⟨_, g3, hfirst, fun c p q hc hp hq => ?_, g1, by rw [g4, e1]; exact ha⟩
  -- the first maximum of window (p, q)
  have hz0 : TenIs (Ten.fill d (oh * sv) (ow * sh) (0 : α)) d (oh * sv) (ow * sh) (fun _ _ _ => 0) := TenIs_fill _ _ _ _
  obtain ⟨s, _, _, p', q', hs⟩ := poolScanT_spec hl.hsv hl.hsh hx hz0 hc hp hq (fun _ _ _ _ => rfl)
  have hF := FirstMax.of_scan hl.hsv hl.hsh hs
  rw [Finset.sum_eq_single p', Finset.sum_eq_single q']
  · rw [(hfirst c _ _ hc (idx2_lt hp hs.hp) (idx2_lt hq hs.hq)).1 hF, idx2_div hs.hp, idx2_div hs.hq]
  · intro b hb' hne
    refine (hfirst c _ _ hc (idx2_lt hp hs.hp) (idx2_lt hq (mem_range.1 hb'))).2 (fun hF' => hne ?_)
    have := (FirstMax.unique hF hF' rfl (by rw [idx2_div hs.hq, idx2_div (mem_range.1 hb')])).2
    omega
  · intro hh; exact absurd (mem_range.2 hs.hq) hh
  · intro a ha' hne
    refine Finset.sum_eq_zero (fun b hb' => ?_)
    refine (hfirst c _ _ hc (idx2_lt hp (mem_range.1 ha')) (idx2_lt hq (mem_range.1 hb'))).2 (fun hF' => hne ?_)
    have := (FirstMax.unique hF hF' (by rw [idx2_div hs.hp, idx2_div (mem_range.1 ha')])
      (by rw [idx2_div hs.hq, idx2_div (mem_range.1 hb')])).1
    omega
  · intro hh; exact absurd (mem_range.2 hs.hp) hh

/-- Non-vacuity, with a tie in the second window. -/
example : (do let l ← Pool.make 1 2 4 2 2 idAct
              let l ← l.forward ⟨1, 2, 4, Buf.of [1, 2, 7, 8, 5, 3, 8, -1]⟩
              let l ← l.backward ⟨1, 2, 4, Buf.of [1, 2, 7, 8, 5, 3, 8, -1]⟩ ⟨1, 1, 2, Buf.of [10, 20]⟩ true
              return l.delta : Res (Ten Int)) = .ok ⟨1, 2, 4, Buf.of [0, 0, 0, 20, 10, 0, 0, 0]⟩ := by decide +kernel
/-- Every window has a first maximum (so the first clause of `C36_backward` is not empty). -/
example : FirstMax (fun _ y z => ((y : Int) + z)) 2 2 0 1 1 := by
  intro y z hy hz
  have : y = 0 ∨ y = 1 := by omega
  have : z = 0 ∨ z = 1 := by omega
  constructor <;> [skip; intro h] <;> push_cast <;> omega

end Trixy
