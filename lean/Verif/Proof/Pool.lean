import Verif.Spec.Pool
import Verif.Proof.ConvAdj
import Mathlib.Order.Defs.LinearOrder
/- Max-pooling. -/
namespace Trixy

variable {α : Type}

theorem rounds_mul {n s : Nat} (hs : 1 ≤ s) : rounds (n * s) s = n := by
  unfold rounds
  have e : n * s + s - 1 = n * s + (s - 1) := by omega
  rw [e]
  exact idx2_div (by omega)

theorem Pool.make_Wf [Zero α] (d oh ow sv sh : Nat) (hsv : 1 ≤ sv) (hsh : 1 ≤ sh) (act : Act α) :
    Ok (Pool.make d (oh * sv) (ow * sh) sv sh act) (fun l => l.Wf d oh ow sv sh ∧ l.act = act ∧
      TenIs l.buff d oh ow (fun _ _ _ => 0)) := by
  unfold Pool.make poolExtent
  rw [if_neg (by omega), bind_ok, if_neg (by omega), bind_ok, Nat.mul_div_cancel _ (by omega), Nat.mul_div_cancel _ (by omega)]
  exact Ok_ok.2 ⟨{
    hsv := hsv
    hsh := hsh
    isz := ⟨rfl, rfl, rfl⟩
    osz := ⟨rfl, rfl, rfl⟩
    str := ⟨rfl, rfl⟩
    value := ⟨_, TenIs_fill _ _ _ _⟩
    buff := ⟨_, TenIs_fill _ _ _ _⟩
    mask := ⟨_, TenIs_fill _ _ _ _⟩
    delta := ⟨_, TenIs_fill _ _ _ _⟩ }, rfl, TenIs_fill _ _ _ _⟩

/-- Cells visited by the scan before round `(a, b)`. -/
def Before (a b a' b' : Nat) : Prop := a' < a ∨ (a' = a ∧ b' < b)

section Scan
variable [LinearOrder α]

theorem poolScan_spec {input : Ten α} {x : Nat → Nat → Nat → α} {d oh ow sv sh c p q : Nat} (hsv : 1 ≤ sv) (hsh : 1 ≤ sh)
    (hx : TenIs input d (oh * sv) (ow * sh) x) (hc : c < d) (hp : p < oh) (hq : q < ow) :
    Ok (poolScan input sv sh c (p * sv) (q * sh)) (WindowMax x sv sh c p q) := by
  unfold poolScan
  have hin : ∀ a, a < sv → p * sv + a < oh * sv := fun a ha => idx2_lt hp ha
  have hin' : ∀ b, b < sh → q * sh + b < ow * sh := fun b hb => idx2_lt hq hb
  have h00 := hx.get hc (hin 0 (by omega)) (hin' 0 (by omega))
  rw [Nat.add_zero, Nat.add_zero] at h00
  rw [h00, bind_ok]
  let P : Nat → Nat → α → Prop := fun a b m => (∃ a' b', a' < sv ∧ b' < sh ∧ m = x c (p * sv + a') (q * sh + b')) ∧
    ∀ a' b', b' < sh → Before a b a' b' → x c (p * sv + a') (q * sh + b') ≤ m
  refine (forN_spec (fun a m => P a 0 m) ⟨⟨0, 0, hsv, hsh, rfl⟩, fun a' b' _ h => by unfold Before at h; omega⟩
    (fun a ha m hm => ?_)).mono (fun m hm => ?_)
  · refine (forN_spec (fun b m => P a b m) hm (fun b hb m hm => ?_)).mono (fun m hm => ⟨hm.1, fun a' b' hb' h => ?_⟩)
    · rw [hx.get hc (hin a ha) (hin' b hb), bind_ok]
      obtain ⟨h1, h2⟩ := hm
      by_cases hlt : m < x c (p * sv + a) (q * sh + b)
      · rw [if_pos hlt]
        refine Ok_ok.2 ⟨⟨a, b, ha, hb, rfl⟩, fun a' b' hb' h => ?_⟩
        by_cases e : a' = a ∧ b' = b
        · rw [e.1, e.2]
        · exact le_trans (h2 a' b' hb' (by unfold Before at *; omega)) (le_of_lt hlt)
      · rw [if_neg hlt]
        refine Ok_ok.2 ⟨h1, fun a' b' hb' h => ?_⟩
        by_cases e : a' = a ∧ b' = b
        · rw [e.1, e.2]; exact le_of_not_gt hlt
        · exact h2 a' b' hb' (by unfold Before at *; omega)
    · exact hm.2 a' b' hb' (by unfold Before at *; omega)
  · refine ⟨hm.1, ?_⟩
    rintro v ⟨a, b, ha, hb, rfl⟩
    exact hm.2 a b hb (Or.inl ha)

/-- The position found by the training scan. -/
structure ScanAt (x : Nat → Nat → Nat → α) (sv sh c p q a b : Nat) (s : Scan α) (p' q' : Nat) : Prop where
  hp : p' < sv
  hq : q' < sh
  pos : s.imax = p * sv + p' ∧ s.jmax = q * sh + q'
  max : s.max = x c (p * sv + p') (q * sh + q')
  le : ∀ a' b', b' < sh → Before a b a' b' → x c (p * sv + a') (q * sh + b') ≤ s.max
  lt : ∀ a' b', b' < sh → Before a b a' b' → Before p' q' a' b' → x c (p * sv + a') (q * sh + b') < s.max
  seen : (p' = 0 ∧ q' = 0) ∨ Before a b p' q'

theorem poolScanT_spec [Zero α] {input mask : Ten α} {x mk : Nat → Nat → Nat → α} {d oh ow sv sh c p q : Nat} (hsv : 1 ≤ sv) (hsh : 1 ≤ sh)
    (hx : TenIs input d (oh * sv) (ow * sh) x) (hm : TenIs mask d (oh * sv) (ow * sh) mk) (hc : c < d) (hp : p < oh) (hq : q < ow)
    (hz : ∀ a b, a < sv → b < sh → mk c (p * sv + a) (q * sh + b) = 0) :
    Ok (poolScanT input mask sv sh c (p * sv) (q * sh)) (fun s => TenIs s.mask d (oh * sv) (ow * sh) mk ∧
      ∃ p' q', ScanAt x sv sh c p q sv 0 s p' q') := by
  unfold poolScanT
  have hin : ∀ a, a < sv → p * sv + a < oh * sv := fun a ha => idx2_lt hp ha
  have hin' : ∀ b, b < sh → q * sh + b < ow * sh := fun b hb => idx2_lt hq hb
  have h00 := hx.get hc (hin 0 (by omega)) (hin' 0 (by omega))
  rw [Nat.add_zero, Nat.add_zero] at h00
  rw [h00, bind_ok]
  let P : Nat → Nat → Scan α → Prop := fun a b s => TenIs s.mask d (oh * sv) (ow * sh) mk ∧ ∃ p' q', ScanAt x sv sh c p q a b s p' q'
  refine forN_spec (fun a s => P a 0 s) ⟨hm, 0, 0, hsv, hsh, ⟨rfl, rfl⟩, rfl, fun a' b' _ h => by unfold Before at h; omega,
    fun a' b' _ h => by unfold Before at h; omega, Or.inl ⟨rfl, rfl⟩⟩ (fun a ha s hs => ?_)
  refine (forN_spec (fun b s => P a b s) hs (fun b hb s hs => ?_)).mono (fun s hs => ?_)
  · obtain ⟨hmk, p', q', hs⟩ := hs
    rw [hx.get hc (hin a ha) (hin' b hb), bind_ok]
    refine (hmk.set hc (hin a ha) (hin' b hb) 0).bind (fun mk' hmk' => ?_)
    have hmk'' : TenIs mk' d (oh * sv) (ow * sh) mk := hmk'.congr (fun c' i j _ _ _ => by
      split
      · next e => rw [e.1, e.2.1, e.2.2]; exact (hz a b ha hb).symm
      · rfl)
    unfold Scan.better
    by_cases hlt : s.max < x c (p * sv + a) (q * sh + b)
    · rw [if_pos hlt]
      refine Ok_ok.2 ⟨hmk'', a, b, ha, hb, ⟨rfl, rfl⟩, rfl, fun a' b' hb' h => ?_, fun a' b' hb' h h' => ?_,
        Or.inr (by unfold Before; omega)⟩
      · by_cases e : a' = a ∧ b' = b
        · rw [e.1, e.2]
        · exact le_trans (hs.le a' b' hb' (by unfold Before at *; omega)) (le_of_lt hlt)
      · exact lt_of_le_of_lt (hs.le a' b' hb' (by unfold Before at *; omega)) hlt
    · rw [if_neg hlt]
      refine Ok_ok.2 ⟨hmk'', p', q', hs.hp, hs.hq, hs.pos, hs.max, fun a' b' hb' h => ?_, fun a' b' hb' h h' => ?_, ?_⟩
      · by_cases e : a' = a ∧ b' = b
        · rw [e.1, e.2]; exact le_of_not_gt hlt
        · exact hs.le a' b' hb' (by unfold Before at *; omega)
      · refine hs.lt a' b' hb' ?_ h'
        rcases hs.seen with ⟨e1, e2⟩ | h2
        · unfold Before at *; omega
        · unfold Before at *; omega
      · rcases hs.seen with h2 | h2
        · exact Or.inl h2
        · right; unfold Before at *; omega
  · obtain ⟨hmk, p', q', hs⟩ := hs
    refine ⟨hmk, p', q', hs.hp, hs.hq, hs.pos, hs.max, fun a' b' hb' h => hs.le a' b' hb' ?_, fun a' b' hb' h h' => hs.lt a' b' hb' ?_ h', ?_⟩
    · unfold Before at *; omega
    · unfold Before at *; omega
    · rcases hs.seen with h2 | h2
      · exact Or.inl h2
      · right; unfold Before at *; have := hs.hq; omega

theorem Pool.forwardRaw_spec {l : Pool α} {d oh ow sv sh : Nat} (hl : l.Wf d oh ow sv sh)
    {input : Ten α} {x : Nat → Nat → Nat → α} (hx : TenIs input d (oh * sv) (ow * sh) x) {F D : (Nat → α) → Nat → α}
    (ha : l.act.Is (d * oh * ow) F D) :
    Ok (l.forwardRaw input) (fun l' => ∃ mx : Nat → Nat → Nat → α,
      (∀ c p q, c < d → p < oh → q < ow → WindowMax x sv sh c p q (mx c p q)) ∧
      TenIs l'.value d oh ow (fun c p q => F (fun k => mx (k / ow / oh) (k / ow % oh) (k % ow)) ((c * oh + p) * ow + q)) ∧
      l' = { l with value := l'.value }) := by
  unfold Pool.forwardRaw
  have hsv := hl.hsv
  have hsh := hl.hsh
  obtain ⟨v0, hv0⟩ := hl.value
  -- choose the maxima
  have hex : ∀ c p q, ∃ m, (c < d ∧ p < oh ∧ q < ow) → poolScan input sv sh c (p * sv) (q * sh) = .ok m ∧ WindowMax x sv sh c p q m := by
    intro c p q
    by_cases h : c < d ∧ p < oh ∧ q < ow
    · obtain ⟨m, e, hm⟩ := poolScan_spec hsv hsh hx h.1 h.2.1 h.2.2
      exact ⟨m, fun _ => ⟨e, hm⟩⟩
    · exact ⟨v0 0 0 0, fun h' => absurd h' h⟩
  choose mx hmx using hex
  refine Ok.bind (P := fun t => TenIs t d oh ow mx) ?_ (fun t ht => ?_)
  · rw [hl.isz.1, hl.isz.2.1, hl.isz.2.2, hl.str.1, hl.str.2, rounds_mul hsv, rounds_mul hsh]
    refine forN_ten (new := mx) hv0 (fun c p q hc hp hq r g hr _ => ?_)
    rw [(hmx c p q ⟨hc, hp, hq⟩).1, bind_ok, Nat.mul_div_cancel _ (by omega), Nat.mul_div_cancel _ (by omega)]
    exact hr.set hc hp hq _
  · refine (ha.fSelf t.data _ ht.flat).bind (fun r hr => Ok_ok.2 ⟨mx, fun c p q hc hp hq => (hmx c p q ⟨hc, hp, hq⟩).2, ?_, ?_⟩)
    · exact TenIs.of_flat (t := { t with data := r }) ht.1 ht.2.1 ht.2.2.1 hr
    · rfl

theorem div_window {p sv a y : Nat} (hsv : 1 ≤ sv) (ha : a < sv) (h : y / sv = (p * sv + a) / sv) :
    ∃ a', a' < sv ∧ y = p * sv + a' := by
  rw [idx2_div ha] at h
  refine ⟨y % sv, Nat.mod_lt _ (by omega), ?_⟩
  have := Nat.div_add_mod y sv
  rw [h, Nat.mul_comm] at this
  exact this.symm

theorem FirstMax.of_scan {x : Nat → Nat → Nat → α} {sv sh c p q p' q' : Nat} {s : Scan α} (hsv : 1 ≤ sv) (hsh : 1 ≤ sh)
    (hs : ScanAt x sv sh c p q sv 0 s p' q') : FirstMax x sv sh c (p * sv + p') (q * sh + q') := by
  intro y z hy hz
  obtain ⟨a, ha, rfl⟩ := div_window hsv hs.hp hy
  obtain ⟨b, hb, rfl⟩ := div_window hsh hs.hq hz
  rw [← hs.max]
  exact ⟨hs.le a b hb (Or.inl ha), fun h => hs.lt a b hb (Or.inl ha) (by unfold Before; omega)⟩

theorem FirstMax.unique {x : Nat → Nat → Nat → α} {sv sh c y z y' z' : Nat} (h : FirstMax x sv sh c y z) (h' : FirstMax x sv sh c y' z')
    (ey : y' / sv = y / sv) (ez : z' / sh = z / sh) : y' = y ∧ z' = z := by
  have a := h y' z' ey ez
  have b := h' y z ey.symm ez.symm
  by_contra hne
  rcases (show (y' < y ∨ (y' = y ∧ z' < z)) ∨ (y < y' ∨ (y = y' ∧ z < z')) by omega) with h1 | h1
  · exact absurd (a.2 h1) (not_lt_of_ge b.1)
  · exact absurd (b.2 h1) (not_lt_of_ge a.1)

/-- The mask is 1 at first maxima and 0 elsewhere. -/
def MaskIs [Zero α] [One α] (x mk : Nat → Nat → Nat → α) (sv sh c y z : Nat) : Prop :=
  (FirstMax x sv sh c y z → mk c y z = 1) ∧ (¬ FirstMax x sv sh c y z → mk c y z = 0)

theorem Pool.scanAll_spec [Zero α] [One α] {l : Pool α} {d oh ow sv sh : Nat} (hl : l.Wf d oh ow sv sh)
    {input mask : Ten α} {x : Nat → Nat → Nat → α} (hx : TenIs input d (oh * sv) (ow * sh) x)
    (hm : TenIs mask d (oh * sv) (ow * sh) (fun _ _ _ => 0)) :
    Ok (l.scanAll input mask) (fun r => (∃ v, TenIs r.1 d oh ow v) ∧ ∃ mk, TenIs r.2 d (oh * sv) (ow * sh) mk ∧
      ∀ c y z, c < d → y < oh * sv → z < ow * sh → MaskIs x mk sv sh c y z) := by
  unfold Pool.scanAll
  have hsv := hl.hsv
  have hsh := hl.hsh
  obtain ⟨v0, hv0⟩ := hl.value
  rw [hl.isz.1, hl.isz.2.1, hl.isz.2.2, hl.str.1, hl.str.2, rounds_mul hsv, rounds_mul hsh]
  let Done : Nat → Nat → Nat → Nat → Nat → Nat → Prop := fun a b e c p q => c < a ∨ (c = a ∧ (p < b ∨ (p = b ∧ q < e)))
  have := forN3_spec (A := d) (B := oh) (C := ow) (s := (l.value, mask)) (body := fun c p q s => do
      let r ← poolScanT input s.2 sv sh c (p * sv) (q * sh)
      let v ← s.1.set c (p * sv / sv) (q * sh / sh) r.max
      let mk ← r.mask.set c r.imax r.jmax 1
      return (v, mk))
    (fun a b e s => (∃ v, TenIs s.1 d oh ow v) ∧ ∃ mk, TenIs s.2 d (oh * sv) (ow * sh) mk ∧
      (∀ c y z, c < d → y < oh * sv → z < ow * sh → Done a b e c (y / sv) (z / sh) → MaskIs x mk sv sh c y z) ∧
      (∀ c y z, ¬ Done a b e c (y / sv) (z / sh) → mk c y z = 0))
    ⟨⟨v0, hv0⟩, _, hm, fun c y z _ _ _ h => by
      exfalso; revert h; show Done _ _ _ _ _ _ → False; generalize y / sv = q1; generalize z / sh = q2; intro h
      unfold Done at h; omega, fun _ _ _ _ => rfl⟩
    (fun a b e ha hb he s hs => by
      obtain ⟨⟨v, hv⟩, mk, hmk, h1, h2⟩ := hs
      refine (poolScanT_spec hsv hsh hx hmk ha hb he (fun i j hi hj => h2 _ _ _ ?_)).bind (fun r hr => ?_)
      · rw [idx2_div hi, idx2_div hj]; show ¬ (_ ∨ _); omega
      obtain ⟨hrm, p', q', hsc⟩ := hr
      rw [Nat.mul_div_cancel _ (by omega), Nat.mul_div_cancel _ (by omega)]
      refine (hv.set ha hb he _).bind (fun v' hv' => ?_)
      rw [hsc.pos.1, hsc.pos.2]
      have hfm := FirstMax.of_scan hsv hsh hsc
      refine (hrm.set ha (idx2_lt hb hsc.hp) (idx2_lt he hsc.hq) 1).bind (fun mk' hmk' => Ok_ok.2 ⟨⟨_, hv'⟩, _, hmk', ?_, ?_⟩)
      · intro c y z hc hy hz hd
        by_cases hcur : c = a ∧ y / sv = b ∧ z / sh = e
        · obtain ⟨rfl, rfl, rfl⟩ := hcur
          constructor
          · intro hF
            obtain ⟨e1, e2⟩ := FirstMax.unique hfm hF (by rw [idx2_div hsc.hp]) (by rw [idx2_div hsc.hq])
            dsimp only
            rw [if_pos ⟨rfl, e1, e2⟩]
          · intro hF
            have hne : ¬ (c = c ∧ y = y / sv * sv + p' ∧ z = z / sh * sh + q') := by
              rintro ⟨_, e1, e2⟩; apply hF; rw [e1, e2]; exact hfm
            dsimp only
            rw [if_neg hne]
            refine h2 c y z ?_
            generalize y / sv = q1; generalize z / sh = q2
            show ¬ (_ ∨ _); omega
        · have hold : Done a b e c (y / sv) (z / sh) := by
            revert hd hcur
            generalize y / sv = q1; generalize z / sh = q2
            intro hd hcur
            have hd : c < a ∨ (c = a ∧ (q1 < b ∨ (q1 = b ∧ q2 < e + 1))) := hd
            show c < a ∨ (c = a ∧ (q1 < b ∨ (q1 = b ∧ q2 < e))); omega
          have hne : ¬ (c = a ∧ y = b * sv + p' ∧ z = e * sh + q') := by
            rintro ⟨e0, e1, e2⟩; apply hcur
            rw [e1, e2, idx2_div hsc.hp, idx2_div hsc.hq]; exact ⟨e0, rfl, rfl⟩
          have := h1 c y z hc hy hz hold
          unfold MaskIs at *
          dsimp only
          rw [if_neg hne]; exact this
      · intro c y z hnd
        have hne : ¬ (c = a ∧ y = b * sv + p' ∧ z = e * sh + q') := by
          rintro ⟨e0, e1, e2⟩; apply hnd
          rw [e0, e1, e2, idx2_div hsc.hp, idx2_div hsc.hq]
          show a < a ∨ (a = a ∧ (b < b ∨ (b = b ∧ e < e + 1))); omega
        rw [if_neg hne]
        refine h2 c y z (fun hd => hnd ?_)
        revert hd
        generalize y / sv = q1; generalize z / sh = q2
        intro hd
        have hd : c < a ∨ (c = a ∧ (q1 < b ∨ (q1 = b ∧ q2 < e))) := hd
        show c < a ∨ (c = a ∧ (q1 < b ∨ (q1 = b ∧ q2 < e + 1))); omega)
    (fun a b s _ hb hs => by
      obtain ⟨hv, mk, hmk, h1, h2⟩ := hs
      have key : ∀ c y z, z < ow * sh → (Done a (b + 1) 0 c (y / sv) (z / sh) ↔ Done a b ow c (y / sv) (z / sh)) := by
        intro c y z hz
        have : z / sh < ow := Nat.div_lt_of_lt_mul (by rwa [Nat.mul_comm])
        revert this
        generalize y / sv = q1; generalize z / sh = q2
        intro this
        show (c < a ∨ (c = a ∧ (q1 < b + 1 ∨ (q1 = b + 1 ∧ q2 < 0)))) ↔ (c < a ∨ (c = a ∧ (q1 < b ∨ (q1 = b ∧ q2 < ow)))); omega
      refine ⟨hv, mk, hmk, fun c y z hc hy hz hd => h1 c y z hc hy hz ((key c y z hz).1 hd), fun c y z hnd => h2 c y z (fun hd => hnd ?_)⟩
      revert hd
      generalize y / sv = q1; generalize z / sh = q2
      intro hd
      have hd : c < a ∨ (c = a ∧ (q1 < b ∨ (q1 = b ∧ q2 < ow))) := hd
      show c < a ∨ (c = a ∧ (q1 < b + 1 ∨ (q1 = b + 1 ∧ q2 < 0))); omega)
    (fun a s _ hs => by
      obtain ⟨hv, mk, hmk, h1, h2⟩ := hs
      have key : ∀ c y z, y < oh * sv → (Done (a + 1) 0 0 c (y / sv) (z / sh) → Done a oh 0 c (y / sv) (z / sh)) := by
        intro c y z hy
        have : y / sv < oh := Nat.div_lt_of_lt_mul (by rwa [Nat.mul_comm])
        revert this
        generalize y / sv = q1; generalize z / sh = q2
        intro this
        show (c < a + 1 ∨ (c = a + 1 ∧ (q1 < 0 ∨ (q1 = 0 ∧ q2 < 0)))) → (c < a ∨ (c = a ∧ (q1 < oh ∨ (q1 = oh ∧ q2 < 0)))); omega
      refine ⟨hv, mk, hmk, fun c y z hc hy hz hd => h1 c y z hc hy hz (key c y z hy hd), fun c y z hnd => h2 c y z (fun hd => hnd ?_)⟩
      revert hd
      generalize y / sv = q1; generalize z / sh = q2
      intro hd
      have hd : c < a ∨ (c = a ∧ (q1 < oh ∨ (q1 = oh ∧ q2 < 0))) := hd
      show c < a + 1 ∨ (c = a + 1 ∧ (q1 < 0 ∨ (q1 = 0 ∧ q2 < 0))); omega)
  exact this.mono (fun r hr => by
    obtain ⟨hv, mk, hmk, h1, _⟩ := hr
    exact ⟨hv, mk, hmk, fun c y z hc hy hz => h1 c y z hc hy hz (Or.inl hc)⟩)

/-- The training forward pass: the mask marks the first maxima, `value()` is the activation of `buff_`. -/
theorem Pool.forward_spec [Zero α] [One α] {l : Pool α} {d oh ow sv sh : Nat} (hl : l.Wf d oh ow sv sh)
    {input : Ten α} {x bf : Nat → Nat → Nat → α} (hx : TenIs input d (oh * sv) (ow * sh) x) (hb : TenIs l.buff d oh ow bf)
    {F D : (Nat → α) → Nat → α} (ha : l.act.Is (d * oh * ow) F D) :
    Ok (l.forward input) (fun l' => l'.Wf d oh ow sv sh ∧
      TenIs l'.value d oh ow (fun c p q => F (fun k => bf (k / ow / oh) (k / ow % oh) (k % ow)) ((c * oh + p) * ow + q)) ∧
      (∃ mk, TenIs l'.mask d (oh * sv) (ow * sh) mk ∧
        ∀ c y z, c < d → y < oh * sv → z < ow * sh → MaskIs x mk sv sh c y z) ∧
      l' = { l with mask := l'.mask, value := l'.value }) := by
  unfold Pool.forward
  obtain ⟨mk0, hm0⟩ := hl.mask
  obtain ⟨dd, e2, hdd⟩ := fillInto_spec (r := l.mask.data) hm0.flat.length (0 : α)
  have e3 : l.mask.onData (fun d => fillInto d 0) = .ok { l.mask with data := dd } := by
    unfold Ten.onData; dsimp only; rw [e2]; rfl
  rw [e3, bind_ok]
  have hmask : TenIs { l.mask with data := dd } d (oh * sv) (ow * sh) (fun _ _ _ => 0) :=
    TenIs.of_flat (t := { l.mask with data := dd }) hm0.1 hm0.2.1 hm0.2.2.1 hdd
  refine (Pool.scanAll_spec hl hx hmask).bind (fun r hr => ?_)
  obtain ⟨⟨v, hv⟩, mk, hmk, hM⟩ := hr
  refine (ha.f r.1.data l.buff.data _ hv.flat.length hb.flat).bind (fun o ho => ?_)
  have hval := TenIs.of_flat (t := { r.1 with data := o }) hv.1 hv.2.1 hv.2.2.1 ho
  exact Ok_ok.2 ⟨{ hl with value := ⟨_, hval⟩, mask := ⟨_, hmk⟩ }, hval, ⟨mk, hmk, hM⟩, rfl⟩

end Scan

theorem Pool.backward_spec [Mul α] {l : Pool α} {d oh ow sv sh : Nat} (hl : l.Wf d oh ow sv sh)
    {input idelta : Ten α} {bf mk u : Nat → Nat → Nat → α} (hb : TenIs l.buff d oh ow bf) (hm : TenIs l.mask d (oh * sv) (ow * sh) mk)
    (hu : TenIs idelta d oh ow u) {F D : (Nat → α) → Nat → α} (ha : l.act.Is (d * oh * ow) F D) (full : Bool) :
    Ok (l.backward input idelta full) (fun l' => l'.Wf d oh ow sv sh ∧
      TenIs l'.buff d oh ow (fun c p q => D (fun k => bf (k / ow / oh) (k / ow % oh) (k % ow)) ((c * oh + p) * ow + q) * u c p q) ∧
      TenIs l'.delta d (oh * sv) (ow * sh) (fun c y z =>
        D (fun k => bf (k / ow / oh) (k / ow % oh) (k % ow)) ((c * oh + y / sv) * ow + z / sh) * u c (y / sv) (z / sh) * mk c y z) ∧
      l' = { l with buff := l'.buff, delta := l'.delta }) := by
  unfold Pool.backward
  have hsv := hl.hsv
  have hsh := hl.hsh
  refine (ha.dfSelf l.buff.data _ hb.flat).bind (fun b1 h1 => ?_)
  refine (zipInto_spec h1 hu.flat (Nat.le_refl _)).bind (fun b2 h2 => ?_)
  have hbuff : TenIs { l.buff with data := b2 } d oh ow
      (fun c p q => D (fun k => bf (k / ow / oh) (k / ow % oh) (k % ow)) ((c * oh + p) * ow + q) * u c p q) := by
    refine (TenIs.of_flat (t := { l.buff with data := b2 }) hb.1 hb.2.1 hb.2.2.1 h2).congr (fun c p q _ hp hq => ?_)
    obtain ⟨e1, e2, e3⟩ := idx3_split (i := c) hp hq
    rw [e1, e2, e3]
  obtain ⟨v0, hv0⟩ := hl.delta
  dsimp only
  refine Ok.bind (P := fun t => TenIs t d (oh * sv) (ow * sh) (fun c y z =>
        D (fun k => bf (k / ow / oh) (k / ow % oh) (k % ow)) ((c * oh + y / sv) * ow + z / sh) * u c (y / sv) (z / sh) * mk c y z)) ?_
    (fun t ht => ?_)
  · rw [hl.isz.1, hl.isz.2.1, hl.isz.2.2, hl.str.1, hl.str.2]
    refine forN_ten hv0 (fun c y z hc hy hz r g hr _ => ?_)
    have q1 : y / sv < oh := Nat.div_lt_of_lt_mul (by rwa [Nat.mul_comm])
    have q2 : z / sh < ow := Nat.div_lt_of_lt_mul (by rwa [Nat.mul_comm])
    rw [hbuff.get hc q1 q2, bind_ok, hm.get hc hy hz, bind_ok]
    exact hr.set hc hy hz _
  · exact Ok_ok.2 ⟨{ hl with buff := ⟨_, hbuff⟩, delta := ⟨_, ht⟩ }, hbuff, ht, rfl⟩

/-! ### Non-dividing strides -/

/-- A loop all of whose steps either succeed or stop with `e`, one of which certainly stops. -/
theorem forN_stop {σ : Type} (P : σ → Prop) {n k : Nat} {e : UB} {s : σ} {body : Nat → σ → Res σ} (hk : k < n) (h0 : P s)
    (hs : ∀ i, i < n → ∀ s, P s → body i s = .error e ∨ Ok (body i s) P) (he : ∀ s, P s → body k s = .error e) :
    forN n s body = .error e := by
  have key : ∀ m, m ≤ n → (k < m → forN m s body = .error e) ∧ (forN m s body = .error e ∨ Ok (forN m s body) P) := by
    intro m
    induction m with
    | zero => intro _; exact ⟨by omega, Or.inr (Ok_ok.2 h0)⟩
    | succ m ih =>
      intro hm
      obtain ⟨i1, i2⟩ := ih (by omega)
      rw [forN_succ]
      rcases i2 with h | ⟨s', h, hP⟩
      · rw [h]; exact ⟨fun _ => rfl, Or.inl rfl⟩
      · rw [h, bind_ok]
        refine ⟨fun hkm => ?_, hs m (by omega) s' hP⟩
        by_cases e' : k = m
        · subst e'; exact he s' hP
        · have := i1 (by omega); rw [h] at this; cases this
  exact (key n (Nat.le_refl _)).1 hk

theorem forN_may {σ : Type} (P : σ → Prop) {n : Nat} {e : UB} {s : σ} {body : Nat → σ → Res σ} (h0 : P s)
    (hs : ∀ i, i < n → ∀ s, P s → body i s = .error e ∨ Ok (body i s) P) :
    forN n s body = .error e ∨ Ok (forN n s body) P := by
  induction n with
  | zero => exact Or.inr (Ok_ok.2 h0)
  | succ n ih =>
    rw [forN_succ]
    rcases ih (fun i hi => hs i (by omega)) with h | ⟨s', h, hP⟩
    · rw [h]; exact Or.inl rfl
    · rw [h, bind_ok]; exact hs n (by omega) s' hP

theorem Buf.get_may {b : Buf α} {n : Nat} {f : Nat → α} (hb : VecIs b n f) (i : Nat) :
    b.get i = .error .oob ∨ ∃ a, b.get i = .ok a := by
  by_cases h : i < n
  · exact Or.inr ⟨_, hb.get h⟩
  · exact Or.inl (BufIs.get_oob hb (by omega))

theorem Ten.set_may (t : Ten α) (i j k : Nat) (a : α) :
    t.set i j k a = .error .oob ∨ ∃ t', t.set i j k a = .ok t' := by
  unfold Ten.set Buf.set
  split
  · exact Or.inr ⟨_, rfl⟩
  · exact Or.inl rfl

end Trixy
