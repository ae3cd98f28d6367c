import Verif.Model.Volume
import Verif.Props.Conv
import Verif.Props.Pool
import Verif.Props.LossRace
/- Property C88 (layer constructors with named arguments). -/
set_option linter.unusedSectionVars false
namespace Trixy
open Finset

variable {α γ ρ σ : Type}

/-- The output a convolution asked for with `Input(d,h,w)`, `Filter(n,fh,fw)`, `Padding(ph,pw)`, `Stride(sv,sh)` has at
filter `f`, row `y`, column `z`: `ph` rows and `pw` columns of zeros around the input, bias `b`, filters `W`. -/
def askedConv [CommSemiring α] (d h w fh fw ph pw sv sh : Nat) (b : Nat → α) (W : Nat → Nat → Nat → Nat → α)
    (x : Nat → Nat → Nat → α) (f y z : Nat) : α :=
  b f + ∑ i ∈ range fh, ∑ j ∈ range fw, ∑ c ∈ range d,
    padded x h w c ((sv : Int) * y + i - ph) ((sh : Int) * z + j - pw) * W f c i j

/-- With equal vertical and horizontal padding, after ANY sequence of calls that fits the shapes, the layer built from
the named arguments computes what they ask for, with the asked extents. -/
theorem C88_conv_partial [CommSemiring α] (upd : Upd σ α) (size : Nat → Nat) (I : σ → Prop) (hu : UpdOk upd size I)
    (gen : Gen γ ρ α) (d h w n fh fw ph pw sv sh : Nat) (heq : ph = pw)
    (hsv : 1 ≤ sv) (hsh : 1 ≤ sh) (hn : 1 ≤ n) (hH : fh ≤ h + 2 * ph) (hW : fw ≤ w + 2 * pw)
    (wH : h + 2 * ph + 1 < W64) (wW : w + 2 * pw + 1 < W64) (kB : Nat) (kW : Nat → Nat)
    (sB : size kB = n) (sW : ∀ f, f < n → size (kW f) = d * fh * fw) (s : σ) (hs : I s) (g : ρ) (ops : List (ConvOp α γ))
    (hops : ∀ op ∈ ops, op.Fits d h w n (extent h fh ph sv) (extent w fw pw sh)) :
    Ok (do let l ← Conv.named (Shape.mk3 d h w) (Shape.mk3 n fh fw) (Shape.plane ph pw) (Shape.plane sv sh) kB kW
           ConvOp.run upd gen (s, g, l) ops) (fun r =>
      ∃ b W, VecIs r.2.2.B n b ∧ WsIs r.2.2.Ws n d fh fw W ∧
      ∀ (x : Ten α) (v : Nat → Nat → Nat → α), TenIs x d h w v → Ok (r.2.2.forward x) (fun l' =>
        TenIs l'.value n ((h + 2 * ph - fh) / sv + 1) ((w + 2 * pw - fw) / sh + 1)
          (askedConv d h w fh fw ph pw sv sh b W v))) := by
  subst heq
  refine (C31_history upd size I hu gen d h w n fh fw ph sv sh ⟨hsv, hsh, hH, hW, wH, wW⟩ hn kB kW sB sW s hs g ops
    hops).mono (fun r q => ?_)
  obtain ⟨b, W, h1, h2, h3⟩ := q
  exact ⟨b, W, h1, h2, fun x v hx => (h3 x v hx).mono (fun l' q => q.1)⟩

/-- The horizontal padding is ignored: the columns are padded with the vertical amount. -/
theorem C88_horizontal_padding_ignored [Zero α] (input filter stride : Shape) (ph pw pw' : Nat) (kB : Nat) (kW : Nat → Nat) :
    (Conv.named input filter (Shape.plane ph pw) stride kB kW : Res (Conv α)) =
      Conv.named input filter (Shape.plane ph pw') stride kB kW := rfl

/-- The one-number forms `Padding(p)`, `Stride(s)` mean `Padding(p, p)`, `Stride(s, s)`; a two-number or one-number input is
one channel, and one channel of one row. -/
theorem C88_short_forms [Zero α] (input filter padding : Shape) (h w p s : Nat) (kB : Nat) (kW : Nat → Nat) (act : Act α) :
    (Conv.named input filter (Shape.square p) (Shape.square s) kB kW : Res (Conv α)) =
      Conv.named input filter (Shape.plane p p) (Shape.plane s s) kB kW ∧
    Pool.named input (Shape.square s) act = Pool.named input (Shape.plane s s) act ∧
    (Conv.named (Shape.mk2 h w) filter padding (Shape.square s) kB kW : Res (Conv α)) =
      Conv.named (Shape.mk3 1 h w) filter padding (Shape.square s) kB kW ∧
    (Conv.named (Shape.mk1 w) filter padding (Shape.square s) kB kW : Res (Conv α)) =
      Conv.named (Shape.mk3 1 1 w) filter padding (Shape.square s) kB kW ∧
    Pool.named (Shape.mk2 h w) (Shape.square s) act = Pool.named (Shape.mk3 1 h w) (Shape.square s) act ∧
    (∀ o, FC.named (Shape.mk1 w) (Shape.mk1 o) act kB 0 = FC.make w o act kB 0) := ⟨rfl, rfl, rfl, rfl, rfl, fun _ => rfl⟩

/-- Whenever the two paddings differ by at least half a horizontal stride — at stride 1 or 2: whenever they differ — the
layer's output does not have the width the arguments ask for. -/
theorem C88_padding_violated [Zero α] (d h w n fh fw ph pw sv sh : Nat) (hdiff : ph + (sh + 1) / 2 ≤ pw ∨ pw + (sh + 1) / 2 ≤ ph)
    (hsv : 1 ≤ sv) (hsh : 1 ≤ sh) (hn : 1 ≤ n) (hH : fh ≤ h + 2 * ph) (hW : fw ≤ w + 2 * ph) (hW' : fw ≤ w + 2 * pw)
    (wH : h + 2 * ph + 1 < W64) (wW : w + 2 * ph + 1 < W64) (kB : Nat) (kW : Nat → Nat) :
    Ok (Conv.named (Shape.mk3 d h w) (Shape.mk3 n fh fw) (Shape.plane ph pw) (Shape.plane sv sh) kB kW : Res (Conv α))
      (fun l => l.od = n ∧ l.oh = (h + 2 * ph - fh) / sv + 1 ∧ l.ow ≠ (w + 2 * pw - fw) / sh + 1) := by
  refine (C30_geometry d h w n fh fw ph sv sh hsv hsh hn hH hW wH wW kB kW).mono (fun l q => ⟨q.1, q.2.1, ?_⟩)
  rw [q.2.2.1]
  have key : ∀ a b : Nat, a + sh ≤ b → a / sh < b / sh := fun a b hab =>
    calc a / sh < a / sh + 1 := Nat.lt_succ_self _
      _ = (a + sh) / sh := (Nat.add_div_right a hsh).symm
      _ ≤ b / sh := Nat.div_le_div_right hab
  rcases hdiff with hd | hd
  · have := key (w + 2 * ph - fw) (w + 2 * pw - fw) (by omega)
    omega
  · have := key (w + 2 * pw - fw) (w + 2 * ph - fw) (by omega)
    omega

/-- The filter of the documented example, `Filter(7, 64)` ("64 filters of size 7"): for all numbers, `Filter(k, n)` is one
filter of height `k` and width `n`, so the layer has one output channel and, unless `n = 1`, not the `n` channels. -/
theorem C88_filter_violated [Zero α] (input : Shape) (k n : Nat) (hn : n ≠ 1) (padding stride : Shape) (kB : Nat) (kW : Nat → Nat)
    (l : Conv α) (hl : Conv.named input (Shape.mk2 k n) padding stride kB kW = .ok l) :
    l.od = 1 ∧ l.od ≠ n ∧ l.fc = 1 ∧ l.fh = k ∧ l.fw = n := by
  unfold Conv.named Conv.make at hl
  obtain ⟨oh, -, hl⟩ := Losses.bind_inv hl
  obtain ⟨ow, -, hl⟩ := Losses.bind_inv hl
  dsimp only at hl
  have h1 : (Shape.mk2 k n).d = 1 := rfl
  rw [if_neg (by rw [h1]; decide)] at hl
  cases hl
  exact ⟨rfl, fun e => hn e.symm, rfl, rfl, rfl⟩

/-- A max-pooling layer built from named arguments: any sequence of forward calls, then one more, gives the maxima of the
windows of the asked size. -/
theorem C88_pool [LinearOrder α] [Zero α] (d oh ow sv sh : Nat) (hsv : 1 ≤ sv) (hsh : 1 ≤ sh) (g g' : α → α)
    (xs : List (Ten α)) (hxs : ∀ x ∈ xs, ∃ v, TenIs x d (oh * sv) (ow * sh) v) (x : Ten α) (v : Nat → Nat → Nat → α)
    (hx : TenIs x d (oh * sv) (ow * sh) v) :
    Ok (do let l ← Pool.named (Shape.mk3 d (oh * sv) (ow * sh)) (Shape.plane sv sh) (Act.elementwise g g')
           let l ← xs.foldlM (fun l x => l.forwardRaw x) l
           l.forwardRaw x) (fun l' => ∃ mx : Nat → Nat → Nat → α,
      (∀ c p q, c < d → p < oh → q < ow → WindowMax v sv sh c p q (mx c p q)) ∧
      TenIs l'.value d oh ow (fun c p q => g (mx c p q))) :=
  C34_history d oh ow sv sh hsv hsh g g' xs hxs x v hx

theorem sum_flat3 [AddCommMonoid α] (d h w : Nat) (f : Nat → α) :
    ∑ k ∈ range (d * h * w), f k = ∑ c ∈ range d, ∑ y ∈ range h, ∑ z ∈ range w, f ((c * h + y) * w + z) := by
  have two : ∀ (a b : Nat) (g : Nat → α), ∑ k ∈ range (a * b), g k = ∑ i ∈ range a, ∑ j ∈ range b, g (i * b + j) := by
    intro a b g
    induction a with
    | zero => simp
    | succ a ih => rw [Nat.succ_mul, sum_range_add, ih, sum_range_succ]
  rw [two, two]

/-- A dense layer built with `Input(d,h,w)`, `Output(d',h',w')`: after ANY sequence of calls that fits, `forward` accepts
the unflattened `d×h×w` tensor and multiplies element (c,y,z) with row `(c·h + y)·w + z` of the weights; it has
`d'·h'·w'` outputs. -/
theorem C88_dense [CommSemiring α] [DecidableEq α] (upd : Upd σ α) (size : Nat → Nat) (I : σ → Prop)
    (hu : UpdOk upd size I) (gen : Gen γ ρ α) (d h w d' h' w' kB kW : Nat) (hin : d * h * w < W64) (hout : d' * h' * w' < W64)
    (hfit : d * h < W64 ∧ d' * h' < W64)
    (hB : size kB = d' * h' * w') (hW : size kW = d * h * w * (d' * h' * w'))
    (act : Act α) (F0 D0 : (Nat → α) → Nat → α) (hact : act.Is (d' * h' * w') F0 D0) (s : σ) (hs : I s) (g : ρ)
    (ops : List (FCOp α γ)) (hops : ∀ op ∈ ops, op.Fits (d * h * w) (d' * h' * w')) :
    Ok (FCOp.run upd gen (s, g, FC.named (Shape.mk3 d h w) (Shape.mk3 d' h' w') act kB kW) ops) (fun r =>
      ∃ b W F D, VecIs r.2.2.B (d' * h' * w') b ∧ MatIs r.2.2.W (d * h * w) (d' * h' * w') W ∧
        r.2.2.act.Is (d' * h' * w') F D ∧
        ∀ (x : Ten α) (v : Nat → Nat → Nat → α), TenIs x d h w v →
          Ok (r.2.2.forward x) (fun l' => RowIs l'.value (d' * h' * w')
            (F (fun j => ∑ c ∈ range d, ∑ y ∈ range h, ∑ z ∈ range w, v c y z * W ((c * h + y) * w + z) j + b j)))) := by
  have e1 : (Shape.mk3 d h w).size = d * h * w := by
    show wmul (wmul d h) w = _
    unfold wmul
    rw [Nat.mod_eq_of_lt hfit.1, Nat.mod_eq_of_lt hin]
  have e2 : (Shape.mk3 d' h' w').size = d' * h' * w' := by
    show wmul (wmul d' h') w' = _
    unfold wmul
    rw [Nat.mod_eq_of_lt hfit.2, Nat.mod_eq_of_lt hout]
  unfold FC.named
  rw [e1, e2]
  refine (C26_history upd size I hu gen (d * h * w) (d' * h' * w') kB kW hB hW act F0 D0 hact s hs g ops hops).mono
    (fun r q => ?_)
  obtain ⟨b, W, F, D, h1, h2, h3, h4⟩ := q
  refine ⟨b, W, F, D, h1, h2, h3, fun x v hx => (h4 x _ hx.flat).mono (fun l' q => ?_)⟩
  have e : affine (d * h * w) W b (fun k => v (k / w / h) (k / w % h) (k % w)) =
      (fun j => ∑ c ∈ range d, ∑ y ∈ range h, ∑ z ∈ range w, v c y z * W ((c * h + y) * w + z) j + b j) := by
    funext j
    unfold affine
    rw [foldSum_zero_eq, sum_flat3]
    congr 1
    refine sum_congr3 (fun c y z _ hy hz => ?_)
    obtain ⟨a1, a2, a3⟩ := idx3_split (i := c) hy hz
    dsimp only
    rw [a1, a2, a3]
  rw [← e]
  exact q.1

/-- Non-vacuity, the layer of the repository's test: Input(3,5,5), Filter(2,3,3), Padding(1), Stride(2). -/
example : (Conv.named (Shape.mk3 3 5 5) (Shape.mk3 2 3 3) (Shape.square 1) (Shape.square 2) 0 (fun f => f + 1) : Res (Conv Int)).map
    (fun l => (l.od, l.oh, l.ow)) = .ok (2, 3, 3) := by decide +kernel

/-- Padding(0, 1): columns should give 5 outputs, the layer has 3. -/
example : (Conv.named (Shape.mk3 1 5 5) (Shape.mk3 1 3 3) (Shape.plane 0 1) (Shape.square 1) 0 (fun f => f + 1) : Res (Conv Int)).map
    (fun l => (l.od, l.oh, l.ow)) = .ok (1, 3, 3) := by decide +kernel

/-- The documented example in small: `Filter(3, 4)` with `Padding(1)` on 1×4×4 gives one 4×3 channel. -/
example : (Conv.named (Shape.mk3 1 4 4) (Shape.mk2 3 4) (Shape.square 1) (Shape.square 1) 0 (fun f => f + 1) : Res (Conv Int)).map
    (fun l => (l.od, l.oh, l.ow)) = .ok (1, 4, 3) := by decide +kernel

example : (FC.named (Shape.mk3 2 3 4) (Shape.mk1 6) (idAct (α := Int)) 0 1).isize = 24 := by decide +kernel

end Trixy
