import Verif.Proof.ConvAdj
import Verif.Props.FC
/- Properties C30–C33, C65 (convolution layer). -/
namespace Trixy
open Finset

variable {α γ ρ σ : Type}

/-! ## C30 geometry -/

/-- The constructor, computing in `size_t`, yields the extents of ordinary arithmetic, also when the filter is larger than
the unpadded input; the last window ends inside the padded input and one more stride does not fit. -/
theorem C30_geometry [Zero α] (d h w fc fh fw pad sv sh : Nat) (hsv : 1 ≤ sv) (hsh : 1 ≤ sh) (hfc : 1 ≤ fc)
    (hH : fh ≤ h + 2 * pad) (hW : fw ≤ w + 2 * pad) (wH : h + 2 * pad + 1 < W64) (wW : w + 2 * pad + 1 < W64)
    (kB : Nat) (kW : Nat → Nat) :
    Ok (Conv.make d h w fc fh fw pad sv sh kB kW : Res (Conv α)) (fun l =>
      l.od = fc ∧ l.oh = (h + 2 * pad - fh) / sv + 1 ∧ l.ow = (w + 2 * pad - fw) / sh + 1 ∧
      sv * (l.oh - 1) + fh ≤ h + 2 * pad ∧ h + 2 * pad < sv * l.oh + fh ∧
      sh * (l.ow - 1) + fw ≤ w + 2 * pad ∧ w + 2 * pad < sh * l.ow + fw ∧
      TenIs l.value fc ((h + 2 * pad - fh) / sv + 1) ((w + 2 * pad - fw) / sh + 1) (fun _ _ _ => 0)) := by
  have geo : Geo h w fh fw pad sv sh := ⟨hsv, hsh, hH, hW, wH, wW⟩
  obtain ⟨l, e, hl, _⟩ := Conv.make_Wf (α := α) (d := d) geo hfc kB kW
  refine ⟨l, e, hl.osz.1, hl.osz.2.1, hl.osz.2.2, ?_, ?_, ?_, ?_, ?_⟩
  · rw [hl.osz.2.1]; exact extent_fit hsv hH
  · rw [hl.osz.2.1]; exact extent_max hsv hH
  · rw [hl.osz.2.2]; exact extent_fit hsh hW
  · rw [hl.osz.2.2]; exact extent_max hsh hW
  · unfold Conv.make at e
    rw [convExtent_eq geo.sv geo.fitH geo.wordH, bind_ok, convExtent_eq geo.sh geo.fitW geo.wordW, bind_ok] at e
    simp only [] at e
    rw [if_neg (by omega)] at e
    injection e with e
    rw [← e]
    exact TenIs_fill _ _ _ 0

/-- Non-vacuity, filter larger than the input: 1×1 input, 3×3 filter, padding 1. -/
example : (Conv.make 1 1 1 2 3 3 1 1 1 0 (fun f => f + 1) : Res (Conv Int)).map (fun l => (l.od, l.oh, l.ow)) =
    .ok (2, 1, 1) := by decide +kernel

/-! ## C31 forward -/

/-- Forward on a layer in any reachable state (see `C31_history`) is the zero-padded strided cross-correlation; nothing but
`value()` changes. -/
theorem C31_forward [CommSemiring α] (l : Conv α) (d h w fc fh fw pad sv sh : Nat) (b : Nat → α)
    (W : Nat → Nat → Nat → Nat → α) (gb : Nat → α) (gW : Nat → Nat → Nat → Nat → α)
    (hl : l.Wf d h w fc fh fw pad sv sh b W gb gW) (x : Ten α) (v : Nat → Nat → Nat → α) (hx : TenIs x d h w v) :
    Ok (l.forward x) (fun l' =>
      TenIs l'.value fc (extent h fh pad sv) (extent w fw pad sh) (fun f y z =>
        b f + ∑ i ∈ range fh, ∑ j ∈ range fw, ∑ c ∈ range d,
          padded v h w c ((sv : Int) * y + i - pad) ((sh : Int) * z + j - pad) * W f c i j) ∧
      l' = { l with value := l'.value }) :=
  (Conv.forward_spec hl hx).mono (fun _ q => q.2)

/-- A convolution layer as it is between calls. -/
def Conv.Good [Zero α] (d h w fc fh fw pad sv sh kB : Nat) (kW : Nat → Nat) (l : Conv α) : Prop :=
  (∃ b W gb gW, l.Wf d h w fc fh fw pad sv sh b W gb gW) ∧ l.keyB = kB ∧ l.keyW = kW

theorem ConvOp.exec_spec [CommSemiring α] {upd : Upd σ α} {size : Nat → Nat} {I : σ → Prop} (hu : UpdOk upd size I)
    (gen : Gen γ ρ α) {d h w fc fh fw pad sv sh kB : Nat} {kW : Nat → Nat}
    (hB : size kB = fc) (hW : ∀ f, f < fc → size (kW f) = d * fh * fw) (s : σ) (g : ρ) (l : Conv α) (hs : I s)
    (hl : l.Good d h w fc fh fw pad sv sh kB kW) (op : ConvOp α γ)
    (hop : op.Fits d h w fc (extent h fh pad sv) (extent w fw pad sh)) :
    Ok (ConvOp.exec upd gen (s, g, l) op) (fun r => I r.1 ∧ r.2.2.Good d h w fc fh fw pad sv sh kB kW) := by
  obtain ⟨⟨b, W, gb, gW, hwf⟩, k1, k2⟩ := hl
  cases op with
  | init c =>
    refine (Conv.init_spec hwf gen c g).bind (fun r hr => Ok_ok.2 ⟨hs, ?_, ?_, ?_⟩)
    · obtain ⟨⟨b', W', h'⟩, _⟩ := hr; exact ⟨_, _, _, _, h'⟩
    · show r.1.keyB = kB; rw [hr.2]; exact k1
    · show r.1.keyW = kW; rw [hr.2]; exact k2
  | forward x =>
    obtain ⟨v, hv⟩ := hop
    refine (Conv.forward_spec hwf hv).bind (fun r hr => Ok_ok.2 ⟨hs, ⟨_, _, _, _, hr.1⟩, ?_, ?_⟩)
    · show r.keyB = kB; rw [hr.2.2]; exact k1
    · show r.keyW = kW; rw [hr.2.2]; exact k2
  | backward x d' full =>
    obtain ⟨⟨v, hv⟩, ⟨u, hu'⟩⟩ := hop
    refine (Conv.backward_spec hwf hv hu' full).bind (fun r hr => Ok_ok.2 ⟨hs, ⟨_, _, _, _, hr.1⟩, ?_, ?_⟩)
    · show r.keyB = kB; rw [hr.2.2]; exact k1
    · show r.keyW = kW; rw [hr.2.2]; exact k2
  | update alpha =>
    refine (Conv.update_full hu hwf (by rw [k2]; exact hW) (by rw [k1]; exact hB) s hs alpha).bind
      (fun r hr => Ok_ok.2 ⟨hr.1, hr.2.1, ?_, ?_⟩)
    · show r.2.keyB = kB; rw [hr.2.2]; exact k1
    · show r.2.keyW = kW; rw [hr.2.2]; exact k2

theorem ConvOp.run_spec [CommSemiring α] {upd : Upd σ α} {size : Nat → Nat} {I : σ → Prop} (hu : UpdOk upd size I)
    (gen : Gen γ ρ α) {d h w fc fh fw pad sv sh kB : Nat} {kW : Nat → Nat}
    (hB : size kB = fc) (hW : ∀ f, f < fc → size (kW f) = d * fh * fw) (ops : List (ConvOp α γ))
    (hops : ∀ op ∈ ops, op.Fits d h w fc (extent h fh pad sv) (extent w fw pad sh)) :
    ∀ (s : σ) (g : ρ) (l : Conv α), I s → l.Good d h w fc fh fw pad sv sh kB kW →
    Ok (ConvOp.run upd gen (s, g, l) ops) (fun r => I r.1 ∧ r.2.2.Good d h w fc fh fw pad sv sh kB kW) := by
  induction ops with
  | nil => intro s g l hs hl; exact Ok_ok.2 ⟨hs, hl⟩
  | cons op ops ih =>
    intro s g l hs hl
    refine (ConvOp.exec_spec hu gen hB hW s g l hs hl op (hops op (by simp))).bind (fun r hr => ?_)
    exact ih (fun o ho => hops o (by simp [ho])) r.1 r.2.1 r.2.2 hr.1 hr.2

/-- After ANY sequence of calls that fits the geometry, starting from construction (any generator, any optimizer that keeps
its buffers initialised), there has been no undefined behaviour — no access left the input, the filters or the
output — and `forward(x)` is the cross-correlation with the parameters held at that moment. -/
theorem C31_history [CommSemiring α] (upd : Upd σ α) (size : Nat → Nat) (I : σ → Prop) (hu : UpdOk upd size I)
    (gen : Gen γ ρ α) (d h w fc fh fw pad sv sh : Nat) (geo : Geo h w fh fw pad sv sh) (hfc : 1 ≤ fc) (kB : Nat) (kW : Nat → Nat)
    (hB : size kB = fc) (hW : ∀ f, f < fc → size (kW f) = d * fh * fw) (s : σ) (hs : I s) (g : ρ) (ops : List (ConvOp α γ))
    (hops : ∀ op ∈ ops, op.Fits d h w fc (extent h fh pad sv) (extent w fw pad sh)) :
    Ok (do let l ← Conv.make d h w fc fh fw pad sv sh kB kW
           ConvOp.run upd gen (s, g, l) ops) (fun r => ∃ b W, VecIs r.2.2.B fc b ∧ WsIs r.2.2.Ws fc d fh fw W ∧
      ∀ (x : Ten α) (v : Nat → Nat → Nat → α), TenIs x d h w v → Ok (r.2.2.forward x) (fun l' =>
        TenIs l'.value fc (extent h fh pad sv) (extent w fw pad sh) (corr d h w fh fw pad sv sh b W v) ∧
        l'.B = r.2.2.B ∧ l'.Ws = r.2.2.Ws)) := by
  refine (Conv.make_Wf (d := d) geo hfc kB kW).bind (fun l hl => ?_)
  refine (ConvOp.run_spec hu gen hB hW ops hops s g l hs ⟨⟨_, _, _, _, hl.1⟩, hl.2.1, hl.2.2⟩).mono (fun r hr => ?_)
  obtain ⟨_, ⟨b, W, gb, gW, hwf⟩, _⟩ := hr
  refine ⟨b, W, hwf.B, hwf.Ws, fun x v hx => (Conv.forward_spec hwf hx).mono (fun l' q => ⟨q.2.1, ?_, ?_⟩)⟩ <;> rw [q.2.2]

/-- Non-vacuity: 1×2×2 input, one 3×3 filter of ones, padding 1, stride 1: each output is the sum of all cells plus bias. -/
def exConv : Res (Conv Int) := do
  let l ← Conv.make 1 2 2 1 3 3 1 1 1 0 (fun f => f + 1)
  return { l with B := Buf.of [5], Ws := [⟨1, 3, 3, Buf.of [1, 1, 1, 1, 1, 1, 1, 1, 1]⟩] }
example : (do let l ← exConv; let l ← l.forward ⟨1, 2, 2, Buf.of [1, 2, 3, 4]⟩; return l.value : Res (Ten Int)) =
    .ok ⟨1, 2, 2, Buf.of [15, 15, 15, 15]⟩ := by decide +kernel
example : Geo 2 2 3 3 1 1 1 := by constructor <;> simp [W64]

/-! ## C32 backward -/

/-- Backward, explicitly: the bias gradient increases by Σ u, the filter gradient by Σ u · padded input, and `delta()` is
`convDelta` (Spec/Conv.lean); parameters and `value()` are unchanged. -/
theorem C32_backward [CommSemiring α] (l : Conv α) (d h w fc fh fw pad sv sh : Nat) (b : Nat → α)
    (W : Nat → Nat → Nat → Nat → α) (gb : Nat → α) (gW : Nat → Nat → Nat → Nat → α)
    (hl : l.Wf d h w fc fh fw pad sv sh b W gb gW) (x dl : Ten α) (v u : Nat → Nat → Nat → α) (hx : TenIs x d h w v)
    (hd : TenIs dl fc (extent h fh pad sv) (extent w fw pad sh) u) (full : Bool) :
    Ok (l.backward x dl full) (fun l' =>
      VecIs l'.gradB fc (fun f => gb f + biasGrad (extent h fh pad sv) (extent w fw pad sh) f v u) ∧
      WsIs l'.gradWs fc d fh fw (fun f c i j => gW f c i j +
        filterGrad h w pad sv sh (extent h fh pad sv) (extent w fw pad sh) f c i j v u) ∧
      TenIs l'.delta d h w (convDelta fc fh fw pad sv sh (extent h fh pad sv) (extent w fw pad sh) W u) ∧
      l'.B = l.B ∧ l'.Ws = l.Ws ∧ l'.value = l.value) := by
  refine (Conv.backward_spec hl hx hd full).mono (fun l' q => ⟨q.1.gradB, q.1.gradWs, q.2.1, ?_, ?_, ?_⟩) <;> rw [q.2.2]

/-- `delta()` is the adjoint of the linear part of forward applied to the incoming delta: ⟨u, conv(t)⟩ = ⟨delta, t⟩ for
every tensor `t` of the input's shape. -/
theorem C32_adjoint [CommSemiring α] (l : Conv α) (d h w fc fh fw pad sv sh : Nat) (b : Nat → α)
    (W : Nat → Nat → Nat → Nat → α) (gb : Nat → α) (gW : Nat → Nat → Nat → Nat → α)
    (hl : l.Wf d h w fc fh fw pad sv sh b W gb gW) (x dl : Ten α) (v u : Nat → Nat → Nat → α) (hx : TenIs x d h w v)
    (hd : TenIs dl fc (extent h fh pad sv) (extent w fw pad sh) u) (full : Bool) :
    Ok (l.backward x dl full) (fun l' => ∃ δ, TenIs l'.delta d h w δ ∧ ∀ t : Nat → Nat → Nat → α,
      ∑ f ∈ range fc, ∑ oy ∈ range (extent h fh pad sv), ∑ ox ∈ range (extent w fw pad sh),
        u f oy ox * corr d h w fh fw pad sv sh (fun _ => 0) W t f oy ox =
      ∑ c ∈ range d, ∑ y ∈ range h, ∑ z ∈ range w, δ c y z * t c y z) := by
  refine (Conv.backward_spec hl hx hd full).mono (fun l' q => ⟨_, q.2.1, fun t => ?_⟩)
  rw [← conv_adjoint]
  exact sum_congr3 (fun f oy ox _ _ _ => by unfold corr; rw [zero_add])

/-- Over the reals: the increases of the bias and filter gradients, and `delta()`, are the derivative of ⟨u, value⟩ along
arbitrary differentiable curves of bias, filters and input. -/
theorem C32_curve (l : Conv ℝ) (d h w fc fh fw pad sv sh : Nat) (b : Nat → ℝ)
    (W : Nat → Nat → Nat → Nat → ℝ) (gb : Nat → ℝ) (gW : Nat → Nat → Nat → Nat → ℝ)
    (hl : l.Wf d h w fc fh fw pad sv sh b W gb gW) (x dl : Ten ℝ) (v u : Nat → Nat → Nat → ℝ) (hx : TenIs x d h w v)
    (hd : TenIs dl fc (extent h fh pad sv) (extent w fw pad sh) u) (full : Bool) :
    Ok (l.backward x dl full) (fun l' => ∃ (β : Nat → ℝ) (ω : Nat → Nat → Nat → Nat → ℝ) (δ : Nat → Nat → Nat → ℝ),
      VecIs l'.gradB fc (fun f => gb f + β f) ∧ WsIs l'.gradWs fc d fh fw (fun f c i j => gW f c i j + ω f c i j) ∧
      TenIs l'.delta d h w δ ∧
      ∀ (t0 : ℝ) (bc : ℝ → Nat → ℝ) (Wc : ℝ → Nat → Nat → Nat → Nat → ℝ) (xc : ℝ → Nat → Nat → Nat → ℝ)
        (b' : Nat → ℝ) (W' : Nat → Nat → Nat → Nat → ℝ) (x' : Nat → Nat → Nat → ℝ),
        bc t0 = b → Wc t0 = W → xc t0 = v →
        (∀ f, f < fc → HasDerivAt (fun t => bc t f) (b' f) t0) →
        (∀ f c i j, f < fc → c < d → i < fh → j < fw → HasDerivAt (fun t => Wc t f c i j) (W' f c i j) t0) →
        (∀ c y z, c < d → y < h → z < w → HasDerivAt (fun t => xc t c y z) (x' c y z) t0) →
        HasDerivAt (fun t => ∑ f ∈ range fc, ∑ oy ∈ range (extent h fh pad sv), ∑ ox ∈ range (extent w fw pad sh),
            u f oy ox * corr d h w fh fw pad sv sh (bc t) (Wc t) (xc t) f oy ox)
          (∑ f ∈ range fc, β f * b' f +
           ∑ f ∈ range fc, ∑ c ∈ range d, ∑ i ∈ range fh, ∑ j ∈ range fw, ω f c i j * W' f c i j +
           ∑ c ∈ range d, ∑ y ∈ range h, ∑ z ∈ range w, δ c y z * x' c y z) t0) := by
  refine (Conv.backward_spec hl hx hd full).mono (fun l' q => ⟨_, _, _, q.1.gradB, q.1.gradWs, q.2.1, ?_⟩)
  intro t0 bc Wc xc b' W' x' eb eW ex hb hW hx'
  have := conv_curve (pad := pad) (sv := sv) (sh := sh) (OH := extent h fh pad sv) (OW := extent w fw pad sh) (u := u) hb hW hx'
  rw [eW, ex] at this
  exact this

/-- Partial derivatives of ⟨u, value⟩. -/
theorem C32_partials (l : Conv ℝ) (d h w fc fh fw pad sv sh : Nat) (b : Nat → ℝ)
    (W : Nat → Nat → Nat → Nat → ℝ) (gb : Nat → ℝ) (gW : Nat → Nat → Nat → Nat → ℝ)
    (hl : l.Wf d h w fc fh fw pad sv sh b W gb gW) (x dl : Ten ℝ) (v u : Nat → Nat → Nat → ℝ) (hx : TenIs x d h w v)
    (hd : TenIs dl fc (extent h fh pad sv) (extent w fw pad sh) u) (full : Bool) :
    Ok (l.backward x dl full) (fun l' => ∃ (β : Nat → ℝ) (ω : Nat → Nat → Nat → Nat → ℝ) (δ : Nat → Nat → Nat → ℝ),
      VecIs l'.gradB fc (fun f => gb f + β f) ∧ WsIs l'.gradWs fc d fh fw (fun f c i j => gW f c i j + ω f c i j) ∧
      TenIs l'.delta d h w δ ∧
      let L := fun (b : Nat → ℝ) (W : Nat → Nat → Nat → Nat → ℝ) (v : Nat → Nat → Nat → ℝ) =>
        ∑ f ∈ range fc, ∑ oy ∈ range (extent h fh pad sv), ∑ ox ∈ range (extent w fw pad sh),
          u f oy ox * corr d h w fh fw pad sv sh b W v f oy ox
      (∀ f, f < fc → HasDerivAt (fun t => L (setAt b f t) W v) (β f) (b f)) ∧
      (∀ f c i j, f < fc → c < d → i < fh → j < fw →
        HasDerivAt (fun t => L b (fun f' c' i' j' => if f' = f ∧ c' = c ∧ i' = i ∧ j' = j then t else W f' c' i' j') v)
          (ω f c i j) (W f c i j)) ∧
      (∀ c y z, c < d → y < h → z < w →
        HasDerivAt (fun t => L b W (fun c' y' z' => if c' = c ∧ y' = y ∧ z' = z then t else v c' y' z'))
          (δ c y z) (v c y z))) := by
  refine (C32_curve l d h w fc fh fw pad sv sh b W gb gW hl x dl v u hx hd full).mono (fun l' q => ?_)
  obtain ⟨β, ω, δ, h1, h2, h3, hc⟩ := q
  refine ⟨β, ω, δ, h1, h2, h3, fun f hf => ?_, fun f c i j hf hc' hi hj => ?_, fun c y z hc' hy hz => ?_⟩
  · have := hc (b f) (fun t => setAt b f t) (fun _ => W) (fun _ => v) (fun k => if k = f then 1 else 0) (fun _ _ _ _ => 0)
      (fun _ _ _ => 0) (setAt_self b f) rfl rfl (fun k _ => hasDerivAt_setAt b f k _) (fun _ _ _ _ _ _ _ _ => hasDerivAt_const _ _)
      (fun _ _ _ _ _ _ => hasDerivAt_const _ _)
    simpa [hf] using this
  · have := hc (W f c i j) (fun _ => b)
      (fun t f' c' i' j' => if f' = f ∧ c' = c ∧ i' = i ∧ j' = j then t else W f' c' i' j') (fun _ => v) (fun _ => 0)
      (fun f' c' i' j' => if f' = f ∧ c' = c ∧ i' = i ∧ j' = j then 1 else 0)
      (fun _ _ _ => 0) rfl (by
        funext f' c' i' j'
        by_cases e : f' = f ∧ c' = c ∧ i' = i ∧ j' = j
        · obtain ⟨rfl, rfl, rfl, rfl⟩ := e; simp
        · simp [e]) rfl (fun _ _ => hasDerivAt_const _ _) (fun f' c' i' j' _ _ _ _ => by
        by_cases e : f' = f ∧ c' = c ∧ i' = i ∧ j' = j
        · simp only [e, and_self, if_true]; exact hasDerivAt_id _
        · simp only [e, if_false]; exact hasDerivAt_const _ _)
      (fun _ _ _ _ _ _ => hasDerivAt_const _ _)
    have e : ∑ f' ∈ range fc, ∑ c' ∈ range d, ∑ i' ∈ range fh, ∑ j' ∈ range fw,
        ω f' c' i' j' * (if f' = f ∧ c' = c ∧ i' = i ∧ j' = j then (1 : ℝ) else 0) = ω f c i j := by
      rw [Finset.sum_eq_single f, Finset.sum_eq_single c, Finset.sum_eq_single i, Finset.sum_eq_single j]
      · simp
      · intro a _ ha; simp [ha]
      · intro hh; exact absurd (mem_range.2 hj) hh
      · intro a _ ha; simp [ha]
      · intro hh; exact absurd (mem_range.2 hi) hh
      · intro a _ ha; simp [ha]
      · intro hh; exact absurd (mem_range.2 hc') hh
      · intro a _ ha; simp [ha]
      · intro hh; exact absurd (mem_range.2 hf) hh
    rw [e] at this
    simpa using this
  · have := hc (v c y z) (fun _ => b) (fun _ => W)
      (fun t c' y' z' => if c' = c ∧ y' = y ∧ z' = z then t else v c' y' z') (fun _ => 0) (fun _ _ _ _ => 0)
      (fun c' y' z' => if c' = c ∧ y' = y ∧ z' = z then 1 else 0) rfl rfl (by
        funext c' y' z'
        by_cases e : c' = c ∧ y' = y ∧ z' = z
        · obtain ⟨rfl, rfl, rfl⟩ := e; simp
        · simp [e]) (fun _ _ => hasDerivAt_const _ _) (fun _ _ _ _ _ _ _ _ => hasDerivAt_const _ _) (fun c' y' z' _ _ _ => by
        by_cases e : c' = c ∧ y' = y ∧ z' = z
        · simp only [e, and_self, if_true]; exact hasDerivAt_id _
        · simp only [e, if_false]; exact hasDerivAt_const _ _)
    have e : ∑ c' ∈ range d, ∑ y' ∈ range h, ∑ z' ∈ range w,
        δ c' y' z' * (if c' = c ∧ y' = y ∧ z' = z then (1 : ℝ) else 0) = δ c y z := by
      rw [Finset.sum_eq_single c, Finset.sum_eq_single y, Finset.sum_eq_single z]
      · simp
      · intro a _ ha; simp [ha]
      · intro hh; exact absurd (mem_range.2 hz) hh
      · intro a _ ha; simp [ha]
      · intro hh; exact absurd (mem_range.2 hy) hh
      · intro a _ ha; simp [ha]
      · intro hh; exact absurd (mem_range.2 hc') hh
    rw [e] at this
    simpa using this

/-- Non-vacuity: the layer of `exConv`. -/
example : (do let l ← exConv; let l ← l.backward ⟨1, 2, 2, Buf.of [1, 2, 3, 4]⟩ ⟨1, 2, 2, Buf.of [1, 0, 0, 10]⟩ true
              return (l.gradB, l.gradWs, l.delta) : Res _) =
    .ok (Buf.of [11], [⟨1, 3, 3, Buf.of [10, 20, 0, 30, 41, 2, 0, 3, 4]⟩], ⟨1, 2, 2, Buf.of [11, 11, 11, 11]⟩) := by
  decide +kernel

/-! ## C33 updates -/

/-- Exact behaviour under gradient descent for every history of backward passes and updates: each parameter and its
gradient accumulator follow `convActual`. -/
theorem C33_actual [CommRing α] (gen : Gen γ ρ α) (lr : α) (d h w fc fh fw pad sv sh : Nat) (g : ρ)
    (ops : List (ConvOp α γ)) (evs : List (ConvEv α))
    (hev : List.Forall₂ (ConvEv.Is d h w fc (extent h fh pad sv) (extent w fw pad sh)) ops evs) :
    ∀ (l : Conv α) (b : Nat → α) (W : Nat → Nat → Nat → Nat → α) (gb : Nat → α) (gW : Nat → Nat → Nat → Nat → α),
    l.Wf d h w fc fh fw pad sv sh b W gb gW →
    Ok (ConvOp.run (gdUpdate (α := α)) gen (lr, g, l) ops) (fun r =>
      VecIs r.2.2.B fc (fun f =>
        (convActual lr (biasGrad (extent h fh pad sv) (extent w fw pad sh) f) (b f, gb f) evs).1) ∧
      WsIs r.2.2.Ws fc d fh fw (fun f c i j =>
        (convActual lr (filterGrad h w pad sv sh (extent h fh pad sv) (extent w fw pad sh) f c i j) (W f c i j, gW f c i j) evs).1)) := by
  induction hev with
  | nil => intro l b W gb gW hl; exact Ok_ok.2 ⟨hl.B, hl.Ws⟩
  | @cons op ev ops evs hoe _ ih =>
    intro l b W gb gW hl
    cases op with
    | init c => cases ev <;> exact absurd hoe (by simp [ConvEv.Is])
    | forward x => cases ev <;> exact absurd hoe (by simp [ConvEv.Is])
    | backward x dl full =>
      cases ev with
      | upd a => exact absurd hoe (by simp [ConvEv.Is])
      | back vx vu =>
        unfold ConvOp.run
        refine Ok.bind (P := fun r => r.1 = lr ∧ r.2.1 = g ∧ r.2.2.Wf d h w fc fh fw pad sv sh b W
            (fun f => gb f + biasGrad (extent h fh pad sv) (extent w fw pad sh) f vx vu)
            (fun f c i j => gW f c i j + filterGrad h w pad sv sh (extent h fh pad sv) (extent w fw pad sh) f c i j vx vu))
          ((Conv.backward_spec hl hoe.1 hoe.2 full).bind (fun l' q => Ok_ok.2 ⟨rfl, rfl, q.1⟩)) (fun r hr => ?_)
        obtain ⟨r1, r2, r3⟩ := r
        obtain ⟨rfl, rfl, h3⟩ := hr
        exact ih r3 _ _ _ _ h3
    | update a =>
      cases ev with
      | back vx vu => exact absurd hoe (by simp [ConvEv.Is])
      | upd a' =>
        have : a = a' := hoe
        subst this
        unfold ConvOp.run
        refine Ok.bind (P := fun r => r.1 = lr ∧ r.2.1 = g ∧ r.2.2.Wf d h w fc fh fw pad sv sh
            (fun f => b f - gb f * a * lr) (fun f c i j => W f c i j - gW f c i j * a * lr)
            (fun f => gb f * a * lr) (fun f c i j => gW f c i j * a * lr))
          ((Conv.update_gd hl lr a).bind (fun l' q => Ok_ok.2 ⟨q.1, rfl, q.2.1⟩)) (fun r hr => ?_)
        obtain ⟨r1, r2, r3⟩ := r
        obtain ⟨rfl, rfl, h3⟩ := hr
        exact ih r3 _ _ _ _ h3

theorem convActual_backs [CommRing α] (lr : α) (grad) (xs : List ((Nat → Nat → Nat → α) × (Nat → Nat → Nat → α))) :
    ∀ (p g a : α),
    (convActual lr grad (p, g) (xs.map (fun e => ConvEv.back e.1 e.2) ++ [.upd a])).1 =
      (convIntended lr grad (p, g) (xs.map (fun e => ConvEv.back e.1 e.2) ++ [.upd a])).1 := by
  induction xs with
  | nil => intro p g a; rfl
  | cons e xs ih => intro p g a; exact ih p (g + grad e.1 e.2) a

/-- What holds: any number of backward passes followed by the first update does what the property demands. Missing for the
full property: later updates (`C33_violated`). -/
theorem C33_first_update_partial [CommRing α] (gen : Gen γ ρ α) (lr alpha : α) (d h w fc fh fw pad sv sh : Nat) (g : ρ)
    (ops : List (ConvOp α γ)) (xs : List ((Nat → Nat → Nat → α) × (Nat → Nat → Nat → α)))
    (hev : List.Forall₂ (ConvEv.Is d h w fc (extent h fh pad sv) (extent w fw pad sh)) ops
      (xs.map (fun e => ConvEv.back e.1 e.2) ++ [.upd alpha]))
    (l : Conv α) (b : Nat → α) (W : Nat → Nat → Nat → Nat → α)
    (hl : l.Wf d h w fc fh fw pad sv sh b W (fun _ => 0) (fun _ _ _ _ => 0)) :
    Ok (ConvOp.run (gdUpdate (α := α)) gen (lr, g, l) ops) (fun r =>
      VecIs r.2.2.B fc (fun f =>
        (convIntended lr (biasGrad (extent h fh pad sv) (extent w fw pad sh) f) (b f, 0)
          (xs.map (fun e => ConvEv.back e.1 e.2) ++ [.upd alpha])).1) ∧
      WsIs r.2.2.Ws fc d fh fw (fun f c i j =>
        (convIntended lr (filterGrad h w pad sv sh (extent h fh pad sv) (extent w fw pad sh) f c i j) (W f c i j, 0)
          (xs.map (fun e => ConvEv.back e.1 e.2) ++ [.upd alpha])).1)) := by
  refine (C33_actual gen lr d h w fc fh fw pad sv sh g ops _ hev l b W _ _ hl).mono (fun r q => ⟨?_, ?_⟩)
  · exact q.1.congr (fun f _ => convActual_backs lr _ xs _ _ _)
  · exact q.2.congr (fun f c i j _ _ _ _ => convActual_backs lr _ xs _ _ _)

/-- VIOLATED: on every layer, for every input and every incoming delta whose sum over some channel `f` is non-zero, the
history backward, update, backward with zero delta, update leaves bias `f` different from what the property demands
(unless the learning rate or alpha is 0): the first gradient is applied again. -/
theorem C33_violated [CommRing α] [IsDomain α] (gen : Gen γ ρ α) (lr alpha : α) (h1 : lr ≠ 0) (h2 : alpha ≠ 0)
    (d h w fc fh fw pad sv sh : Nat) (g : ρ) (l : Conv α) (b : Nat → α) (W : Nat → Nat → Nat → Nat → α)
    (hl : l.Wf d h w fc fh fw pad sv sh b W (fun _ => 0) (fun _ _ _ _ => 0)) (x dl dz : Ten α)
    (v u : Nat → Nat → Nat → α) (hx : TenIs x d h w v) (hd : TenIs dl fc (extent h fh pad sv) (extent w fw pad sh) u)
    (hz : TenIs dz fc (extent h fh pad sv) (extent w fw pad sh) (fun _ _ _ => 0)) (f : Nat) (hf : f < fc)
    (hu : biasGrad (extent h fh pad sv) (extent w fw pad sh) f v u ≠ 0) :
    Ok (ConvOp.run (gdUpdate (α := α)) gen (lr, g, l)
      [.backward x dl true, .update alpha, .backward x dz true, .update alpha]) (fun r => ∃ a, r.2.2.B.get f = .ok a ∧
      a ≠ (convIntended lr (biasGrad (extent h fh pad sv) (extent w fw pad sh) f) (b f, 0)
        [.back v u, .upd alpha, .back v (fun _ _ _ => 0), .upd alpha]).1) := by
  refine (C33_actual gen lr d h w fc fh fw pad sv sh g
    [.backward x dl true, .update alpha, .backward x dz true, .update alpha]
    [.back v u, .upd alpha, .back v (fun _ _ _ => 0), .upd alpha]
    (List.Forall₂.cons ⟨hx, hd⟩ (.cons rfl (.cons ⟨hx, hz⟩ (.cons rfl .nil)))) l b W _ _ hl).mono (fun r q => ?_)
  refine ⟨_, q.1.get hf, ?_⟩
  have z : biasGrad (extent h fh pad sv) (extent w fw pad sh) f v (fun _ _ _ => (0 : α)) = 0 := by simp [biasGrad]
  simp only [convActual, convIntended, z, zero_add, add_zero, zero_mul, sub_zero]
  intro e
  have : biasGrad (extent h fh pad sv) (extent w fw pad sh) f v u * alpha * lr * alpha * lr = 0 := sub_eq_self.1 e
  simp [h1, h2, hu] at this

/-- Non-vacuity: `exConv` with learning rate 1, alpha 1 and delta summing to 11: the bias drops by 22 instead of 11. -/
example : (do
    let l ← exConv
    let r ← ConvOp.run (gdUpdate (α := Int)) exGen (1, 0, l) [.backward ⟨1, 2, 2, Buf.of [1, 2, 3, 4]⟩ ⟨1, 2, 2, Buf.of [1, 0, 0, 10]⟩ true,
      .update 1, .backward ⟨1, 2, 2, Buf.of [1, 2, 3, 4]⟩ ⟨1, 2, 2, Buf.of [0, 0, 0, 0]⟩ true, .update 1]
    return r.2.2.B : Res _) = .ok (Buf.of [5 - 11 - 11]) := by decide +kernel

/-! ## C65 convolution before a fully connected layer -/

/-- VIOLATED: a convolution whose output has more than one channel or row reads outside the delta of a directly
following fully connected layer, whatever that layer's width, the input and the parameters. -/
theorem C65_violated [CommSemiring α] (l : Conv α) (d h w fc fh fw pad sv sh : Nat) (b : Nat → α)
    (W : Nat → Nat → Nat → Nat → α) (gb : Nat → α) (gW : Nat → Nat → Nat → Nat → α)
    (hl : l.Wf d h w fc fh fw pad sv sh b W gb gW) (hfc : 1 ≤ fc) (hbig : 1 < fc ∨ 1 < extent h fh pad sv)
    (next : FC α) (n m : Nat) (bn : Nat → α) (Wn : Nat → Nat → α) (hn : next.Wf n m bn Wn) (x : Ten α) (full : Bool) :
    l.backward x next.delta full = .error .oob := by
  obtain ⟨u, hu⟩ := hn.delta
  obtain ⟨vb, hb, _⟩ := hl.buff
  have s1 := hl.geo.sv
  have s2 := hl.geo.sh
  have n1 := extent_pos h fh pad sv
  have n2 := extent_pos w fw pad sh
  have b1 := extent_fit s1 hl.geo.fitH
  have b2 := extent_fit s2 hl.geo.fitW
  have wH := hl.geo.wordH
  have wW := hl.geo.wordW
  -- reading cell (c, i, j) of the delta
  have hget : ∀ c i j, (1 ≤ c ∨ 1 ≤ i ∨ n ≤ j) → next.delta.get c i j = .error .oob := by
    intro c i j hcij
    unfold Ten.get
    rw [hu.2.1, hu.2.2.1]
    refine BufIs.get_oob hu.2.2.2 ?_
    rcases Nat.eq_zero_or_pos (c * 1 + i) with h0 | hpos
    · have : c = 0 ∧ i = 0 := by omega
      rw [h0]; omega
    · have := Nat.mul_le_mul_right n (show 1 ≤ c * 1 + i from hpos)
      omega
  have hset : ∀ c i j a (B : Ten α), c < fc → i < extent h fh pad sv → j < extent w fw pad sh →
      (∃ f, TenIs B fc (sv * (extent h fh pad sv - 1) + 1) (sh * (extent w fw pad sh - 1) + 1) f) →
      Ok (B.set c (wmul i sv) (wmul j sh) a)
        (fun B' => ∃ f, TenIs B' fc (sv * (extent h fh pad sv - 1) + 1) (sh * (extent w fw pad sh - 1) + 1) f) := by
    intro c i j a B hc hi hj ⟨f, hB⟩
    have e1 : sv * i ≤ sv * (extent h fh pad sv - 1) := Nat.mul_le_mul_left _ (by omega)
    have e2 : sh * j ≤ sh * (extent w fw pad sh - 1) := Nat.mul_le_mul_left _ (by omega)
    rw [wmul_eq (by rw [Nat.mul_comm]; omega), wmul_eq (by rw [Nat.mul_comm]; omega), Nat.mul_comm i, Nat.mul_comm j]
    exact (hB.set hc (by omega) (by omega) a).mono (fun B' h' => ⟨_, h'⟩)
  have key : l.spread next.delta = .error .oob := by
    unfold Conv.spread
    obtain ⟨e4, e5, e6⟩ := hl.osz
    obtain ⟨_, p2, p3⟩ := hl.par
    rw [hb.1, e5, e6, p2, p3]
    let P : Ten α → Prop := fun B => ∃ f, TenIs B fc (sv * (extent h fh pad sv - 1) + 1) (sh * (extent w fw pad sh - 1) + 1) f
    have cell : ∀ c i j B, c < fc → i < extent h fh pad sv → j < extent w fw pad sh → ¬ (1 ≤ c ∨ 1 ≤ i ∨ n ≤ j) → P B →
        Ok (do let a ← next.delta.get c i j; B.set c (wmul i sv) (wmul j sh) a) P := by
      intro c i j B hc hi hj hn' hB
      have hcc : c = 0 := by omega
      have hii : i = 0 := by omega
      have hg : next.delta.get c i j = .ok (u j) := by
        unfold Ten.get
        rw [hu.2.1, hu.2.2.1, hcc, hii]
        simpa using hu.2.2.2.get (i := j) (by omega)
      rw [hg, bind_ok]
      exact hset c i j _ B hc hi hj hB
    have bad : ∀ c i j (B : Ten α), (1 ≤ c ∨ 1 ≤ i ∨ n ≤ j) →
        (do let a ← next.delta.get c i j; B.set c (wmul i sv) (wmul j sh) a : Res (Ten α)) = .error .oob := by
      intro c i j B hb'
      rw [hget c i j hb']; rfl
    -- the first row
    by_cases hnw : n < extent w fw pad sh
    · refine forN_err (k := 0) (fun _ => P) hfc ⟨_, hb⟩ (by omega) (fun B hB => ?_)
      refine forN_err (k := 0) (fun _ => P) n1 hB (by omega) (fun B hB => ?_)
      exact forN_err (k := n) (fun _ => P) hnw hB (fun j hj B hB => cell 0 0 j B hfc n1 (by omega) (by omega) hB)
        (fun B _ => bad 0 0 n B (by omega))
    · have row : ∀ c i B, c < fc → i < extent h fh pad sv → c = 0 → i = 0 → P B →
          Ok (forN (extent w fw pad sh) B (fun j B => do
            let a ← next.delta.get c i j
            B.set c (wmul i sv) (wmul j sh) a)) P := by
        intro c i B hc hi h0 h0' hB
        exact forN_spec (fun _ => P) hB (fun j hj B hB => cell c i j B hc hi hj (by omega) hB)
      by_cases hh : 1 < extent h fh pad sv
      · refine forN_err (k := 0) (fun _ => P) hfc ⟨_, hb⟩ (by omega) (fun B hB => ?_)
        refine forN_err (k := 1) (fun _ => P) hh hB (fun i hi B hB => row 0 i B hfc (by omega) rfl (by omega) hB) (fun B hB => ?_)
        exact forN_err (k := 0) (fun _ => P) n2 hB (by omega) (fun B _ => bad 0 1 0 B (by omega))
      · have hfc2 : 1 < fc := by omega
        refine forN_err (k := 1) (fun _ => P) hfc2 ⟨_, hb⟩ (fun c hc B hB => ?_) (fun B hB => ?_)
        · exact forN_spec (fun _ => P) hB (fun i hi B hB => row c i B (by omega) hi (by omega) (by omega) hB)
        · refine forN_err (k := 0) (fun _ => P) n1 hB (by omega) (fun B hB => ?_)
          exact forN_err (k := 0) (fun _ => P) n2 hB (by omega) (fun B _ => bad 1 0 0 B (by omega))
  unfold Conv.backward
  rw [key]; rfl

/-- What holds: with a single output channel of one row, the delta of a following fully connected layer of matching
width is read in place. -/
theorem C65_single_row_partial [CommSemiring α] (l : Conv α) (d h w fh fw pad sv sh : Nat) (b : Nat → α)
    (W : Nat → Nat → Nat → Nat → α) (gb : Nat → α) (gW : Nat → Nat → Nat → Nat → α)
    (hl : l.Wf d h w 1 fh fw pad sv sh b W gb gW) (hrow : extent h fh pad sv = 1)
    (next : FC α) (m : Nat) (bn : Nat → α) (Wn : Nat → Nat → α) (hn : next.Wf (extent w fw pad sh) m bn Wn) (x : Ten α)
    (v : Nat → Nat → Nat → α) (hx : TenIs x d h w v) (u : Nat → α) (hu : RowIs next.delta (extent w fw pad sh) u) (full : Bool) :
    Ok (l.backward x next.delta full) (fun l' => TenIs l'.delta d h w
      (convDelta 1 fh fw pad sv sh (extent h fh pad sv) (extent w fw pad sh) W (fun _ _ z => u z))) := by
  have ht : TenIs next.delta 1 (extent h fh pad sv) (extent w fw pad sh) (fun _ _ z => u z) := by
    rw [hrow]
    refine ⟨hu.1, hu.2.1, hu.2.2.1, by simpa using hu.2.2.2.length, fun i j k hi hj hk => ?_⟩
    have : i = 0 := by omega
    have : j = 0 := by omega
    subst_vars
    simpa using hu.2.2.2.2 k hk
  exact (Conv.backward_spec hl hx ht full).mono (fun l' q => q.2.1)

/-- Non-vacuity: the 2×2 output of `exConv` followed by a 4→1 layer. -/
example : (do let l ← exConv; (l.backward ⟨1, 2, 2, Buf.of [1, 2, 3, 4]⟩ (FC.make 4 1 exAct 0 1).delta true).map (·.delta) : Res _) =
    .error .oob := by decide +kernel

end Trixy
