import Verif.Proof.Init
import Verif.Proof.NetDense
import Verif.Props.FC
import Verif.Props.Conv
import Verif.Props.Pool
/- Properties C37 (feedforward) and C42 (initialisation). -/
namespace Trixy
set_option linter.unusedSectionVars false

variable {α γ ρ : Type}

/-! ## C37 feedforward -/

theorem RowIs.flatIs {t : Ten α} {m : Nat} {v : Nat → α} (h : RowIs t m v) : FlatIs t (1, 1, m) v :=
  ⟨h.1, h.2.1, h.2.2.1, by simpa using h.2.2.2⟩

theorem FlatIs.tenIs {t : Ten α} {d h w : Nat} {v : Nat → α} (ht : FlatIs t (d, h, w) v) : TenIs t d h w (unflat h w v) :=
  TenIs.of_flat ht.1 ht.2.1 ht.2.2.1 ht.2.2.2

theorem TenIs.flatIs {t : Ten α} {d h w : Nat} {f : Nat → Nat → Nat → α} (ht : TenIs t d h w f) :
    FlatIs t (d, h, w) (fun k => f (k / w / h) (k / w % h) (k % w)) := ⟨ht.1, ht.2.1, ht.2.2.1, ht.flat⟩

/-- One layer: the value is the layer's function of the input, the layer still computes the same function afterwards and its
parameters are the same. -/
theorem C37_layer [CommSemiring α] [LinearOrder α] (l : Layer α) (s s' : Nat × Nat × Nat) (F : (Nat → α) → Nat → α)
    (hl : l.Computes s s' F) (x : Ten α) (v : Nat → α) (hx : FlatIs x s v) :
    Ok (l.forward x) (fun l' => FlatIs l'.value s' (F v) ∧ l'.Computes s s' F ∧ l'.params = l.params) := by
  cases hl with
  | fc hwf hact =>
    unfold Layer.forward
    refine (FC.forward_spec hwf hact hx.2.2.2).bind (fun l' q => Ok_ok.2 ⟨q.2.1.flatIs, ?_, ?_⟩)
    · exact .fc q.1 (by rw [q.2.2.2]; exact hact)
    · show [_, _] = [_, _]
      rw [q.2.2.2]
  | rawFC hB hW hv hact =>
    unfold Layer.forward
    rename_i l d h w m b W F D v0
    have key : Ok (l.forward x) (fun l' => RowIs l'.value m (F (affine (d * h * w) W b v)) ∧ l' = { l with value := l'.value }) := by
      unfold RawFC.forward
      refine (dotRow_spec hx.2.2.2 hW (Nat.le_refl _) hv.2.2.2.length).bind (fun b1 h1 => ?_)
      refine (zipInto_spec h1 hB (Nat.le_refl _)).bind (fun b2 h2 => ?_)
      refine (hact.fSelf b2 _ h2).bind (fun vd hvd => ?_)
      exact Ok_ok.2 ⟨⟨hv.1, hv.2.1, hv.2.2.1, hvd⟩, rfl⟩
    refine key.bind (fun l' q => Ok_ok.2 ⟨q.1.flatIs, ?_, ?_⟩)
    · exact .rawFC (by rw [q.2]; exact hB) (by rw [q.2]; exact hW) q.1 (by rw [q.2]; exact hact)
    · show [_, _] = [_, _]
      rw [q.2]
  | conv hwf =>
    unfold Layer.forward
    refine (Conv.forward_spec hwf hx.tenIs).bind (fun l' q => Ok_ok.2 ⟨q.2.1.flatIs, .conv q.1, ?_⟩)
    show _ :: _ = _ :: _
    rw [q.2.2]
  | rawConv hwf =>
    unfold Layer.forward
    refine (Conv.forward_spec hwf hx.tenIs).bind (fun l' q => Ok_ok.2 ⟨q.2.1.flatIs, .rawConv q.1, ?_⟩)
    show _ :: _ = _ :: _
    rw [q.2.2]
  | rawPool hwf ha hM =>
    unfold Layer.forward
    rename_i l d oh ow sv sh g g' M
    refine (C34_forward l d oh ow sv sh hwf g g' ha x _ hx.tenIs).bind (fun l' q => ?_)
    obtain ⟨mx, h1, h2, h3, h4⟩ := q
    refine Ok_ok.2 ⟨?_, .rawPool h4 (by rw [h3]; exact ha) hM, rfl⟩
    refine TenIs.flatIs (f := fun c p q => g (M v c p q)) (h2.congr (fun c p q hc hp hq => ?_))
    rw [(h1 c p q hc hp hq).unique (hM v c p q hc hp hq)]

theorem ff_computes [CommSemiring α] [LinearOrder α] (net : Net α) : ∀ (s s' : Nat × Nat × Nat) (F : (Nat → α) → Nat → α),
    net.Computes s s' F → ∀ (x : Ten α) (v : Nat → α), FlatIs x s v →
    Ok (ffRec x net) (fun net' => net'.Computes s s' F ∧ net'.map Layer.params = net.map Layer.params ∧
      (net ≠ [] → ∃ l, lget net' (net'.length - 1) = .ok l ∧ FlatIs l.value s' (F v))) := by
  induction net with
  | nil => intro s s' F h x v _; exact Ok_ok.2 ⟨h, rfl, fun h => absurd rfl h⟩
  | cons l ls ih =>
    intro s s'' F' h x v hx
    cases h with
    | @cons _ _ _ s' _ F G hl hls =>
      unfold ffRec
      refine (C37_layer l s s' F hl x v hx).bind (fun l' q => ?_)
      refine (ih s' s'' G hls l'.value (F v) q.1).bind (fun ls' r => Ok_ok.2 ⟨.cons q.2.1 r.1, ?_, fun _ => ?_⟩)
      · rw [List.map_cons, List.map_cons, q.2.2, r.2.1]
      · cases ls with
        | nil =>
          have hz : ls' = [] := by have := r.2.1; simpa using this
          subst hz
          cases hls
          exact ⟨l', rfl, q.1⟩
        | cons l2 ls =>
          obtain ⟨l3, e, h3⟩ := r.2.2 (by simp)
          refine ⟨l3, ?_, h3⟩
          have : ls' ≠ [] := by have := congrArg List.length r.2.1; intro e; rw [e] at this; simp at this
          cases ls' with
          | nil => exact absurd rfl this
          | cons a as => rw [← e]; rfl

/-- `feedforward(x)` returns the composition of the layers' functions at `x`; it changes neither the parameters nor the
function the network computes. -/
theorem C37_feedforward [CommSemiring α] [LinearOrder α] (net : Net α) (hne : net ≠ []) (hN : net.length < W64)
    (s s' : Nat × Nat × Nat) (F : (Nat → α) → Nat → α) (h : net.Computes s s' F) (x : Ten α) (v : Nat → α) (hx : FlatIs x s v) :
    Ok (net.feedforward x) (fun r => FlatIs r.2 s' (F v) ∧ r.1.Computes s s' F ∧ r.1.map Layer.params = net.map Layer.params) := by
  rw [Net.feedforward_eq x net hne hN]
  refine (ff_computes net s s' F h x v hx).bind (fun net' q => ?_)
  obtain ⟨l, e, hl⟩ := q.2.2 hne
  rw [e, bind_ok]
  exact Ok_ok.2 ⟨hl, q.1, q.2.1⟩

/-- History-freedom: after any sequence of earlier feedforward calls the result is the same composition. -/
theorem C37_history [CommSemiring α] [LinearOrder α] (net : Net α) (hne : net ≠ []) (hN : net.length < W64)
    (s s' : Nat × Nat × Nat) (F : (Nat → α) → Nat → α) (h : net.Computes s s' F)
    (ys : List (Ten α)) (hys : ∀ y ∈ ys, ∃ v, FlatIs y s v) (x : Ten α) (v : Nat → α) (hx : FlatIs x s v) :
    Ok (do
      let net ← ys.foldlM (fun (net : Net α) y => do let r ← net.feedforward y; return r.1) net
      net.feedforward x) (fun r => FlatIs r.2 s' (F v) ∧ r.1.map Layer.params = net.map Layer.params) := by
  have run : ∀ ys : List (Ten α), (∀ y ∈ ys, ∃ v, FlatIs y s v) → ∀ net : Net α, net ≠ [] → net.length < W64 → net.Computes s s' F →
      Ok (ys.foldlM (fun (net : Net α) y => do let r ← net.feedforward y; return r.1) net) (fun net' =>
        net'.Computes s s' F ∧ net'.map Layer.params = net.map Layer.params) := by
    intro ys
    induction ys with
    | nil => intro _ net _ _ h; exact Ok_ok.2 ⟨h, rfl⟩
    | cons y ys ih =>
      intro hys net hne hN h
      rw [List.foldlM_cons]
      obtain ⟨vy, hvy⟩ := hys y (by simp)
      obtain ⟨r, e, q⟩ := C37_feedforward net hne hN s s' F h y vy hvy
      rw [e]
      have hl : r.1.length = net.length := by have := congrArg List.length q.2.2; simpa using this
      refine (ih (fun y hy => hys y (by simp [hy])) r.1 ?_ (hl ▸ hN) q.2.1).mono (fun net' q' => ⟨q'.1, q'.2.trans q.2.2⟩)
      intro e; rw [e] at hl; exact hne (List.length_eq_zero_iff.1 hl.symm)
  refine (run ys hys net hne hN h).bind (fun net' q => ?_)
  have hl : net'.length = net.length := by have := congrArg List.length q.2; simpa using this
  refine (C37_feedforward net' ?_ (hl ▸ hN) s s' F q.1 x v hx).mono (fun r q' => ⟨q'.1, q'.2.2.trans q.2⟩)
  intro e; rw [e] at hl; exact hne (List.length_eq_zero_iff.1 hl.symm)

/-- Without layers, feedforward reads outside the container. -/
theorem C37_empty [Zero α] [One α] [Add α] [Mul α] [LT α] [DecidableLT α] (x : Ten α) :
    Net.feedforward x ([] : Net α) = .error .oob := rfl

/-- Non-vacuity: convolution (3×3 → 2×2), pooling (2×2 → 1×1), dense (1 → 2), on concrete tensors. -/
def exNet : Res (Net Int) := do
  let c ← Conv.make 1 3 3 1 2 2 0 1 1 0 (fun f => f + 1)
  let (c, g) ← c.init exGen () 1
  let p ← Pool.make 1 2 2 2 2 (Act.elementwise (fun x => x) (fun _ => 1))
  let (f, _) ← (FC.make 1 2 exAct 0 1).init exGen () g
  return [.rawConv c, .rawPool p, .fc f]

example : (do let net ← exNet; let r ← net.feedforward ⟨1, 3, 3, Buf.of [1, 2, 3, 4, 5, 6, 7, 8, 9]⟩; return r.2.data : Res (Buf Int)) =
    .ok (Buf.of [(82 * 8 + 6) * (82 * 8 + 6), (82 * 9 + 7) * (82 * 9 + 7)]) := by decide +kernel

/-- Constructed layers compute functions: dense and convolutional layers by their constructors' lemmas, and every constructed
inference pooling layer. -/
theorem rawPool_computes [CommSemiring α] [LinearOrder α] (l : Pool α) (d oh ow sv sh : Nat) (hl : l.Wf d oh ow sv sh) (g g' : α → α)
    (ha : l.act = Act.elementwise g g') : ∃ F, (Layer.rawPool l).Computes (d, oh * sv, ow * sh) (d, oh, ow) F := by
  have hex : ∀ v : Nat → α, ∃ mx : Nat → Nat → Nat → α, ∀ c p q, c < d → p < oh → q < ow →
      WindowMax (unflat (oh * sv) (ow * sh) v) sv sh c p q (mx c p q) := by
    intro v
    let x : Ten α := ⟨d, oh * sv, ow * sh, Buf.of ((List.range (d * (oh * sv) * (ow * sh))).map v)⟩
    have hx : FlatIs x (d, oh * sv, ow * sh) v := by
      refine ⟨rfl, rfl, rfl, ?_⟩
      have := VecIs_of ((List.range (d * (oh * sv) * (ow * sh))).map v) v (fun i hi => by simp)
      simpa using this
    obtain ⟨_, _, mx, h, _⟩ := C34_forward l d oh ow sv sh hl g g' ha x _ hx.tenIs
    exact ⟨mx, h⟩
  choose M hM using hex
  exact ⟨_, .rawPool hl ha hM⟩

example : Ok (do
    let c ← Conv.make 1 3 3 1 2 2 0 1 1 0 (fun f => f + 1)
    let p ← Pool.make 1 2 2 2 2 (Act.elementwise (fun x : Int => x) (fun _ => 1))
    return ([.conv c, .rawPool p, .fc (FC.make 1 2 exAct 0 1)] : Net Int))
    (fun net => ∃ F, Net.Computes net (1, 3, 3) (1, 1, 2) F ∧ net ≠ [] ∧ net.length < W64) := by
  refine (Conv.make_Wf (α := Int) (d := 1) (h := 3) (w := 3) (fc := 1) (fh := 2) (fw := 2) (pad := 0) (sv := 1) (sh := 1)
    ⟨by decide, by decide, by decide, by decide, by decide, by decide⟩ (by decide) 0 (fun f => f + 1)).bind (fun c hc => ?_)
  refine (Pool.make_Wf 1 1 1 2 2 (by decide) (by decide) (Act.elementwise (fun x : Int => x) (fun _ => 1))).bind (fun p hp => ?_)
  obtain ⟨F, hF⟩ := rawPool_computes p 1 1 1 2 2 hp.1 _ _ hp.2.1
  exact Ok_ok.2 ⟨_, .cons (.conv hc.1) (.cons hF (.cons (.fc (d := 1) (h := 1) (w := 1) (FC.Wf_make 1 2 exAct 0 1) (Act.Is.elementwise _ _ 2)) .nil)),
    by simp, by show 3 < W64; decide⟩

/-! ## C42 initialisation -/

/-- With a functor that refers to its random source, the parameters of all layers, tensor by tensor in the order of filling,
are consecutive values of the source. -/
theorem C42_by_reference (step : ρ → α × ρ) (g : ρ) (net : Net α) :
    Ok (Net.init (byRef step) () g net) (fun r =>
      (r.1.flatMap Layer.initOrder).flatten = Buf.of (stream step ((net.flatMap Layer.initOrder).map List.length).sum g) ∧
      r.1.map (fun l => l.initOrder.map List.length) = net.map (fun l => l.initOrder.map List.length)) := by
  obtain ⟨net', g', e, h, h2⟩ := Net.init_eq (byRef step) () g net
  refine ⟨_, e, ?_, h2⟩
  have := congrArg Prod.fst h
  dsimp only at this ⊢
  rw [this, initSpec_byRef]

/-- With a functor that holds its state by value, every parameter tensor of every layer starts again with the first value of
the same sequence. -/
theorem C42_by_value (step : ρ → α × ρ) (c : ρ) (net : Net α) :
    Ok (Net.init (byVal step) c () net) (fun r =>
      r.1.flatMap Layer.initOrder = (net.flatMap Layer.initOrder).map (fun b => Buf.of (stream step b.length c))) := by
  obtain ⟨net', g', e, h, _⟩ := Net.init_eq (byVal step) c () net
  refine ⟨_, e, ?_⟩
  have := congrArg Prod.fst h
  dsimp only at this ⊢
  rw [this, initSpec_byVal, List.map_map]
  rfl

/-- The two-layer network 2 → 1 → 1 (with activation of its own). -/
def exNet2 : Net Int := [.fc (FC.make 2 1 exAct 0 1), .fc (FC.make 1 1 exAct 2 3)]

/-- Non-vacuity of `C42_by_reference`: a counter, five parameters in order. -/
example : (do let r ← Net.init (byRef (fun k : Int => (k, k + 1))) () 10 exNet2; return (r.1.flatMap Layer.initOrder, r.2) : Res _) =
    .ok ([[some 10], [some 11, some 12], [some 13], [some 14]], 15) := by decide +kernel

/-- The property fails for the same counter held by value: the parameters are not consecutive values. -/
theorem C42_by_value_violated : ∃ (step : Int → Int × Int) (c : Int) (net : Net Int),
    Ok (Net.init (byVal step) c () net) (fun r => ∀ k, (r.1.flatMap Layer.initOrder).flatten ≠ Buf.of (stream step k c)) := by
  refine ⟨fun k => (k, k + 1), 10, exNet2, ?_⟩
  refine (C42_by_value (fun k : Int => (k, k + 1)) 10 exNet2).mono (fun r h k e => ?_)
  rw [h] at e
  have e' : ([some 10, some 10, some 11, some 10, some 10] : List (Option Int)) = Buf.of (stream (fun k => (k, k + 1)) k 10) := e
  have hl := congrArg List.length e'
  have hk : k = 5 := by
    have : ∀ k (g : Int), (stream (fun k => (k, k + 1)) k g).length = k := by
      intro k; induction k with
      | zero => intro g; rfl
      | succ k ih => intro g; simp [stream, ih]
    simpa [Buf.of, this] using hl.symm
  subst hk
  exact absurd e' (by decide)

end Trixy
