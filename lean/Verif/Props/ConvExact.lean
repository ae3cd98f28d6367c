import Verif.Proof.ConvExact
import Verif.Props.Conv
/- Property C70 (the convolution layer for any arithmetic, evaluation order included). -/
namespace Trixy

variable {α γ ρ σ : Type}

theorem ConvOp.exec_exact [Zero α] [Add α] [Mul α] {upd : Upd σ α} {size : Nat → Nat} {I : σ → Prop} (hu : UpdOk upd size I)
    (gen : Gen γ ρ α) {d h w fc fh fw pad sv sh kB : Nat} {kW : Nat → Nat}
    (hB : size kB = fc) (hW : ∀ f, f < fc → size (kW f) = d * fh * fw) (s : σ) (g : ρ) (l : Conv α) (hs : I s)
    (hl : l.Good d h w fc fh fw pad sv sh kB kW) (op : ConvOp α γ)
    (hop : op.Fits d h w fc (extent h fh pad sv) (extent w fw pad sh)) :
    Ok (ConvOp.exec upd gen (s, g, l) op) (fun r => I r.1 ∧ r.2.2.Good d h w fc fh fw pad sv sh kB kW) := by
  obtain ⟨⟨b, W, gb, gW, hwf⟩, k1, k2⟩ := hl
  cases op with
  | init c =>
    refine (Conv.init_spec hwf gen c g).bind (fun r hr => Ok_ok.2 ⟨hs, ?_, ?_, ?_⟩)
    · obtain ⟨⟨b', W', h'⟩, _⟩ := hr; exact ⟨_, _, _, _, h'⟩
    · show r.1.keyB = kB; rw [hr.2]; exact k1
    · show r.1.keyW = kW; rw [hr.2]; exact k2
  | forward x =>
    obtain ⟨v, hv⟩ := hop
    refine (Conv.forward_exact hwf hv).bind (fun r hr => Ok_ok.2 ⟨hs, ⟨_, _, _, _, hr.1⟩, ?_, ?_⟩)
    · show r.keyB = kB; rw [hr.2.2]; exact k1
    · show r.keyW = kW; rw [hr.2.2]; exact k2
  | backward x d' full =>
    obtain ⟨⟨v, hv⟩, ⟨u, hu'⟩⟩ := hop
    refine (Conv.backward_exact hwf hv hu' full).bind (fun r hr => Ok_ok.2 ⟨hs, ⟨_, _, _, _, hr.1⟩, ?_, ?_⟩)
    · show r.keyB = kB; rw [hr.2.2]; exact k1
    · show r.keyW = kW; rw [hr.2.2]; exact k2
  | update alpha =>
    refine (Conv.update_full hu hwf (by rw [k2]; exact hW) (by rw [k1]; exact hB) s hs alpha).bind
      (fun r hr => Ok_ok.2 ⟨hr.1, hr.2.1, ?_, ?_⟩)
    · show r.2.keyB = kB; rw [hr.2.2]; exact k1
    · show r.2.keyW = kW; rw [hr.2.2]; exact k2

theorem ConvOp.run_exact [Zero α] [Add α] [Mul α] {upd : Upd σ α} {size : Nat → Nat} {I : σ → Prop} (hu : UpdOk upd size I)
    (gen : Gen γ ρ α) {d h w fc fh fw pad sv sh kB : Nat} {kW : Nat → Nat}
    (hB : size kB = fc) (hW : ∀ f, f < fc → size (kW f) = d * fh * fw) (ops : List (ConvOp α γ))
    (hops : ∀ op ∈ ops, op.Fits d h w fc (extent h fh pad sv) (extent w fw pad sh)) :
    ∀ (s : σ) (g : ρ) (l : Conv α), I s → l.Good d h w fc fh fw pad sv sh kB kW →
    Ok (ConvOp.run upd gen (s, g, l) ops) (fun r => I r.1 ∧ r.2.2.Good d h w fc fh fw pad sv sh kB kW) := by
  induction ops with
  | nil => intro s g l hs hl; exact Ok_ok.2 ⟨hs, hl⟩
  | cons op ops ih =>
    intro s g l hs hl
    refine (ConvOp.exec_exact hu gen hB hW s g l hs hl op (hops op (by simp))).bind (fun r hr => ?_)
    exact ih (fun o ho => hops o (by simp [ho])) r.1 r.2.1 r.2.2 hr.1 hr.2

/-- Forward, for any element type (in particular `float`/`double` with any rounding): the value is the one obtained by the
fixed order of operations `corrExact`, from the parameters and the input alone; nothing but `value()` changes. -/
theorem C70_forward [Zero α] [Add α] [Mul α] (l : Conv α) (d h w fc fh fw pad sv sh : Nat) (b : Nat → α)
    (W : Nat → Nat → Nat → Nat → α) (gb : Nat → α) (gW : Nat → Nat → Nat → Nat → α)
    (hl : l.Wf d h w fc fh fw pad sv sh b W gb gW) (x : Ten α) (v : Nat → Nat → Nat → α) (hx : TenIs x d h w v) :
    Ok (l.forward x) (fun l' =>
      TenIs l'.value fc (extent h fh pad sv) (extent w fw pad sh) (corrExact d h w fh fw pad sv sh b W v) ∧
      l' = { l with value := l'.value }) :=
  (Conv.forward_exact hl hx).mono (fun _ q => q.2)

/-- Backward likewise: gradients continue from what they hold in the fixed order over the spread delta, `delta()` is
computed from the filters and the incoming delta alone. -/
theorem C70_backward [Zero α] [Add α] [Mul α] (l : Conv α) (d h w fc fh fw pad sv sh : Nat) (b : Nat → α)
    (W : Nat → Nat → Nat → Nat → α) (gb : Nat → α) (gW : Nat → Nat → Nat → Nat → α)
    (hl : l.Wf d h w fc fh fw pad sv sh b W gb gW) (x dl : Ten α) (v u : Nat → Nat → Nat → α) (hx : TenIs x d h w v)
    (hd : TenIs dl fc (extent h fh pad sv) (extent w fw pad sh) u) (full : Bool) :
    Ok (l.backward x dl full) (fun l' =>
      VecIs l'.gradB fc (fun f => biasGradExact (sv * (extent h fh pad sv - 1) + 1) (sh * (extent w fw pad sh - 1) + 1)
        (gb f) (spreadFn sv sh u) f) ∧
      WsIs l'.gradWs fc d fh fw (fun f c i j => filterGradExact h w pad (sv * (extent h fh pad sv - 1) + 1)
        (sh * (extent w fw pad sh - 1) + 1) (gW f c i j) v (spreadFn sv sh u) f c i j) ∧
      TenIs l'.delta d h w (convDeltaExact fc fh fw pad (sv * (extent h fh pad sv - 1) + 1)
        (sh * (extent w fw pad sh - 1) + 1) W (spreadFn sv sh u)) ∧
      l'.B = l.B ∧ l'.Ws = l.Ws ∧ l'.value = l.value) := by
  refine (Conv.backward_exact hl hx hd full).mono (fun l' q => ⟨q.1.gradB, q.1.gradWs, q.2.1, ?_, ?_, ?_⟩) <;> rw [q.2.2]

/-- For any arithmetic and any history of calls that fits the geometry, from construction on: no undefined behaviour, and two
layers with the same parameters and geometry compute the same output from the same input, whatever their histories were
(`corrExact` mentions only the current parameters and the input). -/
theorem C70_history [Zero α] [Add α] [Mul α] (upd : Upd σ α) (size : Nat → Nat) (I : σ → Prop) (hu : UpdOk upd size I)
    (gen : Gen γ ρ α) (d h w fc fh fw pad sv sh : Nat) (geo : Geo h w fh fw pad sv sh) (hfc : 1 ≤ fc) (kB : Nat) (kW : Nat → Nat)
    (hB : size kB = fc) (hW : ∀ f, f < fc → size (kW f) = d * fh * fw) (s : σ) (hs : I s) (g : ρ) (ops : List (ConvOp α γ))
    (hops : ∀ op ∈ ops, op.Fits d h w fc (extent h fh pad sv) (extent w fw pad sh)) :
    Ok (do let l ← Conv.make d h w fc fh fw pad sv sh kB kW
           ConvOp.run upd gen (s, g, l) ops) (fun r => ∃ b W, VecIs r.2.2.B fc b ∧ WsIs r.2.2.Ws fc d fh fw W ∧
      ∀ (x : Ten α) (v : Nat → Nat → Nat → α), TenIs x d h w v → Ok (r.2.2.forward x) (fun l' =>
        TenIs l'.value fc (extent h fh pad sv) (extent w fw pad sh) (corrExact d h w fh fw pad sv sh b W v) ∧
        l'.B = r.2.2.B ∧ l'.Ws = r.2.2.Ws)) := by
  refine (Conv.make_Wf (d := d) geo hfc kB kW).bind (fun l hl => ?_)
  refine (ConvOp.run_exact hu gen hB hW ops hops s g l hs ⟨⟨_, _, _, _, hl.1⟩, hl.2.1, hl.2.2⟩).mono (fun r hr => ?_)
  obtain ⟨_, ⟨b, W, gb, gW, hwf⟩, _⟩ := hr
  refine ⟨b, W, hwf.B, hwf.Ws, fun x v hx => (Conv.forward_exact hwf hx).mono (fun l' q => ⟨q.2.1, ?_, ?_⟩)⟩ <;> rw [q.2.2]

/-- Non-vacuity with an arithmetic that is neither commutative nor associative (strings of operations): the specification fixes
the order. -/
instance strZero : Zero String := ⟨"0"⟩
instance strAdd : Add String := ⟨fun a b => "(" ++ a ++ "+" ++ b ++ ")"⟩
instance strMul : Mul String := ⟨fun a b => a ++ b⟩
attribute [-instance] strZero strAdd strMul

example : letI := strZero; letI := strAdd; letI := strMul;
    corrExact 1 1 1 3 3 1 1 1 (fun _ => "b") (fun _ _ _ _ => "w") (fun _ _ _ => "x") 0 0 0 = "(b+xw)" := by decide +kernel

end Trixy
