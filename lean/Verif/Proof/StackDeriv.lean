import Verif.Proof.Stack
import Verif.Proof.NetDeriv
/- The chain rule through a mixed stack. -/
namespace Trixy
open Finset

theorem sum_block {α : Type} [AddCommMonoid α] (n w : Nat) (f : Nat → α) :
    ∑ k ∈ range (n * w), f k = ∑ i ∈ range n, ∑ j ∈ range w, f (i * w + j) := by
  induction n with
  | zero => simp
  | succ n ih => rw [Nat.succ_mul, Finset.sum_range_add, ih, Finset.sum_range_succ]

theorem sum_cells {α : Type} [AddCommMonoid α] (d h w : Nat) (f : Nat → α) :
    ∑ k ∈ range (d * h * w), f k = ∑ c ∈ range d, ∑ i ∈ range h, ∑ j ∈ range w, f ((c * h + i) * w + j) := by
  rw [sum_block, sum_block]

/-- What moving the output does, given by derivative of all pairings. -/
theorem conv_pair (d h w : Nat) (u : Nat → ℝ) (F : Nat → Nat → Nat → ℝ) :
    ∑ k ∈ range (d * h * w), u k * flat3 h w F k = ∑ c ∈ range d, ∑ i ∈ range h, ∑ j ∈ range w, unflat h w u c i j * F c i j := by
  rw [sum_cells]
  refine sum_congr3 (fun c i j _ hi hj => ?_)
  obtain ⟨e1, e2, e3⟩ := idx3_split (i := c) hi hj
  unfold flat3 unflat
  rw [e1, e2, e3]

theorem flat_bounds {d h w k : Nat} (hk : k < d * h * w) : k / w / h < d ∧ k / w % h < h ∧ k % w < w := by
  have hw : 0 < w := Nat.pos_of_mul_pos_left (Nat.zero_lt_of_lt hk)
  have h1 : k / w < d * h := Nat.div_lt_of_lt_mul (by rwa [Nat.mul_comm])
  have hh : 0 < h := Nat.pos_of_mul_pos_left (Nat.zero_lt_of_lt h1)
  exact ⟨Nat.div_lt_of_lt_mul (by rwa [Nat.mul_comm]), Nat.mod_lt _ hh, Nat.mod_lt _ hw⟩

/-- Curves of bias, filters and (flat) input of a convolution. -/
theorem conv_flat_curve (p : ConvP ℝ) {bc : ℝ → Nat → ℝ} {Wc : ℝ → Nat → Nat → Nat → Nat → ℝ} {xc : ℝ → Nat → ℝ}
    {b' : Nat → ℝ} {W' : Nat → Nat → Nat → Nat → ℝ} {x' : Nat → ℝ} {t0 : ℝ}
    (hb : ∀ f, f < p.fc → HasDerivAt (fun t => bc t f) (b' f) t0)
    (hW : ∀ f c i j, f < p.fc → c < p.d → i < p.fh → j < p.fw → HasDerivAt (fun t => Wc t f c i j) (W' f c i j) t0)
    (hx : ∀ i, i < p.d * p.h * p.w → HasDerivAt (fun t => xc t i) (x' i) t0) :
    ∃ y' : Nat → ℝ, (∀ k, k < p.fc * p.oh * p.ow → HasDerivAt (fun t =>
        flat3 p.oh p.ow (corr p.d p.h p.w p.fh p.fw p.pad p.sv p.sh (bc t) (Wc t) (unflat p.h p.w (xc t))) k) (y' k) t0) ∧
      ∀ u : Nat → ℝ, ∑ k ∈ range (p.fc * p.oh * p.ow), u k * y' k =
        ∑ f ∈ range p.fc, biasGrad p.oh p.ow f (unflat p.h p.w (xc t0)) (unflat p.oh p.ow u) * b' f +
        ∑ f ∈ range p.fc, ∑ c ∈ range p.d, ∑ i ∈ range p.fh, ∑ j ∈ range p.fw,
          filterGrad p.h p.w p.pad p.sv p.sh p.oh p.ow f c i j (unflat p.h p.w (xc t0)) (unflat p.oh p.ow u) * W' f c i j +
        ∑ k ∈ range (p.d * p.h * p.w),
          flat3 p.h p.w (convDelta p.fc p.fh p.fw p.pad p.sv p.sh p.oh p.ow (Wc t0) (unflat p.oh p.ow u)) k * x' k := by
  have hx3 : ∀ c y z, c < p.d → y < p.h → z < p.w →
      HasDerivAt (fun t => unflat p.h p.w (xc t) c y z) (unflat p.h p.w x' c y z) t0 :=
    fun c y z hc hy hz => hx _ (idx3_lt hc hy hz)
  refine ⟨flat3 p.oh p.ow (fun f oy ox => b' f + ((∑ i ∈ range p.fh, ∑ j ∈ range p.fw, ∑ c ∈ range p.d,
          padded (unflat p.h p.w x') p.h p.w c ((p.sv : Int) * oy + i - p.pad) ((p.sh : Int) * ox + j - p.pad) * Wc t0 f c i j) +
        ∑ i ∈ range p.fh, ∑ j ∈ range p.fw, ∑ c ∈ range p.d,
          padded (unflat p.h p.w (xc t0)) p.h p.w c ((p.sv : Int) * oy + i - p.pad) ((p.sh : Int) * ox + j - p.pad) * W' f c i j)),
    fun k hk => hasDerivAt_corr (pad := p.pad) (sv := p.sv) (sh := p.sh) hb hW hx3 (flat_bounds hk).1
      (k / p.ow % p.oh) (k % p.ow), fun u => ?_⟩
  have h1 := conv_curve (pad := p.pad) (sv := p.sv) (sh := p.sh) (OH := p.oh) (OW := p.ow) (u := unflat p.oh p.ow u) hb hW hx3
  have h2 : HasDerivAt (fun t => ∑ f ∈ range p.fc, ∑ oy ∈ range p.oh, ∑ ox ∈ range p.ow,
        unflat p.oh p.ow u f oy ox * corr p.d p.h p.w p.fh p.fw p.pad p.sv p.sh (bc t) (Wc t) (unflat p.h p.w (xc t)) f oy ox)
      (∑ f ∈ range p.fc, ∑ oy ∈ range p.oh, ∑ ox ∈ range p.ow, unflat p.oh p.ow u f oy ox *
        (b' f + ((∑ i ∈ range p.fh, ∑ j ∈ range p.fw, ∑ c ∈ range p.d,
          padded (unflat p.h p.w x') p.h p.w c ((p.sv : Int) * oy + i - p.pad) ((p.sh : Int) * ox + j - p.pad) * Wc t0 f c i j) +
        ∑ i ∈ range p.fh, ∑ j ∈ range p.fw, ∑ c ∈ range p.d,
          padded (unflat p.h p.w (xc t0)) p.h p.w c ((p.sv : Int) * oy + i - p.pad) ((p.sh : Int) * ox + j - p.pad) * W' f c i j))) t0 :=
    hasDerivAt_sum (fun f hf => hasDerivAt_sum (fun oy _ => hasDerivAt_sum (fun ox _ =>
      (hasDerivAt_corr (pad := p.pad) (sv := p.sv) (sh := p.sh) hb hW hx3 hf oy ox).const_mul _)))
  rw [conv_pair]
  refine (h2.unique h1).trans ?_
  unfold biasGrad filterGrad
  congr 1
  rw [Finset.sum_congr rfl (fun k _ => mul_comm _ _), conv_pair]
  exact sum_congr3 (fun c y z _ _ _ => mul_comm _ _)

theorem Stage.set_get (s : Stage ℝ) (r : PRef) : s.set r (s.get r) = s := by
  have : (fun r' => if r' = r then s.get r else s.get r') = s.get := by funext r'; split <;> simp_all
  unfold Stage.set; rw [this]
  cases s <;> rfl

/-- Differentiability of one layer at input `v`. -/
def Stage.Diff (s : Stage ℝ) (v : Nat → ℝ) : Prop :=
  ∀ p, s = .dense p → ∃ g g' : ℝ → ℝ, p.F = (fun v i => g (v i)) ∧ p.D = (fun v i => g' (v i)) ∧
      ∀ k, k < p.m → HasDerivAt g (g' (pre p.n p.W p.b v k)) (pre p.n p.W p.b v k)

theorem dense_curve (c : DCurve) {t0 : ℝ} {xc : ℝ → Nat → ℝ} {x' : Nat → ℝ} (hok : c.Ok t0) (hd : (Stage.dense c.p).Diff (xc t0))
    (hx : ∀ i, i < c.p.n → HasDerivAt (fun t => xc t i) (x' i) t0) :
    ∃ y' : Nat → ℝ, (∀ k, k < c.p.m → HasDerivAt (fun t => (c.at t).out (xc t) k) (y' k) t0) ∧
      ∀ u : Nat → ℝ, ∑ k ∈ range c.p.m, u k * y' k =
        pairG c.p.n c.p.m (c.p.grad (xc t0) u) c.b' c.W' + ∑ i ∈ range c.p.n, c.p.back (xc t0) u i * x' i := by
  obtain ⟨y', h1, h2⟩ := net_curve [c] (n := c.p.n) (m := c.p.m) (t0 := t0) (xc := xc) (x' := x') (by simpa using hok) ⟨rfl, rfl⟩ ⟨hd c.p rfl, trivial⟩ hx
  refine ⟨y', h1, fun u => ?_⟩
  rw [h2 u]
  simp [pairSum, netGrads, netBack]

/-- Moving the input of one layer. -/
theorem stage_input (s : Stage ℝ) {t0 : ℝ} {xc : ℝ → Nat → ℝ} {x' : Nat → ℝ} (hd : s.Diff (xc t0))
    (hx : ∀ i, i < cells s.sin → HasDerivAt (fun t => xc t i) (x' i) t0) :
    ∃ y' : Nat → ℝ, (∀ k, k < cells s.sout → HasDerivAt (fun t => s.out (xc t) k) (y' k) t0) ∧
      ∀ u : Nat → ℝ, ∑ k ∈ range (cells s.sout), u k * y' k = ∑ i ∈ range (cells s.sin), s.back (xc t0) u i * x' i := by
  cases s with
  | dense p =>
    have e1 : cells (Stage.dense p).sin = p.n := by simp [cells, Stage.sin]
    have e2 : cells (Stage.dense p).sout = p.m := by simp [cells, Stage.sout]
    rw [e1] at hx ⊢
    rw [e2]
    obtain ⟨y', h1, h2⟩ := dense_curve (constC p) (constC_ok p t0) hd hx
    refine ⟨y', h1, fun u => ?_⟩
    have := h2 u
    simp only [constC, pairG_zero, zero_add] at this
    exact this
  | conv p =>
    obtain ⟨y', h1, h2⟩ := conv_flat_curve p (bc := fun _ => p.b) (Wc := fun _ => p.W) (b' := fun _ => 0) (W' := fun _ _ _ _ => 0)
      (fun _ _ => hasDerivAt_const _ _) (fun _ _ _ _ _ _ _ _ => hasDerivAt_const _ _) hx
    refine ⟨y', h1, fun u => ?_⟩
    have := h2 u
    simp only [mul_zero, Finset.sum_const_zero, zero_add] at this
    exact this

/-- Moving one parameter of one layer. -/
theorem stage_param (s : Stage ℝ) (r : PRef) (hr : s.Has r) (v : Nat → ℝ) (hd : s.Diff v) :
    ∃ y' : Nat → ℝ, (∀ k, k < cells s.sout → HasDerivAt (fun z => (s.set r z).out v k) (y' k) (s.get r)) ∧
      ∀ u : Nat → ℝ, ∑ k ∈ range (cells s.sout), u k * y' k = s.grad v u r := by
  have hder : ∀ r' : PRef, HasDerivAt (fun z => if r' = r then z else s.get r') (if r' = r then 1 else 0) (s.get r) := by
    intro r'
    by_cases e : r' = r
    · simp only [e, if_true]; exact hasDerivAt_id _
    · simp only [e, if_false]; exact hasDerivAt_const _ _
  have hself : ∀ r' : PRef, (if r' = r then s.get r else s.get r') = s.get r' := by intro r'; split <;> simp_all
  cases s with
  | dense p =>
    have e2 : cells (Stage.dense p).sout = p.m := by simp [cells, Stage.sout]
    rw [e2]
    obtain ⟨y', h1, h2⟩ := dense_curve (t0 := (Stage.dense p).get r) (xc := fun _ => v) (x' := fun _ => 0)
      ⟨p, fun z k => if PRef.bias k = r then z else p.b k, fun z i j => if PRef.weight i j = r then z else p.W i j,
        fun k => if PRef.bias k = r then 1 else 0, fun i j => if PRef.weight i j = r then 1 else 0⟩
      ⟨funext (fun k => hself (.bias k)), funext (fun i => funext (fun j => hself (.weight i j))),
        fun k _ => hder (.bias k), fun i j _ _ => hder (.weight i j)⟩ hd (fun _ _ => hasDerivAt_const _ _)
    refine ⟨y', h1, fun u => (h2 u).trans ?_⟩
    simp only [mul_zero, Finset.sum_const_zero, add_zero]
    unfold pairG
    cases r with
    | bias k0 =>
      simp only [PRef.bias.injEq, reduceCtorEq, if_false, mul_zero, Finset.sum_const_zero, add_zero, mul_ite, mul_one]
      rw [Finset.sum_ite_eq' (range p.m) k0, if_pos (mem_range.2 hr)]
      rfl
    | weight i0 j0 =>
      simp only [reduceCtorEq, if_false, mul_zero, Finset.sum_const_zero, zero_add, PRef.weight.injEq]
      rw [Finset.sum_eq_single i0, Finset.sum_eq_single j0]
      · simp [Stage.grad]
      · intro a _ ha; simp [ha]
      · intro hh; exact absurd (mem_range.2 hr.2) hh
      · intro a _ ha; simp [ha]
      · intro hh; exact absurd (mem_range.2 hr.1) hh
    | filter f c i j => exact absurd hr (by simp [Stage.Has])
  | conv p =>
    obtain ⟨y', h1, h2⟩ := conv_flat_curve p (t0 := (Stage.conv p).get r) (xc := fun _ => v) (x' := fun _ => 0)
      (bc := fun z f => if PRef.bias f = r then z else p.b f) (Wc := fun z f c i j => if PRef.filter f c i j = r then z else p.W f c i j)
      (b' := fun f => if PRef.bias f = r then 1 else 0) (W' := fun f c i j => if PRef.filter f c i j = r then 1 else 0)
      (fun f _ => hder (.bias f)) (fun f c i j _ _ _ _ => hder (.filter f c i j)) (fun _ _ => hasDerivAt_const _ _)
    refine ⟨y', h1, fun u => (h2 u).trans ?_⟩
    simp only [mul_zero, Finset.sum_const_zero, add_zero]
    cases r with
    | bias k0 =>
      simp only [PRef.bias.injEq, reduceCtorEq, if_false, mul_zero, Finset.sum_const_zero, add_zero, mul_ite, mul_one]
      rw [Finset.sum_ite_eq' (range p.fc) k0, if_pos (mem_range.2 hr)]
      rfl
    | weight i j => exact absurd hr (by simp [Stage.Has])
    | filter f c i j =>
      obtain ⟨hf, hc, hi, hj⟩ := hr
      simp only [reduceCtorEq, if_false, mul_zero, Finset.sum_const_zero, zero_add, PRef.filter.injEq]
      rw [Finset.sum_eq_single f, Finset.sum_eq_single c, Finset.sum_eq_single i, Finset.sum_eq_single j]
      · simp [Stage.grad]
      · intro a _ ha; simp [ha]
      · intro hh; exact absurd (mem_range.2 hj) hh
      · intro a _ ha; simp [ha]
      · intro hh; exact absurd (mem_range.2 hi) hh
      · intro a _ ha; simp [ha]
      · intro hh; exact absurd (mem_range.2 hc) hh
      · intro a _ ha; simp [ha]
      · intro hh; exact absurd (mem_range.2 hf) hh

/-- Moving the input of a stack. -/
theorem stack_input (ss : List (Stage ℝ)) : ∀ {a b : Nat × Nat × Nat} {t0 : ℝ} {xc : ℝ → Nat → ℝ} {x' : Nat → ℝ},
    StackFits a ss b → StackDiff ss (xc t0) → (∀ i, i < cells a → HasDerivAt (fun t => xc t i) (x' i) t0) →
    ∃ y' : Nat → ℝ, (∀ k, k < cells b → HasDerivAt (fun t => stackOut ss (xc t) k) (y' k) t0) ∧
      ∀ u : Nat → ℝ, ∑ k ∈ range (cells b), u k * y' k = ∑ i ∈ range (cells a), stackBack ss (xc t0) u i * x' i := by
  induction ss with
  | nil =>
    intro a b t0 xc x' hc _ hx
    cases hc
    exact ⟨x', hx, fun u => rfl⟩
  | cons s ss ih =>
    intro a b t0 xc x' hc hd hx
    obtain ⟨rfl, hc⟩ := hc
    obtain ⟨hd0, hd⟩ := hd
    obtain ⟨y1, h1, h2⟩ := stage_input s (t0 := t0) (xc := xc) (x' := x') hd0 hx
    obtain ⟨y2, h3, h4⟩ := ih (t0 := t0) (xc := fun t => s.out (xc t)) (x' := y1) hc hd h1
    exact ⟨y2, h3, fun u => (h4 u).trans (h2 _)⟩

/-- Moving one parameter of a stack: layer `i`, parameter `r`. -/
theorem stack_param (ss : List (Stage ℝ)) : ∀ {a b : Nat × Nat × Nat} {v : Nat → ℝ} {i : Nat} {s : Stage ℝ} {r : PRef},
    StackFits a ss b → StackDiff ss v → ss[i]? = some s → s.Has r →
    ∃ y' : Nat → ℝ, (∀ k, k < cells b → HasDerivAt (fun z => stackOut (ss.set i (s.set r z)) v k) (y' k) (s.get r)) ∧
      ∀ u : Nat → ℝ, ∃ G, (stackGrads ss v u)[i]? = some G ∧ ∑ k ∈ range (cells b), u k * y' k = G r := by
  induction ss with
  | nil => intro a b v i s r _ _ hi; simp at hi
  | cons s0 ss ih =>
    intro a b v i s r hc hd hi hr
    obtain ⟨rfl, hc⟩ := hc
    obtain ⟨hd0, hd⟩ := hd
    cases i with
    | zero =>
      have e : s0 = s := by simpa using hi
      subst e
      obtain ⟨y1, h1, h2⟩ := stage_param s0 r hr v hd0
      obtain ⟨y2, h3, h4⟩ := stack_input ss (t0 := s0.get r) (xc := fun z => (s0.set r z).out v) (x' := y1) hc
        (by rw [Stage.set_get]; exact hd) h1
      refine ⟨y2, h3, fun u => ⟨_, rfl, (h4 u).trans ?_⟩⟩
      rw [h2, Stage.set_get]
    | succ i =>
      obtain ⟨y', h1, h2⟩ := ih (v := s0.out v) hc hd (by simpa using hi) hr
      refine ⟨y', h1, fun u => ?_⟩
      obtain ⟨G, e, hG⟩ := h2 u
      exact ⟨G, e, hG⟩

end Trixy
