import Verif.Spec.Symmetry
import Verif.Props.Library
/- C111: changes of the parameters that leave every prediction unchanged. -/
namespace Trixy
open Finset
set_option linter.unusedSectionVars false

/-! ### Predictions of library networks -/

theorem Net.IsLib.dense {net : Net ℝ} {ls : List LibLayer} {n m : Nat} (h : net.IsLib ls n m) : net.IsDense (ls.map LibLayer.dense) := by
  have : ∀ (net : Net ℝ) (ls : List LibLayer), (∀ l ∈ ls, 0 < l.m) →
      List.Forall₂ (fun (l : Layer ℝ) a => ∃ f, l = .fc f ∧ f.Wf a.n a.m a.b a.W ∧ f.act = a.act.obj) net ls →
      List.Forall₂ Layer.IsDense net (ls.map LibLayer.dense) := by
    intro net ls hp h
    induction h with
    | nil => exact .nil
    | @cons a b net ls hab _ ih =>
      obtain ⟨f, e, hw, ha⟩ := hab
      refine .cons ⟨f, e, hw, ?_⟩ (ih (fun l hl => hp l (List.mem_cons_of_mem _ hl)))
      rw [ha]
      exact b.act.obj_Is _ (hp b (List.mem_cons_self ..))
  exact this net ls h.pos h.layers

/-- A network of library layers computes the function of its layers. -/
theorem Net.IsLib.out {net : Net ℝ} {ls : List LibLayer} {n m : Nat} (h : net.IsLib ls n m) {x : Ten ℝ} {v : Nat → ℝ} (hx : VecIs x.data n v) :
    Ok (Net.feedforward x net) (fun r => RowIs r.2 m (libOut ls v)) := by
  obtain ⟨A, hA, e⟩ := Net.IsDense.at h.dense
  have hl := h.layers.length_eq
  have hne : net ≠ [] := by intro e; rw [e] at hl; exact h.some (List.length_eq_zero_iff.1 hl.symm)
  have hc : Chain n (A.map (·.p)) m := by rw [e]; exact libFits_chain ls h.fits
  rw [Net.feedforward_eq x net hne (by rw [hl]; exact h.word)]
  refine (ff_dense hA hc hx).bind (fun net' q => ?_)
  have hl' := q.1.length
  have hl0 := hA.length
  have hne' : net' ≠ [] := by
    intro e; rw [e] at hl'
    rw [← hl'] at hl0
    exact hne (List.length_eq_zero_iff.1 hl0)
  obtain ⟨l, el, hr⟩ := q.2.last hc hne'
  rw [el, bind_ok]
  refine Ok_ok.2 ?_
  rw [e, libOut_eq] at hr
  exact hr

/-! ### Stacks -/

theorem libOut_append (as bs : List LibLayer) (v : Nat → ℝ) : libOut (as ++ bs) v = libOut bs (libOut as v) := by
  induction as generalizing v with
  | nil => rfl
  | cons l as ih => exact ih _

theorem libFits_append {n m : Nat} (as bs : List LibLayer) (h : libFits n (as ++ bs) m) : ∃ k, libFits n as k ∧ libFits k bs m := by
  induction as generalizing n with
  | nil => exact ⟨n, rfl, h⟩
  | cons l as ih =>
    obtain ⟨k, h1, h2⟩ := ih h.2
    exact ⟨k, ⟨h.1, h1⟩, h2⟩

theorem LibAct.fn_congr (a : LibAct) {m : Nat} {v w : Nat → ℝ} (h : ∀ j, j < m → v j = w j) : ∀ j, j < m → a.fn m v j = a.fn m w j := by
  intro j hj
  cases a with
  | elem k => show k.fn _ = k.fn _; rw [h j hj]
  | softmax =>
    show softmaxFn m v j = softmaxFn m w j
    unfold softmaxFn
    rw [h j hj, sum_congr rfl (fun i hi => by rw [h i (mem_range.1 hi)])]

theorem LibLayer.pre_congr (l : LibLayer) {v w : Nat → ℝ} (h : ∀ j, j < l.n → v j = w j) : l.pre v = l.pre w := by
  funext j
  unfold LibLayer.pre
  rw [sum_congr rfl (fun i hi => by rw [h i (mem_range.1 hi)])]

theorem libOut_congr : ∀ (ls : List LibLayer) {n m : Nat} {v w : Nat → ℝ}, libFits n ls m → (∀ j, j < n → v j = w j) →
    ∀ j, j < m → libOut ls v j = libOut ls w j := by
  intro ls
  cases ls with
  | nil => intro n m v w h e j hj; cases h; exact e j hj
  | cons l ls =>
    intro n m v w h e j hj
    show libOut ls _ j = libOut ls _ j
    rw [l.pre_congr (fun j hj => e j (h.1 ▸ hj))]

/-- Two networks that differ in the middle only, where both have the same function. -/
theorem alike_of {net net' : Net ℝ} {n m : Nat} {pre mid mid' post : List LibLayer} (h : net.IsLib (pre ++ mid ++ post) n m)
    (h' : net'.IsLib (pre ++ mid' ++ post) n m)
    (e : ∀ a b, libFits a mid b → libFits b post m → ∀ v j, j < b → libOut mid' v j = libOut mid v j) : PredictAlike n m net net' := by
  intro x v hx
  obtain ⟨r, e1, q1⟩ := h.out hx
  obtain ⟨r', e2, q2⟩ := h'.out hx
  refine ⟨r, r', _, e1, e2, q1, ?_⟩
  obtain ⟨b, f1, f2⟩ := libFits_append _ _ h.fits
  obtain ⟨a, f3, f4⟩ := libFits_append _ _ f1
  refine ⟨q2.1, q2.2.1, q2.2.2.1, q2.2.2.2.congr (fun j hj => ?_)⟩
  rw [libOut_append, libOut_append, libOut_append, libOut_append]
  exact libOut_congr post f2 (fun j hj => e a b f4 f2 _ j hj) j hj

/-- Two layers, of which the first gives `s·y + t` where it gave `y`, and the second takes that back. -/
theorem mid_conj {p q p' q' : LibLayer} (hm : p'.m = p.m) (hqn : q'.n = q.n) (hqm : q'.m = q.m) (hqa : q'.act = q.act) (s t : Nat → ℝ)
    (hs : ∀ v j, j < p.m → p'.act.fn p'.m (p'.pre v) j = s j * p.act.fn p.m (p.pre v) j + t j)
    (hW : ∀ j l, j < p.m → l < q.m → s j * q'.W j l = q.W j l) (hb : ∀ l, l < q.m → q'.b l + ∑ j ∈ range p.m, t j * q'.W j l = q.b l) :
    ∀ a b, libFits a [p, q] b → ∀ v j, j < b → libOut [p', q'] v j = libOut [p, q] v j := by
  intro a b hf v j hj
  obtain ⟨-, hqp, rfl⟩ := hf
  show q'.act.fn q'.m (q'.pre (p'.act.fn p'.m (p'.pre v))) j = q.act.fn q.m (q.pre (p.act.fn p.m (p.pre v))) j
  rw [hqa, hqm]
  refine q.act.fn_congr (fun l hl => ?_) j hj
  unfold LibLayer.pre
  rw [hqn, hqp, ← hb l hl]
  have : ∑ i ∈ range p.m, p'.act.fn p'.m (p'.pre v) i * q'.W i l =
      ∑ i ∈ range p.m, p.act.fn p.m (p.pre v) i * q.W i l + ∑ j ∈ range p.m, t j * q'.W j l := by
    rw [← sum_add_distrib]
    refine sum_congr rfl (fun i hi => ?_)
    rw [hs v i (mem_range.1 hi), ← hW i l (mem_range.1 hi) hl]
    ring
  unfold LibLayer.pre at this
  rw [this]; ring

theorem conj_alike {net net' : Net ℝ} {n m : Nat} {pre post : List LibLayer} {p q p' q' : LibLayer} (h : net.IsLib (pre ++ [p, q] ++ post) n m)
    (h' : net'.IsLib (pre ++ [p', q'] ++ post) n m) (hm : p'.m = p.m) (hqn : q'.n = q.n) (hqm : q'.m = q.m) (hqa : q'.act = q.act) (s t : Nat → ℝ)
    (hs : ∀ v j, j < p.m → p'.act.fn p'.m (p'.pre v) j = s j * p.act.fn p.m (p.pre v) j + t j)
    (hW : ∀ j l, j < p.m → l < q.m → s j * q'.W j l = q.W j l) (hb : ∀ l, l < q.m → q'.b l + ∑ j ∈ range p.m, t j * q'.W j l = q.b l) :
    PredictAlike n m net net' := alike_of h h' (fun a b hf _ => mid_conj hm hqn hqm hqa s t hs hW hb a b hf)

/-! ### The theorems -/

theorem ActKind.Scales.fn {k : ActKind} {c : ℝ} (h : k.Scales c) (x : ℝ) : k.fn (c * x) = c * k.fn x := by
  cases k <;> simp only [ActKind.Scales] at h
  case identity => rfl
  case relu => show max _ _ = c * max _ _; rw [mul_max_of_nonneg _ _ h.le, mul_zero]
  case lrelu =>
    show max _ _ = c * max _ _
    rw [mul_max_of_nonneg _ _ h.le]
    congr 1; ring
  case tanh => rcases h with rfl | rfl <;> simp [ActKind.fn, Real.tanh_neg]
  case softsign =>
    rcases h with rfl | rfl
    · simp
    · simp [ActKind.fn, abs_neg, neg_div]
  all_goals subst h; simp

/-- Multiplying the weights and the bias that lead to unit `j` of a layer by `c j` and dividing the weights that lead away from it by `c j`,
for factors the activation scales with, changes no prediction. -/
theorem C111_rescale (pre post : List LibLayer) (p q : LibLayer) (k : ActKind) (hk : p.act = .elem k) (c : Nat → ℝ) (hc : ∀ j, j < p.m → k.Scales (c j))
    (n m : Nat) (net net' : Net ℝ) (h : net.IsLib (pre ++ [p, q] ++ post) n m)
    (h' : net'.IsLib (pre ++ [{ p with W := fun i j => c j * p.W i j, b := fun j => c j * p.b j }, { q with W := fun j l => q.W j l / c j }] ++ post) n m) :
    PredictAlike n m net net' := by
  have hne : ∀ j, j < p.m → c j ≠ 0 := fun j hj => by
    have := hc j hj
    cases k <;> simp only [ActKind.Scales] at this
    case identity => exact this
    case relu => exact this.ne'
    case lrelu => exact this.ne'
    case tanh => rcases this with e | e <;> rw [e] <;> norm_num
    case softsign => rcases this with e | e <;> rw [e] <;> norm_num
    all_goals rw [this]; norm_num
  refine conj_alike h h' rfl rfl rfl rfl c (fun _ => 0) (fun v j hj => ?_) (fun j l hj _ => ?_) (fun l _ => ?_)
  · rw [hk]
    show k.fn _ = c j * k.fn _ + 0
    rw [add_zero, ← (hc j hj).fn]
    congr 1
    show ∑ i ∈ range p.n, v i * (c j * p.W i j) + c j * p.b j = c j * (∑ i ∈ range p.n, v i * p.W i j + p.b j)
    rw [mul_add, mul_sum]
    congr 1
    exact sum_congr rfl (fun i _ => by ring)
  · show c j * (q.W j l / c j) = q.W j l
    rw [mul_div_cancel₀ _ (hne j hj)]
  · show q.b l + ∑ j ∈ range p.m, 0 * _ = q.b l
    rw [sum_eq_zero (fun j _ => zero_mul _), add_zero]

theorem sigmoid_neg (x : ℝ) : ActKind.sigmoid.fn (-x) = -ActKind.sigmoid.fn x + 1 := by
  show (1 + Real.exp (- -x))⁻¹ = -(1 + Real.exp (-x))⁻¹ + 1
  rw [neg_neg, Real.exp_neg]
  have := Real.exp_pos x
  field_simp
  ring

/-- Turning round the sigmoid units in `S`: weights and bias that lead to them and weights that lead away change sign, and the weights that led away
are added to the biases of the next layer. -/
theorem C111_sigmoid_flip (pre post : List LibLayer) (p q : LibLayer) (hk : p.act = .elem .sigmoid) (S : Nat → Prop) [DecidablePred S]
    (n m : Nat) (net net' : Net ℝ) (h : net.IsLib (pre ++ [p, q] ++ post) n m)
    (h' : net'.IsLib (pre ++ [{ p with W := fun i j => if S j then -p.W i j else p.W i j, b := fun j => if S j then -p.b j else p.b j },
      { q with W := fun j l => if S j then -q.W j l else q.W j l, b := fun l => q.b l + ∑ j ∈ range p.m, if S j then q.W j l else 0 }] ++ post) n m) :
    PredictAlike n m net net' := by
  refine conj_alike h h' rfl rfl rfl rfl (fun j => if S j then -1 else 1) (fun j => if S j then 1 else 0)
    (fun v j hj => ?_) (fun j l hj _ => ?_) (fun l _ => ?_)
  · rw [hk]
    show ActKind.sigmoid.fn (∑ i ∈ range p.n, v i * (if S j then -p.W i j else p.W i j) + (if S j then -p.b j else p.b j)) =
      _ * ActKind.sigmoid.fn (∑ i ∈ range p.n, v i * p.W i j + p.b j) + _
    by_cases hS : S j
    · simp only [if_pos hS, mul_neg, sum_neg_distrib]
      rw [← neg_add, sigmoid_neg]; ring
    · simp only [if_neg hS]; ring
  · dsimp only
    split <;> ring
  · show q.b l + (∑ j ∈ range p.m, if S j then q.W j l else 0) + ∑ j ∈ range p.m, (if S j then (1 : ℝ) else 0) * (if S j then -q.W j l else q.W j l) = q.b l
    rw [add_assoc, ← sum_add_distrib, sum_eq_zero, add_zero]
    intro j _
    split <;> ring

theorem tanh_sigmoid (x : ℝ) : ActKind.sigmoid.fn (2 * x) = 1 / 2 * ActKind.tanh.fn x + 1 / 2 := by
  show (1 + Real.exp (-(2 * x)))⁻¹ = 1 / 2 * Real.tanh x + 1 / 2
  rw [Real.tanh_eq_sinh_div_cosh, Real.sinh_eq, Real.cosh_eq, show -(2 * x) = -x + -x by ring, Real.exp_add, Real.exp_neg]
  have := Real.exp_pos x
  field_simp
  ring

/-- A layer of hyperbolic tangents can be replaced by one of sigmoids: all weights and biases around it doubled, and the weights that lead away subtracted
from the biases of the next layer. -/
theorem C111_tanh_sigmoid (pre post : List LibLayer) (p q : LibLayer) (hk : p.act = .elem .tanh) (n m : Nat) (net net' : Net ℝ)
    (h : net.IsLib (pre ++ [p, q] ++ post) n m)
    (h' : net'.IsLib (pre ++ [{ p with W := fun i j => 2 * p.W i j, b := fun j => 2 * p.b j, act := .elem .sigmoid },
      { q with W := fun j l => 2 * q.W j l, b := fun l => q.b l - ∑ j ∈ range p.m, q.W j l }] ++ post) n m) :
    PredictAlike n m net net' := by
  refine conj_alike h h' rfl rfl rfl rfl (fun _ => 1 / 2) (fun _ => 1 / 2)
    (fun v j hj => ?_) (fun j l hj _ => ?_) (fun l _ => ?_)
  · rw [hk]
    show ActKind.sigmoid.fn (∑ i ∈ range p.n, v i * (2 * p.W i j) + 2 * p.b j) = 1 / 2 * ActKind.tanh.fn (∑ i ∈ range p.n, v i * p.W i j + p.b j) + 1 / 2
    rw [← tanh_sigmoid, mul_add, mul_sum]
    congr 2
    exact sum_congr rfl (fun i _ => by ring)
  · dsimp only; ring
  · show q.b l - (∑ j ∈ range p.m, q.W j l) + ∑ j ∈ range p.m, 1 / 2 * (2 * q.W j l) = q.b l
    rw [sum_congr rfl (fun j _ => (by ring : 1 / 2 * (2 * q.W j l) = q.W j l))]
    ring

/-- A layer without activation can be merged into the next one. -/
theorem C111_merge (pre post : List LibLayer) (p q : LibLayer) (hk : p.act = .elem .identity) (n m : Nat) (net net' : Net ℝ)
    (h : net.IsLib (pre ++ [p, q] ++ post) n m)
    (h' : net'.IsLib (pre ++ [LibLayer.mk p.n q.m (fun l => ∑ j ∈ range p.m, p.b j * q.W j l + q.b l)
      (fun i l => ∑ j ∈ range p.m, p.W i j * q.W j l) q.act] ++ post) n m) :
    PredictAlike n m net net' := by
  refine alike_of h h' (fun a b hf _ v j hj => ?_)
  obtain ⟨-, hqp, rfl⟩ := hf
  refine q.act.fn_congr (fun l hl => ?_) j hj
  rw [hk]
  show ∑ i ∈ range p.n, v i * (∑ j ∈ range p.m, p.W i j * q.W j l) + (∑ j ∈ range p.m, p.b j * q.W j l + q.b l) =
    ∑ j ∈ range q.n, (∑ i ∈ range p.n, v i * p.W i j + p.b j) * q.W j l + q.b l
  rw [hqp, ← add_assoc]
  congr 1
  simp only [add_mul, sum_mul, mul_sum, sum_add_distrib]
  congr 1
  rw [sum_comm]
  exact sum_congr rfl (fun j _ => sum_congr rfl (fun i _ => by ring))

/-- The scores of a softmax layer matter up to a common term only: adding `a i` to all weights leading away from input `i` and `s` to all biases changes no
prediction. -/
theorem C111_softmax_shift (pre post : List LibLayer) (p : LibLayer) (hk : p.act = .softmax) (a : Nat → ℝ) (s : ℝ) (n m : Nat) (net net' : Net ℝ)
    (h : net.IsLib (pre ++ [p] ++ post) n m) (h' : net'.IsLib (pre ++ [{ p with W := fun i j => p.W i j + a i, b := fun j => p.b j + s }] ++ post) n m) :
    PredictAlike n m net net' := by
  refine alike_of h h' (fun _ b hf _ v j hj => ?_)
  obtain ⟨-, rfl⟩ := hf
  have e : ∀ j, LibLayer.pre { p with W := fun i j => p.W i j + a i, b := fun j => p.b j + s } v j = p.pre v j + (∑ i ∈ range p.n, v i * a i + s) := fun j => by
    show ∑ i ∈ range p.n, v i * (p.W i j + a i) + (p.b j + s) = ∑ i ∈ range p.n, v i * p.W i j + p.b j + (∑ i ∈ range p.n, v i * a i + s)
    rw [sum_congr rfl (fun i _ => mul_add _ _ _), sum_add_distrib]
    ring
  show p.act.fn p.m (LibLayer.pre { p with W := fun i j => p.W i j + a i, b := fun j => p.b j + s } v) j = p.act.fn p.m (p.pre v) j
  rw [show LibLayer.pre { p with W := fun i j => p.W i j + a i, b := fun j => p.b j + s } v = _ from funext e, hk]
  simp only [LibAct.fn, softmaxFn, Real.exp_add]
  rw [← sum_mul]
  exact mul_div_mul_right _ _ (mul_pos (Real.exp_pos _) (Real.exp_pos _)).ne'

/-- Softmax over two classes is the sigmoid of the difference of the scores. -/
theorem C111_two_classes (pre : List LibLayer) (p : LibLayer) (hk : p.act = .softmax) (n : Nat) (net net' : Net ℝ) (h : net.IsLib (pre ++ [p]) n 2)
    (h' : net'.IsLib (pre ++ [{ p with m := 1, W := fun i _ => p.W i 0 - p.W i 1, b := fun _ => p.b 0 - p.b 1, act := .elem .sigmoid }]) n 1)
    (x : Ten ℝ) (v : Nat → ℝ) (hx : VecIs x.data n v) :
    ∃ r r' y y', Net.feedforward x net = .ok r ∧ Net.feedforward x net' = .ok r' ∧ RowIs r.2 2 y ∧ RowIs r'.2 1 y' ∧ y 0 = y' 0 ∧ y 1 = 1 - y' 0 := by
  obtain ⟨r, e1, q1⟩ := h.out hx
  obtain ⟨r', e2, q2⟩ := h'.out hx
  obtain ⟨b, f1, f2⟩ := libFits_append _ _ h.fits
  refine ⟨r, r', _, _, e1, e2, q1, q2, ?_⟩
  rw [libOut_append, libOut_append]
  generalize libOut pre v = w
  have hm : p.m = 2 := f2.2
  have z : LibLayer.pre { p with m := 1, W := fun i _ => p.W i 0 - p.W i 1, b := fun _ => p.b 0 - p.b 1, act := .elem .sigmoid } w 0 = p.pre w 0 - p.pre w 1 := by
    show ∑ i ∈ range p.n, w i * (p.W i 0 - p.W i 1) + (p.b 0 - p.b 1) = (∑ i ∈ range p.n, w i * p.W i 0 + p.b 0) - (∑ i ∈ range p.n, w i * p.W i 1 + p.b 1)
    rw [sum_congr rfl (fun i _ => mul_sub _ _ _), sum_sub_distrib]; ring
  have e3 : libOut [{ p with m := 1, W := fun i _ => p.W i 0 - p.W i 1, b := fun _ => p.b 0 - p.b 1, act := .elem .sigmoid }] w 0 =
      (1 + Real.exp (-(p.pre w 0 - p.pre w 1)))⁻¹ := by
    rw [← z]; rfl
  have e4 : ∀ j, libOut [p] w j = Real.exp (p.pre w j) / (Real.exp (p.pre w 0) + Real.exp (p.pre w 1)) := fun j => by
    show p.act.fn p.m (p.pre w) j = _
    rw [hk, hm]
    show softmaxFn 2 _ j = _
    unfold softmaxFn
    rw [sum_range_succ, sum_range_one]
  rw [e3, e4, e4, neg_sub, Real.exp_sub]
  have h0 := Real.exp_pos (p.pre w 0)
  have h1 := Real.exp_pos (p.pre w 1)
  constructor <;> field_simp
  ring

/-! ### Non-vacuity -/

/-- A fresh layer object with the parameters of `l` in it. -/
noncomputable def LibLayer.layer (l : LibLayer) (k : Nat) : FC ℝ :=
  { FC.make l.n l.m l.act.obj (2 * k) (2 * k + 1) with
    B := Buf.of ((List.range l.m).map l.b)
    W := ⟨l.n, l.m, Buf.of ((List.range (l.n * l.m)).map (fun a => l.W (a / l.m) (a % l.m)))⟩ }

theorem LibLayer.layer_wf (l : LibLayer) (k : Nat) : (l.layer k).Wf l.n l.m l.b l.W := by
  have hW : MatIs (⟨l.n, l.m, Buf.of ((List.range (l.n * l.m)).map (fun a => l.W (a / l.m) (a % l.m)))⟩ : Mat ℝ) l.n l.m l.W := by
    obtain ⟨h1, h2, h3, h4⟩ := MatIs.of_flat' (m := ⟨l.n, l.m, Buf.of ((List.range (l.n * l.m)).map (fun a => l.W (a / l.m) (a % l.m)))⟩) rfl rfl
      (VecIs_of' (fun a => l.W (a / l.m) (a % l.m)) (l.n * l.m))
    refine ⟨h1, h2, h3, fun i j hi hj => (h4 i j hi hj).trans ?_⟩
    have e1 : (i * l.m + j) / l.m = i := by
      rw [Nat.mul_comm, Nat.mul_add_div (by omega), Nat.div_eq_of_lt hj, Nat.add_zero]
    have e2 : (i * l.m + j) % l.m = j := by rw [Nat.mul_comm, Nat.mul_add_mod, Nat.mod_eq_of_lt hj]
    dsimp only
    rw [e1, e2]
  exact { FC.Wf_make l.n l.m l.act.obj (2 * k) (2 * k + 1) with B := VecIs_of' l.b l.m, W := hW }

/-- Every description of a network of the right form is the description of a network, so the hypotheses of the theorems above are met by all of
them; for instance by both networks of each theorem, whenever the first one is given. -/
theorem isLib_exists (ls : List LibLayer) (n m : Nat) (h0 : ls ≠ []) (hw : ls.length < W64) (hf : libFits n ls m) (hp : ∀ l ∈ ls, 0 < l.m) :
    ∃ net : Net ℝ, net.IsLib ls n m := by
  refine ⟨ls.map (fun l => .fc (l.layer 0)), ?_, h0, hw, hf, hp⟩
  clear h0 hw hf hp
  induction ls with
  | nil => exact .nil
  | cons l ls ih => exact .cons ⟨_, rfl, l.layer_wf 0, rfl⟩ ih

/-- Two inputs, a hidden layer of two `ReLU` units, one output: the first unit scaled by 2, the second by 1/2. -/
noncomputable def syHidden : LibLayer := ⟨2, 2, fun j => j, fun i j => i + j + 1, .elem .relu⟩
noncomputable def syOut : LibLayer := ⟨2, 1, fun _ => 3, fun j _ => j - 1, .elem .sigmoid⟩

example : ∃ net net' : Net ℝ, net.IsLib [syHidden, syOut] 2 1 ∧ PredictAlike 2 1 net net' ∧
    net'.IsLib [⟨2, 2, fun j => (if j = 0 then 2 else 1 / 2) * (j : ℝ), fun i j => (if j = 0 then 2 else 1 / 2) * ((i : ℝ) + j + 1), .elem .relu⟩,
      ⟨2, 1, fun _ => 3, fun j _ => ((j : ℝ) - 1) / (if j = 0 then 2 else 1 / 2), .elem .sigmoid⟩] 2 1 := by
  obtain ⟨net, h⟩ := isLib_exists [syHidden, syOut] 2 1 (by simp) (by show 2 < W64; decide) ⟨rfl, rfl, rfl⟩ (by simp [syHidden, syOut])
  obtain ⟨net', h'⟩ := isLib_exists [⟨2, 2, fun j => (if j = 0 then 2 else 1 / 2) * (j : ℝ), fun i j => (if j = 0 then 2 else 1 / 2) * ((i : ℝ) + j + 1), .elem .relu⟩,
      ⟨2, 1, fun _ => 3, fun j _ => ((j : ℝ) - 1) / (if j = 0 then 2 else 1 / 2), .elem .sigmoid⟩] 2 1 (by simp) (by show 2 < W64; decide) ⟨rfl, rfl, rfl⟩ (by simp)
  refine ⟨net, net', h, ?_, h'⟩
  exact C111_rescale [] [] syHidden syOut .relu rfl (fun j => if j = 0 then 2 else 1 / 2) (fun j _ => by show 0 < _; split <;> norm_num) 2 1 net net' h h'

/-- For other factors the predictions do change: `ReLU` does not scale with -1. -/
example : ¬ ActKind.relu.fn (-1 * 1) = -1 * ActKind.relu.fn 1 := by norm_num [ActKind.fn]

end Trixy
