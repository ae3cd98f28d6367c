import Verif.Spec.Order
import Verif.Props.Reproduce
import Verif.Props.Regression
import Verif.Props.Checker
import Mathlib.Data.List.Perm.Basic
import Mathlib.Data.List.Forall2
/- C82: the order of the samples. -/
namespace Trixy
set_option linter.unusedSectionVars false

variable {α σ : Type}

/-! ### Sums of gradients -/

theorem zipAdd_right_comm [AddCommSemigroup α] : ∀ (a x y : List (Grad α)),
    List.zipWith addGrad (List.zipWith addGrad a x) y = List.zipWith addGrad (List.zipWith addGrad a y) x
  | [], _, _ => by simp
  | a :: as, [], y => by cases y <;> simp
  | a :: as, x :: xs, [] => by simp
  | a :: as, x :: xs, y :: ys => by
    simp only [List.zipWith_cons_cons, zipAdd_right_comm as xs ys]
    congr 1
    unfold addGrad
    simp only [add_right_comm]

theorem gradSum_perm [NonUnitalNonAssocSemiring α] (dL : (Nat → α) → (Nat → α) → Nat → α) (ps : List (Dense α))
    {vs vs' : List ((Nat → α) × (Nat → α))} (h : vs.Perm vs') : gradSum dL ps vs = gradSum dL ps vs' := by
  unfold gradSum
  exact h.foldl_eq' (fun x _ y _ z => zipAdd_right_comm z _ _) _

/-! ### Samples and their values -/

theorem DataIs.zip {idata odata : List (Ten α)} {n m : Nat} {vs : List ((Nat → α) × (Nat → α))} (h : DataIs idata odata n m vs) :
    List.Forall₂ (fun (q : Ten α × Ten α) vw => VecIs q.1.data n vw.1 ∧ VecIs q.2.data m vw.2) (idata.zip odata) vs := by
  obtain ⟨h1, h2⟩ := h
  induction h1 generalizing odata with
  | nil => simp
  | cons a _ ih =>
    cases h2 with
    | cons b h2 => exact .cons ⟨a, b⟩ (ih h2)

theorem DataIs.of_zip {n m : Nat} : ∀ {idata odata : List (Ten α)} {vs : List ((Nat → α) × (Nat → α))}, idata.length = odata.length →
    List.Forall₂ (fun (q : Ten α × Ten α) vw => VecIs q.1.data n vw.1 ∧ VecIs q.2.data m vw.2) (idata.zip odata) vs →
    DataIs idata odata n m vs
  | [], [], vs, _, h => by cases h; exact ⟨.nil, .nil⟩
  | [], _ :: _, _, e, _ => by simp at e
  | _ :: _, [], _, e, _ => by simp at e
  | x :: xs, y :: ys, vs, e, h => by
    rw [List.zip_cons_cons] at h
    cases h with
    | cons a h =>
      obtain ⟨h1, h2⟩ := DataIs.of_zip (by simpa using e) h
      exact ⟨.cons a.1 h1, .cons a.2 h2⟩

theorem forall₂_perm {ι κ : Type} {R : ι → κ → Prop} {l l' : List ι} {v : List κ} (h : List.Forall₂ R l v) (p : l.Perm l') :
    ∃ v', List.Forall₂ R l' v' ∧ v.Perm v' := by
  obtain ⟨v', h1, h2⟩ := (List.perm_comp_forall₂ p.symm h)
  exact ⟨v', h1, h2.symm⟩

/-- The values of a sample, with zeros outside. -/
def sampleVals [Zero α] (q : Ten α × Ten α) : (Nat → α) × (Nat → α) :=
  (fun i => (q.1.data[i]?.join).getD 0, fun i => (q.2.data[i]?.join).getD 0)

theorem VecIs.vals [Zero α] {x : Buf α} {n : Nat} {v : Nat → α} (h : VecIs x n v) : VecIs x n (fun i => (x[i]?.join).getD 0) := by
  obtain ⟨hl, hv⟩ := h
  refine ⟨hl, fun i hi => ?_⟩
  have := hv i hi
  simp only [this, Option.join_some, Option.getD_some]

theorem DataIs.vals [Zero α] {idata odata : List (Ten α)} {n m : Nat} {vs : List ((Nat → α) × (Nat → α))} (h : DataIs idata odata n m vs) :
    DataIs idata odata n m ((idata.zip odata).map sampleVals) := by
  refine DataIs.of_zip (h.1.length_eq.trans h.2.length_eq.symm) ?_
  rw [List.forall₂_map_right_iff]
  have hz := h.zip
  clear h
  generalize idata.zip odata = l at hz ⊢
  induction hz with
  | nil => exact .nil
  | cons a _ ih => exact .cons ⟨a.1.vals, a.2.vals⟩ ih

theorem drop_zip' {ι κ : Type} : ∀ (k : Nat) (l : List ι) (r : List κ), (l.zip r).drop k = (l.drop k).zip (r.drop k)
  | 0, _, _ => rfl
  | k + 1, [], r => by simp
  | k + 1, l, [] => by simp
  | k + 1, a :: l, b :: r => by simp only [List.zip_cons_cons, List.drop_succ_cons]; exact drop_zip' k l r

theorem take_zip' {ι κ : Type} : ∀ (k : Nat) (l : List ι) (r : List κ), (l.zip r).take k = (l.take k).zip (r.take k)
  | 0, _, _ => by simp
  | k + 1, [], r => by simp
  | k + 1, l, [] => by simp
  | k + 1, a :: l, b :: r => by simp only [List.zip_cons_cons, List.take_succ_cons]; rw [take_zip' k l r]

theorem block_zip {ι κ : Type} (l : List ι) (r : List κ) (k b : Nat) : block (l.zip r) k b = (block l k b).zip (block r k b) := by
  unfold block
  rw [drop_zip', take_zip']

theorem block_map {ι κ : Type} (f : ι → κ) (l : List ι) (k b : Nat) : block (l.map f) k b = (block l k b).map f := by
  unfold block
  rw [← List.map_drop, ← List.map_take]

section
variable [Field α] [LT α] [DecidableLT α] [DecidableEq α]

theorem same_twin {upd : Upd σ α} {size : Nat → Nat} {I : σ → Prop} (hu : UpdOk upd size I) :
    TwinOpt upd Eq Eq (fun k n => size k = n) I :=
  hu.twin (fun s₁ s₂ k₁ k₂ p g r hs hk e => by subst hs hk; exact ⟨r.1, e, rfl⟩)

theorem same_start {t : Train α} {ps : List (Dense α)} {n m : Nat} {dL : (Nat → α) → (Nat → α) → Nat → α} (h : t.Is ps n m dL)
    {size : Nat → Nat} (hz : t.net.Sized size) {I : σ → Prop} {s : σ} (hI : I s) :
    TwinT Eq (fun k n => size k = n) Eq I n m dL (s, t) (s, t) := by
  obtain ⟨A, hA, _⟩ := h.at
  refine ⟨rfl, hI, A, A, hA, hA, twin_zip hA.net hA.net rfl hz (fun q hq => ?_)⟩
  rw [List.zip_eq_zipWith, List.zipWith_self, List.mem_map] at hq
  obtain ⟨_, _, rfl⟩ := hq
  rfl

theorem TwinT.outcome {V : Nat → Nat → Prop} {I : σ → Prop} {n m : Nat} {dL : (Nat → α) → (Nat → α) → Nat → α} {x y : σ × Train α}
    (h : TwinT Eq V Eq I n m dL x y) : outcome (.ok x) = outcome (.ok y) := by
  have := h.params
  unfold Trixy.outcome
  rw [bind_ok, bind_ok, h.1, this]

/-- `batch`: the order of the samples does not matter in exact arithmetic, for any optimizer. -/
theorem C82_batch (upd : Upd σ α) (size : Nat → Nat) (I : σ → Prop) (hu : UpdOk upd size I) (s : σ) (hI : I s) (t : Train α)
    (ps : List (Dense α)) (n m : Nat) (dL : (Nat → α) → (Nat → α) → Nat → α) (h : t.Is ps n m dL) (hz : t.net.Sized size)
    (idata odata idata' odata' : List (Ten α)) (vs : List ((Nat → α) × (Nat → α))) (hd : DataIs idata odata n m vs) (hne : vs ≠ [])
    (hp : SameSamples idata odata idata' odata') (epochs : Nat) :
    ∃ r, outcome (Train.batch upd idata odata epochs (s, t)) = .ok r ∧ outcome (Train.batch upd idata' odata' epochs (s, t)) = .ok r := by
  obtain ⟨l1, l2, hp⟩ := hp
  obtain ⟨vs', h', p'⟩ := forall₂_perm hd.zip hp
  have hd' := DataIs.of_zip l2 h'
  have hlen : idata.length = vs.length := hd.1.length_eq
  have hlen' : idata'.length = vs.length := hd'.1.length_eq.trans p'.length_eq.symm
  have hpos : 1 ≤ vs.length := List.length_pos_iff.2 hne
  obtain ⟨x, y, e1, e2, q⟩ := TwinT.steps₂ (same_twin hu) hd hd' (1 / (vs.length : α)) (List.replicate epochs (0, vs.length))
    (by
      intro w hw
      rw [List.mem_replicate] at hw
      rw [hw.2]; dsimp only
      have := p'.length_eq
      refine ⟨by omega, by omega, by omega, fun qs => ?_⟩
      rw [List.drop_zero, List.drop_zero, List.take_length, this, List.take_length]
      exact gradSum_perm dL qs p')
    (same_start h hz hI)
  rw [batch_run upd idata odata _ _ (by omega), batch_run upd idata' odata' _ _ (by omega), hlen, hlen', batchTrace_steps, e1, e2]
  exact ⟨_, rfl, q.outcome.symm⟩

/-- `mini_batch`: neither does the order of the samples inside a batch; samples after the last full batch may be different. -/
theorem C82_mini_batch (upd : Upd σ α) (size : Nat → Nat) (I : σ → Prop) (hu : UpdOk upd size I) (s : σ) (hI : I s) (t : Train α)
    (ps : List (Dense α)) (n m : Nat) (dL : (Nat → α) → (Nat → α) → Nat → α) (h : t.Is ps n m dL) (hz : t.net.Sized size)
    (idata odata idata' odata' : List (Ten α)) (vs vs' : List ((Nat → α) × (Nat → α))) (hd : DataIs idata odata n m vs)
    (hd' : DataIs idata' odata' n m vs') (k : Nat) (hk : 1 ≤ k) (hq : idata.length / k = idata'.length / k)
    (hp : ∀ b, b < idata.length / k → SameSamples (block idata k b) (block odata k b) (block idata' k b) (block odata' k b)) (epochs : Nat) :
    ∃ r, outcome (Train.miniBatch upd idata odata epochs k (s, t)) = .ok r ∧
      outcome (Train.miniBatch upd idata' odata' epochs k (s, t)) = .ok r := by
  have hq1 : (idata.zip odata).length = idata.length := by
    rw [List.length_zip, ← hd.1.length_eq.trans hd.2.length_eq.symm, Nat.min_self]
  have hq2 : (idata'.zip odata').length = idata'.length := by
    rw [List.length_zip, ← hd'.1.length_eq.trans hd'.2.length_eq.symm, Nat.min_self]
  obtain ⟨x, y, e1, e2, q⟩ := TwinT.steps₂ (same_twin hu) hd.vals hd'.vals (1 / (k : α))
    ((List.replicate epochs ((List.range (idata.length / k)).map (fun b => (b * k, k)))).flatten)
    (by
      intro w hw
      obtain ⟨l, h1, h2⟩ := List.mem_flatten.1 hw
      rw [List.mem_replicate] at h1
      rw [h1.2] at h2
      obtain ⟨b, h3, rfl⟩ := List.mem_map.1 h2
      rw [List.mem_range] at h3
      dsimp only
      have fit : ∀ N, b < N / k → b * k + k ≤ N := by
        intro N hb
        have h1 : (b + 1) * k ≤ N / k * k := Nat.mul_le_mul_right k hb
        have h2 := Nat.div_mul_le_self N k
        rw [Nat.succ_mul] at h1
        exact h1.trans h2
      rw [List.length_map, List.length_map, hq1, hq2]
      refine ⟨fit _ h3, fit _ (hq ▸ h3), hk, fun qs => gradSum_perm dL qs ?_⟩
      show (block _ k b).Perm (block _ k b)
      rw [block_map, block_map, block_zip, block_zip]
      exact (hp b h3).2.2.map _)
    (same_start h hz hI)
  rw [miniBatch_run upd idata odata _ _ _ (by omega), miniBatch_run upd idata' odata' _ _ _ (by omega), miniTrace_steps,
    miniTrace_steps, ← hq, e1, e2]
  exact ⟨_, rfl, q.outcome.symm⟩

/-- `mini_batch` with one batch that holds all samples is `batch` (in any arithmetic). -/
theorem C82_whole_batch (upd : Upd σ α) (idata odata : List (Ten α)) (hne : idata ≠ []) (epochs : Nat) (st : σ × Train α) :
    Train.miniBatch upd idata odata epochs idata.length st = Train.batch upd idata odata epochs st := by
  have hpos : 0 < idata.length := List.length_pos_iff.2 hne
  rw [miniBatch_run upd idata odata _ _ _ (by omega), batch_run upd idata odata _ _ (by omega), miniTrace_steps, batchTrace_steps,
    Nat.div_self hpos]
  congr 2
  induction epochs with
  | zero => rfl
  | succ e ih => rw [List.replicate_succ, List.replicate_succ, List.flatten_cons, ih]; simp

end

/-! ### Regressions and accuracy -/

section
open Finset

theorem Reorders.maps {h : Nat} {e : Nat → Nat} (he : Reorders h e) {i : Nat} (hi : i < h) : e i < h := he.mapsTo hi

theorem Reorders.image {h : Nat} {e : Nat → Nat} (he : Reorders h e) {i : Nat} (hi : i < h) : ∃ j, j < h ∧ e j = i :=
  he.surjOn hi

theorem Reorders.sum {M : Type} [AddCommMonoid M] {h : Nat} {e : Nat → Nat} (he : Reorders h e) (f : Nat → M) :
    ∑ i ∈ range h, f (e i) = ∑ i ∈ range h, f i := by
  refine Finset.sum_nbij e ?_ ?_ ?_ (fun _ _ => rfl)
  · intro i hi; exact Finset.mem_coe.2 (mem_range.2 (he.maps (mem_range.1 hi)))
  · intro i hi j hj; exact he.injOn (mem_range.1 (Finset.mem_coe.1 hi)) (mem_range.1 (Finset.mem_coe.1 hj))
  · intro i hi
    obtain ⟨j, h1, h2⟩ := he.image (mem_range.1 (Finset.mem_coe.1 hi))
    exact ⟨j, Finset.mem_coe.2 (mem_range.2 h1), h2⟩

variable {K : Type} [Field K] [LinearOrder K] [IsStrictOrderedRing K]

theorem BestFit.reorder {k h : Nat} {e : Nat → Nat} (he : Reorders h e) {y : Nat → K} {pred : (Nat → K) → Nat → K} {w w' : Nat → K}
    (h1 : BestFit k h y pred w) (h2 : BestFit k h (fun i => y (e i)) (fun u i => pred u (e i)) w') : ∀ j, j < k + 1 → w' j = w j := by
  refine h1.2 w' ?_
  have := h2.1 w
  unfold rss at this ⊢
  rwa [he.sum (fun i => (y i - pred w' i) ^ 2), he.sum (fun i => (y i - pred w i) ^ 2)] at this

theorem Reg.Is.unique {α : Type} {r r' : Reg α} {k : Nat} {w w' : Nat → α} (h : r.Is k w) (h' : r'.Is k w') (e : ∀ j, j < k + 1 → w' j = w j) : r = r' := by
  obtain ⟨W, N⟩ := r
  obtain ⟨W', N'⟩ := r'
  have h1 : N = k + 1 := h.1
  have h2 : N' = k + 1 := h'.1
  have h3 : VecIs W (k + 1) w := h.2
  have h4 : VecIs W' (k + 1) w := h'.2.congr e
  rw [h1, h2, h3.ext h4]

/-- Training a linear regression on reordered samples: the same weights, or the same failure. -/
theorem C82_linear (r : Reg K) (h k : Nat) (x : Nat → Nat → K) (y : Nat → K) (e : Nat → Nat) (he : Reorders h e)
    (idata idata' : Mat K) (odata odata' : Buf K) (hr : r.Sized k) (hx : MatIs idata h k x) (hy : VecIs odata h y)
    (hx' : MatIs idata' h k (fun i j => x (e i) j)) (hy' : VecIs odata' h (fun i => y (e i))) :
    r.linTrain idata' odata' = r.linTrain idata odata := by
  have hid : LinIdent h k (fun i j => x (e i) j) ↔ LinIdent h k x := by
    constructor
    · intro hh u hu
      exact hh u (fun i hi => hu _ (he.maps hi))
    · intro hh u hu
      exact hh u (fun i hi => by obtain ⟨j, h1, rfl⟩ := he.image hi; exact hu j h1)
  by_cases hc : LinIdent h k x
  · obtain ⟨r1, e1, w1, q1, b1, _⟩ := C56_linear r h k x y idata odata hr hx hy hc
    obtain ⟨r2, e2, w2, q2, b2, _⟩ := C56_linear r h k _ _ idata' odata' hr hx' hy' (hid.2 hc)
    rw [e1, e2, q1.unique q2 (BestFit.reorder he b1 b2)]
  · rw [C56_not_identified_linear r h k x idata odata hr hx hc,
      C56_not_identified_linear r h k _ idata' odata' hr hx' (fun q => hc (hid.1 q))]

/-- Training a polynomial regression on reordered samples. -/
theorem C82_poly (r : Reg K) (h k : Nat) (x y : Nat → K) (e : Nat → Nat) (he : Reorders h e) (idata idata' odata odata' : Buf K)
    (hr : r.Sized k) (hx : VecIs idata h x) (hy : VecIs odata h y) (hx' : VecIs idata' h (fun i => x (e i)))
    (hy' : VecIs odata' h (fun i => y (e i))) : r.polyTrain idata' odata' = r.polyTrain idata odata := by
  have hid : PolyIdent h k (fun i => x (e i)) ↔ PolyIdent h k x := by
    constructor
    · intro hh u hu
      exact hh u (fun i hi => hu _ (he.maps hi))
    · intro hh u hu
      exact hh u (fun i hi => by obtain ⟨j, h1, rfl⟩ := he.image hi; exact hu j h1)
  by_cases hc : PolyIdent h k x
  · obtain ⟨r1, e1, w1, q1, b1, _⟩ := C56_poly r h k x y idata odata hr hx hy hc
    obtain ⟨r2, e2, w2, q2, b2, _⟩ := C56_poly r h k _ _ idata' odata' hr hx' hy' (hid.2 hc)
    rw [e1, e2, q1.unique q2 (BestFit.reorder he b1 b2)]
  · rw [C56_not_identified_poly r h k x idata odata hr hx hc,
      C56_not_identified_poly r h k _ idata' odata' hr hx' (fun q => hc (hid.1 q))]

theorem fractionOf_reorder {N : Nat} {e : Nat → Nat} (he : Reorders N e) (P : Nat → Prop) : fractionOf N (fun i => P (e i)) = fractionOf N P := by
  classical
  have : ((range N).filter (fun i => P (e i))).card = ((range N).filter P).card := by
    rw [card_filter, card_filter, he.sum (fun i => if P i then 1 else 0)]
  unfold fractionOf
  congr!

theorem fractionOf2_reorder {N m : Nat} {e : Nat → Nat} (he : Reorders N e) (P : Nat → Nat → Prop) :
    fractionOf2 N m (fun i j => P (e i) j) = fractionOf2 N m P := by
  classical
  have : ((range N ×ˢ range m).filter (fun ij => P (e ij.1) ij.2)).card = ((range N ×ˢ range m).filter (fun ij => P ij.1 ij.2)).card := by
    rw [card_filter, card_filter, sum_product, sum_product, he.sum (fun i => ∑ j ∈ range m, if P i j then 1 else 0)]
  unfold fractionOf2
  congr!

/-- The three accuracies on reordered samples. -/
theorem C82_accuracy {ι ν : Type} (ff : ι → ν → Res (ν × Buf K)) (Inv : ν → Prop) (D : ι → Prop) (m N : Nat) (F : ι → Nat → K)
    (hff : Predicts ff Inv D m F) (x : Nat → ι) (y : Nat → Nat → K) (e : Nat → Nat) (he : Reorders N e) (idata idata' : List ι)
    (odata odata' : List (Buf K)) (hd : SetIs idata odata D N m x y) (hd' : SetIs idata' odata' D N m (fun i => x (e i)) (fun i => y (e i)))
    (net : ν) (hnet : Inv net) (hN : 0 < N) (hm : 0 < m) (hw : N * m < W64) (r : K) :
    ∃ a b c, (do let q ← Accuracy.normal ff idata odata net; return q.1) = .ok a ∧ (do let q ← Accuracy.normal ff idata' odata' net; return q.1) = .ok a ∧
      (do let q ← Accuracy.full ff r idata odata net; return q.1) = .ok b ∧ (do let q ← Accuracy.full ff r idata' odata' net; return q.1) = .ok b ∧
      (do let q ← Accuracy.global ff r idata odata net; return q.1) = .ok c ∧
      (do let q ← Accuracy.global ff r idata' odata' net; return q.1) = .ok c := by
  obtain ⟨q1, e1, v1, _⟩ := C57_normal hff hd hnet hN hm
  obtain ⟨q2, e2, v2, _⟩ := C57_normal hff hd' hnet hN hm
  obtain ⟨q3, e3, v3, _⟩ := C57_full hff hd hnet hN r
  obtain ⟨q4, e4, v4, _⟩ := C57_full hff hd' hnet hN r
  obtain ⟨q5, e5, v5, _⟩ := C57_global hff hd hnet hN hm hw r
  obtain ⟨q6, e6, v6, _⟩ := C57_global hff hd' hnet hN hm hw r
  rw [fractionOf_reorder he (fun i => SameArgmax m (y i) (F (x i)))] at v2
  rw [fractionOf_reorder he (fun i => AllWithin m r (y i) (F (x i)))] at v4
  rw [fractionOf2_reorder he (fun i j => |y i j - F (x i) j| < r)] at v6
  refine ⟨q1.1, q3.1, q5.1, ?_, ?_, ?_, ?_, ?_, ?_⟩
  · rw [e1]; rfl
  · rw [e2, bind_ok, v1, ← v2]; rfl
  · rw [e3]; rfl
  · rw [e4, bind_ok, v3, ← v4]; rfl
  · rw [e5]; rfl
  · rw [e6, bind_ok, v5, ← v6]; rfl

end

/-! ### Examples -/

/-- Two samples in both orders, Momentum, two epochs: same outcome, and something was learned. -/
example : trained (Train.batch momUpdate [⟨1, 1, 1, [some 1]⟩, ⟨1, 1, 1, [some 3]⟩] [⟨1, 1, 1, [some 2]⟩, ⟨1, 1, 1, [some 1]⟩] 2 (Mom.make (1/8 : ℚ) (1/2), ckTrain 10 11 12 13)) =
      trained (Train.batch momUpdate [⟨1, 1, 1, [some 3]⟩, ⟨1, 1, 1, [some 1]⟩] [⟨1, 1, 1, [some 1]⟩, ⟨1, 1, 1, [some 2]⟩] 2 (Mom.make (1/8 : ℚ) (1/2), ckTrain 10 11 12 13)) ∧
    trained (Train.batch momUpdate [⟨1, 1, 1, [some 1]⟩, ⟨1, 1, 1, [some 3]⟩] [⟨1, 1, 1, [some 2]⟩, ⟨1, 1, 1, [some 1]⟩] 2 (Mom.make (1/8 : ℚ) (1/2), ckTrain 10 11 12 13)) ≠
      .ok (ckTrain 10 11 12 13).net.params := by
  decide +kernel

/-- The order of the batches themselves matters. -/
example : trained (Train.miniBatch gdUpdate [⟨1, 1, 1, [some 1]⟩, ⟨1, 1, 1, [some 3]⟩] [⟨1, 1, 1, [some 2]⟩, ⟨1, 1, 1, [some 1]⟩] 1 1 ((1/8 : ℚ), ckTrain 10 11 12 13)) ≠
    trained (Train.miniBatch gdUpdate [⟨1, 1, 1, [some 3]⟩, ⟨1, 1, 1, [some 1]⟩] [⟨1, 1, 1, [some 1]⟩, ⟨1, 1, 1, [some 2]⟩] 1 1 ((1/8 : ℚ), ckTrain 10 11 12 13)) := by
  decide +kernel

/-- The hypotheses of `C82_batch` are met. -/
example : ∃ (vs : List ((Nat → ℚ) × (Nat → ℚ))), DataIs [⟨1, 1, 1, [some 1]⟩, ⟨1, 1, 1, [some 3]⟩] [⟨1, 1, 1, [some 2]⟩, ⟨1, 1, 1, [some 1]⟩] 1 1 vs ∧ vs ≠ [] ∧
    SameSamples (α := ℚ) [⟨1, 1, 1, [some 1]⟩, ⟨1, 1, 1, [some 3]⟩] [⟨1, 1, 1, [some 2]⟩, ⟨1, 1, 1, [some 1]⟩] [⟨1, 1, 1, [some 3]⟩, ⟨1, 1, 1, [some 1]⟩] [⟨1, 1, 1, [some 1]⟩, ⟨1, 1, 1, [some 2]⟩] ∧
    UpdOk (momUpdate (α := ℚ)) (fun _ => 1) (MomOk (fun _ => 1)) ∧ (ckTrain 10 11 12 13).net.Sized (fun _ => 1) := by
  refine ⟨[(fun _ => 1, fun _ => 2), (fun _ => 3, fun _ => 1)], ⟨.cons ?_ (.cons ?_ .nil), .cons ?_ (.cons ?_ .nil)⟩, by simp, ⟨rfl, rfl, List.Perm.swap _ _ _⟩, mom_UpdOk _, ?_⟩
  · exact ⟨rfl, fun i hi => by rw [Nat.lt_one_iff.1 hi]; rfl⟩
  · exact ⟨rfl, fun i hi => by rw [Nat.lt_one_iff.1 hi]; rfl⟩
  · exact ⟨rfl, fun i hi => by rw [Nat.lt_one_iff.1 hi]; rfl⟩
  · exact ⟨rfl, fun i hi => by rw [Nat.lt_one_iff.1 hi]; rfl⟩
  · intro f hf
    simp only [ckTrain, List.mem_cons, List.not_mem_nil, or_false, Layer.fc.injEq] at hf
    rcases hf with rfl | rfl <;> exact ⟨rfl, rfl⟩

example : Reorders 3 (fun i => 2 - i) := by
  refine ⟨fun i hi => ?_, fun i hi j hj h => ?_, fun i hi => ?_⟩
  · simp only [Set.mem_Iio] at hi ⊢; omega
  · simp only [Set.mem_Iio] at hi hj; dsimp only at h; omega
  · simp only [Set.mem_Iio] at hi
    exact ⟨2 - i, by simp only [Set.mem_Iio]; omega, by dsimp only; omega⟩

end Trixy
