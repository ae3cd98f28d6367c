import Verif.Spec.Checker
import Verif.Props.Tool
import Verif.Props.Net
import Verif.Proof.Word
import Mathlib.Algebra.BigOperators.Ring.Finset
import Mathlib.Data.Finset.Prod
import Mathlib.Data.Rat.Defs
import Mathlib.Tactic.NormNum
import Mathlib.Tactic.Positivity
import Mathlib.Algebra.Order.Field.Basic
import Mathlib.Algebra.BigOperators.Group.Finset.Basic
/-
Properties C57 (accuracy measures) and C69 (mean loss).
-/
namespace Trixy
open Finset
set_option linter.unusedSectionVars false

variable {α ν ι : Type}

theorem cabs_eq [Ring α] [LinearOrder α] [IsStrictOrderedRing α] (x : α) : cabs x = |x| := by
  unfold cabs
  split
  · rename_i h; rw [abs_of_neg h]
  · rename_i h; rw [abs_of_nonneg (not_lt.1 h)]

theorem guideMax_spec [LinearOrder α] {n : Nat} {v : Buf α} {f : Nat → α} {m : Nat} (hv : VecIs v m f) (hn : 0 < n) (hm : n ≤ m) :
    Ok (guideMax n v) (IsFirstMax (fun x y => decide (x < y)) f n) := by
  have h1 : VecIs (v.take n) n f := ⟨by rw [List.length_take, hv.1]; omega, fun i hi => by rw [List.getElem?_take_of_lt hi]; exact hv.2 i (by omega)⟩
  have h2 := search_spec strictWeak_of_linearOrder h1 hn
  unfold guideMax
  refine forLoop_spec (fun it hold => IsFirstMax (fun x y => decide (x < y)) f it hold) (by omega) ?_ ?_
  · refine ⟨by omega, fun j hj => ?_, fun j hj => by omega⟩
    have : j = 0 := by omega
    subst this; simp
  · intro it h1 h2 hold ⟨i1, i2, i3⟩
    rw [hv.get (show hold < m by omega), bind_ok, hv.get (show it < m by omega), bind_ok]
    refine Ok_ok.2 ?_
    simp only [decide_eq_false_iff_not, not_lt, decide_eq_true_eq] at i2 i3
    by_cases hc : f hold < f it
    · rw [if_pos hc]
      refine ⟨by omega, fun j hj => ?_, fun j hj => ?_⟩
      · simp only [decide_eq_false_iff_not, not_lt]
        by_cases e : j = it
        · rw [e]
        · exact (i2 j (by omega)).trans hc.le
      · simp only [decide_eq_true_eq]
        exact lt_of_le_of_lt (i2 j hj) hc
    · rw [if_neg hc]
      refine ⟨by omega, fun j hj => ?_, fun j hj => ?_⟩
      · simp only [decide_eq_false_iff_not, not_lt]
        by_cases e : j = it
        · rw [e]; exact not_lt.1 hc
        · exact i2 j (by omega)
      · simp only [decide_eq_true_eq]; exact i3 j hj

open Classical in
theorem guide_normal_spec [LinearOrder α] {t p : Buf α} {m : Nat} {a b : Nat → α} (ht : VecIs t m a) (hp : VecIs p m b) (hm : 0 < m) :
    asCount (Guide.normal t p) = .ok (if SameArgmax m a b then 1 else 0) := by
  unfold Guide.normal
  rw [ht.length]
  obtain ⟨i, ei, hi⟩ := guideMax_spec ht hm (Nat.le_refl m)
  obtain ⟨j, ej, hj⟩ := guideMax_spec hp hm (Nat.le_refl m)
  rw [ei, bind_ok, ej, bind_ok]
  unfold asCount
  show Except.ok (if (i == j) = true then 1 else 0) = _
  congr 1
  by_cases e : i = j
  · subst e
    rw [if_pos (show SameArgmax m a b from ⟨i, hi, hj⟩)]; simp
  · rw [if_neg (c := SameArgmax m a b) (fun ⟨k, h1, h2⟩ => e ((C12_unique _ _ _ _ hi h1).trans (C12_unique _ _ _ _ hj h2).symm))]
    simp [e]

section
variable [Ring α] [LinearOrder α] [IsStrictOrderedRing α]

open Classical in
theorem guideFull_spec {t p : Buf α} {m : Nat} {a b : Nat → α} (ht : VecIs t m a) (hp : VecIs p m b) (r : α) :
    ∀ k j, j + k = m → guideFull t p r k j = .ok (decide (∀ q, j ≤ q → q < m → |a q - b q| ≤ r)) := by
  intro k
  induction k with
  | zero => intro j hj; unfold guideFull; congr 1; symm; rw [decide_eq_true_eq]; intro q h1 h2; omega
  | succ k ih =>
    intro j hj
    unfold guideFull
    rw [ht.get (show j < m by omega), bind_ok, hp.get (show j < m by omega), bind_ok, cabs_eq]
    by_cases h : r < |a j - b j|
    · rw [if_pos h]
      show Except.ok false = _
      congr 1; symm; rw [decide_eq_false_iff_not]
      intro hall
      exact absurd (hall j (Nat.le_refl j) (by omega)) (not_le.2 h)
    · rw [if_neg h, ih (j + 1) (by omega)]
      congr 1
      rw [decide_eq_decide]
      constructor
      · intro hall q h1 h2
        by_cases e : q = j
        · rw [e]; exact not_lt.1 h
        · exact hall q (by omega) h2
      · intro hall q h1 h2
        exact hall q (by omega) h2

open Classical in
theorem guide_full_spec {t p : Buf α} {m : Nat} {a b : Nat → α} (ht : VecIs t m a) (hp : VecIs p m b) (r : α) :
    asCount (Guide.full t p r) = .ok (if AllWithin m r a b then 1 else 0) := by
  unfold Guide.full asCount
  rw [ht.length, guideFull_spec ht hp r m 0 (by omega), bind_ok]
  show Except.ok _ = _
  congr 1
  simp only [AllWithin, Nat.zero_le, true_implies, decide_eq_true_eq]
  congr

open Classical in
theorem guide_global_spec {t p : Buf α} {m : Nat} {a b : Nat → α} (ht : VecIs t m a) (hp : VecIs p m b) (r : α) :
    Guide.global t p r = .ok ((range m).filter (fun j => |a j - b j| < r)).card := by
  unfold Guide.global
  rw [ht.length]
  apply Ok.eq
  refine forN_spec (fun i c => c = ((range i).filter (fun j => |a j - b j| < r)).card) (by simp) (fun i hi c hc => ?_)
  rw [ht.get hi, bind_ok, hp.get hi, bind_ok, cabs_eq]
  refine Ok_ok.2 ?_
  rw [range_add_one, filter_insert]
  split
  · rw [card_insert_of_notMem (by simp), hc]
  · exact hc

end

theorem countAll_spec {ff : ι → ν → Res (ν × Buf α)} {guide : Buf α → Buf α → Res Nat} {Inv : ν → Prop} {D : ι → Prop} {N m : Nat} {F : ι → Nat → α}
    {idata : List ι} {odata : List (Buf α)} {x : Nat → ι} {y : Nat → Nat → α} {net : ν} {c : Nat → Nat} (hff : Predicts ff Inv D m F) (hd : SetIs idata odata D N m x y)
    (hnet : Inv net) (hg : ∀ i, i < N → ∀ t p, VecIs t m (y i) → VecIs p m (F (x i)) → guide t p = .ok (c i)) :
    Ok (countAll ff guide idata odata net) (fun r => Inv r.1 ∧ r.2 = ∑ i ∈ range N, c i) := by
  unfold countAll
  rw [hd.osize]
  refine forN_spec (fun i (s : ν × Nat) => Inv s.1 ∧ s.2 = ∑ i ∈ range i, c i) ⟨hnet, by simp⟩ (fun i hi s hs => ?_)
  obtain ⟨b, eb, hb⟩ := hd.target i hi
  rw [eb, bind_ok, (hd.input i hi).1, bind_ok]
  refine (hff (x i) s.1 (hd.input i hi).2 hs.1).bind (fun ⟨n1, v1⟩ hr => ?_)
  dsimp only
  rw [hg i hi b v1 hb hr.2]
  exact Ok_ok.2 ⟨hr.1, by rw [sum_range_succ, ← hs.2]⟩

theorem ratio_ok {c n : Nat} (h : 0 < n) : ratio c n = .ok ((c : Rat) / (n : Rat)) := by
  unfold ratio; rw [if_neg (by omega)]

open Classical in
theorem sum_ite_card (N : Nat) (P : Nat → Prop) : ∑ i ∈ range N, (if P i then 1 else 0) = ((range N).filter P).card := by
  rw [card_filter]

/-! ## C57 -/

section
variable {ff : ι → ν → Res (ν × Buf α)} {Inv : ν → Prop} {D : ι → Prop} {N m : Nat} {F : ι → Nat → α} {idata : List ι} {odata : List (Buf α)}
  {x : Nat → ι} {y : Nat → Nat → α} {net : ν}

/-- `accuracy(idata, odata)`: the fraction of the samples for which target and prediction have the same first maximum. -/
theorem C57_normal [LinearOrder α] (hff : Predicts ff Inv D m F) (hd : SetIs idata odata D N m x y) (hnet : Inv net) (hN : 0 < N) (hm : 0 < m) :
    Ok (Accuracy.normal ff idata odata net) (fun r => r.1 = fractionOf N (fun i => SameArgmax m (y i) (F (x i))) ∧ Inv r.2) := by
  classical
  unfold Accuracy.normal
  refine (countAll_spec hff hd hnet (fun i _ t p ht hp => guide_normal_spec ht hp hm)).bind (fun ⟨n1, c1⟩ hs => ?_)
  dsimp only at hs ⊢
  rw [hd.osize, ratio_ok hN, bind_ok, hs.2, sum_ite_card]
  exact Ok_ok.2 ⟨by unfold fractionOf; congr!, hs.1⟩

variable [Ring α] [LinearOrder α] [IsStrictOrderedRing α]

/-- `accuracy.full(idata, odata, range)`: the fraction of the samples all of whose components are within the range. -/
theorem C57_full (hff : Predicts ff Inv D m F) (hd : SetIs idata odata D N m x y) (hnet : Inv net) (hN : 0 < N) (r : α) :
    Ok (Accuracy.full ff r idata odata net) (fun q => q.1 = fractionOf N (fun i => AllWithin m r (y i) (F (x i))) ∧ Inv q.2) := by
  classical
  unfold Accuracy.full
  refine (countAll_spec hff hd hnet (fun i _ t p ht hp => guide_full_spec ht hp r)).bind (fun ⟨n1, c1⟩ hs => ?_)
  dsimp only at hs ⊢
  rw [hd.osize, ratio_ok hN, bind_ok, hs.2, sum_ite_card]
  exact Ok_ok.2 ⟨by unfold fractionOf; congr!, hs.1⟩

/-- `accuracy.global(idata, odata, range)`: the fraction of all components that are strictly within the range. -/
theorem C57_global (hff : Predicts ff Inv D m F) (hd : SetIs idata odata D N m x y) (hnet : Inv net) (hN : 0 < N) (hm : 0 < m) (hw : N * m < W64) (r : α) :
    Ok (Accuracy.global ff r idata odata net) (fun q => q.1 = fractionOf2 N m (fun i j => |y i j - F (x i) j| < r) ∧ Inv q.2) := by
  classical
  unfold Accuracy.global
  refine (countAll_spec hff hd hnet (fun i _ t p ht hp => guide_global_spec ht hp r)).bind (fun ⟨n1, c1⟩ hs => ?_)
  dsimp only at hs ⊢
  obtain ⟨b, eb, hb⟩ := hd.target 0 hN
  rw [eb, bind_ok, hb.length, hd.osize]
  have : wmul N m = N * m := Nat.mod_eq_of_lt hw
  rw [this, ratio_ok (Nat.mul_pos hN hm), bind_ok, hs.2]
  refine Ok_ok.2 ⟨?_, hs.1⟩
  unfold fractionOf2
  have e : ((range N ×ˢ range m).filter (fun ij => |y ij.1 ij.2 - F (x ij.1) ij.2| < r)).card =
      ∑ i ∈ range N, ((range m).filter (fun j => |y i j - F (x i) j| < r)).card := by
    rw [card_filter, sum_product]
    exact sum_congr rfl (fun i _ => by rw [card_filter])
  rw [← e]
  congr!

end

theorem fractionOf_mem (N : Nat) (P : Nat → Prop) : 0 ≤ fractionOf N P ∧ fractionOf N P ≤ 1 := by
  classical
  unfold fractionOf
  refine ⟨by positivity, div_le_one_of_le₀ ?_ (by positivity)⟩
  have := card_filter_le (range N) P
  rw [card_range] at this
  exact_mod_cast this

theorem fractionOf2_mem (N m : Nat) (P : Nat → Nat → Prop) : 0 ≤ fractionOf2 N m P ∧ fractionOf2 N m P ≤ 1 := by
  classical
  unfold fractionOf2
  refine ⟨by positivity, div_le_one_of_le₀ ?_ (by positivity)⟩
  have := card_filter_le (range N ×ˢ range m) (fun ij => P ij.1 ij.2)
  rw [card_product, card_range, card_range] at this
  exact_mod_cast this

/-- All three measures lie in [0, 1]; a fraction is 1 exactly if all samples have the property. -/
theorem C57_unit_interval (N m : Nat) (P : Nat → Prop) (Q : Nat → Nat → Prop) :
    (0 ≤ fractionOf N P ∧ fractionOf N P ≤ 1) ∧ (0 ≤ fractionOf2 N m Q ∧ fractionOf2 N m Q ≤ 1) ∧
    (0 < N → (fractionOf N P = 1 ↔ ∀ i, i < N → P i)) := by
  classical
  refine ⟨fractionOf_mem N P, fractionOf2_mem N m Q, fun hN => ?_⟩
  unfold fractionOf
  rw [div_eq_one_iff_eq (by positivity)]
  have hc : ((range N).filter P).card = N ↔ ∀ i, i < N → P i := by
    conv_lhs => rw [← card_range N]
    rw [card_range]
    constructor
    · intro h i hi
      have := (card_filter_eq_iff (s := range N) (p := P)).1 (by rw [card_range]; exact h)
      exact this i (mem_range.2 hi)
    · intro h
      have := (card_filter_eq_iff (s := range N) (p := P)).2 (fun i hi => h i (mem_range.1 hi))
      rw [card_range] at this
      exact this
  rw [← hc]
  exact_mod_cast Iff.rfl

/-- Empty data: `normal` and `full` divide 0 by 0, `global` reads the front of an empty container. -/
theorem C57_empty [Ring α] [LinearOrder α] (ff : ι → ν → Res (ν × Buf α)) (r : α) (idata : List ι) (net : ν) :
    Accuracy.normal ff idata [] net = .error .divByZero ∧ Accuracy.full ff r idata [] net = .error .divByZero ∧
    Accuracy.global ff r idata [] net = .error .oob := ⟨rfl, rfl, rfl⟩

/-- The boundary: a sample whose components all differ by exactly the range counts for `full` and contributes nothing to
`global`. -/
theorem C57_boundary [Ring α] [LinearOrder α] [IsStrictOrderedRing α] (t p : Buf α) (m : Nat) (a b : Nat → α) (r : α) (ht : VecIs t m a) (hp : VecIs p m b)
    (hr : ∀ j, j < m → |a j - b j| = r) : Guide.full t p r = .ok true ∧ Guide.global t p r = .ok 0 := by
  classical
  constructor
  · unfold Guide.full
    rw [ht.length, guideFull_spec ht hp r m 0 (by omega)]
    congr 1
    rw [decide_eq_true_eq]
    intro q _ hq
    exact (hr q hq).le
  · rw [guide_global_spec ht hp r]
    congr 1
    rw [card_eq_zero, filter_eq_empty_iff]
    intro j hj
    rw [hr j (mem_range.1 hj)]
    exact lt_irrefl r

/-- A network that computes `F` is a predictor in the sense of the theorems above (with its parameters unchanged). -/
theorem C57_network [CommSemiring α] [LinearOrder α] (s s' : Nat × Nat × Nat) (F : (Nat → α) → Nat → α) (ps : List (List (Buf α))) (v : Ten α → Nat → α) :
    Predicts (netFF (α := α)) (fun net => net ≠ [] ∧ net.length < W64 ∧ net.Computes s s' F ∧ net.map Layer.params = ps)
      (fun x => FlatIs x s (v x)) (s'.1 * s'.2.1 * s'.2.2) (fun x => F (v x)) := by
  intro x net hx ⟨hne, hN, hc, hp⟩
  unfold netFF
  refine (C37_feedforward net hne hN s s' F hc x (v x) hx).bind (fun r hr => Ok_ok.2 ⟨⟨?_, ?_, hr.2.1, hr.2.2.trans hp⟩, hr.1.2.2.2⟩)
  · intro h0
    have := congrArg List.length hr.2.2
    rw [h0] at this
    simp at this
    exact hne (List.eq_nil_of_length_eq_zero this.symm)
  · have := congrArg List.length hr.2.2
    simp at this
    rw [this]; exact hN

/-! ## C69 mean loss -/

/-- `Checker::loss`: the mean of the losses of the samples, in order. -/
theorem C69_checker [Zero α] [Add α] [Div α] [NatCast α] {ff : ι → ν → Res (ν × Buf α)} {Inv : ν → Prop} {D : ι → Prop} {N m : Nat} {F : ι → Nat → α}
    {idata : List ι} {odata : List (Buf α)} {x : Nat → ι} {y : Nat → Nat → α} {net : ν} {loss : Buf α → Buf α → Res α} {L : (Nat → α) → (Nat → α) → α}
    (hff : Predicts ff Inv D m F) (hd : SetIs idata odata D N m x y) (hnet : Inv net) (hN : 0 < N)
    (hL : ∀ t p a b, VecIs t m a → VecIs p m b → loss t p = .ok (L a b)) :
    Ok (Checker.loss ff loss idata odata net) (fun r => r.1 = foldSum 0 N (fun i => L (y i) (F (x i))) / (N : α) ∧ Inv r.2) := by
  unfold Checker.loss
  rw [hd.osize]
  refine Ok.bind (P := fun s : ν × α => Inv s.1 ∧ s.2 = foldSum 0 N (fun i => L (y i) (F (x i)))) ?_ (fun ⟨n1, s1⟩ hs => ?_)
  · refine forN_spec (fun i (s : ν × α) => Inv s.1 ∧ s.2 = foldSum 0 i (fun i => L (y i) (F (x i)))) ⟨hnet, rfl⟩ (fun i hi s hs => ?_)
    obtain ⟨b, eb, hb⟩ := hd.target i hi
    rw [eb, bind_ok, (hd.input i hi).1, bind_ok]
    refine (hff (x i) s.1 (hd.input i hi).2 hs.1).bind (fun ⟨n1, v1⟩ hr => ?_)
    dsimp only
    rw [hL b v1 _ _ hb hr.2]
    exact Ok_ok.2 ⟨hr.1, by rw [hs.2]; rfl⟩
  · dsimp only at hs ⊢
    rw [if_neg (by omega), hs.2]
    exact Ok_ok.2 ⟨rfl, hs.1⟩

/-- `Checker::loss` of one sample. -/
theorem C69_checker_one {ff : ι → ν → Res (ν × Buf α)} {Inv : ν → Prop} {D : ι → Prop} {m : Nat} {F : ι → Nat → α} {x : ι} {y : Buf α} {a : Nat → α} {net : ν}
    {loss : Buf α → Buf α → Res α} {L : (Nat → α) → (Nat → α) → α} (hff : Predicts ff Inv D m F) (hx : D x) (hy : VecIs y m a) (hnet : Inv net)
    (hL : ∀ t p a b, VecIs t m a → VecIs p m b → loss t p = .ok (L a b)) :
    Ok (Checker.lossOne ff loss x y net) (fun r => r.1 = L a (F x) ∧ Inv r.2) := by
  unfold Checker.lossOne
  refine (hff x net hx hnet).bind (fun ⟨n1, v1⟩ hr => ?_)
  dsimp only
  rw [hL y v1 _ _ hy hr.2]
  exact Ok_ok.2 ⟨rfl, hr.1⟩

/-- `Training::loss(idata, odata)`: the same mean, with the loss object of the training; the network keeps its parameters. -/
theorem C69_training [Field α] [LinearOrder α] {t : Train α} {l : Loss α} {N m : Nat} {s s' : Nat × Nat × Nat} {F : (Nat → α) → Nat → α}
    {L : (Nat → α) → (Nat → α) → α} {dL : (Nat → α) → (Nat → α) → Nat → α} {idata odata : List (Ten α)} {x : Nat → Nat → α} {y : Nat → Nat → α}
    (hne : t.net ≠ []) (hW : t.net.length < W64) (hc : t.net.Computes s s' F) (hl : t.loss = some l) (hL : l.Is m L dL) (hs : s'.1 * s'.2.1 * s'.2.2 = m)
    (hi : ∀ i, i < N → Ok (lget idata i) (fun b => FlatIs b s (x i))) (ho : odata.length = N)
    (hy : ∀ i, i < N → Ok (lget odata i) (fun b => VecIs b.data m (y i))) (hN : 0 < N) :
    Ok (t.lossMean idata odata) (fun r => r.1 = (∑ i ∈ range N, L (y i) (F (x i))) / (N : α) ∧
      r.2.net.map Layer.params = t.net.map Layer.params ∧ r.2.net.Computes s s' F ∧ r.2.loss = t.loss) := by
  unfold Train.lossMean
  rw [ho]
  refine Ok.bind (P := fun st : α × Net α => st.1 = foldSum 0 N (fun i => L (y i) (F (x i))) ∧ st.2.Computes s s' F ∧
      st.2.map Layer.params = t.net.map Layer.params) ?_ (fun ⟨r1, n1⟩ hs => ?_)
  · refine forN_spec (fun i (st : α × Net α) => st.1 = foldSum 0 i (fun i => L (y i) (F (x i))) ∧ st.2.Computes s s' F ∧
      st.2.map Layer.params = t.net.map Layer.params) ⟨rfl, hc, rfl⟩ (fun i hin st hst => ?_)
    obtain ⟨by_, e1, hb⟩ := hy i hin
    obtain ⟨bx, e2, hx⟩ := hi i hin
    rw [hl]
    show Ok (do
      let y ← lget odata i
      let x ← lget idata i
      let (net, v) ← Net.feedforward x st.2
      let e ← l.f y.data v.data
      return (st.1 + e, net)) _
    rw [e1, bind_ok, e2, bind_ok]
    have hlen := congrArg List.length hst.2.2
    simp only [List.length_map] at hlen
    have hne' : st.2 ≠ [] := fun h0 => by
      rw [h0] at hlen; exact hne (List.eq_nil_of_length_eq_zero hlen.symm)
    refine (C37_feedforward st.2 hne' (by rw [hlen]; exact hW) s s' F hst.2.1 bx (x i) hx).bind (fun ⟨n1, v1⟩ hr => ?_)
    dsimp only
    have hv : VecIs v1.data m (F (x i)) := hs ▸ hr.1.2.2.2
    rw [hL.f _ _ _ _ hb hv]
    exact Ok_ok.2 ⟨by rw [hst.1]; rfl, hr.2.1, hr.2.2.trans hst.2.2⟩
  · dsimp only at hs ⊢
    rw [if_neg (by omega), hs.1, foldSum_zero_eq]
    exact Ok_ok.2 ⟨rfl, hs.2.2, hs.2.1, rfl⟩

/-! Non-vacuity: two samples; a predictor that returns its input. -/

def exFF (x : Buf ℤ) (n : Unit) : Res (Unit × Buf ℤ) := .ok (n, x)

example : Predicts exFF (fun _ => True) (fun x => VecIs x 2 (fun i => (x[i]?.getD none).getD 0)) 2 (fun x i => (x[i]?.getD none).getD 0) :=
  fun _ _ hx _ => Ok_ok.2 ⟨trivial, hx⟩

example : Accuracy.normal exFF [Buf.of [3, 5], Buf.of [4, 4]] [Buf.of [0, 1], Buf.of [0, 1]] () = .ok (1 / 2, ()) := by decide +kernel
example : Accuracy.full exFF 1 [Buf.of [0, 2], Buf.of [4, 4]] [Buf.of [0, 1], Buf.of [0, 1]] () = .ok (1 / 2, ()) := by decide +kernel
example : Accuracy.global exFF 1 [Buf.of [0, 2], Buf.of [4, 4]] [Buf.of [0, 1], Buf.of [0, 1]] () = .ok (1 / 4, ()) := by decide +kernel
/-- The boundary case of `C57_boundary` is met: difference 1, range 1. -/
example : Guide.full (Buf.of [(0 : ℤ)]) (Buf.of [1]) 1 = .ok true ∧ Guide.global (Buf.of [(0 : ℤ)]) (Buf.of [1]) 1 = .ok 0 := by decide +kernel

end Trixy
