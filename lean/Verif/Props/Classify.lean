import Verif.Spec.Classify
import Verif.Props.RuleLimit
/- C118: training of classifiers. -/
namespace Trixy
set_option linter.unusedSectionVars false
open Finset Losses Filter Topology

variable {μ σ : Type}

/-! ### The network without the last activation -/

/-- The layer with the activation `Identity`. -/
def LibLayer.plain (q : LibLayer) : LibLayer := { q with act := .elem .identity }

/-- `Identity` instead of the activation of the last layer. -/
def unSoft : List LibLayer → List LibLayer
  | [] => []
  | [q] => [q.plain]
  | p :: q :: qs => p :: unSoft (q :: qs)

/-- The layer `p` as it appears in `unSoft (pre ++ p :: post)`. -/
def unSoftAt (p : LibLayer) : List LibLayer → LibLayer
  | [] => p.plain
  | _ :: _ => p

/-- The last activation is `SoftMax`, for `m` components. -/
def EndsSoft (m : Nat) : List LibLayer → Prop
  | [] => False
  | [q] => q.act = .softmax ∧ q.m = m
  | _ :: q :: qs => EndsSoft m (q :: qs)

theorem unSoft_snoc (hid : List LibLayer) (q : LibLayer) : unSoft (hid ++ [q]) = hid ++ [q.plain] := by
  induction hid with
  | nil => rfl
  | cons p hid ih =>
    cases hid with
    | nil => rfl
    | cons r hid =>
      show p :: unSoft ((r :: hid) ++ [q]) = p :: ((r :: hid) ++ [q.plain])
      rw [ih]

theorem unSoft_mid (pre post : List LibLayer) (p : LibLayer) : unSoft (pre ++ p :: post) = pre ++ unSoftAt p post :: unSoft post := by
  induction pre with
  | nil => cases post <;> rfl
  | cons r pre ih =>
    cases pre with
    | nil =>
      show r :: unSoft ([] ++ p :: post) = _
      rw [ih]; rfl
    | cons s pre =>
      show r :: unSoft ((s :: pre) ++ p :: post) = _
      rw [ih]; rfl

theorem unSoftAt_b (p : LibLayer) (post : List LibLayer) (j : Nat) (z : ℝ) :
    unSoftAt { p with b := setAt p.b j z } post = { unSoftAt p post with b := setAt (unSoftAt p post).b j z } := by cases post <;> rfl
theorem unSoftAt_W (p : LibLayer) (post : List LibLayer) (i j : Nat) (z : ℝ) :
    unSoftAt { p with W := setEntry p.W i j z } post = { unSoftAt p post with W := setEntry (unSoftAt p post).W i j z } := by cases post <;> rfl
theorem unSoftAt_n (p : LibLayer) (post : List LibLayer) : (unSoftAt p post).n = p.n := by cases post <;> rfl
theorem unSoftAt_m (p : LibLayer) (post : List LibLayer) : (unSoftAt p post).m = p.m := by cases post <;> rfl
theorem unSoftAt_pb (p : LibLayer) (post : List LibLayer) : (unSoftAt p post).b = p.b := by cases post <;> rfl
theorem unSoftAt_pW (p : LibLayer) (post : List LibLayer) : (unSoftAt p post).W = p.W := by cases post <;> rfl

theorem EndsSoft.snoc {m : Nat} {ls : List LibLayer} (h : EndsSoft m ls) : ∃ hid q, ls = hid ++ [q] ∧ q.act = .softmax ∧ q.m = m := by
  induction ls with
  | nil => exact h.elim
  | cons p ls ih =>
    cases ls with
    | nil => exact ⟨[], p, rfl, h.1, h.2⟩
    | cons r ls =>
      obtain ⟨hid, q, e, h1, h2⟩ := ih h
      exact ⟨p :: hid, q, by rw [e]; rfl, h1, h2⟩

theorem EndsSoft.of {n m : Nat} {hid : List LibLayer} {q : LibLayer} (hq : q.act = .softmax) (hf : libFits n (hid ++ [q]) m) : EndsSoft m (hid ++ [q]) := by
  induction hid generalizing n with
  | nil => exact ⟨hq, hf.2⟩
  | cons p hid ih =>
    have := ih hf.2
    cases hid with
    | nil => exact this
    | cons r hid => exact this

theorem Classifies.ends {n m : Nat} {ls : List LibLayer} (h : Classifies ls) (hf : libFits n ls m) : EndsSoft m ls := by
  obtain ⟨hid, q, rfl, hq⟩ := h
  exact EndsSoft.of hq hf

theorem EndsSoft.shape {m : Nat} {as ls : List LibLayer} (h : List.Forall₂ (fun (a l : LibLayer) => a.n = l.n ∧ a.m = l.m ∧ a.act = l.act) as ls) (hl : EndsSoft m ls) : EndsSoft m as := by
  induction h with
  | nil => exact hl
  | @cons a l as ls ha h ih =>
    cases h with
    | nil => exact ⟨ha.2.2.trans hl.1, ha.2.1.trans hl.2⟩
    | cons hb h => exact ih hl

theorem EndsSoft.set {m : Nat} {pre post : List LibLayer} {p p' : LibLayer} (h : EndsSoft m (pre ++ p :: post)) (hp : p'.n = p.n ∧ p'.m = p.m ∧ p'.act = p.act) :
    EndsSoft m (pre ++ p' :: post) := by
  refine h.shape ?_
  have hr : ∀ xs : List LibLayer, List.Forall₂ (fun (a l : LibLayer) => a.n = l.n ∧ a.m = l.m ∧ a.act = l.act) xs xs := fun xs => List.forall₂_same.2 (fun _ _ => ⟨rfl, rfl, rfl⟩)
  exact List.rel_append (hr pre) (.cons hp (hr post))

theorem plain_dense {q : LibLayer} (h : q.act = .softmax) : q.plain.dense = q.dense.lin := by
  cases q with
  | mk n m b W act =>
    dsimp only at h
    subst h
    rfl

theorem libOut_unSoft {m : Nat} {ls : List LibLayer} (h : EndsSoft m ls) (v : Nat → ℝ) : libOut ls v = softmaxFn m (libOut (unSoft ls) v) := by
  obtain ⟨hid, q, rfl, hq, rfl⟩ := h.snoc
  rw [unSoft_snoc, ← libOut_eq, ← libOut_eq, List.map_append, List.map_append, List.map_cons, List.map_cons, List.map_nil, netOut_lin, plain_dense hq]
  show q.act.fn q.m _ = _
  rw [hq]; rfl

/-- The derivative of the loss, as the function of the pre-activations of the last layer. -/
noncomputable def softDiff (m : Nat) (t z : Nat → ℝ) (i : Nat) : ℝ := softmaxFn m z i - t i

theorem gradSum_unSoft {m : Nat} {ls : List LibLayer} (h : EndsSoft m ls) (vs : List ((Nat → ℝ) × (Nat → ℝ))) :
    gradSum LibLoss.mse.dL (ls.map LibLayer.dense) vs = gradSum (softDiff m) ((unSoft ls).map LibLayer.dense) vs := by
  obtain ⟨hid, q, rfl, hq, rfl⟩ := h.snoc
  have e1 : (hid ++ [q]).map LibLayer.dense = hid.map LibLayer.dense ++ [q.dense] := by simp
  have e2 : (unSoft (hid ++ [q])).map LibLayer.dense = hid.map LibLayer.dense ++ [q.dense.lin] := by rw [unSoft_snoc]; simp [plain_dense hq]
  rw [e1, e2]
  have es : ∀ vw, sampleGrads LibLoss.mse.dL (hid.map LibLayer.dense ++ [q.dense]) vw = sampleGrads (softDiff q.m) (hid.map LibLayer.dense ++ [q.dense.lin]) vw := by
    intro vw
    unfold sampleGrads
    rw [netGrads_lin, netOut_lin]
    congr 1
    funext i
    show q.act.fn q.m _ i - _ = softmaxFn q.m _ i - _
    rw [hq]; rfl
  unfold gradSum
  simp only [es]
  congr 1
  simp

theorem unSoft_fits {n m : Nat} {ls : List LibLayer} (h : libFits n ls m) : libFits n (unSoft ls) m := by
  induction ls generalizing n with
  | nil => exact h
  | cons p ls ih =>
    cases ls with
    | nil => exact h
    | cons r ls => exact ⟨h.1, ih h.2⟩

theorem unSoft_smooth {ls : List LibLayer} {v : Nat → ℝ} (h : libSmooth ls.dropLast v) : libSmooth (unSoft ls) v := by
  induction ls generalizing v with
  | nil => trivial
  | cons p ls ih =>
    cases ls with
    | nil => exact ⟨⟨.identity, rfl, by decide, fun j _ => by simp [ActKind.kinks]⟩, trivial⟩
    | cons r ls => exact ⟨h.1, ih h.2⟩

theorem unSoft_limit {qs : List LibLayer} : ∀ {P : Nat → List LibLayer}, libLimit P qs → libLimit (fun N => unSoft (P N)) (unSoft qs) := by
  induction qs with
  | nil => intro P h N; show unSoft (P N) = []; rw [h N]; rfl
  | cons q qs ih =>
    intro P h
    obtain ⟨p, P', e, hs, hb, hW, hP⟩ := h
    cases qs with
    | nil =>
      exact ⟨fun N => (p N).plain, fun _ => [], fun N => by show unSoft (P N) = _; rw [e N, hP N]; rfl, fun N => ⟨(hs N).1, (hs N).2.1, rfl⟩, hb, hW, fun _ => rfl⟩
    | cons r qs =>
      refine ⟨p, fun N => unSoft (P' N), fun N => ?_, hs, hb, hW, ih hP⟩
      obtain ⟨p1, P1, e1, _⟩ := hP
      show unSoft (P N) = p N :: unSoft (P' N)
      rw [e N, e1 N]; rfl

theorem ClassLoss.diff (k : ClassLoss) (m : Nat) {w : Nat → ℝ} (hw : k.Target m w) (hm : 0 < m) (z : Nat → ℝ) :
    LossDiffAt (fun t z => k.fn m t (softmaxFn m z)) (softDiff m) m w z := by
  cases k
  · obtain ⟨c, hc⟩ := hw
    exact C53_nll_gradient w z (c := c) hc
  · exact C53_cross_entropy_gradient hm w z hw

theorem classMean_eq {m : Nat} {ls : List LibLayer} (h : EndsSoft m ls) (k : ClassLoss) (vs : List ((Nat → ℝ) × (Nat → ℝ))) :
    meanLoss (fun t z => k.fn m t (softmaxFn m z)) vs ((unSoft ls).map LibLayer.dense) = classMean m k vs ls := by
  unfold meanLoss classMean
  simp only [libOut_eq, libOut_unSoft h]

theorem softDiff_lim {m : Nat} (hm : 0 < m) (w z : Nat → ℝ) (y : Nat → Nat → ℝ) (h : VLim m y z) : VLim m (fun N => softDiff m w (y N)) (softDiff m w z) := by
  intro j hj
  refine Tendsto.sub_const ?_ _
  unfold softmaxFn
  exact ((Real.continuous_exp.tendsto _).comp (h j hj)).div (tendsto_finsetSum _ (fun i hi => (Real.continuous_exp.tendsto _).comp (h i (mem_range.1 hi)))) (sum_exp_pos hm z).ne'

theorem ClassLoss.obj_Is (k : ClassLoss) (m : Nat) : ∃ L, k.obj.Is m L LibLoss.mse.dL := by
  cases k
  · exact ⟨_, NLL_Is m⟩
  · exact ⟨_, CCE_Is m⟩

/-! ### True gradients -/

/-- The summed gradients, divided by the number of samples, are the partial derivatives of the mean loss. -/
theorem class_gradients {ls : List LibLayer} {n m : Nat} (k : ClassLoss) (hm : 0 < m) (hf : libFits n ls m) (he : EndsSoft m ls) (vs : List ((Nat → ℝ) × (Nat → ℝ)))
    (hw : ∀ vw ∈ vs, k.Target m vw.2) (hd : ∀ vw ∈ vs, libSmooth ls.dropLast vw.1) (pre post : List LibLayer) (p : LibLayer) (e : ls = pre ++ p :: post) :
    ∃ g : Grad ℝ, (gradSum LibLoss.mse.dL (ls.map LibLayer.dense) vs)[pre.length]? = some g ∧
      (∀ j, j < p.m → HasDerivAt (fun z => classMean m k vs (pre ++ { p with b := setAt p.b j z } :: post)) (g.1 j * (1 / (vs.length : ℝ))) (p.b j)) ∧
      (∀ i j, i < p.n → j < p.m →
        HasDerivAt (fun z => classMean m k vs (pre ++ { p with W := setEntry p.W i j z } :: post)) (g.2 i j * (1 / (vs.length : ℝ))) (p.W i j)) := by
  subst e
  rw [gradSum_unSoft he]
  have e : (unSoft (pre ++ p :: post)).map LibLayer.dense = pre.map LibLayer.dense ++ (unSoftAt p post).dense :: (unSoft post).map LibLayer.dense := by
    rw [unSoft_mid]; simp
  have hc := libFits_chain _ (unSoft_fits hf)
  have hdd : ∀ vw ∈ vs, DiffAt ((unSoft (pre ++ p :: post)).map LibLayer.dense) vw.1 := fun vw hv => libSmooth_diff _ _ (unSoft_smooth (hd vw hv))
  rw [e] at hc hdd
  obtain ⟨p', ep, _, _, _, _, h1, h2⟩ := avgStep_descent (pre.map LibLayer.dense) ((unSoft post).map LibLayer.dense) (unSoftAt p post).dense n m 1
    (fun t z => k.fn m t (softmaxFn m z)) (softDiff m) hc vs hdd (fun vw hv => k.diff m (hw vw hv) hm _)
  have hp : (unSoft (pre ++ p :: post))[pre.length]? = some (unSoftAt p post) := by rw [unSoft_mid]; simp
  rw [← e] at ep
  unfold avgStep gdStep at ep
  rw [List.length_map, List.getElem?_zipWith, List.getElem?_map, hp] at ep
  cases hg : (gradSum (softDiff m) ((unSoft (pre ++ p :: post)).map LibLayer.dense) vs)[pre.length]? with
  | none => rw [hg] at ep; simp at ep
  | some g =>
    rw [hg] at ep
    have ep : Dense.gd 1 (1 / (vs.length : ℝ)) (unSoftAt p post).dense g = p' := by simpa using ep
    refine ⟨g, rfl, fun j hj => ?_, fun i j hi hj => ?_⟩
    · obtain ⟨G, hG, e2⟩ := h1 j (show j < (unSoftAt p post).m by rw [unSoftAt_m]; exact hj)
      have er : ∀ z, meanLoss (fun t z => k.fn m t (softmaxFn m z)) vs (pre.map LibLayer.dense ++
          { (unSoftAt p post).dense with b := setAt (unSoftAt p post).dense.b j z } :: (unSoft post).map LibLayer.dense) =
          classMean m k vs (pre ++ { p with b := setAt p.b j z } :: post) := by
        intro z
        rw [← classMean_eq (he.set (p' := { p with b := setAt p.b j z }) ⟨rfl, rfl, rfl⟩), unSoft_mid, unSoftAt_b, map_set_b]
      simp only [er] at hG
      rw [← ep] at e2
      have e2 : (unSoftAt p post).b j - g.1 j * (1 / (vs.length : ℝ)) * 1 = (unSoftAt p post).b j - 1 * G := e2
      have : G = g.1 j * (1 / (vs.length : ℝ)) := by linarith
      have hG : HasDerivAt (fun z => classMean m k vs (pre ++ { p with b := setAt p.b j z } :: post)) G ((unSoftAt p post).b j) := hG
      rw [← this, ← unSoftAt_pb p post]
      rw [unSoftAt_pb] at hG ⊢
      exact hG
    · obtain ⟨G, hG, e2⟩ := h2 i j (show i < (unSoftAt p post).n by rw [unSoftAt_n]; exact hi) (show j < (unSoftAt p post).m by rw [unSoftAt_m]; exact hj)
      have er : ∀ z, meanLoss (fun t z => k.fn m t (softmaxFn m z)) vs (pre.map LibLayer.dense ++
          { (unSoftAt p post).dense with W := setEntry (unSoftAt p post).dense.W i j z } :: (unSoft post).map LibLayer.dense) =
          classMean m k vs (pre ++ { p with W := setEntry p.W i j z } :: post) := by
        intro z
        rw [← classMean_eq (he.set (p' := { p with W := setEntry p.W i j z }) ⟨rfl, rfl, rfl⟩), unSoft_mid, unSoftAt_W, map_set_W]
      simp only [er] at hG
      rw [← ep] at e2
      have e2 : (unSoftAt p post).W i j - g.2 i j * (1 / (vs.length : ℝ)) * 1 = (unSoftAt p post).W i j - 1 * G := e2
      have : G = g.2 i j * (1 / (vs.length : ℝ)) := by linarith
      have hG : HasDerivAt (fun z => classMean m k vs (pre ++ { p with W := setEntry p.W i j z } :: post)) G ((unSoftAt p post).W i j) := hG
      rw [← this]
      rw [unSoftAt_pW] at hG
      exact hG

/-! ### Where training settles -/

theorem GLim.shape {qs : List (Dense ℝ)} : ∀ {qs' : List (Dense ℝ)} {G : Nat → List (Grad ℝ)} {H : List (Grad ℝ)},
    List.Forall₂ (fun (a b : Dense ℝ) => a.n = b.n ∧ a.m = b.m) qs' qs → GLim qs G H → GLim qs' G H := by
  induction qs with
  | nil => intro qs' G H h hG; cases h; exact hG
  | cons q qs ih =>
    intro qs' G H h hG
    cases h with
    | cons hq h =>
      obtain ⟨g, G', k, H', e1, e2, a1, a2, a3⟩ := hG
      exact ⟨g, G', k, H', e1, e2, fun j hj => a1 j (hq.2 ▸ hj), fun i j hi hj => a2 i j (hq.1 ▸ hi) (hq.2 ▸ hj), ih h a3⟩

theorem unSoft_shape (ls : List LibLayer) : List.Forall₂ (fun (a b : Dense ℝ) => a.n = b.n ∧ a.m = b.m) (ls.map LibLayer.dense) ((unSoft ls).map LibLayer.dense) := by
  induction ls with
  | nil => exact .nil
  | cons p ls ih =>
    cases ls with
    | nil => exact .cons ⟨rfl, rfl⟩ .nil
    | cons r ls => exact .cons ⟨rfl, rfl⟩ ih

/-- The partial derivatives of the mean loss at `qs` exist, and each stands in the relation `φ` to its parameter. -/
def classSlopes (φ : ℝ → ℝ → Prop) (m : Nat) (k : ClassLoss) (vs : List ((Nat → ℝ) × (Nat → ℝ))) (qs : List LibLayer) : Prop :=
  ∀ (pre post : List LibLayer) (p : LibLayer), qs = pre ++ p :: post →
    (∀ j, j < p.m → ∃ G, HasDerivAt (fun z => classMean m k vs (pre ++ { p with b := setAt p.b j z } :: post)) G (p.b j) ∧ φ (p.b j) G) ∧
    (∀ i j, i < p.n → j < p.m → ∃ G, HasDerivAt (fun z => classMean m k vs (pre ++ { p with W := setEntry p.W i j z } :: post)) G (p.W i j) ∧ φ (p.W i j) G)

theorem libLimit_shape {qs : List LibLayer} : ∀ {P : Nat → List LibLayer}, libLimit P qs → ∀ N, List.Forall₂ (fun (a l : LibLayer) => a.n = l.n ∧ a.m = l.m ∧ a.act = l.act) (P N) qs := by
  induction qs with
  | nil => intro P h N; rw [h N]; exact .nil
  | cons q qs ih =>
    intro P h N
    obtain ⟨p, P', e, hs, _, _, hP⟩ := h
    rw [e N]
    exact .cons (hs N) (ih hP N)

theorem class_GLim {P : Nat → List LibLayer} {qs : List LibLayer} {n m : Nat} (hm : 0 < m) (hq : libLimit P qs) (heN : ∀ N, EndsSoft m (P N)) (heq : EndsSoft m qs) (hf : libFits n qs m)
    (vs : List ((Nat → ℝ) × (Nat → ℝ))) (hd : ∀ vw ∈ vs, libSmooth qs.dropLast vw.1) :
    GLim (qs.map LibLayer.dense) (fun N => gradSum LibLoss.mse.dL ((P N).map LibLayer.dense) vs) (gradSum LibLoss.mse.dL (qs.map LibLayer.dense) vs) := by
  have hG := gradSum_lim (libLimit_NLim (unSoft_limit hq)) (libFits_chain _ (unSoft_fits hf)) vs (fun vw hv => libSmooth_cont _ _ (unSoft_smooth (hd vw hv))) (dL := softDiff m)
    (fun vw _ y hy => softDiff_lim hm _ _ y hy)
  have hG := hG.shape (unSoft_shape qs)
  have eG : (fun N => gradSum (softDiff m) ((unSoft (P N)).map LibLayer.dense) vs) = fun N => gradSum LibLoss.mse.dL ((P N).map LibLayer.dense) vs := by
    funext N
    rw [← gradSum_unSoft (heN N)]
  rw [eG, ← gradSum_unSoft heq] at hG
  exact hG

theorem class_pos {n m : Nat} {ls : List LibLayer} (he : EndsSoft m ls) (hp : ∀ l ∈ ls, 0 < l.m) : 0 < m := by
  obtain ⟨hid, q, rfl, _, rfl⟩ := he.snoc
  exact hp q (by simp)

theorem settle_class {R : Rule ℝ μ} {φ : ℝ → ℝ → Prop} (hS : R.Settles φ) {upd : Upd σ ℝ} {s0 : σ} (hR : FollowsRule upd s0 R) : ClassSettlesOnlyAt (classSlopes φ) upd s0 := by
  intro t ls n m k h hcl ha idata odata vs hdata hne hw
  obtain ⟨L, hL⟩ := k.obj_Is m
  have hI := IsLib.toIs h hL
  have he := hcl.ends h.fits
  have hm : 0 < m := class_pos (n := n) he h.pos
  refine ⟨fun N => (List.zipWith relib ls (ruleRun R .mse vs ls N).2).map (·.1), fun N => relib_shape (ruleRun_inv R .mse vs ls N).2, fun N => ?_, fun qs hq hd pre post p e => ?_⟩
  · refine (C114_batch hR t _ n m _ hI ha idata odata vs hdata hne N).mono (fun r hr => params_of ?_)
    dsimp only
    rw [ruleRun_dense]
    exact hr.net
  · have hsh : ∀ N, List.Forall₂ (fun (a l : LibLayer) => a.n = l.n ∧ a.m = l.m ∧ a.act = l.act) ((List.zipWith relib ls (ruleRun R .mse vs ls N).2).map (·.1)) ls :=
      fun N => relib_shape (ruleRun_inv R .mse vs ls N).2
    have heN : ∀ N, EndsSoft m ((List.zipWith relib ls (ruleRun R .mse vs ls N).2).map (·.1)) := fun N => he.shape (hsh N)
    have heq : EndsSoft m qs := by
      refine (heN 0).shape ?_
      have := libLimit_shape hq 0
      exact (this.imp (S := fun (a l : LibLayer) => l.n = a.n ∧ l.m = a.m ∧ l.act = a.act) (fun a l hh => ⟨hh.1.symm, hh.2.1.symm, hh.2.2.symm⟩)).flip
    have hf : libFits n qs m := libLimit_fits hq (libFits_shape (hsh 0) h.fits)
    have hN := libLimit_NLim hq
    simp only [ruleRun_dense] at hN
    have hT : Tendsto (fun N => (ruleRun R .mse vs ls N).1) atTop atTop := by
      have : (fun N => (ruleRun R .mse vs ls N).1) = fun N => N * (2 * ls.length) := funext fun N => (ruleRun_inv R .mse vs ls N).1
      rw [this]
      exact tendsto_id.atTop_mul_const' (by have := h.two; omega)
    have hG := class_GLim hm hq heN heq hf vs hd
    simp only [ruleRun_dense] at hG
    have hset := settle_layers hS (1 / (vs.length : ℝ)) (T := fun N => (ruleRun R .mse vs ls N).1) (Y := fun N => (ruleRun R .mse vs ls N).2)
      (G := fun N => gradSum LibLoss.mse.dL ((ruleRun R .mse vs ls N).2.map (·.1)) vs) hT
      (fun y hy => by
        have hy : y ∈ (R.init (ls.map LibLayer.dense)).2 := hy
        unfold Rule.init at hy
        obtain ⟨l, _, rfl⟩ := List.mem_map.1 hy
        rfl) (fun N => by rw [ruleRun_succ]; rfl) hN hG
    obtain ⟨g, hg, h1, h2⟩ := class_gradients k hm hf heq vs hw hd pre post p e
    have hp : (qs.map LibLayer.dense)[pre.length]? = some p.dense := by rw [e]; simp
    obtain ⟨_, hh⟩ := List.forall₂_iff_get.1 hset
    obtain ⟨x1, x2⟩ := List.getElem?_eq_some_iff.1 hp
    obtain ⟨y1, y2⟩ := List.getElem?_eq_some_iff.1 hg
    have := hh pre.length x1 y1
    simp only [List.get_eq_getElem] at this
    rw [x2, y2] at this
    exact ⟨fun j hj => ⟨_, h1 j hj, this.1 j hj⟩, fun i j hi hj => ⟨_, h2 i j hi hj, this.2 i j hi hj⟩⟩

theorem ClassSettlesOnlyAt.mono {Q Q' : Nat → ClassLoss → List ((Nat → ℝ) × (Nat → ℝ)) → List LibLayer → Prop} {upd : Upd σ ℝ} {s0 : σ} (h : ClassSettlesOnlyAt Q upd s0)
    (hQ : ∀ m k vs qs, Q m k vs qs → Q' m k vs qs) : ClassSettlesOnlyAt Q' upd s0 := by
  intro t ls n m k h1 hc h2 idata odata vs h3 h4 hw
  obtain ⟨P, p1, p2, p3⟩ := h t ls n m k h1 hc h2 idata odata vs h3 h4 hw
  exact ⟨P, p1, p2, fun qs q1 q2 => hQ _ _ _ _ (p3 qs q1 q2)⟩

theorem class_zero {R : Rule ℝ μ} (hS : R.Settles (fun _ h => h = 0)) {upd : Upd σ ℝ} {s0 : σ} (hR : FollowsRule upd s0 R) : ClassSettlesOnlyAt classStationary upd s0 := by
  refine (settle_class hS hR).mono (fun m k vs qs h pre post p e => ?_)
  obtain ⟨h1, h2⟩ := h pre post p e
  refine ⟨fun j hj => ?_, fun i j hi hj => ?_⟩
  · obtain ⟨G, hG, rfl⟩ := h1 j hj; exact hG
  · obtain ⟨G, hG, rfl⟩ := h2 i j hi hj; exact hG

/-! ### C118 -/

/-- `GradDescentOptimizer`. -/
theorem C118_gd (lr : ℝ) (hlr : lr ≠ 0) : ClassSettlesOnlyAt classStationary gdUpdate lr :=
  class_zero (settles_gd lr hlr) (C114_gd lr)

/-- `MomentumOptimizer`, whatever the momentum coefficient. -/
theorem C118_momentum (lr mu : ℝ) (hlr : lr ≠ 0) : ClassSettlesOnlyAt classStationary momUpdate (Mom.make lr mu) :=
  class_zero (settles_momentum lr mu hlr) (C114_momentum lr mu)

/-- `NestorovOptimizer`. -/
theorem C118_nestorov (lr mu : ℝ) (hlr : lr ≠ 0) (hmu : 0 ≤ mu) : ClassSettlesOnlyAt classStationary nesUpdate (Mom.make lr mu) :=
  class_zero (settles_nestorov lr mu hlr hmu) (C114_nestorov lr mu)

/-- `AdaGradOptimizer`. -/
theorem C118_adagrad (lr b : ℝ) (hlr : lr ≠ 0) : ClassSettlesOnlyAt classStationary (adagradUpdate invertSqrt) (Ada.make lr b) :=
  class_zero (settles_adagrad lr hlr) (C114_adagrad invertSqrt lr b)

/-- `RMSPropOptimizer`. -/
theorem C118_rmsprop (lr beta : ℝ) (hlr : lr ≠ 0) (h0 : 0 ≤ beta) (h1 : beta < 1) : ClassSettlesOnlyAt classStationary (rmspropUpdate invertSqrt) (Ada.make lr beta) :=
  class_zero (settles_rmsprop lr beta hlr h0 h1) (C114_rmsprop invertSqrt lr beta)

/-- `AdamOptimizer`, in spite of its shared step counter (C48). -/
theorem C118_adam (lr beta1 beta2 : ℝ) (hlr : lr ≠ 0) (h0 : 0 ≤ beta1) (h1 : beta1 < 1) (k0 : 0 ≤ beta2) (k1 : beta2 < 1) :
    ClassSettlesOnlyAt classStationary (adamUpdate invertSqrt) (AdamS.make lr beta1 beta2) := by
  have hp : ∀ {b : ℝ}, 0 ≤ b → b < 1 → ∀ T : Nat, 1 - b ^ (T + 1) ≠ 0 := fun hb hb1 T => by
    have := pow_lt_one₀ hb hb1 (Nat.succ_ne_zero T)
    exact (sub_pos.2 this).ne'
  exact class_zero (settles_adam lr beta1 beta2 hlr h0 h1 k0 k1) (C114_adam invertSqrt lr beta1 beta2 (hp h0 h1) (hp k0 k1))

/-- `StoGradDescentOptimizer` settles where the loss with the penalty `decay/2 · Σ p²` is stationary. -/
theorem C118_sgd (lr decay : ℝ) (hlr : lr ≠ 0) : ClassSettlesOnlyAt (classStationaryDecay decay) sgdUpdate (Sgd.make lr decay) := by
  refine (settle_class (settles_sgd lr decay hlr) (C114_sgd lr decay)).mono (fun m k vs qs h pre post p e => ?_)
  obtain ⟨h1, h2⟩ := h pre post p e
  have sq : ∀ x : ℝ, HasDerivAt (fun z : ℝ => decay / 2 * z ^ 2) (decay * x) x := fun x =>
    ((hasDerivAt_pow 2 x).const_mul (decay / 2)).congr_deriv (by simp; ring)
  refine ⟨fun j hj => ?_, fun i j hi hj => ?_⟩
  · obtain ⟨G, hG, rfl⟩ := h1 j hj
    exact (hG.add (sq _)).congr_deriv (by ring)
  · obtain ⟨G, hG, rfl⟩ := h2 i j hi hj
    exact (hG.add (sq _)).congr_deriv (by ring)

/-- `batch()` on a network of library layers that ends in `SoftMax`, with `NLL` or `CCE` and an optimizer that follows the rule `R`. `P N` holds the parameters after `N` epochs and
what the rule remembers about them. Whenever the mean loss is differentiable at the parameters, every parameter is moved in the next epoch by the rule, applied to the true
partial derivative of the mean loss. (The first argument of `step` is the number of arrays updated before.) -/
theorem C118_rule {R : Rule ℝ μ} {upd : Upd σ ℝ} {s0 : σ} (hR : FollowsRule upd s0 R) (t : Train ℝ) (ls : List LibLayer) (n m : Nat) (k : ClassLoss)
    (h : t.IsLib ls n m k.obj) (hcl : Classifies ls) (ha : t.net.Apart) (idata odata : List (Ten ℝ)) (vs : List ((Nat → ℝ) × (Nat → ℝ))) (hdata : DataIs idata odata n m vs) (hne : vs ≠ [])
    (hw : ∀ vw ∈ vs, k.Target m vw.2) :
    ∃ P : Nat → List (LibLayer × LMem μ), P 0 = ls.map (fun l => (l, (fun _ => R.start, fun _ _ => R.start))) ∧
      (∀ N, Ok (Train.batch upd idata odata N (s0, t)) (fun r => r.2.net.Params ((P N).map (·.1)))) ∧
      ∀ (N : Nat) (pre post : List (LibLayer × LMem μ)) (p : LibLayer) (c : LMem μ), P N = pre ++ (p, c) :: post → (∀ vw ∈ vs, libSmooth ((P N).map (·.1)).dropLast vw.1) →
        ∃ (p' : LibLayer) (c' : LMem μ), (P (N + 1))[pre.length]? = some (p', c') ∧ p'.n = p.n ∧ p'.m = p.m ∧ p'.act = p.act ∧
          (∀ j, j < p.m → ∃ G, HasDerivAt (fun z => classMean m k vs (pre.map (·.1) ++ { p with b := setAt p.b j z } :: post.map (·.1))) G (p.b j) ∧
            (c'.1 j, p'.b j) = R.step (N * (2 * ls.length) + 2 * pre.length) (c.1 j) (p.b j) G) ∧
          (∀ i j, i < p.n → j < p.m → ∃ G, HasDerivAt (fun z => classMean m k vs (pre.map (·.1) ++ { p with W := setEntry p.W i j z } :: post.map (·.1))) G (p.W i j) ∧
            (c'.2 i j, p'.W i j) = R.step (N * (2 * ls.length) + 2 * pre.length + 1) (c.2 i j) (p.W i j) G) := by
  obtain ⟨L, hL⟩ := k.obj_Is m
  have hI := IsLib.toIs h hL
  have he := hcl.ends h.fits
  have hm : 0 < m := class_pos (n := n) he h.pos
  refine ⟨fun N => List.zipWith relib ls (ruleRun R .mse vs ls N).2, ?_, fun N => ?_, fun N pre post p c e hd => ?_⟩
  · show List.zipWith relib ls ((ls.map LibLayer.dense).map _) = _
    clear * -
    induction ls with
    | nil => rfl
    | cons l ls ih => simp only [List.map_cons, List.zipWith_cons_cons, ih]; rfl
  · refine (C114_batch hR t _ n m _ hI ha idata odata vs hdata hne N).mono (fun r hr => params_of ?_)
    dsimp only
    rw [ruleRun_dense]
    exact hr.net
  · dsimp only at e hd ⊢
    obtain ⟨hT, hK⟩ := ruleRun_inv R .mse vs ls N
    have hfit : libFits n ((List.zipWith relib ls (ruleRun R .mse vs ls N).2).map (·.1)) m := libFits_shape (relib_shape hK) h.fits
    have em : (List.zipWith relib ls (ruleRun R .mse vs ls N).2).map (·.1) = pre.map (·.1) ++ p :: post.map (·.1) := by rw [e]; simp
    obtain ⟨g, hg, h1, h2⟩ := class_gradients k hm hfit (he.shape (relib_shape hK)) vs hw hd (pre.map (·.1)) (post.map (·.1)) p em
    rw [ruleRun_dense, List.length_map] at hg
    have hi : (List.zipWith relib ls (ruleRun R .mse vs ls N).2)[pre.length]? = some (p, c) := by rw [e]; simp
    rw [List.getElem?_zipWith] at hi
    have hK' := hK
    cases hl : ls[pre.length]? with
    | none => rw [hl] at hi; simp at hi
    | some l =>
    cases hx : (ruleRun R .mse vs ls N).2[pre.length]? with
    | none => rw [hl, hx] at hi; simp at hi
    | some x =>
    rw [hl, hx] at hi
    have hi : relib l x = (p, c) := by simpa using hi
    have hsk : SameKind l x := by
      obtain ⟨_, hh⟩ := List.forall₂_iff_get.1 hK
      obtain ⟨a1, a2⟩ := List.getElem?_eq_some_iff.1 hl
      obtain ⟨b1, b2⟩ := List.getElem?_eq_some_iff.1 hx
      have := hh pre.length a1 b1
      simp only [List.get_eq_getElem] at this
      rw [a2, b2] at this; exact this
    have hnew := layers_get R (1 / (vs.length : ℝ)) (ruleRun R .mse vs ls N).1 (ruleRun R .mse vs ls N).2 _ pre.length x g hx hg
    refine ⟨(relib l (R.layer (1 / (vs.length : ℝ)) (N * (2 * ls.length) + 2 * pre.length) x g)).1, (R.layer (1 / (vs.length : ℝ)) (N * (2 * ls.length) + 2 * pre.length) x g).2, ?_, ?_⟩
    · rw [ruleRun_succ, List.getElem?_zipWith, hl]
      have hnew' : (R.update (1 / (vs.length : ℝ)) (fun ps => gradSum LibLoss.mse.dL ps vs) (ruleRun R .mse vs ls N)).2[pre.length]? =
          some (R.layer (1 / (vs.length : ℝ)) (N * (2 * ls.length) + 2 * pre.length) x g) := by rw [← hT]; exact hnew
      rw [hnew']; rfl
    · have e1 := congrArg Prod.fst hi
      have e2 := congrArg Prod.snd hi
      dsimp only [relib] at e1 e2
      subst e1 e2
      refine ⟨rfl, rfl, rfl, fun j hj => ⟨_, h1 j hj, rfl⟩, fun i j hi hj => ⟨_, h2 i j hi hj, rfl⟩⟩

/-! Where gradient descent stops. -/

/-- The derivative of the mean loss, read off the descent step. -/
theorem class_step {ls : List LibLayer} {n m : Nat} (k : ClassLoss) (hm : 0 < m) (hf : libFits n ls m) (he : EndsSoft m ls) (vs : List ((Nat → ℝ) × (Nat → ℝ)))
    (hw : ∀ vw ∈ vs, k.Target m vw.2) (hd : ∀ vw ∈ vs, libSmooth ls.dropLast vw.1) (lr : ℝ) (pre post : List LibLayer) (p : LibLayer) (e : ls = pre ++ p :: post) :
    ∃ p' : LibLayer, (libStep lr .mse vs ls)[pre.length]? = some p' ∧ p'.n = p.n ∧ p'.m = p.m ∧ p'.act = p.act ∧
      (∀ j, j < p.m → ∃ G, HasDerivAt (fun z => classMean m k vs (pre ++ { p with b := setAt p.b j z } :: post)) G (p.b j) ∧ p'.b j = p.b j - lr * G) ∧
      (∀ i j, i < p.n → j < p.m → ∃ G, HasDerivAt (fun z => classMean m k vs (pre ++ { p with W := setEntry p.W i j z } :: post)) G (p.W i j) ∧ p'.W i j = p.W i j - lr * G) := by
  obtain ⟨g, hg, h1, h2⟩ := class_gradients k hm hf he vs hw hd pre post p e
  have hp : ls[pre.length]? = some p := by rw [e]; simp
  refine ⟨LibLayer.mk p.n p.m (fun j => p.b j - g.1 j * (1 / (vs.length : ℝ)) * lr) (fun i j => p.W i j - g.2 i j * (1 / (vs.length : ℝ)) * lr) p.act,
    by unfold libStep; rw [List.getElem?_zipWith, hp, hg], rfl, rfl, rfl, fun j hj => ⟨_, h1 j hj, ?_⟩, fun i j hi hj => ⟨_, h2 i j hi hj, ?_⟩⟩
  · show p.b j - g.1 j * (1 / (vs.length : ℝ)) * lr = _; ring
  · show p.W i j - g.2 i j * (1 / (vs.length : ℝ)) * lr = _; ring

/-- If one epoch of `batch()` leaves all parameters as they are, all partial derivatives of the mean loss are zero. -/
theorem C118_stops (t : Train ℝ) (ls : List LibLayer) (n m : Nat) (k : ClassLoss) (h : t.IsLib ls n m k.obj) (hcl : Classifies ls)
    (idata odata : List (Ten ℝ)) (vs : List ((Nat → ℝ) × (Nat → ℝ))) (hdata : DataIs idata odata n m vs) (hne : vs ≠ []) (hw : ∀ vw ∈ vs, k.Target m vw.2)
    (lr : ℝ) (hlr : lr ≠ 0) (hd : ∀ vw ∈ vs, libSmooth ls.dropLast vw.1) (hk : Ok (Train.batch gdUpdate idata odata 1 (lr, t)) (fun r => r.2.net.Params ls)) :
    classStationary m k vs ls := by
  obtain ⟨L, hL⟩ := k.obj_Is m
  have hI := IsLib.toIs h hL
  have he := hcl.ends h.fits
  have hm : 0 < m := class_pos (n := n) he h.pos
  obtain ⟨r, e, hr⟩ := C39_batch (fun a => mul_one a) lr t _ n m _ hI idata odata vs hdata hne 1
  obtain ⟨r', e', hr'⟩ := hk
  rw [e] at e'
  cases e'
  have hag := agree_of hr.2.1.net hr'
  have hag : List.Forall₂ Dense.Agree ((libStep lr .mse vs ls).map LibLayer.dense) (ls.map LibLayer.dense) := by rw [libStep_dense]; exact hag
  intro pre post p e
  obtain ⟨p', ep, _, _, _, h1, h2⟩ := class_step k hm h.fits he vs hw hd lr pre post p e
  have hpp : p'.dense.Agree p.dense := by
    obtain ⟨_, hh⟩ := List.forall₂_iff_get.1 hag
    have x : ((libStep lr .mse vs ls).map LibLayer.dense)[pre.length]? = some p'.dense := by rw [List.getElem?_map, ep]; rfl
    have y : (ls.map LibLayer.dense)[pre.length]? = some p.dense := by rw [e]; simp
    obtain ⟨x1, x2⟩ := List.getElem?_eq_some_iff.1 x
    obtain ⟨y1, y2⟩ := List.getElem?_eq_some_iff.1 y
    have := hh pre.length x1 y1
    simp only [List.get_eq_getElem] at this
    rw [x2, y2] at this; exact this
  have zero : ∀ {a b G : ℝ}, a = b → a = b - lr * G → G = 0 := fun {a b G} h1 h2 => by
    have : lr * G = 0 := by linarith
    exact (mul_eq_zero.1 this).resolve_left hlr
  refine ⟨fun j hj => ?_, fun i j hi hj => ?_⟩
  · obtain ⟨G, hG, e2⟩ := h1 j hj
    rw [zero (hpp.2.2.1 j hj) e2] at hG; exact hG
  · obtain ⟨G, hG, e2⟩ := h2 i j hi hj
    rw [zero (hpp.2.2.2 i j hi hj) e2] at hG; exact hG

/-- Equal sizes, activations and parameters. -/
def LibLayer.Agree (p q : LibLayer) : Prop :=
  p.n = q.n ∧ p.m = q.m ∧ p.act = q.act ∧ (∀ j, j < q.m → p.b j = q.b j) ∧ ∀ i j, i < q.n → j < q.m → p.W i j = q.W i j

theorem libLimit_const {ps qs : List LibLayer} (h : List.Forall₂ LibLayer.Agree ps qs) : libLimit (fun _ => ps) qs := by
  induction h with
  | nil => exact fun _ => rfl
  | @cons p q ps qs hpq _ ih =>
    obtain ⟨h1, h2, h3, h4, h5⟩ := hpq
    exact ⟨fun _ => p, fun _ => ps, fun _ => rfl, fun _ => ⟨h1, h2, h3⟩, fun j hj => by dsimp only; rw [h4 j hj]; exact tendsto_const_nhds,
      fun i j hi hj => by dsimp only; rw [h5 i j hi hj]; exact tendsto_const_nhds, ih⟩

theorem class_fixed {ls : List LibLayer} {n m : Nat} (k : ClassLoss) (hm : 0 < m) (hf : libFits n ls m) (he : EndsSoft m ls) (vs : List ((Nat → ℝ) × (Nat → ℝ)))
    (hw : ∀ vw ∈ vs, k.Target m vw.2) (hd : ∀ vw ∈ vs, libSmooth ls.dropLast vw.1) (lr : ℝ) (hs : classStationary m k vs ls) :
    List.Forall₂ LibLayer.Agree (libStep lr .mse vs ls) ls := by
  have hlen : (libStep lr .mse vs ls).length = ls.length := (libStep_shape lr .mse vs ls).length_eq
  rw [List.forall₂_iff_get]
  refine ⟨hlen, fun i h1 h2 => ?_⟩
  obtain ⟨pre, post, e, hpl⟩ : ∃ pre post, ls = pre ++ ls[i] :: post ∧ pre.length = i :=
    ⟨ls.take i, ls.drop (i + 1), by simp, by simp; omega⟩
  obtain ⟨s1, s2⟩ := hs pre post _ e
  obtain ⟨p', ep, en, em, ea, g1, g2⟩ := class_step k hm hf he vs hw hd lr pre post _ e
  rw [hpl] at ep
  obtain ⟨_, ep⟩ := List.getElem?_eq_some_iff.1 ep
  rw [List.get_eq_getElem, List.get_eq_getElem, ep]
  refine ⟨en, em, ea, fun j hj => ?_, fun i j hi hj => ?_⟩
  · obtain ⟨G, hG, e2⟩ := g1 j hj
    rw [e2, hG.unique (s1 j hj), mul_zero, sub_zero]
  · obtain ⟨G, hG, e2⟩ := g2 i j hi hj
    rw [e2, hG.unique (s2 i j hi hj), mul_zero, sub_zero]

theorem step_agree {ls : List LibLayer} (c : ℝ) (lr : ℝ) : ∀ {xs : List LibLayer} {G H : List (Grad ℝ)}, List.Forall₂ LibLayer.Agree xs ls → GLim (ls.map LibLayer.dense) (fun _ => G) H →
    List.Forall₂ LibLayer.Agree
      (List.zipWith (fun (l : LibLayer) (g : Grad ℝ) => LibLayer.mk l.n l.m (fun j => l.b j - g.1 j * c * lr) (fun i j => l.W i j - g.2 i j * c * lr) l.act) xs G)
      (List.zipWith (fun (l : LibLayer) (g : Grad ℝ) => LibLayer.mk l.n l.m (fun j => l.b j - g.1 j * c * lr) (fun i j => l.W i j - g.2 i j * c * lr) l.act) ls H) := by
  induction ls with
  | nil => intro xs G H h _; cases h; exact .nil
  | cons l ls ih =>
    intro xs G H h hG
    cases h with
    | cons hx h =>
      obtain ⟨g, G', k, H', e1, rfl, a1, a2, a3⟩ := hG
      have eg : ∀ N, g N = g 0 ∧ G' N = G' 0 := fun N => by have := (e1 N).symm.trans (e1 0); simpa using this
      have eg1 : g = fun _ => g 0 := funext fun N => (eg N).1
      have eg2 : G' = fun _ => G' 0 := funext fun N => (eg N).2
      rw [eg2] at a3
      rw [eg1] at a1 a2
      have e0 : G = g 0 :: G' 0 := e1 0
      rw [e0]
      obtain ⟨h1, h2, h3, h4, h5⟩ := hx
      refine .cons ⟨h1, h2, h3, fun j hj => ?_, fun i j hi hj => ?_⟩ (ih h a3)
      · have : (g 0).1 j = k.1 j := tendsto_nhds_unique tendsto_const_nhds (a1 j hj)
        dsimp only at hj ⊢
        rw [h4 j hj, this]
      · have : (g 0).2 i j = k.2 i j := tendsto_nhds_unique tendsto_const_nhds (a2 i j hi hj)
        dsimp only at hi hj ⊢
        rw [h5 i j hi hj, this]

/-- If all partial derivatives of the mean loss are zero, any number of epochs of `batch()` leaves all parameters as they are. -/
theorem C118_rest (t : Train ℝ) (ls : List LibLayer) (n m : Nat) (k : ClassLoss) (h : t.IsLib ls n m k.obj) (hcl : Classifies ls)
    (idata odata : List (Ten ℝ)) (vs : List ((Nat → ℝ) × (Nat → ℝ))) (hdata : DataIs idata odata n m vs) (hne : vs ≠ []) (hw : ∀ vw ∈ vs, k.Target m vw.2)
    (lr : ℝ) (hd : ∀ vw ∈ vs, libSmooth ls.dropLast vw.1) (hs : classStationary m k vs ls) (N : Nat) :
    Ok (Train.batch gdUpdate idata odata N (lr, t)) (fun r => r.2.net.Params ls) := by
  obtain ⟨L, hL⟩ := k.obj_Is m
  have hI := IsLib.toIs h hL
  have he := hcl.ends h.fits
  have hm : 0 < m := class_pos (n := n) he h.pos
  have hfix := class_fixed k hm h.fits he vs hw hd lr hs
  have key : ∀ N, List.Forall₂ LibLayer.Agree ((libStep lr .mse vs)^[N] ls) ls := by
    intro N
    induction N with
    | zero => exact List.forall₂_same.2 (fun p _ => ⟨rfl, rfl, rfl, fun _ _ => rfl, fun _ _ _ _ => rfl⟩)
    | succ N ih =>
      rw [Function.iterate_succ_apply']
      have h1 := step_agree (1 / (vs.length : ℝ)) lr ih
        (class_GLim hm (libLimit_const ih) (fun _ => he.shape (ih.imp (fun a l hh => ⟨hh.1, hh.2.1, hh.2.2.1⟩))) he h.fits vs hd)
      exact forall₂_trans' (fun p q r ⟨a1, a2, a3, a4, a5⟩ ⟨b1, b2, b3, b4, b5⟩ => ⟨a1.trans b1, a2.trans b2, a3.trans b3,
        fun j hj => (a4 j (by omega)).trans (b4 j hj), fun i j hi hj => (a5 i j (by omega) (by omega)).trans (b5 i j hi hj)⟩) h1 hfix
  refine (C39_batch (fun a => mul_one a) lr t _ n m _ hI idata odata vs hdata hne N).mono (fun r hr => ?_)
  have hn := hr.2.1.net
  rw [← libStep_iter] at hn
  have hn := params_of hn
  unfold Net.Params at hn ⊢
  exact forall₂_trans' (fun l p a ⟨f, e, hw⟩ ⟨a1, a2, _, a3, a4⟩ => ⟨f, e, by
    rw [← a1, ← a2]
    exact { hw with B := hw.B.congr (fun j hj => a3 j (a2 ▸ hj)), W := hw.W.congr (fun i j hi hj => a4 i j (a1 ▸ hi) (a2 ▸ hj)) }⟩) hn (key N)

/-! Descent. -/

theorem unSoft_zip (f : LibLayer → Grad ℝ → LibLayer) (hf : ∀ l g, (f l g).plain = f l.plain g) : ∀ (ls : List LibLayer) (gs : List (Grad ℝ)), gs.length = ls.length →
    unSoft (List.zipWith f ls gs) = List.zipWith f (unSoft ls) gs
  | [], _, _ => rfl
  | [q], [g], _ => by show [_] = [_]; rw [hf]
  | [q], [], h => by simp at h
  | [q], g :: g' :: gs, h => by simp at h
  | p :: q :: ls, [], h => by simp at h
  | p :: q :: ls, [g], h => by simp at h
  | p :: q :: ls, g :: g' :: gs, h => by
    have := unSoft_zip f hf (q :: ls) (g' :: gs) (by simpa using h)
    show f p g :: unSoft (List.zipWith f (q :: ls) (g' :: gs)) = f p g :: List.zipWith f (unSoft (q :: ls)) (g' :: gs)
    rw [this]

theorem unSoft_step {m : Nat} {ls : List LibLayer} (he : EndsSoft m ls) (vs : List ((Nat → ℝ) × (Nat → ℝ))) (lr : ℝ) :
    (unSoft (libStep lr .mse vs ls)).map LibLayer.dense = avgStep lr (1 / (vs.length : ℝ)) (softDiff m) vs ((unSoft ls).map LibLayer.dense) := by
  unfold libStep
  rw [unSoft_zip _ (fun _ _ => rfl) ls _ (by rw [gradSum_length]; simp), gradSum_unSoft he]
  unfold avgStep gdStep
  generalize gradSum (softDiff m) ((unSoft ls).map LibLayer.dense) vs = gs
  generalize unSoft ls = us
  induction us generalizing gs with
  | nil => rfl
  | cons l us ih =>
    cases gs with
    | nil => rfl
    | cons g gs =>
      show _ :: _ = _ :: _
      rw [ih gs]
      rfl

theorem class_lower {ls : List LibLayer} {n m : Nat} (k : ClassLoss) (hm : 0 < m) (hf : libFits n ls m) (he : EndsSoft m ls) (vs : List ((Nat → ℝ) × (Nat → ℝ))) (hne : vs ≠ [])
    (hw : ∀ vw ∈ vs, k.Target m vw.2) (hd : ∀ vw ∈ vs, libSmooth ls.dropLast vw.1) (hns : classMoves m k vs ls) :
    ∃ ε > 0, ∀ lr, 0 < lr → lr < ε → classMean m k vs (libStep lr .mse vs ls) < classMean m k vs ls := by
  have hN : (0 : ℝ) < 1 / (vs.length : ℝ) := by
    have : 0 < vs.length := List.length_pos_iff.2 hne
    positivity
  have hpos : 0 < normSq ((unSoft ls).map LibLayer.dense) (gradSum (softDiff m) ((unSoft ls).map LibLayer.dense) vs) := by
    obtain ⟨pre, p, post, G, e, hG, hD⟩ := hns
    obtain ⟨g, hg, h1, h2⟩ := class_gradients k hm hf he vs hw hd pre post p e
    rw [gradSum_unSoft he] at hg
    have ee : (unSoft ls).map LibLayer.dense = pre.map LibLayer.dense ++ (unSoftAt p post).dense :: (unSoft post).map LibLayer.dense := by
      rw [e, unSoft_mid]; simp
    generalize gradSum (softDiff m) ((unSoft ls).map LibLayer.dense) vs = gs at hg ⊢
    rw [ee]
    refine normSq_pos _ _ _ gs g (by rw [List.length_map]; exact hg) ?_
    rcases hD with ⟨j, hj, hD⟩ | ⟨i, j, hi, hj, hD⟩
    · refine .inl ⟨j, by show j < (unSoftAt p post).m; rw [unSoftAt_m]; exact hj, fun h0 => hG ?_⟩
      rw [hD.unique (h1 j hj), h0, zero_mul]
    · refine .inr ⟨i, j, by show i < (unSoftAt p post).n; rw [unSoftAt_n]; exact hi, by show j < (unSoftAt p post).m; rw [unSoftAt_m]; exact hj, fun h0 => hG ?_⟩
      rw [hD.unique (h2 i j hi hj), h0, zero_mul]
  obtain ⟨ε, hε, H⟩ := lt_of_deriv_neg (descent_rate _ n m (fun t z => k.fn m t (softmaxFn m z)) (softDiff m) (libFits_chain _ (unSoft_fits hf)) vs
    (fun vw hv => libSmooth_diff _ _ (unSoft_smooth (hd vw hv))) (fun vw hv => k.diff m (hw vw hv) hm _) (1 / (vs.length : ℝ)))
    (by have := mul_pos hN (mul_pos hN hpos); linarith)
  refine ⟨ε, hε, fun lr h1 h2 => ?_⟩
  have := H lr h1 h2
  have e0 : avgStep 0 (1 / (vs.length : ℝ)) (softDiff m) vs ((unSoft ls).map LibLayer.dense) = (unSoft ls).map LibLayer.dense := gdStep_zero _ _ _ (gradSum_length _ _ vs)
  rw [e0, ← unSoft_step he, classMean_eq (he.shape (libStep_shape lr .mse vs ls)), classMean_eq he] at this
  exact this

/-- Unless all partial derivatives vanish, one epoch of `batch()` with gradient descent and a small learning rate lowers the mean loss. -/
theorem C118_descent (t : Train ℝ) (ls : List LibLayer) (n m : Nat) (k : ClassLoss) (h : t.IsLib ls n m k.obj) (hcl : Classifies ls)
    (idata odata : List (Ten ℝ)) (vs : List ((Nat → ℝ) × (Nat → ℝ))) (hdata : DataIs idata odata n m vs) (hne : vs ≠ []) (hw : ∀ vw ∈ vs, k.Target m vw.2)
    (hd : ∀ vw ∈ vs, libSmooth ls.dropLast vw.1) (hns : classMoves m k vs ls) :
    ∃ ε > 0, ∀ lr, 0 < lr → lr < ε → Ok (Train.batch gdUpdate idata odata 1 (lr, t)) (fun r => ∃ qs : List LibLayer,
      List.Forall₂ (fun a l => a.n = l.n ∧ a.m = l.m ∧ a.act = l.act) qs ls ∧ r.2.net.Params qs ∧ classMean m k vs qs < classMean m k vs ls) := by
  obtain ⟨L, hL⟩ := k.obj_Is m
  have hI := IsLib.toIs h hL
  have he := hcl.ends h.fits
  have hm : 0 < m := class_pos (n := n) he h.pos
  obtain ⟨ε, hε, H⟩ := class_lower k hm h.fits he vs hne hw hd hns
  refine ⟨ε, hε, fun lr h1 h2 => ?_⟩
  refine (C39_batch (fun a => mul_one a) lr t _ n m _ hI idata odata vs hdata hne 1).mono (fun r hr => ?_)
  have hn := hr.2.1.net
  rw [← libStep_iter] at hn
  exact ⟨_, libStep_shape lr .mse vs ls, params_of hn, H lr h1 h2⟩

/-- For `NLL` this is the loss that `loss(idata, odata)` reports. -/
theorem C118_reported (t : Train ℝ) (ls : List LibLayer) (n m : Nat) (h : t.IsLib ls n m NLL) (hcl : Classifies ls)
    (idata odata : List (Ten ℝ)) (vs : List ((Nat → ℝ) × (Nat → ℝ))) (hdata : DataIs idata odata n m vs) (hne : vs ≠ []) (hw : ∀ vw ∈ vs, ∃ c, Hot m vw.2 c)
    (s : Nat × Nat × Nat) (hs : s.1 * s.2.1 * s.2.2 = n) (hsh : ∀ x ∈ idata, (x.d, x.h, x.w) = s)
    (hd : ∀ vw ∈ vs, libSmooth ls.dropLast vw.1) (hns : classMoves m .nll vs ls) :
    ∃ ε > 0, ∀ lr, 0 < lr → lr < ε → Ok (t.lossMean idata odata) (fun before =>
      before.1 = classMean m .nll vs ls ∧ Ok (Train.batch gdUpdate idata odata 1 (lr, t)) (fun r =>
        Ok (r.2.lossMean idata odata) (fun after => after.1 < before.1))) := by
  have hI := IsLib.toIs h (NLL_Is m)
  have he := hcl.ends h.fits
  have hm : 0 < m := class_pos (n := n) he h.pos
  obtain ⟨ε, hε, H⟩ := class_lower .nll hm h.fits he vs hne hw hd hns
  have em : ∀ ls : List LibLayer, meanLoss (nllFn m) vs (ls.map LibLayer.dense) = classMean m .nll vs ls := by
    intro ls
    unfold meanLoss classMean
    simp only [libOut_eq]; rfl
  refine ⟨ε, hε, fun lr h1 h2 => ?_⟩
  refine (loss_dense t _ n m (nllFn m) _ hI ⟨_, h.loss, NLL_Is m⟩ idata odata vs hdata hne s hs hsh).mono (fun before hb => ⟨by rw [hb, em], ?_⟩)
  obtain ⟨r, er, hr⟩ := C39_batch (fun a => mul_one a) lr t _ n m _ hI idata odata vs hdata hne 1
  refine ⟨r, er, ?_⟩
  have hid : idata.length ≠ 0 := by
    rw [hdata.1.length_eq]; exact fun e => hne (List.length_eq_zero_iff.1 e)
  rw [batch_run _ _ _ _ _ hid] at er
  have el := run_loss _ _ _ _ er
  refine (loss_dense r.2 _ n m (nllFn m) _ hr.2.1 (by rw [el]; exact ⟨_, h.loss, NLL_Is m⟩) idata odata vs hdata hne s hs hsh).mono (fun after ha => ?_)
  have e1 : (avgStep lr (1 / (vs.length : ℝ)) (fun t y i => y i - t i) vs)^[1] (ls.map LibLayer.dense) = (libStep lr .mse vs ls).map LibLayer.dense := (libStep_dense lr .mse vs ls).symm
  rw [ha, hb, e1, em, em]
  exact H lr h1 h2

/-! Non-vacuity: the classifier `exClassifier` (2 → 3 → 2, `Tanh`, `SoftMax`, `NLL`, all parameters zero). -/

noncomputable def ckNet : List LibLayer := [⟨2, 3, fun _ => 0, fun _ _ => 0, .elem .tanh⟩, ⟨3, 2, fun _ => 0, fun _ _ => 0, .softmax⟩]

theorem ckNet_IsLib : exClassifier.IsLib ckNet 2 2 ClassLoss.nll.obj :=
  ⟨.cons ⟨_, rfl, FC.Wf_make 2 3 _ 0 1, rfl⟩ (.cons ⟨_, rfl, FC.Wf_make 3 2 _ 2 3, rfl⟩ .nil), by simp [ckNet], by show 2 < W64; decide, ⟨rfl, rfl, rfl⟩,
    by simp [ckNet], rfl, rfl⟩

theorem ckNet_class : Classifies ckNet := ⟨[_], _, rfl, rfl⟩
theorem ckNet_smooth (v : Nat → ℝ) : libSmooth ckNet.dropLast v := ⟨⟨.tanh, rfl, by decide, fun j _ => by simp [ActKind.kinks]⟩, trivial⟩

def hotAt (c : Nat) : Nat → ℝ := fun i => if i = c then 1 else 0
theorem hotAt_hot {m c : Nat} (h : c < m) : Hot m (hotAt c) c := ⟨h, by simp [hotAt], fun j _ hj => by simp [hotAt, hj]⟩

/-- One sample: the bias of the last layer has a derivative other than zero, so the reported loss goes down. -/
example : ∃ ε > 0, ∀ lr : ℝ, 0 < lr → lr < ε → Ok (exClassifier.lossMean [⟨1, 1, 2, Buf.of [1, 1]⟩] [⟨1, 1, 2, Buf.of [0, 1]⟩]) (fun before =>
    before.1 = classMean 2 .nll [(fun _ => 1, hotAt 1)] ckNet ∧
    Ok (Train.batch gdUpdate [⟨1, 1, 2, Buf.of [1, 1]⟩] [⟨1, 1, 2, Buf.of [0, 1]⟩] 1 (lr, exClassifier)) (fun r =>
      Ok (r.2.lossMean [⟨1, 1, 2, Buf.of [1, 1]⟩] [⟨1, 1, 2, Buf.of [0, 1]⟩]) (fun after => after.1 < before.1))) := by
  have hw : ∀ vw ∈ ([(fun _ => 1, hotAt 1)] : List ((Nat → ℝ) × (Nat → ℝ))), ∃ c, Hot 2 vw.2 c := by
    intro vw hv
    rw [List.mem_singleton] at hv
    subst hv
    exact ⟨1, hotAt_hot (by decide)⟩
  have he := ckNet_class.ends ckNet_IsLib.fits
  refine C118_reported exClassifier ckNet 2 2 ckNet_IsLib ckNet_class _ _ [(fun _ => 1, hotAt 1)] ⟨.cons (VecIs_of [1, 1] _ ?_) .nil, .cons (VecIs_of [0, 1] _ ?_) .nil⟩ (by simp) hw
    (1, 1, 2) (by simp) (by intro x hx; simp at hx; subst hx; rfl) (fun vw _ => ckNet_smooth _) ?_
  · intro i hi
    have : i = 0 ∨ i = 1 := by simp at hi; omega
    rcases this with rfl | rfl <;> rfl
  · intro i hi
    have : i = 0 ∨ i = 1 := by simp at hi; omega
    rcases this with rfl | rfl <;> simp [hotAt]
  · obtain ⟨g, hg, h1, _⟩ := class_gradients .nll (by decide : 0 < 2) ckNet_IsLib.fits he [(fun _ => 1, hotAt 1)] hw (fun vw _ => ckNet_smooth _)
      [⟨2, 3, fun _ => 0, fun _ _ => 0, .elem .tanh⟩] [] ⟨3, 2, fun _ => 0, fun _ _ => 0, .softmax⟩ rfl
    refine ⟨_, _, _, _, rfl, ?_, .inl ⟨1, by decide, h1 1 (by decide)⟩⟩
    have : g.1 1 = -1 / 2 := by
      have hg : (gradSum LibLoss.mse.dL (ckNet.map LibLayer.dense) [(fun _ => 1, hotAt 1)])[1]? = some g := hg
      simp [ckNet, gradSum, sampleGrads, netGrads, netOut, Dense.grad, Dense.out, LibLayer.dense, LibAct.fn, LibAct.D, affine, foldSum, addGrad, zeroGrad, LibLoss.dL, hotAt] at hg
      rw [← hg]
      norm_num [netBack, softmaxFn, sum_range_succ, affine, foldSum]
    rw [this]; norm_num

/-- Two samples with equal inputs and different classes: training settles at once, at a point where the hidden layer is differentiable. -/
example : (∀ N, Ok (Train.batch gdUpdate [⟨1, 1, 2, Buf.of [1, 1]⟩, ⟨1, 1, 2, Buf.of [1, 1]⟩] [⟨1, 1, 2, Buf.of [0, 1]⟩, ⟨1, 1, 2, Buf.of [1, 0]⟩] N (1 / 2, exClassifier))
      (fun r => r.2.net.Params ckNet)) ∧
    libLimit (fun _ => ckNet) ckNet ∧ (∀ v, libSmooth ckNet.dropLast v) ∧ classStationary 2 .nll [(fun _ => 1, hotAt 1), (fun _ => 1, hotAt 0)] ckNet := by
  have hw : ∀ vw ∈ ([(fun _ => 1, hotAt 1), (fun _ => 1, hotAt 0)] : List ((Nat → ℝ) × (Nat → ℝ))), ClassLoss.nll.Target 2 vw.2 := by
    intro vw hv
    simp only [List.mem_cons, List.not_mem_nil, or_false] at hv
    rcases hv with rfl | rfl
    · exact ⟨1, hotAt_hot (by decide)⟩
    · exact ⟨0, hotAt_hot (by decide)⟩
  have hdata : DataIs [⟨1, 1, 2, Buf.of [1, 1]⟩, ⟨1, 1, 2, Buf.of [1, 1]⟩] [⟨1, 1, 2, Buf.of [0, 1]⟩, ⟨1, 1, 2, Buf.of [1, 0]⟩] 2 2
      [((fun _ => 1 : Nat → ℝ), hotAt 1), (fun _ => 1, hotAt 0)] := by
    have h1 : VecIs (Buf.of [(1 : ℝ), 1]) 2 (fun _ => 1) := VecIs_of [1, 1] _ (by
      intro i hi
      have : i = 0 ∨ i = 1 := by simp at hi; omega
      rcases this with rfl | rfl <;> rfl)
    refine ⟨.cons h1 (.cons h1 .nil), .cons (VecIs_of [0, 1] _ ?_) (.cons (VecIs_of [1, 0] _ ?_) .nil)⟩
    all_goals
      intro i hi
      have : i = 0 ∨ i = 1 := by simp at hi; omega
      rcases this with rfl | rfl <;> simp [hotAt]
  have hstep : List.Forall₂ LibLayer.Agree (libStep (1 / 2) .mse [(fun _ => 1, hotAt 1), (fun _ => 1, hotAt 0)] ckNet) ckNet := by
    simp only [libStep, ckNet, gradSum, sampleGrads, netGrads, List.map_cons, List.map_nil, List.foldl_cons, List.foldl_nil, List.zipWith_cons_cons, List.zipWith_nil_left]
    refine .cons ⟨rfl, rfl, rfl, fun j hj => ?_, fun i j hi hj => ?_⟩ (.cons ⟨rfl, rfl, rfl, fun j hj => ?_, fun i j hi hj => ?_⟩ .nil)
    · simp [Dense.grad, addGrad, zeroGrad, netBack, Dense.back, LibLayer.dense, foldSum]
    · simp [Dense.grad, addGrad, zeroGrad, netBack, Dense.back, LibLayer.dense, foldSum]
    · have : j = 0 ∨ j = 1 := by dsimp only at hj; omega
      rcases this with rfl | rfl <;>
      norm_num [Dense.grad, addGrad, zeroGrad, netBack, netOut, Dense.out, LibLayer.dense, LibAct.fn, LibAct.D, LibLoss.dL, hotAt, affine, foldSum, softmaxFn, sum_range_succ]
    · simp [Dense.grad, addGrad, zeroGrad, netBack, Dense.out, LibLayer.dense, LibAct.fn, affine, foldSum, ActKind.fn]
  have hs : classStationary 2 .nll [(fun _ => 1, hotAt 1), (fun _ => 1, hotAt 0)] ckNet := by
    refine C118_stops exClassifier ckNet 2 2 .nll ckNet_IsLib ckNet_class _ _ _ hdata (by simp) hw (1 / 2) (by norm_num) (fun vw _ => ckNet_smooth _) ?_
    refine (C39_batch (fun a => mul_one a) (1 / 2) exClassifier _ 2 2 _ (IsLib.toIs ckNet_IsLib (NLL_Is 2)) _ _ _ hdata (by simp) 1).mono (fun r hr => ?_)
    have hn : r.2.net.IsDense ((libStep (1 / 2) .mse [(fun _ => 1, hotAt 1), (fun _ => 1, hotAt 0)] ckNet).map LibLayer.dense) := by rw [libStep_dense]; exact hr.2.1.net
    have hn := params_of hn
    unfold Net.Params at hn ⊢
    exact forall₂_trans' (fun l p a ⟨f, e, hw⟩ ⟨a1, a2, _, a3, a4⟩ => ⟨f, e, by
      rw [← a1, ← a2]
      exact { hw with B := hw.B.congr (fun j hj => a3 j (a2 ▸ hj)), W := hw.W.congr (fun i j hi hj => a4 i j (a1 ▸ hi) (a2 ▸ hj)) }⟩) hn hstep
  exact ⟨C118_rest exClassifier ckNet 2 2 .nll ckNet_IsLib ckNet_class _ _ _ hdata (by simp) hw (1 / 2) (fun vw _ => ckNet_smooth _) hs,
    libLimit_const (List.forall₂_same.2 (fun p _ => ⟨rfl, rfl, rfl, fun _ _ => rfl, fun _ _ _ _ => rfl⟩)), ckNet_smooth, hs⟩

end Trixy
