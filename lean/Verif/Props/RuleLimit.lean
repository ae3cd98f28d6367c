import Verif.Spec.RuleLimit
import Verif.Proof.RuleLimit
import Verif.Props.Rule
import Verif.Props.Converge
/- C114 for library networks over the real numbers; C115: where training with any optimizer of the library can settle. -/
namespace Trixy
set_option linter.unusedSectionVars false
open Finset Losses Filter Topology

variable {μ σ : Type}

/-! ### True gradients -/

/-- The summed gradients, divided by the number of samples, are the partial derivatives of the mean loss. -/
theorem lib_gradients {ls : List LibLayer} {n m : Nat} (k : LibLoss) (hf : libFits n ls m) (vs : List ((Nat → ℝ) × (Nat → ℝ)))
    (hd : ∀ vw ∈ vs, libSmooth ls vw.1) (pre post : List LibLayer) (p : LibLayer) (e : ls = pre ++ p :: post) :
    ∃ g : Grad ℝ, (gradSum k.dL (ls.map LibLayer.dense) vs)[pre.length]? = some g ∧
      (∀ j, j < p.m → HasDerivAt (fun z => libMean m k vs (pre ++ { p with b := setAt p.b j z } :: post)) (g.1 j * (1 / (vs.length : ℝ))) (p.b j)) ∧
      (∀ i j, i < p.n → j < p.m →
        HasDerivAt (fun z => libMean m k vs (pre ++ { p with W := setEntry p.W i j z } :: post)) (g.2 i j * (1 / (vs.length : ℝ))) (p.W i j)) := by
  subst e
  have e : (pre ++ p :: post).map LibLayer.dense = pre.map LibLayer.dense ++ p.dense :: post.map LibLayer.dense := by simp
  have hc := libFits_chain _ hf
  have hdd : ∀ vw ∈ vs, DiffAt ((pre ++ p :: post).map LibLayer.dense) vw.1 := fun vw hv => libSmooth_diff _ _ (hd vw hv)
  rw [e] at hc hdd
  obtain ⟨p', ep, _, _, _, _, h1, h2⟩ := avgStep_descent (pre.map LibLayer.dense) (post.map LibLayer.dense) p.dense n m 1 (k.fn m) k.dL hc vs hdd
    (fun vw _ => k.diff m _ _)
  rw [← e] at ep
  unfold avgStep gdStep at ep
  rw [List.length_map, List.getElem?_zipWith, List.getElem?_map] at ep
  have hi : (pre ++ p :: post)[pre.length]? = some p := by simp
  rw [hi] at ep
  cases hg : (gradSum k.dL ((pre ++ p :: post).map LibLayer.dense) vs)[pre.length]? with
  | none => rw [hg] at ep; simp at ep
  | some g =>
    rw [hg] at ep
    have ep : Dense.gd 1 (1 / (vs.length : ℝ)) p.dense g = p' := by simpa using ep
    refine ⟨g, rfl, fun j hj => ?_, fun i j hi hj => ?_⟩
    · obtain ⟨G, hG, e2⟩ := h1 j hj
      simp only [map_set_b, libMean_eq] at hG
      rw [← ep] at e2
      have e2 : p.b j - g.1 j * (1 / (vs.length : ℝ)) * 1 = p.b j - 1 * G := e2
      have : G = g.1 j * (1 / (vs.length : ℝ)) := by linarith
      rw [← this]; exact hG
    · obtain ⟨G, hG, e2⟩ := h2 i j hi hj
      simp only [map_set_W, libMean_eq] at hG
      rw [← ep] at e2
      have e2 : p.W i j - g.2 i j * (1 / (vs.length : ℝ)) * 1 = p.W i j - 1 * G := e2
      have : G = g.2 i j * (1 / (vs.length : ℝ)) := by linarith
      rw [← this]; exact hG

/-! ### Library layers from dense layers -/

/-- The library layer with the parameters of the dense layer. -/
def relib (l : LibLayer) (x : Dense ℝ × LMem μ) : LibLayer × LMem μ := ({ l with b := x.1.b, W := x.1.W }, x.2)

def SameKind (l : LibLayer) (x : Dense ℝ × LMem μ) : Prop := x.1.n = l.n ∧ x.1.m = l.m ∧ x.1.F = l.act.fn l.m ∧ x.1.D = l.act.D

theorem relib_dense {ls : List LibLayer} {xs : List (Dense ℝ × LMem μ)} (h : List.Forall₂ SameKind ls xs) :
    (List.zipWith relib ls xs).map (fun y => y.1.dense) = xs.map (·.1) := by
  induction h with
  | nil => rfl
  | @cons l x ls xs hx _ ih =>
    obtain ⟨h1, h2, h3, h4⟩ := hx
    obtain ⟨⟨n, m, b, W, F, D⟩, c⟩ := x
    dsimp only at h1 h2 h3 h4
    subst h1 h2 h3 h4
    show _ :: _ = _ :: _
    rw [ih]; rfl

theorem sameKind_layers (R : Rule ℝ μ) (alpha : ℝ) {ls : List LibLayer} {xs : List (Dense ℝ × LMem μ)} (h : List.Forall₂ SameKind ls xs) :
    ∀ (T : Nat) (gs : List (Grad ℝ)), gs.length = xs.length → List.Forall₂ SameKind ls (R.layers alpha T xs gs) := by
  induction h with
  | nil => intro T gs hg; cases gs with
    | nil => exact .nil
    | cons => simp at hg
  | cons hx _ ih =>
    intro T gs hg
    cases gs with
    | nil => simp at hg
    | cons g gs => exact .cons hx (ih (T + 2) gs (by simpa using hg))

theorem layers_length (R : Rule ℝ μ) (alpha : ℝ) (T : Nat) (xs : List (Dense ℝ × LMem μ)) (gs : List (Grad ℝ)) (h : gs.length = xs.length) :
    (R.layers alpha T xs gs).length = xs.length := by
  have := congrArg List.length (layers_shape R alpha T xs gs h)
  simpa using this

theorem layers_get (R : Rule ℝ μ) (alpha : ℝ) : ∀ (T : Nat) (xs : List (Dense ℝ × LMem μ)) (gs : List (Grad ℝ)) (i : Nat) (x : Dense ℝ × LMem μ) (g : Grad ℝ),
    xs[i]? = some x → gs[i]? = some g → (R.layers alpha T xs gs)[i]? = some (R.layer alpha (T + 2 * i) x g)
  | _, [], _, _, _, _, h, _ => by simp at h
  | _, _ :: _, [], _, _, _, _, h => by simp at h
  | T, x0 :: xs, g0 :: gs, 0, x, g, h1, h2 => by
    simp only [List.getElem?_cons_zero, Option.some.injEq] at h1 h2
    subst h1 h2; rfl
  | T, x0 :: xs, g0 :: gs, i + 1, x, g, h1, h2 => by
    simp only [List.getElem?_cons_succ] at h1 h2
    have := layers_get R alpha (T + 2) xs gs i x g h1 h2
    show (R.layers alpha (T + 2) xs gs)[i]? = _
    rw [this, show T + 2 + 2 * i = T + 2 * (i + 1) by omega]

/-- The state of the rule after `N` epochs. -/
noncomputable def ruleRun (R : Rule ℝ μ) (k : LibLoss) (vs : List ((Nat → ℝ) × (Nat → ℝ))) (ls : List LibLayer) (N : Nat) : Nat × List (Dense ℝ × LMem μ) :=
  (R.update (1 / (vs.length : ℝ)) (fun ps => gradSum k.dL ps vs))^[N] (R.init (ls.map LibLayer.dense))

theorem ruleRun_succ (R : Rule ℝ μ) (k : LibLoss) (vs : List ((Nat → ℝ) × (Nat → ℝ))) (ls : List LibLayer) (N : Nat) :
    ruleRun R k vs ls (N + 1) = R.update (1 / (vs.length : ℝ)) (fun ps => gradSum k.dL ps vs) (ruleRun R k vs ls N) := Function.iterate_succ_apply' _ _ _

theorem ruleRun_inv (R : Rule ℝ μ) (k : LibLoss) (vs : List ((Nat → ℝ) × (Nat → ℝ))) (ls : List LibLayer) (N : Nat) :
    (ruleRun R k vs ls N).1 = N * (2 * ls.length) ∧ List.Forall₂ SameKind ls (ruleRun R k vs ls N).2 := by
  induction N with
  | zero =>
    refine ⟨by simp [ruleRun, Rule.init], ?_⟩
    show List.Forall₂ SameKind ls (R.init (ls.map LibLayer.dense)).2
    unfold Rule.init
    dsimp only
    rw [List.map_map, List.forall₂_map_right_iff]
    exact List.forall₂_same.2 (fun l _ => ⟨rfl, rfl, rfl, rfl⟩)
  | succ N ih =>
    rw [ruleRun_succ]
    have hl : (ruleRun R k vs ls N).2.length = ls.length := ih.2.length_eq.symm
    refine ⟨?_, sameKind_layers R _ ih.2 _ _ (by rw [gradSum_length]; simp)⟩
    show (ruleRun R k vs ls N).1 + 2 * (ruleRun R k vs ls N).2.length = _
    rw [ih.1, hl]; ring

theorem ruleRun_dense (R : Rule ℝ μ) (k : LibLoss) (vs : List ((Nat → ℝ) × (Nat → ℝ))) (ls : List LibLayer) (N : Nat) :
    ((List.zipWith relib ls (ruleRun R k vs ls N).2).map (·.1)).map LibLayer.dense = (ruleRun R k vs ls N).2.map (·.1) := by
  rw [List.map_map]; exact relib_dense (ruleRun_inv R k vs ls N).2

theorem relib_shape {ls : List LibLayer} {xs : List (Dense ℝ × LMem μ)} (h : List.Forall₂ SameKind ls xs) :
    List.Forall₂ (fun (a l : LibLayer) => a.n = l.n ∧ a.m = l.m ∧ a.act = l.act) ((List.zipWith relib ls xs).map (·.1)) ls := by
  induction h with
  | nil => exact .nil
  | cons _ _ ih => exact .cons ⟨rfl, rfl, rfl⟩ ih

theorem libFits_shape {as ls : List LibLayer} (h : List.Forall₂ (fun (a l : LibLayer) => a.n = l.n ∧ a.m = l.m ∧ a.act = l.act) as ls) :
    ∀ {n m : Nat}, libFits n ls m → libFits n as m := by
  induction h with
  | nil => exact fun h => h
  | cons hx _ ih => intro n m h; exact ⟨hx.1.trans h.1, by rw [hx.2.1]; exact ih h.2⟩

/-! ### C114 -/

/-- `batch()` on a network of library layers with `MSE` or `LC`, with an optimizer that follows the rule `R`. `P N` holds the parameters after `N` epochs and
what the rule remembers about them. Whenever the mean loss is differentiable at the parameters, every parameter is moved in the next epoch by the rule, applied to the true
partial derivative of the mean loss. (The first argument of `step` is the number of arrays updated before.) -/
theorem C114_library {R : Rule ℝ μ} {upd : Upd σ ℝ} {s0 : σ} (hR : FollowsRule upd s0 R) (t : Train ℝ) (ls : List LibLayer) (n m : Nat) (k : LibLoss)
    (h : t.IsLib ls n m k.obj) (ha : t.net.Apart) (idata odata : List (Ten ℝ)) (vs : List ((Nat → ℝ) × (Nat → ℝ))) (hdata : DataIs idata odata n m vs) (hne : vs ≠ []) :
    ∃ P : Nat → List (LibLayer × LMem μ), P 0 = ls.map (fun l => (l, (fun _ => R.start, fun _ _ => R.start))) ∧
      (∀ N, Ok (Train.batch upd idata odata N (s0, t)) (fun r => r.2.net.Params ((P N).map (·.1)))) ∧
      ∀ (N : Nat) (pre post : List (LibLayer × LMem μ)) (p : LibLayer) (c : LMem μ), P N = pre ++ (p, c) :: post → (∀ vw ∈ vs, libSmooth ((P N).map (·.1)) vw.1) →
        ∃ (p' : LibLayer) (c' : LMem μ), (P (N + 1))[pre.length]? = some (p', c') ∧ p'.n = p.n ∧ p'.m = p.m ∧ p'.act = p.act ∧
          (∀ j, j < p.m → ∃ G, HasDerivAt (fun z => libMean m k vs (pre.map (·.1) ++ { p with b := setAt p.b j z } :: post.map (·.1))) G (p.b j) ∧
            (c'.1 j, p'.b j) = R.step (N * (2 * ls.length) + 2 * pre.length) (c.1 j) (p.b j) G) ∧
          (∀ i j, i < p.n → j < p.m → ∃ G, HasDerivAt (fun z => libMean m k vs (pre.map (·.1) ++ { p with W := setEntry p.W i j z } :: post.map (·.1))) G (p.W i j) ∧
            (c'.2 i j, p'.W i j) = R.step (N * (2 * ls.length) + 2 * pre.length + 1) (c.2 i j) (p.W i j) G) := by
  have hI := IsLib.toIs h (k.obj_Is m)
  refine ⟨fun N => List.zipWith relib ls (ruleRun R k vs ls N).2, ?_, fun N => ?_, fun N pre post p c e hd => ?_⟩
  · show List.zipWith relib ls ((ls.map LibLayer.dense).map _) = _
    clear * -
    induction ls with
    | nil => rfl
    | cons l ls ih => simp only [List.map_cons, List.zipWith_cons_cons, ih]; rfl
  · refine (C114_batch hR t _ n m k.dL hI ha idata odata vs hdata hne N).mono (fun r hr => params_of ?_)
    dsimp only
    rw [ruleRun_dense]
    exact hr.net
  · dsimp only at e hd ⊢
    obtain ⟨hT, hK⟩ := ruleRun_inv R k vs ls N
    have hfit : libFits n ((List.zipWith relib ls (ruleRun R k vs ls N).2).map (·.1)) m := libFits_shape (relib_shape hK) h.fits
    have em : (List.zipWith relib ls (ruleRun R k vs ls N).2).map (·.1) = pre.map (·.1) ++ p :: post.map (·.1) := by rw [e]; simp
    obtain ⟨g, hg, h1, h2⟩ := lib_gradients k hfit vs hd (pre.map (·.1)) (post.map (·.1)) p em
    rw [ruleRun_dense, List.length_map] at hg
    have hi : (List.zipWith relib ls (ruleRun R k vs ls N).2)[pre.length]? = some (p, c) := by rw [e]; simp
    rw [List.getElem?_zipWith] at hi
    have hK' := hK
    cases hl : ls[pre.length]? with
    | none => rw [hl] at hi; simp at hi
    | some l =>
    cases hx : (ruleRun R k vs ls N).2[pre.length]? with
    | none => rw [hl, hx] at hi; simp at hi
    | some x =>
    rw [hl, hx] at hi
    have hi : relib l x = (p, c) := by simpa using hi
    have hsk : SameKind l x := by
      obtain ⟨_, hh⟩ := List.forall₂_iff_get.1 hK
      obtain ⟨a1, a2⟩ := List.getElem?_eq_some_iff.1 hl
      obtain ⟨b1, b2⟩ := List.getElem?_eq_some_iff.1 hx
      have := hh pre.length a1 b1
      simp only [List.get_eq_getElem] at this
      rw [a2, b2] at this; exact this
    have hnew := layers_get R (1 / (vs.length : ℝ)) (ruleRun R k vs ls N).1 (ruleRun R k vs ls N).2 _ pre.length x g hx hg
    refine ⟨(relib l (R.layer (1 / (vs.length : ℝ)) (N * (2 * ls.length) + 2 * pre.length) x g)).1, (R.layer (1 / (vs.length : ℝ)) (N * (2 * ls.length) + 2 * pre.length) x g).2, ?_, ?_⟩
    · rw [ruleRun_succ, List.getElem?_zipWith, hl]
      have hnew' : (R.update (1 / (vs.length : ℝ)) (fun ps => gradSum k.dL ps vs) (ruleRun R k vs ls N)).2[pre.length]? =
          some (R.layer (1 / (vs.length : ℝ)) (N * (2 * ls.length) + 2 * pre.length) x g) := by rw [← hT]; exact hnew
      rw [hnew']; rfl
    · have e1 := congrArg Prod.fst hi
      have e2 := congrArg Prod.snd hi
      dsimp only [relib] at e1 e2
      subst e1 e2
      refine ⟨rfl, rfl, rfl, fun j hj => ⟨_, h1 j hj, rfl⟩, fun i j hi hj => ⟨_, h2 i j hi hj, rfl⟩⟩

/-! ### C115 -/

theorem settle_layers {R : Rule ℝ μ} {φ : ℝ → ℝ → Prop} (hS : R.Settles φ) (alpha : ℝ) {qs : List (Dense ℝ)} :
    ∀ {T : Nat → Nat} {Y : Nat → List (Dense ℝ × LMem μ)} {G : Nat → List (Grad ℝ)} {H : List (Grad ℝ)}, Tendsto T atTop atTop →
    (∀ y ∈ Y 0, y.2 = (fun _ => R.start, fun _ _ => R.start)) → (∀ N, Y (N + 1) = R.layers alpha (T N) (Y N) (G N)) →
    NLim (fun N => (Y N).map (·.1)) qs → GLim qs G H →
    List.Forall₂ (fun q h => (∀ j, j < q.m → φ (q.b j) (h.1 j * alpha)) ∧ ∀ i j, i < q.n → j < q.m → φ (q.W i j) (h.2 i j * alpha)) qs H := by
  induction qs with
  | nil => intro T Y G H _ _ _ _ hG; rw [hG.2]; exact .nil
  | cons q qs ih =>
    intro T Y G H hT h0 hY hn hG
    obtain ⟨p, P', eP, hp, hP⟩ := hn
    obtain ⟨g, G', h, H', eG, rfl, a1, a2, a3⟩ := hG
    have hd : ∀ N, ∃ y Y', Y N = y :: Y' := by
      intro N
      have : (Y N).map (·.1) = _ := eP N
      cases hy : Y N with
      | nil => rw [hy] at this; simp at this
      | cons y Y' => exact ⟨y, Y', rfl⟩
    choose y Y' hy using hd
    have ep : ∀ N, (y N).1 = p N := fun N => by have : (Y N).map (·.1) = _ := eP N; rw [hy N] at this; simpa using congrArg List.head? this
    have eP' : ∀ N, (Y' N).map (·.1) = P' N := fun N => by have : (Y N).map (·.1) = _ := eP N; rw [hy N] at this; simpa using congrArg List.tail this
    have hstep : ∀ N, y (N + 1) = R.layer alpha (T N) (y N) (g N) ∧ Y' (N + 1) = R.layers alpha (T N + 2) (Y' N) (G' N) := by
      intro N
      have := hY N
      rw [hy (N + 1), hy N, eG N] at this
      injection this with t1 t2
      exact ⟨t1, t2⟩
    have hy0 : (y 0).2 = (fun _ => R.start, fun _ _ => R.start) := h0 (y 0) (by rw [hy 0]; simp)
    have hT1 : Tendsto (fun N => T N + 1) atTop atTop := (tendsto_add_atTop_nat 1).comp hT
    have hT2 : Tendsto (fun N => T N + 2) atTop atTop := (tendsto_add_atTop_nat 2).comp hT
    refine .cons ⟨fun j hj => ?_, fun i j hi hj => ?_⟩ (ih hT2 (fun z hz => h0 z (by rw [hy 0]; exact List.mem_cons_of_mem _ hz)) (fun N => (hstep N).2) ?_ a3)
    · refine hS T (fun N => (y N).2.1 j) (fun N => (y N).1.b j) (fun N => (g N).1 j * alpha) _ _ hT (by rw [hy0]) (fun N => ?_) ?_ ((a1 j hj).mul_const _)
      · rw [(hstep N).1]; rfl
      · have := hp.b j hj
        simp only [← ep] at this
        exact this
    · refine hS (fun N => T N + 1) (fun N => (y N).2.2 i j) (fun N => (y N).1.W i j) (fun N => (g N).2 i j * alpha) _ _ hT1 (by rw [hy0]) (fun N => ?_) ?_ ((a2 i j hi hj).mul_const _)
      · rw [(hstep N).1]; rfl
      · have := hp.W i j hi hj
        simp only [← ep] at this
        exact this
    · have : (fun N => (Y' N).map (·.1)) = P' := funext eP'
      rw [this]; exact hP

/-- The partial derivatives of the mean loss at `qs` exist, and each stands in the relation `φ` to its parameter. -/
def libSlopes (φ : ℝ → ℝ → Prop) (m : Nat) (k : LibLoss) (vs : List ((Nat → ℝ) × (Nat → ℝ))) (qs : List LibLayer) : Prop :=
  ∀ (pre post : List LibLayer) (p : LibLayer), qs = pre ++ p :: post →
    (∀ j, j < p.m → ∃ G, HasDerivAt (fun z => libMean m k vs (pre ++ { p with b := setAt p.b j z } :: post)) G (p.b j) ∧ φ (p.b j) G) ∧
    (∀ i j, i < p.n → j < p.m → ∃ G, HasDerivAt (fun z => libMean m k vs (pre ++ { p with W := setEntry p.W i j z } :: post)) G (p.W i j) ∧ φ (p.W i j) G)

theorem slopes_zero {m : Nat} {k : LibLoss} {vs : List ((Nat → ℝ) × (Nat → ℝ))} {qs : List LibLayer} (h : libSlopes (fun _ G => G = 0) m k vs qs) : libStationary m k vs qs := by
  intro pre post p e
  obtain ⟨h1, h2⟩ := h pre post p e
  refine ⟨fun j hj => ?_, fun i j hi hj => ?_⟩
  · obtain ⟨G, hG, rfl⟩ := h1 j hj; exact hG
  · obtain ⟨G, hG, rfl⟩ := h2 i j hi hj; exact hG

theorem settle_lib {R : Rule ℝ μ} {φ : ℝ → ℝ → Prop} (hS : R.Settles φ) {upd : Upd σ ℝ} {s0 : σ} (hR : FollowsRule upd s0 R) : SettlesOnlyAt (libSlopes φ) upd s0 := by
  intro t ls n m k h ha idata odata vs hdata hne
  have hI := IsLib.toIs h (k.obj_Is m)
  refine ⟨fun N => (List.zipWith relib ls (ruleRun R k vs ls N).2).map (·.1), fun N => relib_shape (ruleRun_inv R k vs ls N).2, fun N => ?_, fun qs hq hd pre post p e => ?_⟩
  · refine (C114_batch hR t _ n m k.dL hI ha idata odata vs hdata hne N).mono (fun r hr => params_of ?_)
    dsimp only
    rw [ruleRun_dense]
    exact hr.net
  · have hf : libFits n qs m := libLimit_fits hq (libFits_shape (relib_shape (ruleRun_inv R k vs ls 0).2) h.fits)
    have hN := libLimit_NLim hq
    simp only [ruleRun_dense] at hN
    have hT : Tendsto (fun N => (ruleRun R k vs ls N).1) atTop atTop := by
      have : (fun N => (ruleRun R k vs ls N).1) = fun N => N * (2 * ls.length) := funext fun N => (ruleRun_inv R k vs ls N).1
      rw [this]
      exact tendsto_id.atTop_mul_const' (by have := h.two; omega)
    have hset := settle_layers hS (1 / (vs.length : ℝ)) (T := fun N => (ruleRun R k vs ls N).1) (Y := fun N => (ruleRun R k vs ls N).2)
      (G := fun N => gradSum k.dL ((ruleRun R k vs ls N).2.map (·.1)) vs) hT
      (fun y hy => by
        have hy : y ∈ (R.init (ls.map LibLayer.dense)).2 := hy
        unfold Rule.init at hy
        obtain ⟨l, _, rfl⟩ := List.mem_map.1 hy
        rfl) (fun N => by rw [ruleRun_succ]; rfl) hN
      (gradSum_lim hN (libFits_chain _ hf) vs (fun vw hv => libSmooth_cont _ _ (hd vw hv)) (fun vw _ y hy => k.dL_lim m _ _ y hy))
    obtain ⟨g, hg, h1, h2⟩ := lib_gradients k hf vs hd pre post p e
    have hp : (qs.map LibLayer.dense)[pre.length]? = some p.dense := by rw [e]; simp
    obtain ⟨_, hh⟩ := List.forall₂_iff_get.1 hset
    obtain ⟨x1, x2⟩ := List.getElem?_eq_some_iff.1 hp
    obtain ⟨y1, y2⟩ := List.getElem?_eq_some_iff.1 hg
    have := hh pre.length x1 y1
    simp only [List.get_eq_getElem] at this
    rw [x2, y2] at this
    exact ⟨fun j hj => ⟨_, h1 j hj, this.1 j hj⟩, fun i j hi hj => ⟨_, h2 i j hi hj, this.2 i j hi hj⟩⟩

theorem SettlesOnlyAt.mono {Q Q' : Nat → LibLoss → List ((Nat → ℝ) × (Nat → ℝ)) → List LibLayer → Prop} {upd : Upd σ ℝ} {s0 : σ} (h : SettlesOnlyAt Q upd s0)
    (hQ : ∀ m k vs qs, Q m k vs qs → Q' m k vs qs) : SettlesOnlyAt Q' upd s0 := by
  intro t ls n m k h1 h2 idata odata vs h3 h4
  obtain ⟨P, p1, p2, p3⟩ := h t ls n m k h1 h2 idata odata vs h3 h4
  exact ⟨P, p1, p2, fun qs q1 q2 => hQ _ _ _ _ (p3 qs q1 q2)⟩

theorem settle_zero {R : Rule ℝ μ} (hS : R.Settles (fun _ h => h = 0)) {upd : Upd σ ℝ} {s0 : σ} (hR : FollowsRule upd s0 R) : SettlesOnlyAt libStationary upd s0 :=
  (settle_lib hS hR).mono (fun _ _ _ _ h => slopes_zero h)

/-- `MomentumOptimizer`, whatever the momentum coefficient. -/
theorem C115_momentum (lr mu : ℝ) (hlr : lr ≠ 0) : SettlesOnlyAt libStationary momUpdate (Mom.make lr mu) :=
  settle_zero (settles_momentum lr mu hlr) (C114_momentum lr mu)

/-- `NestorovOptimizer`. -/
theorem C115_nestorov (lr mu : ℝ) (hlr : lr ≠ 0) (hmu : 0 ≤ mu) : SettlesOnlyAt libStationary nesUpdate (Mom.make lr mu) :=
  settle_zero (settles_nestorov lr mu hlr hmu) (C114_nestorov lr mu)

/-- `AdaGradOptimizer`. -/
theorem C115_adagrad (lr b : ℝ) (hlr : lr ≠ 0) : SettlesOnlyAt libStationary (adagradUpdate invertSqrt) (Ada.make lr b) :=
  settle_zero (settles_adagrad lr hlr) (C114_adagrad invertSqrt lr b)

/-- `RMSPropOptimizer`. -/
theorem C115_rmsprop (lr beta : ℝ) (hlr : lr ≠ 0) (h0 : 0 ≤ beta) (h1 : beta < 1) : SettlesOnlyAt libStationary (rmspropUpdate invertSqrt) (Ada.make lr beta) :=
  settle_zero (settles_rmsprop lr beta hlr h0 h1) (C114_rmsprop invertSqrt lr beta)

/-- `AdamOptimizer`, in spite of its shared step counter (C48). -/
theorem C115_adam (lr beta1 beta2 : ℝ) (hlr : lr ≠ 0) (h0 : 0 ≤ beta1) (h1 : beta1 < 1) (k0 : 0 ≤ beta2) (k1 : beta2 < 1) :
    SettlesOnlyAt libStationary (adamUpdate invertSqrt) (AdamS.make lr beta1 beta2) := by
  have hp : ∀ {b : ℝ}, 0 ≤ b → b < 1 → ∀ T : Nat, 1 - b ^ (T + 1) ≠ 0 := fun hb hb1 T => by
    have := pow_lt_one₀ hb hb1 (Nat.succ_ne_zero T)
    exact (sub_pos.2 this).ne'
  exact settle_zero (settles_adam lr beta1 beta2 hlr h0 h1 k0 k1) (C114_adam invertSqrt lr beta1 beta2 (hp h0 h1) (hp k0 k1))

/-- `StoGradDescentOptimizer` settles where the loss with the penalty `decay/2 · Σ p²` is stationary. -/
theorem C115_sgd (lr decay : ℝ) (hlr : lr ≠ 0) : SettlesOnlyAt (libStationaryDecay decay) sgdUpdate (Sgd.make lr decay) := by
  refine (settle_lib (settles_sgd lr decay hlr) (C114_sgd lr decay)).mono (fun m k vs qs h pre post p e => ?_)
  obtain ⟨h1, h2⟩ := h pre post p e
  have sq : ∀ x : ℝ, HasDerivAt (fun z : ℝ => decay / 2 * z ^ 2) (decay * x) x := fun x =>
    ((hasDerivAt_pow 2 x).const_mul (decay / 2)).congr_deriv (by simp; ring)
  refine ⟨fun j hj => ?_, fun i j hi hj => ?_⟩
  · obtain ⟨G, hG, rfl⟩ := h1 j hj
    exact (hG.add (sq _)).congr_deriv (by ring)
  · obtain ⟨G, hG, rfl⟩ := h2 i j hi hj
    exact (hG.add (sq _)).congr_deriv (by ring)

theorem cg_apart : cgTrain.net.Apart := by
  show [0, 1, 2, 3].Nodup
  decide

noncomputable def cgState (c v : ℝ) : List (Dense ℝ × LMem ℝ) :=
  [(LibLayer.dense ⟨1, 1, fun _ => 0, fun _ _ => 0, .elem .identity⟩, (fun _ => 0, fun _ _ => 0)),
   (LibLayer.dense ⟨1, 1, fun _ => c, fun _ _ => 0, .elem .identity⟩, (fun _ => v, fun _ _ => 0))]

theorem cg_mom (N : Nat) : (ruleRun (Rule.momentum (3 / 8) (1 / 8)) .mse [(fun _ => 1, fun _ => 1)] (cgNet 0) N).2 =
    cgState (1 - 3 / 2 * (1 / 2) ^ N + 1 / 2 * (1 / 4) ^ N) (3 / 2 * (1 / 2) ^ N - 3 / 2 * (1 / 4) ^ N) := by
  induction N with
  | zero => norm_num [ruleRun, Rule.init, cgNet, cgState, Rule.momentum]
  | succ N ih =>
    rw [ruleRun_succ]
    unfold Rule.update
    dsimp only
    rw [ih]
    simp [Rule.layers, Rule.layer, cgState, gradSum, sampleGrads, netGrads, netBack, netOut, Dense.back, Dense.grad, Dense.out, LibLayer.dense, LibAct.fn, LibAct.D, ActKind.fn, ActKind.cd,
      Fn.identityD, affine, foldSum, addGrad, zeroGrad, LibLoss.dL, Rule.momentum]
    ring_nf
    simp

/-- Non-vacuity: the network `cgTrain` with momentum 1/8 and learning rate 3/8. After `N` epochs the bias of the second layer is
`1 - 3/2·2⁻ᴺ + 1/2·4⁻ᴺ`, which converges to 1. -/
example : (∀ N, Ok (Train.batch momUpdate [⟨1, 1, 1, [some (1 : ℝ)]⟩] [⟨1, 1, 1, [some (1 : ℝ)]⟩] N (Mom.make (3 / 8) (1 / 8), cgTrain))
      (fun r => r.2.net.Params (cgNet (1 - 3 / 2 * (1 / 2) ^ N + 1 / 2 * (1 / 4) ^ N)))) ∧
    libLimit (fun N => cgNet (1 - 3 / 2 * (1 / 2) ^ N + 1 / 2 * (1 / 4) ^ N)) (cgNet 1) ∧ libSmooth (cgNet 1) (fun _ => 1) := by
  refine ⟨fun N => ?_, ?_, ⟨⟨.identity, rfl, by decide, fun j _ => by simp [ActKind.kinks]⟩, ⟨.identity, rfl, by decide, fun j _ => by simp [ActKind.kinks]⟩, trivial⟩⟩
  · refine (C114_batch (C114_momentum (3 / 8) (1 / 8)) cgTrain _ 1 1 _ (IsLib.toIs cg_IsLib (LibLoss.mse.obj_Is 1)) cg_apart _ _ _ cg_data (by simp) N).mono (fun r hr => params_of ?_)
    have h1 := hr.net
    have h2 := cg_mom N
    unfold ruleRun at h2
    rw [h2] at h1
    exact h1
  · have h1 : Tendsto (fun N : Nat => 1 - 3 / 2 * (1 / 2 : ℝ) ^ N + 1 / 2 * (1 / 4) ^ N) atTop (𝓝 1) := by
      have a := (tendsto_pow_atTop_nhds_zero_of_lt_one (r := (1 / 2 : ℝ)) (by norm_num) (by norm_num)).const_mul (3 / 2)
      have b := (tendsto_pow_atTop_nhds_zero_of_lt_one (r := (1 / 4 : ℝ)) (by norm_num) (by norm_num)).const_mul (1 / 2)
      have := (a.const_sub 1).add b
      simpa using this
    exact ⟨_, _, fun N => rfl, fun N => ⟨rfl, rfl, rfl⟩, fun j _ => tendsto_const_nhds, fun i j _ _ => tendsto_const_nhds,
      _, _, fun N => rfl, fun N => ⟨rfl, rfl, rfl⟩, fun j _ => h1, fun i j _ _ => tendsto_const_nhds, fun _ => rfl⟩

end Trixy
