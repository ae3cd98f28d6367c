import Verif.Spec.Library
import Verif.Props.Fused
import Verif.Props.Descent
/- C38, C53 and C71 for networks built from the activation and loss classes of the library. -/
namespace Trixy
set_option linter.unusedSectionVars false
open Finset Losses

/-! ### From library layers to the abstract description -/

noncomputable def LibAct.D : LibAct → (Nat → ℝ) → Nat → ℝ
  | .elem k => fun v i => k.cd (v i)
  | .softmax => fun _ _ => 1

noncomputable def LibLayer.dense (l : LibLayer) : Dense ℝ := ⟨l.n, l.m, l.b, l.W, l.act.fn l.m, l.act.D⟩

theorem LibAct.obj_Is (a : LibAct) (m : Nat) (hm : 0 < m) : a.obj.Is m (a.fn m) a.D := by
  cases a with
  | softmax => exact softMaxAct_Is m hm
  | elem k =>
    show k.obj.Is m (fun v i => k.fn (v i)) (fun v i => k.cd (v i))
    rw [← k.cf_fun, k.obj_eq]
    exact Act.Is.elementwise k.cf k.cd m

theorem dense_out (l : LibLayer) (v : Nat → ℝ) : l.dense.out v = l.act.fn l.m (l.pre v) := by
  unfold Dense.out
  rw [affine_real]
  rfl

theorem libOut_eq (ls : List LibLayer) (v : Nat → ℝ) : netOut (ls.map LibLayer.dense) v = libOut ls v := by
  induction ls generalizing v with
  | nil => rfl
  | cons l ls ih =>
    show netOut (ls.map LibLayer.dense) (l.dense.out v) = libOut ls (l.act.fn l.m (l.pre v))
    rw [ih, dense_out]

theorem libFits_chain (ls : List LibLayer) {n m : Nat} (h : libFits n ls m) : Chain n (ls.map LibLayer.dense) m := by
  induction ls generalizing n with
  | nil => exact h
  | cons l ls ih => exact ⟨h.1, ih h.2⟩

theorem libSmooth_diff (ls : List LibLayer) (v : Nat → ℝ) (h : libSmooth ls v) : DiffAt (ls.map LibLayer.dense) v := by
  induction ls generalizing v with
  | nil => trivial
  | cons l ls ih =>
    obtain ⟨⟨k, hk, hg, hp⟩, hr⟩ := h
    refine ⟨⟨k.fn, k.cd, ?_, ?_, fun j hj => ?_⟩, ?_⟩
    · show l.act.fn l.m = _
      rw [hk]; rfl
    · show l.act.D = _
      rw [hk]; rfl
    · rw [← k.cf_fun]
      exact k.hasDerivAt hg _ (hp j hj)
    · rw [dense_out]; exact ih _ hr

theorem IsLib.toIs {t : Train ℝ} {ls : List LibLayer} {n m : Nat} {loss : Loss ℝ} (h : t.IsLib ls n m loss)
    {L : (Nat → ℝ) → (Nat → ℝ) → ℝ} {dL : (Nat → ℝ) → (Nat → ℝ) → Nat → ℝ} (hl : loss.Is m L dL) :
    t.Is (ls.map LibLayer.dense) n m dL := by
  refine ⟨?_, by simpa using h.two, by simpa using h.word, libFits_chain ls h.fits, h.delta, ⟨loss, L, h.loss, hl⟩⟩
  have : ∀ (net : Net ℝ) (ls : List LibLayer), (∀ l ∈ ls, 0 < l.m) →
      List.Forall₂ (fun (l : Layer ℝ) a => ∃ f, l = .fc f ∧ f.Wf a.n a.m a.b a.W ∧ f.act = a.act.obj) net ls →
      List.Forall₂ Layer.IsDense net (ls.map LibLayer.dense) := by
    intro net ls hp h
    induction h with
    | nil => exact .nil
    | @cons a b net ls hab _ ih =>
      obtain ⟨f, e, hw, ha⟩ := hab
      refine .cons ⟨f, e, hw, ?_⟩ (ih (fun l hl => hp l (List.mem_cons_of_mem _ hl)))
      rw [ha]
      exact b.act.obj_Is _ (hp b (List.mem_cons_self ..))
  exact this t.net ls h.pos h.net

theorem MSE_Is (m : Nat) : MSE.Is m (mseFn m) (fun t y i => y i - t i) :=
  ⟨fun t y vt vy ht hy => (C52_values m).1 t y vt vy ht hy trivial, fun _ _ _ _ _ hr ht hy => mseD_writes hr ht hy⟩
theorem LC_Is (m : Nat) : LC.Is m (lcFn m) (fun t y i => Real.tanh (y i - t i)) :=
  ⟨fun t y vt vy ht hy => (C52_values m).2.2.2.1 t y vt vy ht hy trivial, fun r t y vt vy hr ht hy =>
    write_loop hr _ _ (fun i hi s g hg => by rw [hy.get hi, bind_ok, ht.get hi, bind_ok]; exact hg.set hi _)⟩

theorem VecIs_of' (f : Nat → ℝ) (m : Nat) : VecIs (Buf.of ((List.range m).map f)) m f := by
  have := VecIs_of ((List.range m).map f) f (fun i hi => by simp)
  simpa using this

theorem gradient_unique {df : Buf ℝ → Buf ℝ → Buf ℝ → Res (Buf ℝ)} {m : Nat} {L : (Nat → ℝ) → (Nat → ℝ) → ℝ} {dL : (Nat → ℝ) → (Nat → ℝ) → Nat → ℝ}
    (h : GradientIs df m L (fun _ _ => True))
    (hd : ∀ (r t y : Buf ℝ) (vt vy : Nat → ℝ), r.length = m → VecIs t m vt → VecIs y m vy → Ok (df r t y) (fun r' => VecIs r' m (dL vt vy)))
    (w y : Nat → ℝ) : LossDiffAt L dL m w y := by
  obtain ⟨g, h1, _, h2⟩ := h (List.replicate m none) (Buf.of ((List.range m).map w)) (Buf.of ((List.range m).map y)) w y (by simp)
    (VecIs_of' w m) (VecIs_of' y m) trivial
  obtain ⟨r, e, hr⟩ := h1
  obtain ⟨r', e', hr'⟩ := hd (List.replicate m none) (Buf.of ((List.range m).map w)) (Buf.of ((List.range m).map y)) w y (by simp)
    (VecIs_of' w m) (VecIs_of' y m)
  rw [e] at e'
  cases e'
  intro yc y' t0 h0 hy
  refine (h2 yc y' t0 h0 hy).congr_deriv (sum_congr rfl (fun k hk => ?_))
  show g k * _ = _
  rw [(VecIs.unique hr hr').2 k (mem_range.1 hk)]

noncomputable def LibLoss.dL : LibLoss → (Nat → ℝ) → (Nat → ℝ) → Nat → ℝ
  | .mse => fun t y i => y i - t i
  | .lc => fun t y i => Real.tanh (y i - t i)

theorem LibLoss.obj_Is (k : LibLoss) (m : Nat) : k.obj.Is m (k.fn m) k.dL := by
  cases k
  · exact MSE_Is m
  · exact LC_Is m

theorem LibLoss.diff (k : LibLoss) (m : Nat) (w y : Nat → ℝ) : LossDiffAt (k.fn m) k.dL m w y := by
  cases k
  · exact gradient_unique (C52_gradients_partial m).1 (MSE_Is m).df w y
  · exact gradient_unique (C52_gradients_partial m).2.1 (LC_Is m).df w y

theorem map_set_b (pre post : List LibLayer) (p : LibLayer) (j : Nat) (z : ℝ) :
    pre.map LibLayer.dense ++ { p.dense with b := setAt p.dense.b j z } :: post.map LibLayer.dense =
      (pre ++ { p with b := setAt p.b j z } :: post).map LibLayer.dense := by
  simp [LibLayer.dense]
theorem map_set_W (pre post : List LibLayer) (p : LibLayer) (i j : Nat) (z : ℝ) :
    pre.map LibLayer.dense ++ { p.dense with W := setEntry p.dense.W i j z } :: post.map LibLayer.dense =
      (pre ++ { p with W := setEntry p.W i j z } :: post).map LibLayer.dense := by
  simp [LibLayer.dense]

/-- Layer `i` of the network has bias gradients `g.1` and weight gradients `g.2`. -/
def GradsOf (net : Net ℝ) (i : Nat) (l : LibLayer) (g : Grad ℝ) : Prop :=
  ∃ f : FC ℝ, lget net i = .ok (.fc f) ∧ VecIs f.gradB l.m g.1 ∧ MatIs f.gradW l.n l.m g.2

/-! ### C38 -/

/-- A network with any mix of the element-wise activation classes except `GELU`, and `MSE` or `LC`: after `feedforward(x)`
and `backprop(x, y)` the gradients of every layer are the partial derivatives of the loss of the network's prediction, provided no
activation is evaluated on a kink. -/
theorem C38_library (t : Train ℝ) (pre post : List LibLayer) (p : LibLayer) (n m : Nat) (k : LibLoss)
    (h : t.IsLib (pre ++ p :: post) n m k.obj) (x y : Ten ℝ) (v w : Nat → ℝ) (hx : VecIs x.data n v) (hy : VecIs y.data m w)
    (hd : libSmooth (pre ++ p :: post) v) :
    Ok (do let t ← t.feedforward x; t.backprop x y) (fun t' => ∃ g : Grad ℝ, GradsOf t'.net pre.length p g ∧
      (∀ j, j < p.m → HasDerivAt (fun z => k.fn m w (libOut (pre ++ { p with b := setAt p.b j z } :: post) v)) (g.1 j) (p.b j)) ∧
      (∀ i j, i < p.n → j < p.m →
        HasDerivAt (fun z => k.fn m w (libOut (pre ++ { p with W := setEntry p.W i j z } :: post) v)) (g.2 i j) (p.W i j))) := by
  have hI := IsLib.toIs h (k.obj_Is m)
  have e : (pre ++ p :: post).map LibLayer.dense = pre.map LibLayer.dense ++ p.dense :: post.map LibLayer.dense := by simp
  have hD := libSmooth_diff _ v hd
  rw [e] at hI hD
  refine (C38_partials t _ _ _ n m (k.fn m) k.dL hI x y v w hx hy ⟨_, h.loss, k.obj_Is m⟩ hD (k.diff m _ _)).mono (fun t' ⟨g, hg, h1, h2⟩ => ?_)
  rw [List.length_map] at hg
  refine ⟨g, hg, fun j hj => ?_, fun i j hi hj => ?_⟩
  · have := h1 j hj
    simp only [map_set_b, libOut_eq] at this
    exact this
  · have := h2 i j hi hj
    simp only [map_set_W, libOut_eq] at this
    exact this

/-! ### C53 -/

/-- A network of fully connected layers whose last activation is `SoftMax`, trained with `NLL`: after
`feedforward(x); backprop(x, y)` with a one-hot target the gradients of every layer are the partial derivatives of
`NLL(y, network(x))`. -/
theorem C53_softmax_nll (t : Train ℝ) (pre post hid : List LibLayer) (p q : LibLayer) (n m c : Nat)
    (hs : pre ++ p :: post = hid ++ [q]) (hq : q.act = .softmax) (h : t.IsLib (pre ++ p :: post) n m NLL)
    (x y : Ten ℝ) (v w : Nat → ℝ) (hx : VecIs x.data n v) (hy : VecIs y.data m w) (hw : OneHot m w c) (hd : libSmooth hid v) :
    Ok (do let t ← t.feedforward x; t.backprop x y) (fun t' => ∃ g : Grad ℝ, GradsOf t'.net pre.length p g ∧
      (∀ j, j < p.m → HasDerivAt (fun z => nllFn m w (libOut (pre ++ { p with b := setAt p.b j z } :: post) v)) (g.1 j) (p.b j)) ∧
      (∀ i j, i < p.n → j < p.m →
        HasDerivAt (fun z => nllFn m w (libOut (pre ++ { p with W := setEntry p.W i j z } :: post) v)) (g.2 i j) (p.W i j))) := by
  have hI := IsLib.toIs h (NLL_Is m)
  have e : (pre ++ p :: post).map LibLayer.dense = pre.map LibLayer.dense ++ p.dense :: post.map LibLayer.dense := by simp
  have e2 : pre.map LibLayer.dense ++ p.dense :: post.map LibLayer.dense = hid.map LibLayer.dense ++ [q.dense] := by
    rw [← e, hs]; simp
  have hm : q.m = m := by
    have hc := hI.chain
    rw [e, e2] at hc
    exact (Chain_lin _ _ hc).2
  rw [e] at hI
  refine (softmax_nll_dense t _ _ _ _ q.dense n m c e2 (by show q.act.fn q.m = _; rw [hq, hm]; rfl) (by show q.act.D = _; rw [hq]; rfl) hI h.loss
    x y v w hx hy hw (libSmooth_diff hid v hd)).mono (fun t' ⟨g, hg, h1, h2⟩ => ?_)
  rw [List.length_map] at hg
  refine ⟨g, hg, fun j hj => ?_, fun i j hi hj => ?_⟩
  · have := h1 j hj
    simp only [map_set_b, libOut_eq] at this
    exact this
  · have := h2 i j hi hj
    simp only [map_set_W, libOut_eq] at this
    exact this

/-- The same with the class `CCE` and any target summing to 1; the gradients are those of the ε-free cross entropy. -/
theorem C53_softmax_cce (t : Train ℝ) (pre post hid : List LibLayer) (p q : LibLayer) (n m : Nat)
    (hs : pre ++ p :: post = hid ++ [q]) (hq : q.act = .softmax) (h : t.IsLib (pre ++ p :: post) n m CCE)
    (x y : Ten ℝ) (v w : Nat → ℝ) (hx : VecIs x.data n v) (hy : VecIs y.data m w) (hw : ∑ k ∈ range m, w k = 1) (hd : libSmooth hid v) :
    Ok (do let t ← t.feedforward x; t.backprop x y) (fun t' => ∃ g : Grad ℝ, GradsOf t'.net pre.length p g ∧
      (∀ j, j < p.m → HasDerivAt (fun z => cceFn 0 m w (libOut (pre ++ { p with b := setAt p.b j z } :: post) v)) (g.1 j) (p.b j)) ∧
      (∀ i j, i < p.n → j < p.m →
        HasDerivAt (fun z => cceFn 0 m w (libOut (pre ++ { p with W := setEntry p.W i j z } :: post) v)) (g.2 i j) (p.W i j))) := by
  have hI := IsLib.toIs h (CCE_Is m)
  have e : (pre ++ p :: post).map LibLayer.dense = pre.map LibLayer.dense ++ p.dense :: post.map LibLayer.dense := by simp
  have e2 : pre.map LibLayer.dense ++ p.dense :: post.map LibLayer.dense = hid.map LibLayer.dense ++ [q.dense] := by
    rw [← e, hs]; simp
  have hm : q.m = m := by
    have hc := hI.chain
    rw [e, e2] at hc
    exact (Chain_lin _ _ hc).2
  have hpos : 0 < m := by rw [← hm]; exact h.pos q (by rw [hs]; simp)
  rw [e] at hI
  refine (softmax_cce_dense t _ _ _ _ q.dense n m hpos e2 (by show q.act.fn q.m = _; rw [hq, hm]; rfl) (by show q.act.D = _; rw [hq]; rfl) hI h.loss
    x y v w hx hy hw (libSmooth_diff hid v hd)).mono (fun t' ⟨g, hg, h1, h2⟩ => ?_)
  rw [List.length_map] at hg
  refine ⟨g, hg, fun j hj => ?_, fun i j hi hj => ?_⟩
  · have := h1 j hj
    simp only [map_set_b, libOut_eq] at this
    exact this
  · have := h2 i j hi hj
    simp only [map_set_W, libOut_eq] at this
    exact this

/-! ### C71 -/

theorem libMean_eq (m : Nat) (k : LibLoss) (vs : List ((Nat → ℝ) × (Nat → ℝ))) (ls : List LibLayer) :
    meanLoss (k.fn m) vs (ls.map LibLayer.dense) = libMean m k vs ls := by
  unfold meanLoss libMean
  simp only [libOut_eq]

/-- One epoch of `batch()` with gradient descent and a small learning rate improves the mean `MSE` or `LC` of a network of library
activations, unless all partial derivatives vanish. -/
theorem C71_library (t : Train ℝ) (ls : List LibLayer) (n m : Nat) (k : LibLoss) (h : t.IsLib ls n m k.obj)
    (idata odata : List (Ten ℝ)) (vs : List ((Nat → ℝ) × (Nat → ℝ))) (hdata : DataIs idata odata n m vs) (hne : vs ≠ [])
    (s : Nat × Nat × Nat) (hs : s.1 * s.2.1 * s.2.2 = n) (hsh : ∀ x ∈ idata, (x.d, x.h, x.w) = s)
    (hd : ∀ vw ∈ vs, libSmooth ls vw.1)
    (hns : ∃ pre p post G, ls = pre ++ p :: post ∧ G ≠ 0 ∧
      ((∃ j, j < p.m ∧ HasDerivAt (fun z => libMean m k vs (pre ++ { p with b := setAt p.b j z } :: post)) G (p.b j)) ∨
       (∃ i j, i < p.n ∧ j < p.m ∧ HasDerivAt (fun z => libMean m k vs (pre ++ { p with W := setEntry p.W i j z } :: post)) G (p.W i j)))) :
    ∃ ε > 0, ∀ lr, 0 < lr → lr < ε → Ok (t.lossMean idata odata) (fun before =>
      before.1 = libMean m k vs ls ∧ Ok (Train.batch gdUpdate idata odata 1 (lr, t)) (fun r =>
        Ok (r.2.lossMean idata odata) (fun after => after.1 < before.1))) := by
  have hI := IsLib.toIs h (k.obj_Is m)
  have hloss : ∃ l, t.loss = some l ∧ l.Is m (k.fn m) k.dL := ⟨_, h.loss, k.obj_Is m⟩
  obtain ⟨ε, he, H⟩ := C71_descent t (ls.map LibLayer.dense) n m (k.fn m) k.dL hI hloss idata odata vs hdata hne s hs hsh
    (fun vw hv => libSmooth_diff ls vw.1 (hd vw hv)) (fun vw _ => k.diff m _ _) (by
      obtain ⟨pre, p, post, G, rfl, hG, hh⟩ := hns
      refine ⟨pre.map LibLayer.dense, p.dense, post.map LibLayer.dense, G, by simp, hG, ?_⟩
      rcases hh with ⟨j, hj, hh⟩ | ⟨i, j, hi, hj, hh⟩
      · refine .inl ⟨j, hj, ?_⟩
        simp only [map_set_b, libMean_eq]
        exact hh
      · refine .inr ⟨i, j, hi, hj, ?_⟩
        simp only [map_set_W, libMean_eq]
        exact hh)
  refine ⟨ε, he, fun lr h1 h2 => ?_⟩
  obtain ⟨b, eb, hb⟩ := H lr h1 h2
  obtain ⟨b', eb', hb'⟩ := loss_dense t _ n m (k.fn m) k.dL hI hloss idata odata vs hdata hne s hs hsh
  rw [eb] at eb'
  cases eb'
  exact ⟨b, eb, by rw [hb', libMean_eq], hb⟩

/-- Non-vacuity: the 2 → 3 → 2 classifier (tanh, softmax, `NLL`), and the same with a sigmoid output and `MSE`. -/
example : exClassifier.IsLib [⟨2, 3, fun _ => 0, fun _ _ => 0, .elem .tanh⟩, ⟨3, 2, fun _ => 0, fun _ _ => 0, .softmax⟩] 2 2 NLL ∧
    libSmooth [⟨2, 3, fun _ => 0, fun _ _ => 0, .elem .tanh⟩] (fun _ => 1) := by
  refine ⟨⟨.cons ⟨_, rfl, FC.Wf_make 2 3 _ 0 1, rfl⟩ (.cons ⟨_, rfl, FC.Wf_make 3 2 _ 2 3, rfl⟩ .nil), by simp, by show 2 < W64; decide, ⟨rfl, rfl, rfl⟩,
    by simp, rfl, rfl⟩, ⟨⟨.tanh, rfl, by decide, fun j _ => by simp [ActKind.kinks]⟩, trivial⟩⟩

example : (Train.mk [.fc (FC.make 2 3 ActKind.tanh.obj 0 1), .fc (FC.make 3 2 ActKind.sigmoid.obj 2 3)] ⟨1, 1, 2, [none, none]⟩ (some MSE)).IsLib
      [⟨2, 3, fun _ => 0, fun _ _ => 0, .elem .tanh⟩, ⟨3, 2, fun _ => 0, fun _ _ => 0, .elem .sigmoid⟩] 2 2 LibLoss.mse.obj ∧
    libSmooth [⟨2, 3, fun _ => 0, fun _ _ => 0, .elem .tanh⟩, ⟨3, 2, fun _ => 0, fun _ _ => 0, .elem .sigmoid⟩] (fun _ => 1) := by
  refine ⟨⟨.cons ⟨_, rfl, FC.Wf_make 2 3 _ 0 1, rfl⟩ (.cons ⟨_, rfl, FC.Wf_make 3 2 _ 2 3, rfl⟩ .nil), by simp, by show 2 < W64; decide, ⟨rfl, rfl, rfl⟩,
    by simp, rfl, rfl⟩, ⟨⟨.tanh, rfl, by decide, fun j _ => by simp [ActKind.kinks]⟩, ⟨.sigmoid, rfl, by decide, fun j _ => by simp [ActKind.kinks]⟩, trivial⟩⟩

end Trixy
