import Verif.Spec.Momentum
import Verif.Proof.Momentum
import Verif.Props.Decay
import Verif.Props.Online
/- C122: linear models trained with momentum reach the optimum. -/
namespace Trixy
set_option linter.unusedSectionVars false
open Finset Losses FitMath

/-! ### What the program computes -/

/-- New velocities. -/
noncomputable def momVel (k : FitKind) (n m : Nat) (lr mu : ℝ) (vs : List ((Nat → ℝ) × (Nat → ℝ))) (θ v : Theta) : Theta :=
  (fun j => v.1 j * mu - lr * ((fitGrad k n m vs θ).1 j * (1 / (vs.length : ℝ))), fun i j => v.2 i j * mu - lr * ((fitGrad k n m vs θ).2 i j * (1 / (vs.length : ℝ))))

/-- New parameters. -/
noncomputable def MomKind.pos (c : MomKind) (k : FitKind) (n m : Nat) (lr mu : ℝ) (vs : List ((Nat → ℝ) × (Nat → ℝ))) (θ v : Theta) : Theta :=
  match c with
  | .momentum => (fun j => θ.1 j + v.1 j, fun i j => θ.2 i j + v.2 i j)
  | .nestorov => (fun j => θ.1 j - lr * ((fitGrad k n m vs θ).1 j * (1 / (vs.length : ℝ))) + mu * v.1 j,
      fun i j => θ.2 i j - lr * ((fitGrad k n m vs θ).2 i j * (1 / (vs.length : ℝ))) + mu * v.2 i j)

/-- Parameters and velocities after `N` steps. -/
noncomputable def momRun (c : MomKind) (k : FitKind) (n m : Nat) (lr mu : ℝ) (vs : List ((Nat → ℝ) × (Nat → ℝ))) (θ : Theta) : Nat → Theta × Theta
  | 0 => (θ, (fun _ => 0, fun _ _ => 0))
  | N + 1 =>
    let s := momRun c k n m lr mu vs θ N
    let v := momVel k n m lr mu vs s.1 s.2
    (c.pos k n m lr mu vs s.1 v, v)

/-- The optimizer holds these velocities for the parameters of the layer. -/
structure MomHolds (s : Mom ℝ) (l : FC ℝ) (n m : Nat) (lr mu : ℝ) (v : Theta) : Prop where
  lr : s.lr = lr
  mu : s.mu = mu
  keys : l.keyB ≠ l.keyW
  bB : (s.buff.get l.keyB m).length = m
  bW : (s.buff.get l.keyW (n * m)).length = n * m
  vB : VecIs (s.opt.get l.keyB m) m v.1
  vW : VecIs (s.opt.get l.keyW (n * m)) (n * m) (fun q => v.2 (q / m) (q % m))

/-- One call of `update`. -/
noncomputable def MomKind.val (c : MomKind) (lr mu : ℝ) (p g v : Nat → ℝ) (i : Nat) : ℝ :=
  match c with
  | .momentum => p i + (v i * mu - lr * g i)
  | .nestorov => p i - lr * g i + mu * (v i * mu - lr * g i)

theorem MomKind.upd_spec (c : MomKind) {s : Mom ℝ} {k n : Nat} {P G : Buf ℝ} {p g v : Nat → ℝ}
    (hp : VecIs P n p) (hg : VecIs G n g) (hb : (s.buff.get k n).length = n) (hv : VecIs (s.opt.get k n) n v) :
    Ok (c.upd s k P G) (fun r => r.1.lr = s.lr ∧ r.1.mu = s.mu ∧ (r.1.buff.get k n).length = n ∧
      VecIs (r.1.opt.get k n) n (fun i => v i * s.mu - s.lr * g i) ∧ VecIs r.2.1 n (c.val s.lr s.mu p g v) ∧ r.2.2 = G ∧
      ∀ k', k' ≠ k → r.1.buff k' = s.buff k' ∧ r.1.opt k' = s.opt k') := by
  cases c with
  | momentum =>
    obtain ⟨r, e, h1, h2, h3, h4, h5, h6⟩ := mom_spec hp hg hb hv
    refine ⟨r, e, h1, h2, h3, h4, h5, h6, fun k' hk' => ?_⟩
    have := local_mom.other _ _ _ _ _ e k' hk'
    simp only [Prod.mk.injEq] at this
    exact ⟨this.1, this.2.1⟩
  | nestorov =>
    obtain ⟨r, e, h1, h2, h3, h4, h5, h6⟩ := nes_spec hp hg hb hv
    refine ⟨r, e, h1, h2, h3, h4, h5, h6, fun k' hk' => ?_⟩
    have := local_nes.other _ _ _ _ _ e k' hk'
    simp only [Prod.mk.injEq] at this
    exact ⟨this.1, this.2.1⟩

theorem fitSample_keys (loss : Loss ℝ) (l : FC ℝ) (x y : Ten ℝ) : Post (l.fitSample loss x y) (fun l' => l'.keyB = l.keyB ∧ l'.keyW = l.keyW) := by
  intro l' e
  unfold FC.fitSample at e
  obtain ⟨l1, e1, e⟩ := res_bind_inv e
  obtain ⟨d, _, e⟩ := res_bind_inv e
  obtain ⟨l2, e2, e3⟩ := res_bind_inv e
  have k1 : Post (l.forward x) (fun l' => l'.keyB = l.keyB ∧ l'.keyW = l.keyW) := by
    unfold FC.forward
    exact .bind (fun _ => .bind (fun _ => .bind (fun _ => .ok ⟨rfl, rfl⟩)))
  have k2 : Post (l1.backward x ⟨1, 1, l1.osize, d⟩ false) (fun l' => l'.keyB = l1.keyB ∧ l'.keyW = l1.keyW) := by
    unfold FC.backward
    exact .bind (fun _ => .bind (fun _ => .bind (fun _ => .bind (fun _ => .ok ⟨rfl, rfl⟩))))
  have k3 : Post l2.accumulate (fun l' => l'.keyB = l2.keyB ∧ l'.keyW = l2.keyW) := by
    unfold FC.accumulate
    exact .bind (fun _ => .bind (fun _ => .ok ⟨rfl, rfl⟩))
  have a1 := k1 _ e1
  have a2 := k2 _ e2
  have a3 := k3 _ e3
  exact ⟨a3.1.trans (a2.1.trans a1.1), a3.2.trans (a2.2.trans a1.2)⟩

theorem fitSamples_keys (loss : Loss ℝ) : ∀ (B : List (Ten ℝ × Ten ℝ)) (l : FC ℝ), Post (l.fitSamples loss B) (fun l' => l'.keyB = l.keyB ∧ l'.keyW = l.keyW)
  | [], _ => .ok ⟨rfl, rfl⟩
  | (x, y) :: B, l => by
    intro l' e
    have e' : (l.fitSample loss x y >>= fun l => l.fitSamples loss B) = .ok l' := e
    obtain ⟨l1, e1, e2⟩ := res_bind_inv e'
    have a1 := fitSample_keys loss l x y _ e1
    have a2 := fitSamples_keys loss B l1 _ e2
    exact ⟨a2.1.trans a1.1, a2.2.trans a1.2⟩

theorem optBatch_spec (c : MomKind) {k : FitKind} {n m : Nat} (hm : 0 < m) {θ v : Theta} {B : List (Ten ℝ × Ten ℝ)} {vs : List ((Nat → ℝ) × (Nat → ℝ))} (hv : BatchIs B n m vs)
    (hne : vs ≠ []) {lr mu : ℝ} {s : Mom ℝ} {l : FC ℝ} (h : l.IsFit k n m θ) (hs : MomHolds s l n m lr mu v) :
    Ok (FC.optBatch c.upd k.loss B (s, l)) (fun r => r.2.IsFit k n m (c.pos k n m lr mu vs θ (momVel k n m lr mu vs θ v)) ∧
      MomHolds r.1 r.2 n m lr mu (momVel k n m lr mu vs θ v)) := by
  unfold FC.optBatch
  refine (FC.reset_spec h.1).bind (fun l1 ⟨w1, b1, W1, _, e1⟩ => ?_)
  obtain ⟨l2, e2, h2, b2, W2, a2⟩ := fitSamples_spec hm hv (θ := θ) (k := k) (l := l1) ⟨w1, by rw [e1]; exact h.2⟩ b1 W1
  have kk := fitSamples_keys k.loss B l1 _ e2
  have a2 := a2 (.inr hne)
  have hlen : B.length = vs.length := List.Forall₂.length_eq hv
  rw [e2, bind_ok]
  have hkB : l2.keyB = l.keyB := kk.1.trans (by rw [e1])
  have hkW : l2.keyW = l.keyW := kk.2.trans (by rw [e1])
  unfold FC.update
  rw [if_pos a2]
  have hu : Ok (FC.updateWith c.upd s (1 / (B.length : ℝ)) l2 l2.gradBs l2.gradWs) (fun r =>
      VecIs r.2.1 m (c.pos k n m lr mu vs θ (momVel k n m lr mu vs θ v)).1 ∧ (∃ g, VecIs r.2.2.1 m g) ∧
      VecIs r.2.2.2.1 (n * m) (fun q => (c.pos k n m lr mu vs θ (momVel k n m lr mu vs θ v)).2 (q / m) (q % m)) ∧
      (∃ g : Nat → Nat → ℝ, VecIs r.2.2.2.2 (n * m) (fun q => g (q / m) (q % m))) ∧ MomHolds r.1 l n m lr mu (momVel k n m lr mu vs θ v)) := by
    unfold FC.updateWith
    refine (scaleUnlessOne_spec (fun a => mul_one a) b2 _).bind (fun g1 q1 => ?_)
    refine (scaleUnlessOne_spec (fun a => mul_one a) W2.flat _).bind (fun g2 q2 => ?_)
    rw [hkB, hkW]
    refine (c.upd_spec h2.1.B q1 hs.bB hs.vB).bind (fun r1 ⟨p1, p2, p3, p4, p5, p6, p7⟩ => ?_)
    obtain ⟨s1, B1, gB1⟩ := r1
    dsimp only at p1 p2 p3 p4 p5 p6 p7 ⊢
    have o1 := p7 l.keyW hs.keys.symm
    refine (c.upd_spec (v := fun q => v.2 (q / m) (q % m)) h2.1.W.flat q2 (by rw [getTab_congr o1.1]; exact hs.bW) (by rw [getTab_congr o1.2]; exact hs.vW)).bind (fun r2 ⟨t1, t2, t3, t4, t5, t6, t7⟩ => ?_)
    obtain ⟨s2, W2', gW2⟩ := r2
    dsimp only at t1 t2 t3 t4 t5 t6 t7 ⊢
    have o2 := t7 l.keyB hs.keys
    rw [p1, p2, hs.lr, hs.mu] at t4 t5
    rw [hs.lr, hs.mu] at p4 p5
    refine Ok_ok.2 ⟨?_, ⟨_, by rw [p6]; exact q1⟩, ?_, ⟨fun i j => (0 + (fitGrad k n m vs θ).2 i j) * (1 / (B.length : ℝ)), by rw [t6]; exact q2⟩, ?_⟩
    · refine p5.congr (fun j _ => ?_)
      cases c <;> simp [MomKind.val, MomKind.pos, momVel, hlen]
    · refine t5.congr (fun q _ => ?_)
      cases c <;> simp [MomKind.val, MomKind.pos, momVel, hlen]
    · refine ⟨by rw [t1, p1, hs.lr], by rw [t2, p2, hs.mu], hs.keys, by rw [getTab_congr o2.1]; exact p3, t3, ?_, ?_⟩
      · rw [getTab_congr o2.2]
        exact p4.congr (fun j _ => by simp [momVel, hlen])
      · exact t4.congr (fun j _ => by simp [momVel, hlen])
  refine hu.bind (fun r ⟨q1, ⟨gb, q2⟩, q3, ⟨gw, q4⟩, q5⟩ => ?_)
  obtain ⟨s', B', gB, W, gW⟩ := r
  dsimp only at q1 q2 q3 q4 q5
  have k1 := h2.1.W.of_data (g := (c.pos k n m lr mu vs θ (momVel k n m lr mu vs θ v)).2) q3
  have k2 := W2.of_data (g := gw) q4
  refine Ok_ok.2 ⟨⟨{ h2.1 with B := q1, W := k1, gradBs := ⟨_, q2⟩, gradWs := ⟨_, k2⟩ }, h2.2⟩, ?_⟩
  obtain ⟨z1, z2, z3, z4, z5, z6, z7⟩ := q5
  exact ⟨z1, z2, by show l2.keyB ≠ l2.keyW; rw [hkB, hkW]; exact z3, by show (Table.get _ l2.keyB _).length = _; rw [hkB]; exact z4,
    by show (Table.get _ l2.keyW _).length = _; rw [hkW]; exact z5, by show VecIs (Table.get _ l2.keyB _) _ _; rw [hkB]; exact z6,
    by show VecIs (Table.get _ l2.keyW _) _ _; rw [hkW]; exact z7⟩

theorem optFit_spec (c : MomKind) {k : FitKind} {n m : Nat} (hm : 0 < m) {θ : Theta} {B : List (Ten ℝ × Ten ℝ)} {vs : List ((Nat → ℝ) × (Nat → ℝ))} (hv : BatchIs B n m vs)
    (hne : vs ≠ []) (lr mu : ℝ) {l : FC ℝ} (h : l.IsFit k n m θ) (hk : l.keyB ≠ l.keyW) (N : Nat) :
    Ok (l.optFit c.upd (Mom.make lr mu) k.loss B N) (fun r => r.2.IsFit k n m (momRun c k n m lr mu vs θ N).1) :=
  Ok.mono (forN_spec (fun i (s : Mom ℝ × FC ℝ) => s.2.IsFit k n m (momRun c k n m lr mu vs θ i).1 ∧ MomHolds s.1 s.2 n m lr mu (momRun c k n m lr mu vs θ i).2)
    ⟨h, rfl, rfl, hk, (Table.get_empty _ _).length, (Table.get_empty _ _).length, Table.get_empty _ _, Table.get_empty _ _⟩
    (fun _ _ _ hs => optBatch_spec c hm hv hne hs.1 hs.2)) (fun _ h => h.1)

/-! ### The bias as weight of a constant input -/

/-- Mean loss and gradient with the bias as weight of a constant input. -/
theorem smooth_fit (k : FitKind) {n m : Nat} (hm : 0 < m) (vs : List ((Nat → ℝ) × (Nat → ℝ))) (hw : ∀ vw ∈ vs, k.Target m vw.2) :
    Smooth (n + 1) m (fun T => 1 / (vs.length : ℝ) * tot k (n + 1) m (augD vs) T) (fun T i j => grd k (n + 1) m (augD vs) T i j * (1 / (vs.length : ℝ))) (meanSq n vs) := by
  have := smooth_mean (n + 1) m k hm (augD vs) (aug_target hw) (1 / (vs.length : ℝ)) (by positivity)
  rw [len2_aug] at this
  exact this

theorem aug_vel (k : FitKind) (n m : Nat) (lr mu : ℝ) (vs : List ((Nat → ℝ) × (Nat → ℝ))) (θ v : Theta) :
    augT (momVel k n m lr mu vs θ v) = fun i j => augT v i j * mu - lr * (grd k (n + 1) m (augD vs) (augT θ) i j * (1 / (vs.length : ℝ))) := by
  funext i j
  rw [grd_aug]
  cases i <;> rfl

theorem ball_run (k : FitKind) (n m : Nat) (lr mu : ℝ) (vs : List ((Nat → ℝ) × (Nat → ℝ))) (θ : Theta) :
    Ball (fun T i j => grd k (n + 1) m (augD vs) T i j * (1 / (vs.length : ℝ))) lr mu (fun t => augT (momRun .momentum k n m lr mu vs θ t).1)
      (fun t => augT (momRun .momentum k n m lr mu vs θ t).2) := by
  refine ⟨?_, fun t => aug_vel k n m lr mu vs _ _, fun t => ?_⟩
  · funext i j; cases i <;> rfl
  · funext i j; cases i <;> rfl

theorem look_run (k : FitKind) (n m : Nat) (lr mu : ℝ) (vs : List ((Nat → ℝ) × (Nat → ℝ))) (θ : Theta) :
    Lookahead (fun T i j => grd k (n + 1) m (augD vs) T i j * (1 / (vs.length : ℝ))) lr mu (fun t => augT (momRun .nestorov k n m lr mu vs θ t).1)
      (fun t => augT (momRun .nestorov k n m lr mu vs θ t).2) := by
  refine ⟨?_, fun t => aug_vel k n m lr mu vs _ _, fun t => ?_⟩
  · funext i j; cases i <;> rfl
  · funext i j
    rw [grd_aug]
    cases i <;> rfl

/-- Every matrix is that of some parameters. -/
theorem augT_surj (T : Nat → Nat → ℝ) : augT (T 0, fun i => T (i + 1)) = T := by
  funext i j; cases i <;> rfl

theorem mean_lower {k : FitKind} {n m : Nat} {vs : List ((Nat → ℝ) × (Nat → ℝ))} {lo : ℝ} (hlo : ∀ η, lo ≤ fitMean k n m vs η) (T : Nat → Nat → ℝ) :
    lo ≤ 1 / (vs.length : ℝ) * tot k (n + 1) m (augD vs) T := by
  have := hlo (T 0, fun i => T (i + 1))
  rw [← tot_aug, augT_surj] at this
  exact this

/-! ### C122 -/

/-- `Momentum`: after `N` steps the mean loss exceeds the optimum by at most a constant over `N`. -/
theorem C122_momentum (k : FitKind) (n m : Nat) (hm : 0 < m) (θ : Theta) (l : FC ℝ) (h : l.IsFit k n m θ) (hk : l.keyB ≠ l.keyW) (B : List (Ten ℝ × Ten ℝ))
    (vs : List ((Nat → ℝ) × (Nat → ℝ))) (hv : BatchIs B n m vs) (hne : vs ≠ []) (hw : ∀ vw ∈ vs, k.Target m vw.2) (lr mu : ℝ) (hlr : 0 < lr) (hmu : 0 ≤ mu)
    (hr : lr * meanSq n vs < 1 - mu) (η : Theta) (hη : ∀ ζ, fitMean k n m vs η ≤ fitMean k n m vs ζ) (N : Nat) (hN : 0 < N) :
    Ok (l.optFit momUpdate (Mom.make lr mu) k.loss B N) (fun r => ∃ θ', r.2.IsFit k n m θ' ∧
      (1 - lr * meanSq n vs / (1 - mu)) * (fitMean k n m vs θ' - fitMean k n m vs η) ≤
        ((1 - mu) / (2 * lr) * θ.dist2 n m η + 2 * mu / (1 - mu) * (fitMean k n m vs θ - fitMean k n m vs η)) / N) := by
  refine (optFit_spec .momentum hm hv hne lr mu h hk N).mono (fun r hr' => ⟨_, hr', ?_⟩)
  have := (ball_run k n m lr mu vs θ).bound (smooth_fit k hm vs hw) (meanSq_pos n hne) hlr hmu hr (mean_lower hη) (augT η) N hN
  simp only [tot_aug, nrm_aug] at this
  rw [sub_self, zero_add] at this
  exact this

/-- `Nestorov`: the same for every momentum below 1, without a smaller learning rate. -/
theorem C122_nestorov (k : FitKind) (n m : Nat) (hm : 0 < m) (θ : Theta) (l : FC ℝ) (h : l.IsFit k n m θ) (hk : l.keyB ≠ l.keyW) (B : List (Ten ℝ × Ten ℝ))
    (vs : List ((Nat → ℝ) × (Nat → ℝ))) (hv : BatchIs B n m vs) (hne : vs ≠ []) (hw : ∀ vw ∈ vs, k.Target m vw.2) (lr mu : ℝ) (hlr : 0 < lr) (hmu : 0 ≤ mu) (hmu1 : mu < 1)
    (hr : lr * meanSq n vs ≤ 1) (η : Theta) (hη : ∀ ζ, fitMean k n m vs η ≤ fitMean k n m vs ζ) (N : Nat) (hN : 0 < N) :
    Ok (l.optFit nesUpdate (Mom.make lr mu) k.loss B N) (fun r => ∃ θ', r.2.IsFit k n m θ' ∧
      fitMean k n m vs θ' - fitMean k n m vs η ≤
        4 * (((1 - mu) / (2 * lr) * θ.dist2 n m η + 2 / (1 - mu) * (fitMean k n m vs θ - fitMean k n m vs η)) / N)) := by
  refine (optFit_spec .nestorov hm hv hne lr mu h hk N).mono (fun r hr' => ⟨_, hr', ?_⟩)
  have := (look_run k n m lr mu vs θ).bound (smooth_fit k hm vs hw) hlr hr hmu hmu1 (mean_lower hη) (augT η) N hN
  simp only [tot_aug, nrm_aug] at this
  rw [sub_self, zero_add] at this
  exact this

/-- `Momentum` rolls like a ball with friction: mean loss + momentum / (2 lr) · |last step|² never increases, for lr · mean(1 + |x|²) ≤ 2 (1 - momentum). -/
theorem C122_energy (k : FitKind) (n m : Nat) (hm : 0 < m) (θ : Theta) (l : FC ℝ) (h : l.IsFit k n m θ) (hk : l.keyB ≠ l.keyW) (B : List (Ten ℝ × Ten ℝ))
    (vs : List ((Nat → ℝ) × (Nat → ℝ))) (hv : BatchIs B n m vs) (hne : vs ≠ []) (hw : ∀ vw ∈ vs, k.Target m vw.2) (lr mu : ℝ) (hlr : 0 < lr) (hmu : 0 ≤ mu)
    (hr : lr * meanSq n vs ≤ 2 * (1 - mu)) :
    ∃ P : Nat → Theta, P 0 = θ ∧ (∀ N, Ok (l.optFit momUpdate (Mom.make lr mu) k.loss B N) (fun r => r.2.IsFit k n m (P N))) ∧
      fitMean k n m vs (P 1) + mu / (2 * lr) * (P 1).dist2 n m (P 0) ≤ fitMean k n m vs (P 0) ∧
      ∀ N, fitMean k n m vs (P (N + 2)) + mu / (2 * lr) * (P (N + 2)).dist2 n m (P (N + 1)) ≤
        fitMean k n m vs (P (N + 1)) + mu / (2 * lr) * (P (N + 1)).dist2 n m (P N) := by
  have hb := ball_run k n m lr mu vs θ
  have hd : ∀ t, nrm (n + 1) m (augT (momRun .momentum k n m lr mu vs θ (t + 1)).2) =
      (momRun .momentum k n m lr mu vs θ (t + 1)).1.dist2 n m (momRun .momentum k n m lr mu vs θ t).1 := fun t => by
    rw [← nrm_aug]
    congr 1
    funext i j
    have := congrFun (congrFun (hb.pos t) i) j
    rw [this]; ring
  have hc : 0 ≤ (1 - mu) / lr - meanSq n vs / 2 := by
    rw [sub_nonneg, div_le_div_iff₀ (by norm_num) hlr]
    linarith
  have he : ∀ t, fitMean k n m vs (momRun .momentum k n m lr mu vs θ (t + 1)).1 + mu / (2 * lr) * nrm (n + 1) m (augT (momRun .momentum k n m lr mu vs θ (t + 1)).2) ≤
      fitMean k n m vs (momRun .momentum k n m lr mu vs θ t).1 + mu / (2 * lr) * nrm (n + 1) m (augT (momRun .momentum k n m lr mu vs θ t).2) := fun t => by
    have := hb.energy (smooth_fit k hm vs hw) hlr hmu t
    simp only [tot_aug] at this
    have h2 := mul_nonneg hc (nrm_nonneg (n + 1) m (augT (momRun .momentum k n m lr mu vs θ (t + 1)).2))
    linarith
  refine ⟨fun N => (momRun .momentum k n m lr mu vs θ N).1, rfl, fun N => optFit_spec .momentum hm hv hne lr mu h hk N, ?_, fun N => ?_⟩
  · have := he 0
    rw [hd 0] at this
    have e0 : nrm (n + 1) m (augT (momRun .momentum k n m lr mu vs θ 0).2) = 0 := by
      have : augT (momRun .momentum k n m lr mu vs θ 0).2 = fun _ _ => 0 := by funext i j; cases i <;> rfl
      rw [this]; simp [nrm]
    rw [e0, mul_zero, add_zero] at this
    exact this
  · have := he (N + 1)
    rw [hd (N + 1), hd N] at this
    exact this

/-- Both classes bring the mean loss as close to its infimum as wanted, whether or not it is attained: from some number of steps on it is below that of any given
parameters plus ε. -/
theorem C122_limit (c : MomKind) (k : FitKind) (n m : Nat) (hm : 0 < m) (θ : Theta) (l : FC ℝ) (h : l.IsFit k n m θ) (hk : l.keyB ≠ l.keyW) (B : List (Ten ℝ × Ten ℝ))
    (vs : List ((Nat → ℝ) × (Nat → ℝ))) (hv : BatchIs B n m vs) (hne : vs ≠ []) (hw : ∀ vw ∈ vs, k.Target m vw.2) (hp : ∀ vw ∈ vs, ∀ j, j < m → k = .cce → 0 ≤ vw.2 j)
    (lr mu : ℝ) (hlr : 0 < lr) (hmu : 0 ≤ mu) (hmu1 : mu < 1) (hr : c.Rate lr mu (meanSq n vs)) :
    ∃ P : Nat → Theta, P 0 = θ ∧ (∀ N, Ok (l.optFit c.upd (Mom.make lr mu) k.loss B N) (fun r => r.2.IsFit k n m (P N))) ∧
      ∀ (η : Theta) (ε : ℝ), 0 < ε → ∃ N0 : Nat, ∀ N, N0 ≤ N → fitMean k n m vs (P N) ≤ fitMean k n m vs η + ε := by
  refine ⟨fun N => (momRun c k n m lr mu vs θ N).1, rfl, fun N => optFit_spec c hm hv hne lr mu h hk N, fun η ε hε => ?_⟩
  have hnn : ∀ ζ, 0 ≤ fitMean k n m vs ζ := fun ζ => by
    rw [fitMean_phi]
    refine mul_nonneg (by positivity) (List.sum_nonneg (fun a ha => ?_))
    obtain ⟨vw, hvw, rfl⟩ := List.mem_map.1 ha
    exact fitLoss_nonneg k hm (hw vw hvw) (hp vw hvw) _
  set S := Set.range (fitMean k n m vs) with hS
  have hbdd : BddBelow S := ⟨0, by rintro _ ⟨ζ, rfl⟩; exact hnn ζ⟩
  have hlo : ∀ ζ, sInf S ≤ fitMean k n m vs ζ := fun ζ => csInf_le hbdd ⟨ζ, rfl⟩
  -- the constant `C` of the bound does not depend on the competitor, but is obtained together with it
  obtain ⟨C, hC0, hC⟩ : ∃ C : ℝ, 0 < C ∧ ∀ ζ : Theta, ∃ D : ℝ, 0 ≤ D ∧ ∀ N : Nat, 0 < N →
      fitMean k n m vs (momRun c k n m lr mu vs θ N).1 - sInf S ≤ C * (fitMean k n m vs ζ - sInf S + D / N) := by
    have hd : 0 ≤ fitMean k n m vs θ - sInf S := by have := hlo θ; linarith
    have h1 : 0 < 1 - mu := by linarith
    cases c with
    | momentum =>
      have hr : lr * meanSq n vs < 1 - mu := hr
      have hρ : 0 < 1 - lr * meanSq n vs / (1 - mu) := by
        rw [sub_pos, div_lt_one h1]; exact hr
      refine ⟨1 / (1 - lr * meanSq n vs / (1 - mu)), by positivity, fun ζ => ⟨(1 - mu) / (2 * lr) * θ.dist2 n m ζ + 2 * mu / (1 - mu) * (fitMean k n m vs θ - sInf S),
        add_nonneg (mul_nonneg (by positivity) (dist2_nonneg ..)) (mul_nonneg (by positivity) hd), fun N hN => ?_⟩⟩
      have := (ball_run k n m lr mu vs θ).bound (smooth_fit k hm vs hw) (meanSq_pos n hne) hlr hmu hr (mean_lower hlo) (augT ζ) N hN
      simp only [tot_aug, nrm_aug] at this
      rw [one_div_mul_eq_div, le_div_iff₀' hρ]
      exact this
    | nestorov =>
      have hr : lr * meanSq n vs ≤ 1 := hr
      refine ⟨4, by norm_num, fun ζ => ⟨(1 - mu) / (2 * lr) * θ.dist2 n m ζ + 2 / (1 - mu) * (fitMean k n m vs θ - sInf S),
        add_nonneg (mul_nonneg (by positivity) (dist2_nonneg ..)) (mul_nonneg (by positivity) hd), fun N hN => ?_⟩⟩
      have := (look_run k n m lr mu vs θ).bound (smooth_fit k hm vs hw) hlr hr hmu hmu1 (mean_lower hlo) (augT ζ) N hN
      simp only [tot_aug, nrm_aug] at this
      exact this
  obtain ⟨_, ⟨ζ, rfl⟩, hζ⟩ := exists_lt_of_csInf_lt (show S.Nonempty from ⟨_, θ, rfl⟩) (show sInf S < sInf S + ε / (2 * C) by
    have : 0 < ε / (2 * C) := by positivity
    linarith)
  obtain ⟨D, hD0, hD⟩ := hC ζ
  obtain ⟨N0, hN0⟩ := exists_nat_gt (D * (2 * C) / ε)
  refine ⟨N0 + 1, fun N hN => ?_⟩
  have hNpos : 0 < N := by omega
  have hN' : (0 : ℝ) < N := by exact_mod_cast hNpos
  have hNr : D * (2 * C) / ε < N := hN0.trans_le (by exact_mod_cast (by omega : N0 ≤ N))
  have h2 : D / N ≤ ε / (2 * C) := by
    rw [div_lt_iff₀ hε] at hNr
    rw [div_le_div_iff₀ hN' (by positivity)]
    linarith
  have h3 := hD N hNpos
  have h4 : C * (fitMean k n m vs ζ - sInf S + D / N) ≤ C * (ε / (2 * C) + ε / (2 * C)) := mul_le_mul_of_nonneg_left (by linarith) hC0.le
  have e : C * (ε / (2 * C) + ε / (2 * C)) = ε := by field_simp; ring
  have := hlo η
  linarith

/-- Softmax classifiers trained with either class learn every linearly separable data set. -/
theorem C122_learns (c : MomKind) (k : FitKind) (hk : k = .nll ∨ k = .cce) (n m : Nat) (θ : Theta) (l : FC ℝ) (h : l.IsFit k n m θ) (hkey : l.keyB ≠ l.keyW)
    (B : List (Ten ℝ × Ten ℝ)) (vs : List ((Nat → ℝ) × (Nat → ℝ))) (hv : BatchIs B n m vs) (hne : vs ≠ []) (hw : ∀ vw ∈ vs, ∃ c, Hot m vw.2 c) (hs : Separable n m vs)
    (lr mu : ℝ) (hlr : 0 < lr) (hmu : 0 ≤ mu) (hmu1 : mu < 1) (hr : c.Rate lr mu (meanSq n vs)) :
    ∃ N0 : Nat, ∀ N, N0 ≤ N → Ok (l.optFit c.upd (Mom.make lr mu) k.loss B N) (fun r =>
      ∀ (x y : Ten ℝ) (w : Nat → ℝ) (c : Nat), (x, y) ∈ B → VecIs y.data m w → Hot m w c →
        Ok (r.2.forward x) (fun l'' => ∃ p : Nat → ℝ, RowIs l''.value m p ∧ ∀ j, j < m → j ≠ c → p j < p c)) := by
  have hlen : 0 < vs.length := List.length_pos_iff.2 hne
  have hlen' : (0 : ℝ) < vs.length := by exact_mod_cast hlen
  have hm : 0 < m := by
    obtain ⟨c, hc⟩ := hw vs[0] (List.getElem_mem hlen)
    exact Nat.lt_of_le_of_lt (Nat.zero_le _) hc.1
  have hT : ∀ vw ∈ vs, k.Target m vw.2 := fun vw hvw => (target_hot hk (hw vw hvw)).1
  obtain ⟨P, _, hP, hlim⟩ := C122_limit c k n m hm θ l h hkey B vs hv hne hT (fun vw hvw j hj _ => (target_hot hk (hw vw hvw)).2 j hj) lr mu hlr hmu hmu1 hr
  obtain ⟨η, hη⟩ := hs
  obtain ⟨γ, hγ, hmar⟩ := margin η hη
  set ε : ℝ := Real.log 2 / (3 * vs.length) with hε
  have hε0 : 0 < ε := by have := Real.log_pos one_lt_two; positivity
  set r : ℝ := m / (ε * γ) with hr'
  have hr0 : 0 ≤ r := by positivity
  have hsmall : (m : ℝ) * Real.exp (-(r * γ)) ≤ ε := by
    have h1 : r * γ = m / ε := by rw [hr']; field_simp
    rw [h1, Real.exp_neg, ← div_eq_mul_inv, div_le_iff₀ (Real.exp_pos _)]
    have := Real.add_one_le_exp ((m : ℝ) / ε)
    have h2 : (m : ℝ) = ε * (m / ε) := by field_simp
    nlinarith
  set ζ : Theta := (fun j => r * η.1 j, fun i j => r * η.2 i j) with hζ
  have hζm : fitMean k n m vs ζ ≤ ε := by
    rw [fitMean_phi]
    have : (vs.map (fun vw => phi k m vw.2 (ζ.sums n vw.1))).sum ≤ vs.length * ε := listSum_le (fun vw hvw => by
      obtain ⟨c, hc⟩ := hw vw hvw
      have e : ζ.sums n vw.1 = fun j => r * η.sums n vw.1 j := by funext j; exact sums_smul n r η vw.1 j
      rw [e]
      exact (phi_scaled hk (hT vw hvw) hc hr0 (hmar vw hvw c hc)).trans hsmall)
    rw [one_div, inv_mul_le_iff₀ hlen']
    exact this
  obtain ⟨N0, hN0⟩ := hlim ζ ε hε0
  refine ⟨N0, fun N hN => (hP N).mono (fun s hl' => ?_)⟩
  have hmean := hN0 N hN
  have hsum : (vs.map (fun vw => phi k m vw.2 ((P N).sums n vw.1))).sum < Real.log 2 := by
    have h2 : fitMean k n m vs (P N) ≤ 2 * ε := by linarith
    rw [fitMean_phi, one_div, inv_mul_le_iff₀ hlen'] at h2
    have : (vs.length : ℝ) * (2 * ε) = 2 / 3 * Real.log 2 := by rw [hε]; field_simp
    have := Real.log_pos one_lt_two
    linarith
  intro x y w c hxy hy hc
  obtain ⟨vw, hvw, hx, hy'⟩ : ∃ vw ∈ vs, VecIs x.data n vw.1 ∧ VecIs y.data m vw.2 := by
    obtain ⟨i, hi, e⟩ := List.getElem_of_mem hxy
    have hl : B.length = vs.length := List.Forall₂.length_eq hv
    have := List.Forall₂.get hv hi (by omega)
    simp only [List.get_eq_getElem, e] at this
    exact ⟨_, List.getElem_mem _, this⟩
  have hc' : Hot m vw.2 c := ⟨hc.1, by rw [← (VecIs.unique hy hy').2 c hc.1]; exact hc.2.1, fun j hj hne => by
    rw [← (VecIs.unique hy hy').2 j hj]; exact hc.2.2 j hj hne⟩
  refine (FC.forward_spec hl'.1 (F := k.act.fn m) (D := k.act.D) (by rw [hl'.2]; exact k.act.obj_Is m hm) hx).mono (fun l2 ⟨_, hv2, _, _⟩ => ?_)
  rw [sums_eq] at hv2
  refine ⟨_, hv2, fun j hj hne => ?_⟩
  have hphi : phi k m vw.2 ((P N).sums n vw.1) < Real.log 2 :=
    (term_le_listSum (f := fun vw => phi k m vw.2 ((P N).sums n vw.1)) (fun v hv' => by
      obtain ⟨c', hc'⟩ := hw v hv'
      exact phi_nonneg hk (hT v hv') hc') vw hvw).trans_lt hsum
  have hz := phi_small hk (hT vw hvw) hc' hphi hj hne
  have hact : k.act = .softmax := by rcases hk with rfl | rfl <;> rfl
  rw [hact]
  show Real.exp _ / _ < Real.exp _ / _
  exact div_lt_div_of_pos_right (Real.exp_lt_exp.2 hz) (expSum_pos hm _)

/-! Non-vacuity. -/

/-- A new softmax layer learns the two samples of `ftTwo` with `Momentum(1/8, 1/2)` and with `Nestorov(1/2, 9/10)`; -/
example : (∃ N0 : Nat, ∀ N, N0 ≤ N → Ok ((ftLayer .nll 1 2).optFit momUpdate (Mom.make (1 / 8) (1 / 2)) Losses.NLL (ftBatch 1 2 ftTwo) N) (fun r =>
      ∀ (x y : Ten ℝ) (w : Nat → ℝ) (c : Nat), (x, y) ∈ ftBatch 1 2 ftTwo → VecIs y.data 2 w → Hot 2 w c →
        Ok (r.2.forward x) (fun l'' => ∃ p : Nat → ℝ, RowIs l''.value 2 p ∧ ∀ j, j < 2 → j ≠ c → p j < p c))) ∧
    ∃ N0 : Nat, ∀ N, N0 ≤ N → Ok ((ftLayer .cce 1 2).optFit nesUpdate (Mom.make (1 / 2) (9 / 10)) Losses.CCE (ftBatch 1 2 ftTwo) N) (fun r =>
      ∀ (x y : Ten ℝ) (w : Nat → ℝ) (c : Nat), (x, y) ∈ ftBatch 1 2 ftTwo → VecIs y.data 2 w → Hot 2 w c →
        Ok (r.2.forward x) (fun l'' => ∃ p : Nat → ℝ, RowIs l''.value 2 p ∧ ∀ j, j < 2 → j ≠ c → p j < p c)) :=
  ⟨C122_learns .momentum .nll (.inl rfl) 1 2 _ _ (ftLayer_IsFit _ _ _) Nat.zero_ne_one _ _ (ftBatch_Is _ _ _) (by simp [ftTwo]) ftTwo_hot ftTwo_sep (1 / 8) (1 / 2)
    (by norm_num) (by norm_num) (by norm_num) (by show _ * _ < _; rw [ftTwo_sq]; norm_num),
   C122_learns .nestorov .cce (.inr rfl) 1 2 _ _ (ftLayer_IsFit _ _ _) Nat.zero_ne_one _ _ (ftBatch_Is _ _ _) (by simp [ftTwo]) ftTwo_hot ftTwo_sep (1 / 2) (9 / 10)
    (by norm_num) (by norm_num) (by norm_num) (by show _ * _ ≤ _; rw [ftTwo_sq]; norm_num)⟩

/-- a neuron with `MSE` learns that the answer is 3 (the optimum, with loss 0, is attained). -/
example (N : Nat) (hN : 0 < N) :
    Ok ((ftLayer .mse 1 1).optFit momUpdate (Mom.make (1 / 4) (1 / 2)) Losses.MSE (ftBatch 1 1 [(fun _ => 0, fun _ => 3)]) N) (fun r => ∃ θ', r.2.IsFit .mse 1 1 θ' ∧
      (1 - 1 / 4 * meanSq 1 [(fun _ => 0, fun _ => 3)] / (1 - 1 / 2)) * (fitMean .mse 1 1 [(fun _ => 0, fun _ => 3)] θ' -
          fitMean .mse 1 1 [(fun _ => 0, fun _ => 3)] (fun _ => 3, fun _ _ => 0)) ≤
        ((1 - 1 / 2) / (2 * (1 / 4)) * Theta.dist2 1 1 (fun _ => 0, fun _ _ => 0) (fun _ => 3, fun _ _ => 0) +
          2 * (1 / 2) / (1 - 1 / 2) * (fitMean .mse 1 1 [(fun _ => 0, fun _ => 3)] (fun _ => 0, fun _ _ => 0) -
            fitMean .mse 1 1 [(fun _ => 0, fun _ => 3)] (fun _ => 3, fun _ _ => 0))) / N) :=
  C122_momentum .mse 1 1 one_pos _ _ (ftLayer_IsFit _ _ _) Nat.zero_ne_one _ _ (ftBatch_Is _ _ _) (by simp) (fun _ _ => trivial) (1 / 4) (1 / 2) (by norm_num) (by norm_num)
    (by norm_num [meanSq]) _ (fun ζ => by
      simp [fitMean, FitKind.fn, FitKind.act, LibAct.fn, ActKind.fn, mseFn, Theta.sums]
      positivity) N hN

end Trixy
