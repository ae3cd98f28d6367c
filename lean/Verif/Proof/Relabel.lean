import Verif.Spec.Relabel
import Verif.Proof.Rescale
import Verif.Props.Order
/- Two training objects, one with the units of the other renamed. -/
namespace Trixy
set_option linter.unusedSectionVars false
open Finset

variable {α σ : Type}

/-- Cell `i` of the first array is cell `e i` of the second. -/
def BufRenamed (n : Nat) (e : Nat → Nat) (p q : Buf α) : Prop := ∃ f g, VecIs p n f ∧ VecIs q n g ∧ Renamed n e f g

/-- Where cell `(i, j)` of a matrix with `m` columns goes, in memory order. -/
def cellMove (m : Nat) (ρ τ : Nat → Nat) (x : Nat) : Nat := ρ (x / m) * m + τ (x % m)

/-- `Q k₁ k₂ n e`: the array of `n` elements at `k₁` corresponds to the array at `k₂`, renamed by `e`. -/
abbrev Pairing := Nat → Nat → Nat → (Nat → Nat) → Prop

structure Pairing.Exact (Q : Pairing) : Prop where
  one : ∀ {a b n e a' b' n' e'}, Q a b n e → Q a' b' n' e' → (a = a' ↔ b = b')
  same : ∀ {a b n e b' n' e'}, Q a b n e → Q a b' n' e' → n = n' ∧ e = e'

/-- Optimizers that treat the elements of an array alike. -/
def RenameOpt (upd : Upd σ α) (Q : Pairing) (S : σ → σ → Prop) : Prop :=
  ∀ s₁ s₂ k₁ k₂ n e p₁ p₂ g₁ g₂, S s₁ s₂ → Q k₁ k₂ n e → BufRenamed n e p₁ p₂ → BufRenamed n e g₁ g₂ →
    ∃ s₁' s₂' p₁' p₂' h₁ h₂, upd s₁ k₁ p₁ g₁ = .ok (s₁', p₁', h₁) ∧ upd s₂ k₂ p₂ g₂ = .ok (s₂', p₂', h₂) ∧ S s₁' s₂' ∧
      BufRenamed n e p₁' p₂' ∧ Full h₁ n ∧ Full h₂ n

/-- The second gradient is the first, renamed. -/
def GradRenamed (n m : Nat) (ρ τ : Nat → Nat) (g h : Grad α) : Prop :=
  Renamed m τ g.1 h.1 ∧ ∀ i j, i < n → j < m → h.2 (ρ i) (τ j) = g.2 i j

def GradsRenamed : (Nat → Nat → Nat) → List (Dense α) → List (Grad α) → List (Grad α) → Prop
  | _, [], [], [] => True
  | e, p :: ps, g :: gs, h :: hs => GradRenamed p.n p.m (e 0) (e 1) g h ∧ GradsRenamed (fun k => e (k + 1)) ps gs hs
  | _, _, _, _ => False

/-! ### Forward and backward -/

section
variable [Field α]

theorem affine_renamed {ρ τ : Nat → Nat} {p q : Dense α} (h : p.Renamed ρ τ q) {v w : Nat → α} (hv : Renamed p.n ρ v w) :
    Renamed p.m τ (affine p.n p.W p.b v) (affine q.n q.W q.b w) := by
  intro j hj
  unfold affine
  rw [foldSum_zero_eq, foldSum_zero_eq, h.n, h.b j hj, ← h.ins.sum (fun i => w i * q.W i (τ j))]
  refine congrArg (· + _) (Finset.sum_congr rfl (fun i hi => ?_))
  rw [hv i (mem_range.1 hi), h.W i j (mem_range.1 hi) hj]

theorem out_renamed {ρ τ : Nat → Nat} {p q : Dense α} (h : p.Renamed ρ τ q) {v w : Nat → α} (hv : Renamed p.n ρ v w) :
    Renamed p.m τ (p.out v) (q.out w) := h.F _ _ (affine_renamed h hv)

theorem netOut_renamed : ∀ {e : Nat → Nat → Nat} {ps qs : List (Dense α)} {n m : Nat}, NetRenamed e ps qs → Chain n ps m →
    ∀ {v w : Nat → α}, Renamed n (e 0) v w → Renamed m (e ps.length) (netOut ps v) (netOut qs w)
  | _, [], [], _, _, _, hc, _, _, hv => by cases hc; exact hv
  | _, [], _ :: _, _, _, h, _, _, _, _ => h.elim
  | _, _ :: _, [], _, _, h, _, _, _, _ => h.elim
  | e, p :: ps, q :: qs, n, m, h, hc, v, w, hv => by
    obtain ⟨rfl, hc⟩ := hc
    exact netOut_renamed (e := fun k => e (k + 1)) h.2 hc (out_renamed h.1 hv)

theorem grad_renamed {ρ τ : Nat → Nat} {p q : Dense α} (h : p.Renamed ρ τ q) {v w u z : Nat → α} (hv : Renamed p.n ρ v w)
    (hu : Renamed p.m τ u z) : GradRenamed p.n p.m ρ τ (p.grad v u) (q.grad w z) := by
  have k := h.D _ _ (affine_renamed h hv)
  refine ⟨fun j hj => ?_, fun i j hi hj => ?_⟩
  · show q.D _ (τ j) * z (τ j) = p.D _ j * u j
    rw [k j hj, hu j hj]
  · show w (ρ i) * (q.D _ (τ j) * z (τ j)) = v i * (p.D _ j * u j)
    rw [k j hj, hu j hj, hv i hi]

theorem back_renamed {ρ τ : Nat → Nat} {p q : Dense α} (h : p.Renamed ρ τ q) {v w u z : Nat → α} (hv : Renamed p.n ρ v w)
    (hu : Renamed p.m τ u z) : Renamed p.n ρ (p.back v u) (q.back w z) := by
  have k := h.D _ _ (affine_renamed h hv)
  intro i hi
  unfold Dense.back
  rw [foldSum_zero_eq, foldSum_zero_eq, h.m, ← h.outs.sum (fun j => q.W (ρ i) j * (q.D (affine q.n q.W q.b w) j * z j))]
  refine Finset.sum_congr rfl (fun j hj => ?_)
  have hj := mem_range.1 hj
  rw [h.W i j hi hj, k j hj, hu j hj]

theorem netBack_renamed : ∀ {e : Nat → Nat → Nat} {ps qs : List (Dense α)} {n m : Nat}, NetRenamed e ps qs → Chain n ps m →
    ∀ {v w u z : Nat → α}, Renamed n (e 0) v w → Renamed m (e ps.length) u z → Renamed n (e 0) (netBack ps v u) (netBack qs w z)
  | _, [], [], _, _, _, hc, _, _, _, _, _, hu => by cases hc; exact hu
  | _, [], _ :: _, _, _, h, _, _, _, _, _, _, _ => h.elim
  | _, _ :: _, [], _, _, h, _, _, _, _, _, _, _ => h.elim
  | e, p :: ps, q :: qs, n, m, h, hc, v, w, u, z, hv, hu => by
    obtain ⟨rfl, hc⟩ := hc
    exact back_renamed h.1 hv (netBack_renamed (e := fun k => e (k + 1)) h.2 hc (out_renamed h.1 hv) hu)

theorem netGrads_renamed : ∀ {e : Nat → Nat → Nat} {ps qs : List (Dense α)} {n m : Nat}, NetRenamed e ps qs → Chain n ps m →
    ∀ {v w u z : Nat → α}, Renamed n (e 0) v w → Renamed m (e ps.length) u z → GradsRenamed e ps (netGrads ps v u) (netGrads qs w z)
  | _, [], [], _, _, _, _, _, _, _, _, _, _ => trivial
  | _, [], _ :: _, _, _, h, _, _, _, _, _, _, _ => h.elim
  | _, _ :: _, [], _, _, h, _, _, _, _, _, _, _ => h.elim
  | e, p :: ps, q :: qs, n, m, h, hc, v, w, u, z, hv, hu => by
    obtain ⟨rfl, hc⟩ := hc
    have ho := out_renamed h.1 hv
    exact ⟨grad_renamed h.1 hv (netBack_renamed (e := fun k => e (k + 1)) h.2 hc ho hu),
      netGrads_renamed (e := fun k => e (k + 1)) h.2 hc ho hu⟩

theorem sampleGrads_renamed {e : Nat → Nat → Nat} {ps qs : List (Dense α)} {n m : Nat} (h : NetRenamed e ps qs) (hc : Chain n ps m)
    {dL dL' : (Nat → α) → (Nat → α) → Nat → α} (hl : LossRenamed m (e ps.length) dL dL') {a b : (Nat → α) × (Nat → α)}
    (hab : Renamed n (e 0) a.1 b.1 ∧ Renamed m (e ps.length) a.2 b.2) : GradsRenamed e ps (sampleGrads dL ps a) (sampleGrads dL' qs b) :=
  netGrads_renamed h hc hab.1 (hl _ _ _ _ hab.2 (netOut_renamed h hc hab.1))

theorem GradsRenamed.add : ∀ {e : Nat → Nat → Nat} {ps : List (Dense α)} {gs hs gs' hs' : List (Grad α)}, GradsRenamed e ps gs hs →
    GradsRenamed e ps gs' hs' → GradsRenamed e ps (List.zipWith addGrad gs gs') (List.zipWith addGrad hs hs')
  | _, [], [], [], [], [], _, _ => trivial
  | e, p :: ps, g :: gs, h :: hs, g' :: gs', h' :: hs', k, k' => by
    refine ⟨⟨fun j hj => ?_, fun i j hi hj => ?_⟩, GradsRenamed.add (e := fun k => e (k + 1)) k.2 k'.2⟩
    · show h.1 _ + h'.1 _ = g.1 j + g'.1 j
      rw [k.1.1 j hj, k'.1.1 j hj]
    · show h.2 _ _ + h'.2 _ _ = g.2 i j + g'.2 i j
      rw [k.1.2 i j hi hj, k'.1.2 i j hi hj]

theorem zero_renamed : ∀ {e : Nat → Nat → Nat} {ps qs : List (Dense α)}, NetRenamed e ps qs →
    GradsRenamed e ps (ps.map (fun _ => zeroGrad)) (qs.map (fun _ => zeroGrad))
  | _, [], [], _ => trivial
  | _, [], _ :: _, h => h.elim
  | _, _ :: _, [], h => h.elim
  | e, p :: ps, q :: qs, h => ⟨⟨fun _ _ => rfl, fun _ _ _ _ => rfl⟩, zero_renamed (e := fun k => e (k + 1)) h.2⟩

theorem gradSum_renamed {e : Nat → Nat → Nat} {ps qs : List (Dense α)} {n m : Nat} (h : NetRenamed e ps qs) (hc : Chain n ps m)
    {dL dL' : (Nat → α) → (Nat → α) → Nat → α} (hl : LossRenamed m (e ps.length) dL dL') {vs ws : List ((Nat → α) × (Nat → α))}
    (hv : List.Forall₂ (fun a b : (Nat → α) × (Nat → α) => Renamed n (e 0) a.1 b.1 ∧ Renamed m (e ps.length) a.2 b.2) vs ws) :
    GradsRenamed e ps (gradSum dL ps vs) (gradSum dL' qs ws) := by
  unfold gradSum
  have : ∀ {x y : List (Grad α)}, GradsRenamed e ps x y → GradsRenamed e ps
      (vs.foldl (fun acc vw => List.zipWith addGrad acc (sampleGrads dL ps vw)) x)
      (ws.foldl (fun acc vw => List.zipWith addGrad acc (sampleGrads dL' qs vw)) y) := by
    induction hv with
    | nil => intro x y h; exact h
    | cons hab _ ih => intro x y hxy; exact ih (hxy.add (sampleGrads_renamed h hc hl hab))
  exact this (zero_renamed h)

end

/-! ### One update -/

/-- Layers that correspond to each other. -/
structure StRenamed (Q : Pairing) (ρ τ : Nat → Nat) (a b : DSt α) : Prop where
  p : a.p.Renamed ρ τ b.p
  kB : Q a.kB b.kB a.p.m τ
  kW : Q a.kW b.kW (a.p.n * a.p.m) (cellMove a.p.m ρ τ)

def StsRenamed (Q : Pairing) : (Nat → Nat → Nat) → List (DSt α) → List (DSt α) → Prop
  | _, [], [] => True
  | e, a :: A, b :: B => StRenamed Q (e 0) (e 1) a b ∧ StsRenamed Q (fun k => e (k + 1)) A B
  | _, _, _ => False

theorem StsRenamed.net {Q : Pairing} : ∀ {e : Nat → Nat → Nat} {A B : List (DSt α)}, StsRenamed Q e A B → NetRenamed e (A.map (·.p)) (B.map (·.p))
  | _, [], [], _ => trivial
  | _, [], _ :: _, h => h.elim
  | _, _ :: _, [], h => h.elim
  | e, a :: A, b :: B, h => ⟨h.1.p, StsRenamed.net (e := fun k => e (k + 1)) h.2⟩

theorem StsRenamed.length {Q : Pairing} : ∀ {e : Nat → Nat → Nat} {A B : List (DSt α)}, StsRenamed Q e A B → A.length = B.length
  | _, [], [], _ => rfl
  | _, [], _ :: _, h => h.elim
  | _, _ :: _, [], h => h.elim
  | e, a :: A, b :: B, h => congrArg (· + 1) (StsRenamed.length (e := fun k => e (k + 1)) h.2)

/-- Only parameters and addresses matter. -/
theorem StsRenamed.of_maps {Q : Pairing} : ∀ {e : Nat → Nat → Nat} {A B A' B' : List (DSt α)}, StsRenamed Q e A B →
    A'.map (fun a => (a.p, a.kB, a.kW)) = A.map (fun a => (a.p, a.kB, a.kW)) →
    B'.map (fun a => (a.p, a.kB, a.kW)) = B.map (fun a => (a.p, a.kB, a.kW)) → StsRenamed Q e A' B'
  | _, [], [], A', B', _, h1, h2 => by
    rw [List.map_nil, List.map_eq_nil_iff] at h1 h2
    subst h1 h2; trivial
  | _, [], _ :: _, _, _, h, _, _ => h.elim
  | _, _ :: _, [], _, _, h, _, _ => h.elim
  | e, a :: A, b :: B, [], _, _, h1, _ => by simp at h1
  | e, a :: A, b :: B, _, [], _, _, h2 => by simp at h2
  | e, a :: A, b :: B, a' :: A', b' :: B', h, h1, h2 => by
    rw [List.map_cons, List.map_cons] at h1 h2
    injection h1 with h1 h1'
    injection h2 with h2 h2'
    simp only [Prod.mk.injEq] at h1 h2
    refine ⟨⟨?_, ?_, ?_⟩, StsRenamed.of_maps (e := fun k => e (k + 1)) h.2 h1' h2'⟩
    · rw [h1.1, h2.1]; exact h.1.p
    · rw [h1.1, h1.2.1, h2.2.1]; exact h.1.kB
    · rw [h1.1, h1.2.2, h2.2.2]; exact h.1.kW

section
variable [Field α] [DecidableEq α] {upd : Upd σ α} {Q : Pairing} {S : σ → σ → Prop}

theorem scaled_renamed (alpha : α) {n : Nat} {e : Nat → Nat} {g h : Buf α} (hg : BufRenamed n e g h) :
    ∃ g' h', scaleUnlessOne alpha g = .ok g' ∧ scaleUnlessOne alpha h = .ok h' ∧ BufRenamed n e g' h' := by
  obtain ⟨f, f', h1, h2, h3⟩ := hg
  obtain ⟨g', e1, q1⟩ := scaleUnlessOne_vec alpha h1
  obtain ⟨h', e2, q2⟩ := scaleUnlessOne_vec alpha h2
  exact ⟨g', h', e1, e2, _, _, q1, q2, fun i hi => by rw [h3 i hi]⟩

theorem mat_renamed {M N : Mat α} {n m : Nat} {f g : Nat → Nat → α} (h1 : MatIs M n m f) (h2 : MatIs N n m g) {ρ τ : Nat → Nat}
    (ht : Reorders m τ) (h : ∀ i j, i < n → j < m → g (ρ i) (τ j) = f i j) : BufRenamed (n * m) (cellMove m ρ τ) M.data N.data := by
  refine ⟨_, _, h1.flat, h2.flat, fun x hx => ?_⟩
  have hm : 0 < m := Nat.pos_of_mul_pos_left (Nat.zero_lt_of_lt hx)
  have k1 : x / m < n := Nat.div_lt_of_lt_mul (by rwa [Nat.mul_comm])
  have k2 := Nat.mod_lt x hm
  have k3 := ht.maps k2
  dsimp only
  unfold cellMove
  rw [Nat.add_comm, Nat.add_mul_div_right _ _ hm, Nat.div_eq_of_lt k3, Nat.zero_add, Nat.add_mul_mod_self_right, Nat.mod_eq_of_lt k3]
  exact h _ _ k1 k2

theorem renamed_mat {n m : Nat} {ρ τ : Nat → Nat} {f g : Nat → α} (h : Renamed (n * m) (cellMove m ρ τ) f g) :
    ∀ i j, i < n → j < m → g (ρ i * m + τ j) = f (i * m + j) := by
  intro i j hi hj
  have := h (i * m + j) (idx2_lt hi hj)
  unfold cellMove at this
  have hm : 0 < m := Nat.zero_lt_of_lt hj
  rwa [show (i * m + j) / m = i by rw [Nat.add_comm, Nat.add_mul_div_right _ _ hm, Nat.div_eq_of_lt hj, Nat.zero_add],
    show (i * m + j) % m = j by rw [Nat.add_comm, Nat.add_mul_mod_self_right, Nat.mod_eq_of_lt hj]] at this

theorem FC.updateWith_renamed (ho : RenameOpt upd Q S) {f₁ f₂ : FC α} {n m : Nat} {b b₂ : Nat → α} {W W₂ : Nat → Nat → α} (w1 : f₁.Wf n m b W)
    (w2 : f₂.Wf n m b₂ W₂) {ρ τ : Nat → Nat} (ht : Reorders m τ) (hb : Renamed m τ b b₂) (hW : ∀ i j, i < n → j < m → W₂ (ρ i) (τ j) = W i j)
    (kB : Q f₁.keyB f₂.keyB m τ) (kW : Q f₁.keyW f₂.keyW (n * m) (cellMove m ρ τ)) {G₁ G₂ : Buf α}
    {H₁ H₂ : Mat α} {g h : Grad α} (h1 : VecIs G₁ m g.1) (h2 : MatIs H₁ n m g.2) (h3 : VecIs G₂ m h.1) (h4 : MatIs H₂ n m h.2)
    {s₁ s₂ : σ} (hs : S s₁ s₂) (a : α) (hg : GradRenamed n m ρ τ g h) :
    ∃ s₁' s₂' B₁ B₂ V₁ V₂ X₁ X₂ Y₁ Y₂, FC.updateWith upd s₁ a f₁ G₁ H₁ = .ok (s₁', B₁, X₁, V₁, Y₁) ∧
      FC.updateWith upd s₂ a f₂ G₂ H₂ = .ok (s₂', B₂, X₂, V₂, Y₂) ∧ S s₁' s₂' ∧
      (∃ b' b₂', VecIs B₁ m b' ∧ VecIs B₂ m b₂' ∧ Renamed m τ b' b₂') ∧
      (∃ w' w₂', MatIs { f₁.W with data := V₁ } n m w' ∧ MatIs { f₂.W with data := V₂ } n m w₂' ∧
        ∀ i j, i < n → j < m → w₂' (ρ i) (τ j) = w' i j) ∧ (∃ g', VecIs X₁ m g') ∧ (∃ g', VecIs X₂ m g') ∧
      (∃ w', MatIs { H₁ with data := Y₁ } n m w') ∧ (∃ w', MatIs { H₂ with data := Y₂ } n m w') := by
  obtain ⟨x1, x3, e1, e3, q1⟩ := scaled_renamed a (n := m) (e := τ) ⟨_, _, h1, h3, hg.1⟩
  obtain ⟨x2, x4, e2, e4, q2⟩ := scaled_renamed a (mat_renamed h2 h4 ht hg.2)
  obtain ⟨s1, s2, p1, p2, y1, y2, u1, u2, hs, P, Y1, Y2⟩ := ho s₁ s₂ f₁.keyB f₂.keyB m τ f₁.B f₂.B x1 x3 hs kB ⟨_, _, w1.B, w2.B, hb⟩ q1
  obtain ⟨s3, s4, p3, p4, y3, y4, u3, u4, hs, ⟨w', w₂', hw', hw₂', hww⟩, ⟨z1, Z1⟩, ⟨z2, Z2⟩⟩ :=
    ho s1 s2 f₁.keyW f₂.keyW (n * m) (cellMove m ρ τ) f₁.W.data f₂.W.data x2 x4 hs kW (mat_renamed w1.W w2.W ht hW) q2
  refine ⟨s3, s4, p1, p2, p3, p4, y1, y2, y3, y4, ?_, ?_, hs, P,
    ⟨_, _, MatIs.of_flat' (m := { f₁.W with data := p3 }) w1.W.1 w1.W.2.1 hw', MatIs.of_flat' (m := { f₂.W with data := p4 }) w2.W.1 w2.W.2.1 hw₂',
      renamed_mat hww⟩, Y1, Y2,
    ⟨_, MatIs.of_flat' (m := { H₁ with data := y3 }) h2.1 h2.2.1 Z1⟩,
    ⟨_, MatIs.of_flat' (m := { H₂ with data := y4 }) h4.1 h4.2.1 Z2⟩⟩
  · unfold FC.updateWith
    rw [e1, bind_ok, e2, bind_ok, u1, bind_ok]; dsimp only
    rw [u3, bind_ok]; rfl
  · unfold FC.updateWith
    rw [e3, bind_ok, e4, bind_ok, u2, bind_ok]; dsimp only
    rw [u4, bind_ok]; rfl

theorem FC.update_renamed (ho : RenameOpt upd Q S) {f₁ f₂ : FC α} {a b : DSt α} (h₁ : f₁.At a) (h₂ : f₂.At b) {ρ τ : Nat → Nat}
    (ht : StRenamed Q ρ τ a b) (alpha : α) (ha : GradRenamed a.p.n a.p.m ρ τ a.used b.used) (cc : a.acc = b.acc) {s₁ s₂ : σ} (hs : S s₁ s₂) :
    ∃ r₁ r₂, f₁.update upd s₁ alpha = .ok r₁ ∧ f₂.update upd s₂ alpha = .ok r₂ ∧ S r₁.1 r₂.1 ∧
      ∃ a' b', r₁.2.At a' ∧ r₂.2.At b' ∧ StRenamed Q ρ τ a' b' ∧ a'.p.n = a.p.n ∧ a'.p.m = a.p.m ∧ a'.acc = a.acc ∧ b'.acc = b.acc := by
  obtain ⟨⟨n, m, bb, W, F, D⟩, ga, aa, ca, k1, k2⟩ := a
  obtain ⟨⟨n₂, m₂, bb₂, W₂, F₂, D₂⟩, gb, ab, cb, k3, k4⟩ := b
  obtain ⟨⟨e1, e2, pin, pout, pb, pW, pF, pD⟩, qB, qW⟩ := ht
  dsimp only at cc e1 e2 pin pout pb pW pF pD qB qW
  subst cc e1 e2
  have w1 := h₁.wf; have w2 := h₂.wf
  have a1 := h₁.acc; have a2 := h₂.acc
  have kB1 := h₁.kB; have kW1 := h₁.kW; have kB2 := h₂.kB; have kW2 := h₂.kW
  dsimp only at kB1 kW1 kB2 kW2 a1 a2 w1 w2
  have K1 : Q f₁.keyB f₂.keyB m₂ τ := by rw [kB1, kB2]; exact qB
  have K2 : Q f₁.keyW f₂.keyW (n₂ * m₂) (cellMove m₂ ρ τ) := by rw [kW1, kW2]; exact qW
  cases ca with
  | true =>
    have ha : GradRenamed n₂ m₂ ρ τ aa ab := ha
    obtain ⟨s1, s2, B₁, B₂, V₁, V₂, X₁, X₂, Y₁, Y₂, u1, u2, hs, ⟨b', b₂', hb, hb₂, hbb⟩, ⟨w', w₂', hw, hw₂, hww⟩, ⟨g1, hg1⟩, ⟨g2, hg2⟩,
        ⟨x1, hx1⟩, ⟨x2, hx2⟩⟩ :=
      FC.updateWith_renamed ho w1 w2 pout pb pW K1 K2 h₁.aB h₁.aW h₂.aB h₂.aW hs alpha ha
    refine ⟨(s1, { f₁ with B := B₁, gradBs := X₁, W := { f₁.W with data := V₁ }, gradWs := { f₁.gradWs with data := Y₁ } }),
      (s2, { f₂ with B := B₂, gradBs := X₂, W := { f₂.W with data := V₂ }, gradWs := { f₂.gradWs with data := Y₂ } }),
      ?_, ?_, hs, ⟨⟨n₂, m₂, b', w', F, D⟩, ga, (g1, x1), true, k1, k2⟩, ⟨⟨n₂, m₂, b₂', w₂', F₂, D₂⟩, gb, (g2, x2), true, k3, k4⟩,
      ⟨?_, h₁.act, h₁.gB, h₁.gW, hg1, hx1, a1, kB1, kW1⟩, ⟨?_, h₂.act, h₂.gB, h₂.gW, hg2, hx2, a2, kB2, kW2⟩,
      ⟨⟨rfl, rfl, pin, pout, hbb, hww, pF, pD⟩, qB, qW⟩, rfl, rfl, rfl, rfl⟩
    · unfold FC.update
      rw [if_pos a1, u1, bind_ok]; rfl
    · unfold FC.update
      rw [if_pos a2, u2, bind_ok]; rfl
    · exact { w1 with B := hb, W := hw, gradBs := ⟨_, hg1⟩, gradWs := ⟨_, hx1⟩ }
    · exact { w2 with B := hb₂, W := hw₂, gradBs := ⟨_, hg2⟩, gradWs := ⟨_, hx2⟩ }
  | false =>
    have ha : GradRenamed n₂ m₂ ρ τ ga gb := ha
    obtain ⟨s1, s2, B₁, B₂, V₁, V₂, X₁, X₂, Y₁, Y₂, u1, u2, hs, ⟨b', b₂', hb, hb₂, hbb⟩, ⟨w', w₂', hw, hw₂, hww⟩, ⟨g1, hg1⟩, ⟨g2, hg2⟩,
        ⟨x1, hx1⟩, ⟨x2, hx2⟩⟩ :=
      FC.updateWith_renamed ho w1 w2 pout pb pW K1 K2 h₁.gB h₁.gW h₂.gB h₂.gW hs alpha ha
    refine ⟨(s1, { f₁ with B := B₁, gradB := X₁, W := { f₁.W with data := V₁ }, gradW := { f₁.gradW with data := Y₁ } }),
      (s2, { f₂ with B := B₂, gradB := X₂, W := { f₂.W with data := V₂ }, gradW := { f₂.gradW with data := Y₂ } }),
      ?_, ?_, hs, ⟨⟨n₂, m₂, b', w', F, D⟩, (g1, x1), aa, false, k1, k2⟩, ⟨⟨n₂, m₂, b₂', w₂', F₂, D₂⟩, (g2, x2), ab, false, k3, k4⟩,
      ⟨?_, h₁.act, hg1, hx1, h₁.aB, h₁.aW, a1, kB1, kW1⟩, ⟨?_, h₂.act, hg2, hx2, h₂.aB, h₂.aW, a2, kB2, kW2⟩,
      ⟨⟨rfl, rfl, pin, pout, hbb, hww, pF, pD⟩, qB, qW⟩, rfl, rfl, rfl, rfl⟩
    · unfold FC.update
      rw [if_neg (by rw [a1]; simp), u1, bind_ok]; rfl
    · unfold FC.update
      rw [if_neg (by rw [a2]; simp), u2, bind_ok]; rfl
    · exact { w1 with B := hb, W := hw, gradB := ⟨_, hg1⟩, gradW := ⟨_, hx1⟩ }
    · exact { w2 with B := hb₂, W := hw₂, gradB := ⟨_, hg2⟩, gradW := ⟨_, hx2⟩ }

theorem eachM_renamed (ho : RenameOpt upd Q S) (alpha : α) : ∀ {e : Nat → Nat → Nat} {A B : List (DSt α)} {net₁ net₂ : Net α} {s₁ s₂ : σ},
    net₁.At A → net₂.At B → StsRenamed Q e A B → GradsRenamed e (A.map (·.p)) (A.map DSt.used) (B.map DSt.used) →
    A.map (·.acc) = B.map (·.acc) → S s₁ s₂ →
    ∃ r₁ r₂, eachM (fun s (l : Layer α) => l.update upd s alpha) s₁ net₁ = .ok r₁ ∧ eachM (fun s (l : Layer α) => l.update upd s alpha) s₂ net₂ = .ok r₂ ∧ S r₁.1 r₂.1 ∧
      ∃ A' B', Net.At r₁.2 A' ∧ Net.At r₂.2 B' ∧ StsRenamed Q e A' B' ∧
        A'.map (fun a => (a.p.n, a.p.m)) = A.map (fun a => (a.p.n, a.p.m)) ∧ A'.map (·.acc) = A.map (·.acc) ∧ B'.map (·.acc) = B.map (·.acc)
  | e, [], [], _, _, _, _, h₁, h₂, _, _, _, hs => by
    cases h₁; cases h₂
    exact ⟨_, _, rfl, rfl, hs, [], [], .nil, .nil, trivial, rfl, rfl, rfl⟩
  | _, [], _ :: _, _, _, _, _, _, _, h, _, _, _ => h.elim
  | _, _ :: _, [], _, _, _, _, _, _, h, _, _, _ => h.elim
  | e, a :: A, b :: B, net₁, net₂, s₁, s₂, h₁, h₂, hab, ha, hc, hs => by
    cases h₁ with
    | cons l₁ h₁ =>
    cases h₂ with
    | cons l₂ h₂ =>
    obtain ⟨f₁, rfl, k₁⟩ := l₁
    obtain ⟨f₂, rfl, k₂⟩ := l₂
    rw [List.map_cons, List.map_cons] at hc
    injection hc with hc hc'
    obtain ⟨r₁, r₂, e₁, e₂, hs, a', b', q₁, q₂, q, n1, n2, n3, n4⟩ := FC.update_renamed ho k₁ k₂ hab.1 alpha ha.1 hc hs
    obtain ⟨t₁, t₂, e₃, e₄, hs, A', B', Q₁, Q₂, Q, N, N1, N2⟩ := eachM_renamed ho alpha (e := fun k => e (k + 1)) h₁ h₂ hab.2 ha.2 hc' hs
    refine ⟨(t₁.1, .fc r₁.2 :: t₁.2), (t₂.1, .fc r₂.2 :: t₂.2), ?_, ?_, hs, a' :: A', b' :: B', .cons ⟨_, rfl, q₁⟩ Q₁,
      .cons ⟨_, rfl, q₂⟩ Q₂, ⟨q, Q⟩, by rw [List.map_cons, List.map_cons, N, n1, n2], by rw [List.map_cons, List.map_cons, N1, n3],
      by rw [List.map_cons, List.map_cons, N2, n4]⟩
    · have : Layer.update upd s₁ alpha (.fc f₁) = .ok (r₁.1, .fc r₁.2) := by
        show (FC.update upd s₁ alpha f₁ >>= _) = _
        rw [e₁]; rfl
      unfold eachM
      rw [this, bind_ok]; dsimp only
      rw [e₃, bind_ok]; rfl
    · have : Layer.update upd s₂ alpha (.fc f₂) = .ok (r₂.1, .fc r₂.2) := by
        show (FC.update upd s₂ alpha f₂ >>= _) = _
        rw [e₂]; rfl
      unfold eachM
      rw [this, bind_ok]; dsimp only
      rw [e₄, bind_ok]; rfl

end

/-! ### Lockstep training -/

section
variable [Field α] [LT α] [DecidableLT α] [DecidableEq α] {upd : Upd σ α} {Q : Pairing} {S : σ → σ → Prop}

/-- Two training objects, one the renaming of the other, with corresponding optimizer states. -/
def RenamedT (Q : Pairing) (S : σ → σ → Prop) (e : Nat → Nat → Nat) (n m : Nat) (dL dL' : (Nat → α) → (Nat → α) → Nat → α) (L : Nat)
    (clean : Bool) (x y : σ × Train α) : Prop :=
  S x.1 y.1 ∧ ∃ A B : List (DSt α), x.2.At A n m dL ∧ y.2.At B n m dL' ∧ StsRenamed Q e A B ∧ A.length = L ∧
    (clean = true → (∀ a ∈ A, a.acc = false) ∧ ∀ b ∈ B, b.acc = false)

theorem NetRenamed.chain : ∀ {e : Nat → Nat → Nat} {ps qs : List (Dense α)} {n m : Nat}, NetRenamed e ps qs → Chain n ps m → Chain n qs m
  | _, [], [], _, _, _, hc => hc
  | _, [], _ :: _, _, _, h, _ => h.elim
  | _, _ :: _, [], _, _, h, _ => h.elim
  | e, p :: ps, q :: qs, n, m, h, hc => by
    refine ⟨h.1.n.trans hc.1, ?_⟩
    rw [h.1.m]
    exact NetRenamed.chain (e := fun k => e (k + 1)) h.2 hc.2

/-- One averaged step on two windows of samples that correspond to each other. -/
theorem RenamedT.step (ho : RenameOpt upd Q S) {e : Nat → Nat → Nat} {n m : Nat} {dL dL' : (Nat → α) → (Nat → α) → Nat → α} {L : Nat}
    (hl : LossRenamed m (e L) dL dL') {cl : Bool} {x y : σ × Train α}
    (h : RenamedT Q S e n m dL dL' L cl x y) {idata odata : List (Ten α)} {vs : List ((Nat → α) × (Nat → α))} (hd : DataIs idata odata n m vs)
    {idata₂ odata₂ : List (Ten α)} {ws : List ((Nat → α) × (Nat → α))} (hd₂ : DataIs idata₂ odata₂ n m ws)
    (hvw : List.Forall₂ (fun a b : (Nat → α) × (Nat → α) => Renamed n (e 0) a.1 b.1 ∧ Renamed m (e L) a.2 b.2) vs ws)
    {lo k : Nat} (hk : lo + k ≤ vs.length) (hk1 : 1 ≤ k) (alpha : α) :
    ∃ x' y', TEv.run upd idata odata x (stepTrace alpha lo k) = .ok x' ∧ TEv.run upd idata₂ odata₂ y (stepTrace alpha lo k) = .ok y' ∧
      RenamedT Q S e n m dL dL' L false x' y' := by
  obtain ⟨s₁, t₁⟩ := x
  obtain ⟨s₂, t₂⟩ := y
  obtain ⟨hs, A, B, hA, hB, hT, hL, _⟩ := h
  dsimp only at hs hA hB
  have hlen := hvw.length_eq
  obtain ⟨u₁, e₁, A1, hA1, c₁⟩ := hA.accRun hd hk
  obtain ⟨u₂, e₂, B1, hB1, c₂⟩ := hB.accRun hd₂ (lo := lo) (k := k) (by omega)
  have hpos : 0 < ((vs.drop lo).take k).length := by simp; omega
  have hpos₂ : 0 < ((ws.drop lo).take k).length := by simp; omega
  have T1 : StsRenamed Q e A1 B1 := hT.of_maps (map_triple c₁.p c₁.keys) (map_triple c₂.p c₂.keys)
  have hne : (vs.drop lo).take k ≠ [] := List.length_pos_iff.1 hpos
  have hne₂ : (ws.drop lo).take k ≠ [] := List.length_pos_iff.1 hpos₂
  have ea : GradsRenamed e (A1.map (·.p)) (A1.map DSt.used) (B1.map DSt.used) := by
    rw [c₁.used hne, c₂.used hne₂, c₁.p]
    refine gradSum_renamed hT.net hA.chain (by rw [List.length_map, hL]; exact hl) ?_
    rw [List.length_map, hL]
    exact List.forall₂_take k (List.forall₂_drop lo hvw)
  have ec : A1.map (·.acc) = B1.map (·.acc) := by
    have k1 := List.map_congr_left (f := fun a : DSt α => a.acc) (g := fun _ => decide (0 < ((vs.drop lo).take k).length)) c₁.acc
    have k2 := List.map_congr_left (f := fun a : DSt α => a.acc) (g := fun _ => decide (0 < ((ws.drop lo).take k).length)) c₂.acc
    rw [k1, k2, List.map_const', List.map_const', T1.length, decide_eq_true hpos, decide_eq_true hpos₂]
  obtain ⟨r₁, r₂, q₁, q₂, hs, A', B', h1, h2, T2, N, _, _⟩ := eachM_renamed ho alpha hA1.net hB1.net T1 ea ec hs
  rw [← Net.updating_eq] at q₁ q₂
  have hl' : A'.length = A1.length := by have := congrArg List.length N; simpa using this
  have hlA : A1.length = A.length := by have := congrArg List.length c₁.p; simpa using this
  have hlB : B'.length = B1.length := by rw [← T2.length, hl', T1.length]
  have ch : Chain n (A'.map (·.p)) m := Chain.congr (by rw [List.map_map, List.map_map]; exact N.symm) hA1.chain
  refine ⟨(r₁.1, { u₁ with net := r₁.2 }), (r₂.1, { u₂ with net := r₂.2 }), ?_, ?_, hs, A', B',
    ⟨h1, hl' ▸ hA1.two, hl' ▸ hA1.word, ch, hA1.delta, hA1.loss⟩,
    ⟨h2, hlB ▸ hB1.two, hlB ▸ hB1.word, T2.net.chain ch, hB1.delta, hB1.loss⟩, T2, by rw [hl', hlA, hL], fun h => by simp at h⟩
  · rw [run_step, ← bind_assoc, e₁, bind_ok]
    unfold Train.updating; dsimp only
    rw [q₁, bind_ok]; rfl
  · rw [run_step, ← bind_assoc, e₂, bind_ok]
    unfold Train.updating; dsimp only
    rw [q₂, bind_ok]; rfl

theorem RenamedT.steps (ho : RenameOpt upd Q S) {e : Nat → Nat → Nat} {n m : Nat} {dL dL' : (Nat → α) → (Nat → α) → Nat → α} {L : Nat}
    (hl : LossRenamed m (e L) dL dL') {idata odata : List (Ten α)} {vs : List ((Nat → α) × (Nat → α))} (hd : DataIs idata odata n m vs)
    {idata₂ odata₂ : List (Ten α)} {ws : List ((Nat → α) × (Nat → α))} (hd₂ : DataIs idata₂ odata₂ n m ws)
    (hvw : List.Forall₂ (fun a b : (Nat → α) × (Nat → α) => Renamed n (e 0) a.1 b.1 ∧ Renamed m (e L) a.2 b.2) vs ws) (alpha : α) :
    ∀ (zs : List (Nat × Nat)), (∀ z ∈ zs, z.1 + z.2 ≤ vs.length ∧ 1 ≤ z.2) →
    ∀ {cl : Bool} {x y : σ × Train α}, RenamedT Q S e n m dL dL' L cl x y →
    ∃ x' y', TEv.run upd idata odata x (zs.flatMap (fun w => stepTrace alpha w.1 w.2)) = .ok x' ∧
      TEv.run upd idata₂ odata₂ y (zs.flatMap (fun w => stepTrace alpha w.1 w.2)) = .ok y' ∧ RenamedT Q S e n m dL dL' L false x' y'
  | [], _, cl, x, y, h => ⟨x, y, rfl, rfl, by
      obtain ⟨h1, A, B, h3, h4, h5, h6, _⟩ := h
      exact ⟨h1, A, B, h3, h4, h5, h6, fun h => by simp at h⟩⟩
  | z :: zs, hz, cl, x, y, h => by
    obtain ⟨h1, h2⟩ := hz z (by simp)
    obtain ⟨x1, y1, e1, e2, h⟩ := h.step ho hl hd hd₂ hvw h1 h2 alpha
    obtain ⟨x2, y2, e3, e4, h⟩ := RenamedT.steps ho hl hd hd₂ hvw alpha zs (fun w hw' => hz w (by simp [hw'])) h
    refine ⟨x2, y2, ?_, ?_, h⟩
    · rw [List.flatMap_cons, TEv.run_append, e1, bind_ok, e3]
    · rw [List.flatMap_cons, TEv.run_append, e2, bind_ok, e4]

/-- One round of stochastic training. -/
theorem RenamedT.sto (ho : RenameOpt upd Q S) {e : Nat → Nat → Nat} {n m : Nat} {dL dL' : (Nat → α) → (Nat → α) → Nat → α} {L : Nat}
    (hl : LossRenamed m (e L) dL dL') {x y : σ × Train α} (h : RenamedT Q S e n m dL dL' L true x y)
    {idata odata : List (Ten α)} {vs : List ((Nat → α) × (Nat → α))} (hd : DataIs idata odata n m vs)
    {idata₂ odata₂ : List (Ten α)} {ws : List ((Nat → α) × (Nat → α))} (hd₂ : DataIs idata₂ odata₂ n m ws)
    (hvw : List.Forall₂ (fun a b : (Nat → α) × (Nat → α) => Renamed n (e 0) a.1 b.1 ∧ Renamed m (e L) a.2 b.2) vs ws)
    {i : Nat} (hi : i < vs.length) :
    ∃ x' y', TEv.run upd idata odata x [.sample i, .update 1] = .ok x' ∧ TEv.run upd idata₂ odata₂ y [.sample i, .update 1] = .ok y' ∧
      RenamedT Q S e n m dL dL' L true x' y' := by
  obtain ⟨s₁, t₁⟩ := x
  obtain ⟨s₂, t₂⟩ := y
  obtain ⟨hs, A, B, hA, hB, hT, hL, cl⟩ := h
  obtain ⟨cA, cB⟩ := cl rfl
  dsimp only at hs hA hB
  have hi₂ : i < ws.length := by rw [← hvw.length_eq]; exact hi
  have e1 : vs[i]? = some vs[i] := List.getElem?_eq_getElem hi
  have e2 : ws[i]? = some ws[i] := List.getElem?_eq_getElem hi₂
  have hvi : Renamed n (e 0) vs[i].1 ws[i].1 ∧ Renamed m (e L) vs[i].2 ws[i].2 := hvw.get hi hi₂
  obtain ⟨u₁, e₁, hA1⟩ := hA.sample hd e1
  obtain ⟨u₂, e₂, hB1⟩ := hB.sample hd₂ e2
  have lA : (sampleGrads dL (A.map (·.p)) vs[i]).length = A.length := by rw [sampleGrads_length]; simp
  have lB : (sampleGrads dL' (B.map (·.p)) ws[i]).length = B.length := by rw [sampleGrads_length]; simp
  obtain ⟨a1, a2, a3⟩ := setG_keys A _ lA
  obtain ⟨b1, b2, b3⟩ := setG_keys B _ lB
  have T1 := hT.of_maps (map_triple (setG_p A _ lA) a1) (map_triple (setG_p B _ lB) b1)
  have all : ∀ {X : List (DSt α)} {l : List Bool}, X.map (·.acc) = l → (∀ c ∈ l, c = false) → ∀ a ∈ X, a.acc = false := by
    intro X l h hl a ha
    exact hl _ (h ▸ List.mem_map_of_mem ha)
  have cA1 : ∀ a ∈ setG A (sampleGrads dL (A.map (·.p)) vs[i]), a.acc = false := all a2 (by
    intro c hc; obtain ⟨a, ha, rfl⟩ := List.mem_map.1 hc; exact cA a ha)
  have cB1 : ∀ a ∈ setG B (sampleGrads dL' (B.map (·.p)) ws[i]), a.acc = false := all b2 (by
    intro c hc; obtain ⟨a, ha, rfl⟩ := List.mem_map.1 hc; exact cB a ha)
  have usedg : ∀ {X : List (DSt α)}, (∀ a ∈ X, a.acc = false) → X.map DSt.used = X.map (·.g) := by
    intro X hX
    refine List.map_congr_left (fun a ha => ?_)
    unfold DSt.used
    rw [hX a ha]; rfl
  have ea : GradsRenamed e ((setG A (sampleGrads dL (A.map (·.p)) vs[i])).map (·.p)) ((setG A (sampleGrads dL (A.map (·.p)) vs[i])).map DSt.used)
      ((setG B (sampleGrads dL' (B.map (·.p)) ws[i])).map DSt.used) := by
    rw [usedg cA1, usedg cB1, a3, b3, setG_p A _ lA]
    exact sampleGrads_renamed hT.net hA.chain (by rw [List.length_map, hL]; exact hl) (by rw [List.length_map, hL]; exact hvi)
  have ec : (setG A (sampleGrads dL (A.map (·.p)) vs[i])).map (·.acc) = (setG B (sampleGrads dL' (B.map (·.p)) ws[i])).map (·.acc) := by
    have k1 := List.map_congr_left (f := fun a : DSt α => a.acc) (g := fun _ => false) cA1
    have k2 := List.map_congr_left (f := fun a : DSt α => a.acc) (g := fun _ => false) cB1
    rw [k1, k2, List.map_const', List.map_const', T1.length]
  obtain ⟨r₁, r₂, q₁, q₂, hs, A', B', h1, h2, T2, N, N1, N2⟩ := eachM_renamed ho 1 hA1.net hB1.net T1 ea ec hs
  rw [← Net.updating_eq] at q₁ q₂
  have hl' : A'.length = (setG A (sampleGrads dL (A.map (·.p)) vs[i])).length := by have := congrArg List.length N; simpa using this
  have hlA : (setG A (sampleGrads dL (A.map (·.p)) vs[i])).length = A.length := by
    have := congrArg List.length (setG_p A _ lA); simpa using this
  have hlB : B'.length = (setG B (sampleGrads dL' (B.map (·.p)) ws[i])).length := by rw [← T2.length, hl', T1.length]
  have ch : Chain n (A'.map (·.p)) m := Chain.congr (by rw [List.map_map, List.map_map]; exact N.symm) hA1.chain
  refine ⟨(r₁.1, { u₁ with net := r₁.2 }), (r₂.1, { u₂ with net := r₂.2 }), ?_, ?_, hs, A', B',
    ⟨h1, hl' ▸ hA1.two, hl' ▸ hA1.word, ch, hA1.delta, hA1.loss⟩,
    ⟨h2, hlB ▸ hB1.two, hlB ▸ hB1.word, T2.net.chain ch, hB1.delta, hB1.loss⟩, T2, by rw [hl', hlA, hL], fun _ => ⟨?_, ?_⟩⟩
  · unfold TEv.run TEv.exec; dsimp only
    rw [e₁, bind_ok, pure_eq_ok, bind_ok]
    unfold TEv.run TEv.exec Train.updating; dsimp only
    rw [q₁, bind_ok]; rfl
  · unfold TEv.run TEv.exec; dsimp only
    rw [e₂, bind_ok, pure_eq_ok, bind_ok]
    unfold TEv.run TEv.exec Train.updating; dsimp only
    rw [q₂, bind_ok]; rfl
  · exact all N1 (by intro c hc; obtain ⟨a, ha, rfl⟩ := List.mem_map.1 hc; exact cA1 a ha)
  · exact all N2 (by intro c hc; obtain ⟨a, ha, rfl⟩ := List.mem_map.1 hc; exact cB1 a ha)

theorem RenamedT.stos (ho : RenameOpt upd Q S) {e : Nat → Nat → Nat} {n m : Nat} {dL dL' : (Nat → α) → (Nat → α) → Nat → α} {L : Nat}
    (hl : LossRenamed m (e L) dL dL') {idata odata : List (Ten α)} {vs : List ((Nat → α) × (Nat → α))} (hd : DataIs idata odata n m vs)
    {idata₂ odata₂ : List (Ten α)} {ws : List ((Nat → α) × (Nat → α))} (hd₂ : DataIs idata₂ odata₂ n m ws)
    (hvw : List.Forall₂ (fun a b : (Nat → α) × (Nat → α) => Renamed n (e 0) a.1 b.1 ∧ Renamed m (e L) a.2 b.2) vs ws) :
    ∀ (is : List Nat), (∀ i ∈ is, i < vs.length) → ∀ {x y : σ × Train α}, RenamedT Q S e n m dL dL' L true x y →
    ∃ x' y', TEv.run upd idata odata x (stoTrace is) = .ok x' ∧ TEv.run upd idata₂ odata₂ y (stoTrace is) = .ok y' ∧
      RenamedT Q S e n m dL dL' L true x' y'
  | [], _, x, y, h => ⟨x, y, rfl, rfl, h⟩
  | i :: is, hw, x, y, h => by
    obtain ⟨x1, y1, e1, e2, h⟩ := h.sto ho hl hd hd₂ hvw (hw i (by simp))
    obtain ⟨x2, y2, e3, e4, h⟩ := RenamedT.stos ho hl hd hd₂ hvw is (fun j hj => hw j (by simp [hj])) h
    refine ⟨x2, y2, ?_, ?_, h⟩
    · rw [stoTrace, List.flatMap_cons, TEv.run_append, e1, bind_ok]; exact e3
    · rw [stoTrace, List.flatMap_cons, TEv.run_append, e2, bind_ok]; exact e4

end

end Trixy
