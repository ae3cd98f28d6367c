import Verif.Spec.Net
import Verif.Proof.Net
import Verif.Proof.Optim
/- Networks of dense training layers as an abstract machine on parameters, gradients and accumulators. -/
namespace Trixy

variable {α γ ρ σ : Type}

/-- Abstract state of a dense training layer. -/
structure DSt (α : Type) where
  p : Dense α
  g : Grad α
  a : Grad α
  acc : Bool
  kB : Nat
  kW : Nat

/-- The layer object `f` is in the abstract state `st`. -/
structure FC.At (f : FC α) (st : DSt α) : Prop where
  wf : f.Wf st.p.n st.p.m st.p.b st.p.W
  act : f.act.Is st.p.m st.p.F st.p.D
  gB : VecIs f.gradB st.p.m st.g.1
  gW : MatIs f.gradW st.p.n st.p.m st.g.2
  aB : VecIs f.gradBs st.p.m st.a.1
  aW : MatIs f.gradWs st.p.n st.p.m st.a.2
  acc : f.accumulated = st.acc
  kB : f.keyB = st.kB
  kW : f.keyW = st.kW

def Layer.At (l : Layer α) (st : DSt α) : Prop := ∃ f, l = .fc f ∧ f.At st
def Net.At (net : Net α) (sts : List (DSt α)) : Prop := List.Forall₂ Layer.At net sts

theorem Net.At.length {net : Net α} {sts : List (DSt α)} (h : net.At sts) : net.length = sts.length := List.Forall₂.length_eq h

theorem Net.IsDense.at {net : Net α} {ps : List (Dense α)} (h : Net.IsDense net ps) :
    ∃ sts : List (DSt α), net.At sts ∧ sts.map (·.p) = ps := by
  induction h with
  | nil => exact ⟨[], .nil, rfl⟩
  | @cons l p ls ps h _ ih =>
    obtain ⟨f, e, hwf, ha⟩ := h
    obtain ⟨sts, h1, h2⟩ := ih
    obtain ⟨gB, hgB⟩ := hwf.gradB
    obtain ⟨gW, hgW⟩ := hwf.gradW
    obtain ⟨aB, haB⟩ := hwf.gradBs
    obtain ⟨aW, haW⟩ := hwf.gradWs
    refine ⟨⟨p, (gB, gW), (aB, aW), f.accumulated, f.keyB, f.keyW⟩ :: sts, .cons ⟨f, e, ⟨hwf, ha, hgB, hgW, haB, haW, rfl, rfl, rfl⟩⟩ h1, ?_⟩
    simp [h2]

theorem Net.At.isDense {net : Net α} {sts : List (DSt α)} (h : net.At sts) : Net.IsDense net (sts.map (·.p)) := by
  induction h with
  | nil => exact .nil
  | cons h _ ih =>
    obtain ⟨f, e, hat⟩ := h
    exact .cons ⟨f, e, hat.wf, hat.act⟩ ih

theorem mapL_spec {T : Type} {R S : Layer α → T → Prop} {f : Layer α → Res (Layer α)} {φ : T → T}
    (hf : ∀ l st, R l st → Ok (f l) (fun l' => S l' (φ st))) {net : Net α} {sts : List T} (h : List.Forall₂ R net sts) :
    Ok (mapL f net) (fun net' => List.Forall₂ S net' (sts.map φ)) := by
  induction h with
  | nil => exact Ok_ok.2 .nil
  | @cons l st ls sts h _ ih =>
    unfold mapL
    refine (hf l st h).bind (fun l' hl' => ?_)
    exact ih.bind (fun ls' hls' => Ok_ok.2 (.cons hl' hls'))

/-! ### reset, accumulate, update -/

def DSt.reset [Zero α] (st : DSt α) : DSt α := { st with a := (fun _ => 0, fun _ _ => 0), acc := false }
def DSt.accum [Add α] (st : DSt α) : DSt α :=
  { st with a := (fun j => st.a.1 j + st.g.1 j, fun i j => st.a.2 i j + st.g.2 i j), acc := true }

theorem FC.At.reset [Zero α] {f : FC α} {st : DSt α} (h : f.At st) : Ok f.reset (fun f' => f'.At st.reset) := by
  refine (FC.reset_spec h.wf).mono (fun f' q => ?_)
  obtain ⟨hwf, h1, h2, h3, e⟩ := q
  exact ⟨hwf, by rw [e]; exact h.act, by rw [e]; exact h.gB, by rw [e]; exact h.gW, h1, h2, h3, by rw [e]; exact h.kB, by rw [e]; exact h.kW⟩

theorem FC.At.accum [Add α] {f : FC α} {st : DSt α} (h : f.At st) : Ok f.accumulate (fun f' => f'.At st.accum) := by
  refine (FC.accumulate_spec h.wf h.gB h.aB h.gW h.aW).mono (fun f' q => ?_)
  obtain ⟨hwf, h1, h2, h3, e⟩ := q
  exact ⟨hwf, by rw [e]; exact h.act, by rw [e]; exact h.gB, by rw [e]; exact h.gW, h1, h2, h3, by rw [e]; exact h.kB, by rw [e]; exact h.kW⟩

theorem Net.At.reset [Zero α] {net : Net α} {sts : List (DSt α)} (h : net.At sts) :
    Ok (Net.reseting net) (fun net' => net'.At (sts.map DSt.reset)) := by
  rw [Net.reseting_eq]
  refine mapL_spec (fun l st hl => ?_) h
  obtain ⟨f, rfl, hat⟩ := hl
  exact hat.reset.bind (fun f' h' => Ok_ok.2 ⟨f', rfl, h'⟩)

theorem Net.At.accum [Add α] {net : Net α} {sts : List (DSt α)} (h : net.At sts) :
    Ok (Net.accumulating net) (fun net' => net'.At (sts.map DSt.accum)) := by
  rw [Net.accumulating_eq]
  refine mapL_spec (fun l st hl => ?_) h
  obtain ⟨f, rfl, hat⟩ := hl
  exact hat.accum.bind (fun f' h' => Ok_ok.2 ⟨f', rfl, h'⟩)

/-- The gradient `update` uses. -/
def DSt.used (st : DSt α) : Grad α := if st.acc then st.a else st.g

def Grad.scale [Mul α] (lr alpha : α) (g : Grad α) : Grad α := (fun j => g.1 j * alpha * lr, fun i j => g.2 i j * alpha * lr)

/-- One GradDescent update: the gradient that was used is left scaled. -/
def DSt.gd [Mul α] [Sub α] (lr alpha : α) (st : DSt α) : DSt α :=
  if st.acc then { st with p := st.p.gd lr alpha st.a, a := Grad.scale lr alpha st.a }
  else { st with p := st.p.gd lr alpha st.g, g := Grad.scale lr alpha st.g }

theorem DSt.gd_p [Mul α] [Sub α] (lr alpha : α) (st : DSt α) : (st.gd lr alpha).p = st.p.gd lr alpha st.used := by
  unfold DSt.gd DSt.used; split <;> rfl

theorem FC.updateWith_gd [Mul α] [Sub α] [One α] [DecidableEq α] (hone : ∀ a : α, a * 1 = a) {lr alpha : α} {f : FC α} {n m : Nat}
    {b : Nat → α} {W : Nat → Nat → α} (hB : VecIs f.B m b) (hW : MatIs f.W n m W) {GB : Buf α} {GW : Mat α} {gB : Nat → α}
    {gW : Nat → Nat → α} (h1 : VecIs GB m gB) (h2 : MatIs GW n m gW) :
    Ok (FC.updateWith gdUpdate lr alpha f GB GW) (fun r => r.1 = lr ∧ VecIs r.2.1 m (fun j => b j - gB j * alpha * lr) ∧
      VecIs r.2.2.1 m (fun j => gB j * alpha * lr) ∧
      VecIs r.2.2.2.1 (n * m) (fun k => W (k / m) (k % m) - gW (k / m) (k % m) * alpha * lr) ∧
      VecIs r.2.2.2.2 (n * m) (fun k => gW (k / m) (k % m) * alpha * lr)) := by
  unfold FC.updateWith
  refine (scaleUnlessOne_spec hone h1 alpha).bind (fun g1 q1 => ?_)
  refine (scaleUnlessOne_spec hone h2.flat alpha).bind (fun g2 q2 => ?_)
  refine (gd_spec hB q1).bind (fun r1 s1 => ?_)
  obtain ⟨e1, s2, s3⟩ := s1
  dsimp only
  rw [e1]
  refine (gd_spec hW.flat q2).bind (fun r2 t1 => ?_)
  exact Ok_ok.2 ⟨t1.1, s2, s3, t1.2.1, t1.2.2⟩

theorem MatIs.of_data {n m : Nat} {M : Mat α} {f g : Nat → Nat → α} (hM : MatIs M n m f) {d : Buf α}
    (hd : VecIs d (n * m) (fun k => g (k / m) (k % m))) : MatIs { M with data := d } n m g := by
  refine (MatIs.of_flat' (m := { M with data := d }) hM.1 hM.2.1 hd).congr (fun i j hi hj => ?_)
  rw [idx2_div hj, idx2_mod hj]

theorem FC.At.gd [Mul α] [Sub α] [One α] [DecidableEq α] (hone : ∀ a : α, a * 1 = a) {lr alpha : α} {f : FC α} {st : DSt α}
    (h : f.At st) : Ok (f.update gdUpdate lr alpha) (fun r => r.1 = lr ∧ r.2.At (st.gd lr alpha)) := by
  unfold FC.update DSt.gd
  cases hacc : st.acc
  · rw [h.acc, hacc, if_neg (by simp), if_neg (by simp)]
    refine (FC.updateWith_gd hone h.wf.B h.wf.W h.gB h.gW).bind (fun r q => ?_)
    obtain ⟨s, B, gB, W, gW⟩ := r
    obtain ⟨e, q1, q2, q3, q4⟩ := q
    dsimp only at e q1 q2 q3 q4
    subst e
    have k1 := h.wf.W.of_data (g := fun i j => st.p.W i j - st.g.2 i j * alpha * s) q3
    have k2 := h.gW.of_data (g := fun i j => st.g.2 i j * alpha * s) q4
    exact Ok_ok.2 ⟨rfl, { h.wf with B := q1, W := k1, gradB := ⟨_, q2⟩, gradW := ⟨_, k2⟩ }, h.act, q2, k2, h.aB, h.aW, rfl, h.kB, h.kW⟩
  · rw [h.acc, hacc, if_pos rfl, if_pos rfl]
    refine (FC.updateWith_gd hone h.wf.B h.wf.W h.aB h.aW).bind (fun r q => ?_)
    obtain ⟨s, B, gB, W, gW⟩ := r
    obtain ⟨e, q1, q2, q3, q4⟩ := q
    dsimp only at e q1 q2 q3 q4
    subst e
    have k1 := h.wf.W.of_data (g := fun i j => st.p.W i j - st.a.2 i j * alpha * s) q3
    have k2 := h.aW.of_data (g := fun i j => st.a.2 i j * alpha * s) q4
    exact Ok_ok.2 ⟨rfl, { h.wf with B := q1, W := k1, gradBs := ⟨_, q2⟩, gradWs := ⟨_, k2⟩ }, h.act, h.gB, h.gW, q2, k2, rfl, h.kB, h.kW⟩

theorem Net.At.gd [Mul α] [Sub α] [One α] [DecidableEq α] (hone : ∀ a : α, a * 1 = a) {lr alpha : α} {net : Net α}
    {sts : List (DSt α)} (h : net.At sts) :
    Ok (Net.updating gdUpdate alpha lr net) (fun r => r.1 = lr ∧ r.2.At (sts.map (DSt.gd lr alpha))) := by
  rw [Net.updating_eq]
  induction h with
  | nil => exact Ok_ok.2 ⟨rfl, .nil⟩
  | @cons l st ls sts h _ ih =>
    obtain ⟨f, rfl, hat⟩ := h
    unfold eachM
    refine Ok.bind (P := fun r : α × Layer α => r.1 = lr ∧ r.2.At (st.gd lr alpha)) ?_ (fun r hr => ?_)
    · exact (hat.gd hone).bind (fun r q => Ok_ok.2 ⟨q.1, r.2, rfl, q.2⟩)
    · obtain ⟨s, l'⟩ := r
      obtain ⟨rfl, hl'⟩ := hr
      exact ih.bind (fun r q => Ok_ok.2 ⟨q.1, .cons hl' q.2⟩)

/-! ### forward -/

section
variable [Zero α] [Add α] [Mul α]

/-- The layer's caches belong to the input `v`. -/
structure FC.Fwd (f : FC α) (p : Dense α) (v : Nat → α) : Prop where
  buff : VecIs f.buff p.m (affine p.n p.W p.b v)
  value : RowIs f.value p.m (p.out v)

def Net.Fwd : Net α → List (Dense α) → (Nat → α) → Prop
  | [], [], _ => True
  | l :: ls, p :: ps, v => (∃ f, l = .fc f ∧ f.Fwd p v) ∧ Net.Fwd ls ps (p.out v)
  | _, _, _ => False

theorem FC.At.fwd {f : FC α} {st : DSt α} (h : f.At st) {x : Ten α} {v : Nat → α} (hx : VecIs x.data st.p.n v) :
    Ok (f.forward x) (fun f' => f'.At st ∧ f'.Fwd st.p v) := by
  refine (FC.forward_spec h.wf h.act hx).mono (fun f' q => ?_)
  obtain ⟨hwf, h1, h2, e⟩ := q
  exact ⟨⟨hwf, by rw [e]; exact h.act, by rw [e]; exact h.gB, by rw [e]; exact h.gW, by rw [e]; exact h.aB, by rw [e]; exact h.aW,
    by rw [e]; exact h.acc, by rw [e]; exact h.kB, by rw [e]; exact h.kW⟩, ⟨h2, h1⟩⟩

theorem ff_dense [One α] [LT α] [DecidableLT α] {net : Net α} {sts : List (DSt α)} (h : net.At sts) :
    ∀ {n m : Nat} {x : Ten α} {v : Nat → α}, Chain n (sts.map (·.p)) m → VecIs x.data n v →
    Ok (ffRec x net) (fun net' => net'.At sts ∧ net'.Fwd (sts.map (·.p)) v) := by
  induction h with
  | nil => intro n m x v _ _; exact Ok_ok.2 ⟨.nil, trivial⟩
  | @cons l st ls sts h _ ih =>
    intro n m x v hc hx
    obtain ⟨f, rfl, hat⟩ := h
    obtain ⟨e, hc⟩ := hc
    unfold ffRec
    refine Ok.bind (P := fun l => ∃ f, l = .fc f ∧ f.At st ∧ f.Fwd st.p v) ?_ (fun l hl => ?_)
    · exact (hat.fwd (by rw [e]; exact hx)).bind (fun f' q => Ok_ok.2 ⟨f', rfl, q⟩)
    · obtain ⟨f', rfl, h1, h2⟩ := hl
      refine (ih hc (x := Layer.value (.fc f')) h2.value.2.2.2).bind (fun ls' q => ?_)
      exact Ok_ok.2 ⟨.cons ⟨f', rfl, h1⟩ q.1, ⟨f', rfl, h2⟩, q.2⟩

/-- The last layer holds the output. -/
theorem Net.Fwd.last {net : Net α} : ∀ {ps : List (Dense α)} {n m : Nat} {v : Nat → α}, net.Fwd ps v → Chain n ps m → net ≠ [] →
    ∃ l, lget net (net.length - 1) = .ok l ∧ RowIs l.value m (netOut ps v) := by
  induction net with
  | nil => intro ps n m v _ _ h; exact absurd rfl h
  | cons l ls ih =>
    intro ps n m v h hc _
    cases ps with
    | nil => exact absurd h (by simp [Net.Fwd])
    | cons p ps =>
      obtain ⟨⟨f, rfl, hf⟩, h⟩ := h
      obtain ⟨_, hc⟩ := hc
      cases ls with
      | nil =>
        cases ps with
        | nil => exact ⟨_, rfl, by cases hc; exact hf.value⟩
        | cons => exact absurd h (by simp [Net.Fwd])
      | cons l2 ls =>
        obtain ⟨l, e, hl⟩ := ih h hc (by simp)
        refine ⟨l, ?_, hl⟩
        rw [← e]; rfl

/-! ### backward -/

def setG (sts : List (DSt α)) (gs : List (Grad α)) : List (DSt α) := List.zipWith (fun st g => { st with g := g }) sts gs

theorem netGrads_length (ps : List (Dense α)) : ∀ v u : Nat → α, (netGrads ps v u).length = ps.length := by
  induction ps with
  | nil => intro v u; rfl
  | cons p ps ih => intro v u; simp [netGrads, ih]

theorem setG_p (sts : List (DSt α)) : ∀ (gs : List (Grad α)), gs.length = sts.length → (setG sts gs).map (·.p) = sts.map (·.p) := by
  induction sts with
  | nil => intro gs _; simp [setG]
  | cons st sts ih =>
    intro gs h
    cases gs with
    | nil => simp at h
    | cons g gs => have := ih gs (by simpa using h); simp [setG] at this ⊢; exact this

theorem FC.At.bwd {f : FC α} {st : DSt α} (h : f.At st) {v u : Nat → α} (hf : f.Fwd st.p v) {x d : Ten α}
    (hx : VecIs x.data st.p.n v) (hd : VecIs d.data st.p.m u) (full : Bool) :
    Ok (f.backward x d full) (fun f' => f'.At { st with g := st.p.grad v u } ∧ f'.Fwd st.p v ∧
      (full = true → RowIs f'.delta st.p.n (st.p.back v u))) := by
  refine (FC.backward_spec h.wf h.act hx hd hf.buff full).mono (fun f' q => ?_)
  obtain ⟨hwf, h1, h2, h3, _, e⟩ := q
  exact ⟨⟨hwf, by rw [e]; exact h.act, h1, h2, by rw [e]; exact h.aB, by rw [e]; exact h.aW,
    by rw [e]; exact h.acc, by rw [e]; exact h.kB, by rw [e]; exact h.kW⟩, ⟨by rw [e]; exact hf.buff, by rw [e]; exact hf.value⟩, h3⟩

theorem bp_dense {net : Net α} {sts : List (DSt α)} (h : net.At sts) : ∀ {n m : Nat} {x d : Ten α} {v u : Nat → α} (full : Bool),
    net.Fwd (sts.map (·.p)) v → Chain n (sts.map (·.p)) m → VecIs x.data n v → VecIs d.data m u →
    Ok (bpRec full x d net) (fun net' => net'.At (setG sts (netGrads (sts.map (·.p)) v u)) ∧ net'.Fwd (sts.map (·.p)) v ∧
      (full = true → net ≠ [] → ∃ l dl, lget net' 0 = .ok l ∧ l.delta = .ok dl ∧ RowIs dl n (netBack (sts.map (·.p)) v u))) := by
  induction h with
  | nil => intro n m x d v u full _ _ _ _; exact Ok_ok.2 ⟨.nil, trivial, fun _ h => absurd rfl h⟩
  | @cons l st ls sts h hs ih =>
    intro n m x d v u full hf hc hx hd
    obtain ⟨f, rfl, hat⟩ := h
    obtain ⟨e, hc⟩ := hc
    obtain ⟨⟨f', e', hff⟩, hf⟩ := hf
    cases e'
    subst e
    cases hs with
    | nil =>
      cases hc
      unfold bpRec
      refine Ok.bind (P := fun l => ∃ f, l = .fc f ∧ f.At { st with g := st.p.grad v u } ∧ f.Fwd st.p v ∧
        (full = true → RowIs f.delta st.p.n (st.p.back v u))) ?_ (fun l hl => ?_)
      · exact (hat.bwd hff hx hd full).bind (fun f' q => Ok_ok.2 ⟨f', rfl, q⟩)
      · obtain ⟨f', rfl, h1, h2, h3⟩ := hl
        exact Ok_ok.2 ⟨.cons ⟨f', rfl, h1⟩ .nil, ⟨⟨f', rfl, h2⟩, trivial⟩, fun hfull _ => ⟨_, _, rfl, rfl, h3 hfull⟩⟩
    | @cons l2 st2 ls sts h2 hs =>
      rw [bpRec_cons]
      refine (ih (x := Layer.value (.fc f)) true hf hc hff.value.2.2.2 hd).bind (fun r q => ?_)
      obtain ⟨q1, q2, q3⟩ := q
      obtain ⟨n0, dl, e1, e2, hdl⟩ := q3 rfl (by simp)
      rw [e1, bind_ok, e2, bind_ok]
      refine Ok.bind (P := fun l => ∃ f, l = .fc f ∧
        f.At { st with g := st.p.grad v (netBack ((st2 :: sts).map (·.p)) (st.p.out v) u) } ∧ f.Fwd st.p v ∧
        (full = true → RowIs f.delta st.p.n (st.p.back v (netBack ((st2 :: sts).map (·.p)) (st.p.out v) u)))) ?_ (fun l hl => ?_)
      · exact (hat.bwd hff hx hdl.2.2.2 full).bind (fun f' q => Ok_ok.2 ⟨f', rfl, q⟩)
      · obtain ⟨f', rfl, h1, h2, h3⟩ := hl
        exact Ok_ok.2 ⟨.cons ⟨f', rfl, h1⟩ q1, ⟨⟨f', rfl, h2⟩, q2⟩, fun hfull _ => ⟨_, _, rfl, rfl, h3 hfull⟩⟩

end

end Trixy
