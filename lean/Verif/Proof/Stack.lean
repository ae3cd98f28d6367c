import Verif.Spec.Stack
import Verif.Proof.ConvAdj
import Verif.Proof.NetDense
import Verif.Proof.TrainDense
/- Mixed stacks: forward and backward passes on the abstract state. -/
namespace Trixy
open Finset

variable {α : Type}

theorem unflat_flat3 {h w : Nat} (x : Nat → Nat → Nat → α) {c i j : Nat} (hi : i < h) (hj : j < w) :
    unflat h w (flat3 h w x) c i j = x c i j := by
  obtain ⟨e1, e2, e3⟩ := idx3_split (i := c) hi hj
  unfold unflat flat3; rw [e1, e2, e3]

theorem FlatIs.ten {t : Ten α} {d h w : Nat} {v : Nat → α} (ht : FlatIs t (d, h, w) v) : TenIs t d h w (unflat h w v) :=
  TenIs.of_flat ht.1 ht.2.1 ht.2.2.1 ht.2.2.2

theorem TenIs.flatIs3 {t : Ten α} {d h w : Nat} {f : Nat → Nat → Nat → α} (ht : TenIs t d h w f) :
    FlatIs t (d, h, w) (flat3 h w f) := ⟨ht.1, ht.2.1, ht.2.2.1, ht.flat⟩

theorem RowIs.flatIs1 {t : Ten α} {m : Nat} {v : Nat → α} (h : RowIs t m v) : FlatIs t (1, 1, m) v :=
  ⟨h.1, h.2.1, h.2.2.1, by simpa using h.2.2.2⟩

theorem FlatIs.row {t : Ten α} {m : Nat} {v : Nat → α} (h : FlatIs t (1, 1, m) v) : VecIs t.data m v := by simpa using h.2.2.2

/-- The dense part of an abstract state. -/
def SSt.toD (st : SSt α) (p : Dense α) (f : FC α) : DSt α :=
  ⟨p, (fun k => st.g (.bias k), fun i j => st.g (.weight i j)), (fun k => st.a (.bias k), fun i j => st.a (.weight i j)), st.acc,
    f.keyB, f.keyW⟩

theorem Holds_dense [Zero α] {l : Layer α} {st : SSt α} {p : Dense α} (hs : st.s = .dense p) :
    l.Holds st ↔ ∃ f : FC α, l = .fc f ∧ f.At (st.toD p f) := by
  constructor
  · intro h
    obtain ⟨f, e, h1, h2, h3, h4, h5, h6, h7⟩ := h.1 p hs
    exact ⟨f, e, ⟨h1, h2, h3, h4, h5, h6, h7, rfl, rfl⟩⟩
  · rintro ⟨f, e, h⟩
    refine ⟨fun q hq => ?_, fun q hq => ?_⟩
    · rw [hs] at hq; cases hq
      exact ⟨f, e, h.wf, h.act, h.gB, h.gW, h.aB, h.aW, h.acc⟩
    · rw [hs] at hq; cases hq

theorem Holds_conv [Zero α] {l : Layer α} {st : SSt α} {p : ConvP α} (hs : st.s = .conv p) :
    l.Holds st ↔ ∃ c : Conv α, l = .conv c ∧
      c.Wf p.d p.h p.w p.fc p.fh p.fw p.pad p.sv p.sh p.b p.W (fun f => st.g (.bias f)) (fun f c i j => st.g (.filter f c i j)) := by
  constructor
  · intro h; exact h.2 p hs
  · intro h
    refine ⟨fun q hq => ?_, fun q hq => ?_⟩
    · rw [hs] at hq; cases hq
    · rw [hs] at hq; cases hq; exact h

/-- The layer's caches belong to the input `v`. -/
def Layer.SFwd [CommSemiring α] (l : Layer α) (s : Stage α) (v : Nat → α) : Prop :=
  FlatIs l.value s.sout (s.out v) ∧ ∀ p, s = .dense p → ∃ f, l = .fc f ∧ f.Fwd p v

def Net.SFwd [CommSemiring α] : Net α → List (Stage α) → (Nat → α) → Prop
  | [], [], _ => True
  | l :: ls, s :: ss, v => l.SFwd s v ∧ Net.SFwd ls ss (s.out v)
  | _, _, _ => False

/-- Input condition of one layer. -/
def Stage.In (s : Stage α) (x : Ten α) (v : Nat → α) : Prop :=
  (∀ p, s = .dense p → VecIs x.data p.n v) ∧ (∀ p, s = .conv p → FlatIs x (p.d, p.h, p.w) v)

theorem Stage.in_of_flat {s : Stage α} {x : Ten α} {v : Nat → α} (h : FlatIs x s.sin v) : s.In x v := by
  refine ⟨fun p e => ?_, fun p e => ?_⟩
  · subst e; exact h.row
  · subst e; exact h

section
variable [CommSemiring α] [LT α] [DecidableLT α]

theorem Layer.Holds.fwd {l : Layer α} {st : SSt α} (h : l.Holds st) {x : Ten α} {v : Nat → α} (hx : st.s.In x v) :
    Ok (l.forward x) (fun l' => l'.Holds st ∧ l'.SFwd st.s v) := by
  cases hs : st.s with
  | dense p =>
    obtain ⟨f, rfl, hat⟩ := (Holds_dense hs).1 h
    refine (hat.fwd (hx.1 p hs)).bind (fun f' q => Ok_ok.2 ⟨(Holds_dense hs).2 ⟨f', rfl, ?_⟩, ?_, ?_⟩)
    · have hk := q.1
      exact ⟨hk.wf, hk.act, hk.gB, hk.gW, hk.aB, hk.aW, hk.acc, rfl, rfl⟩
    · exact q.2.value.flatIs1
    · intro p' e; cases e; exact ⟨f', rfl, q.2⟩
  | conv p =>
    obtain ⟨c, rfl, hat⟩ := (Holds_conv hs).1 h
    refine (Conv.forward_spec hat (hx.2 p hs).ten).bind (fun c' q => Ok_ok.2 ⟨(Holds_conv hs).2 ⟨c', rfl, q.1⟩, ?_, ?_⟩)
    · exact q.2.1.flatIs3
    · intro p' e; cases e

theorem Layer.Holds.bwd {l : Layer α} {st : SSt α} (h : l.Holds st) {v u : Nat → α} (hf : l.SFwd st.s v) {x d : Ten α}
    (hx : st.s.In x v) (hd : FlatIs d st.s.sout u) (full : Bool) :
    Ok (l.backward x d full) (fun l' => l'.Holds { st with g := st.s.newGrad st.g (st.s.grad v u) } ∧ l'.SFwd st.s v ∧
      (full = true → ∃ dl, l'.delta = .ok dl ∧ FlatIs dl st.s.sin (st.s.back v u))) := by
  cases hs : st.s with
  | dense p =>
    obtain ⟨f, rfl, hat⟩ := (Holds_dense hs).1 h
    obtain ⟨f0, e0, hfw⟩ := hf.2 p hs
    cases e0
    rw [hs] at hd
    refine (hat.bwd hfw (hx.1 p hs) hd.row full).bind (fun f' q => Ok_ok.2 ⟨(Holds_dense rfl).2 ⟨f', rfl, ?_⟩, ⟨?_, ?_⟩, ?_⟩)
    · have hk := q.1
      exact ⟨hk.wf, hk.act, hk.gB, hk.gW, hk.aB, hk.aW, hk.acc, rfl, rfl⟩
    · exact q.2.1.value.flatIs1
    · intro p' e; cases e; exact ⟨f', rfl, q.2.1⟩
    · intro hfull; exact ⟨f'.delta, rfl, (q.2.2 hfull).flatIs1⟩
  | conv p =>
    obtain ⟨c, rfl, hat⟩ := (Holds_conv hs).1 h
    rw [hs] at hd
    refine (Conv.backward_spec hat (hx.2 p hs).ten (FlatIs.ten (h := p.oh) (w := p.ow) hd) full).bind
      (fun c' q => Ok_ok.2 ⟨(Holds_conv rfl).2 ⟨c', rfl, q.1⟩, ⟨?_, ?_⟩, ?_⟩)
    · have := hf.1
      rw [hs] at this
      show FlatIs c'.value _ _
      rw [q.2.2]; exact this
    · intro p' e; cases e
    · intro _; exact ⟨c'.delta, rfl, q.2.1.flatIs3⟩

theorem ff_stack {net : Net α} {sts : List (SSt α)} (h : net.Holds sts) :
    ∀ {a b : Nat × Nat × Nat} {x : Ten α} {v : Nat → α}, StackFits a (sts.map (·.s)) b → StackInput (sts.map (·.s)) x v →
    Ok (ffRec x net) (fun net' => net'.Holds sts ∧ net'.SFwd (sts.map (·.s)) v) := by
  induction h with
  | nil => intro a b x v _ _; exact Ok_ok.2 ⟨.nil, trivial⟩
  | @cons l st ls sts h hs ih =>
    intro a b x v hc hx
    obtain ⟨e, hc⟩ := hc
    unfold ffRec
    refine (h.fwd (hx st.s rfl)).bind (fun l' q => ?_)
    refine (ih hc (x := l'.value) (v := st.s.out v) (fun s hs' => ?_)).bind (fun ls' q' => ?_)
    · cases sts with
      | nil => simp at hs'
      | cons st2 sts =>
        have e2 : st2.s = s := by simpa using hs'
        subst e2
        refine Stage.in_of_flat ?_
        rw [hc.1]; exact q.2.1
    · exact Ok_ok.2 ⟨.cons q.1 q'.1, q.2, q'.2⟩

/-- The last layer holds the output. -/
theorem Net.SFwd.last {net : Net α} : ∀ {ss : List (Stage α)} {a b : Nat × Nat × Nat} {v : Nat → α}, net.SFwd ss v → StackFits a ss b →
    net ≠ [] → ∃ l, lget net (net.length - 1) = .ok l ∧ FlatIs l.value b (stackOut ss v) := by
  induction net with
  | nil => intro ss a b v _ _ h; exact absurd rfl h
  | cons l ls ih =>
    intro ss a b v h hc _
    cases ss with
    | nil => exact absurd h (by simp [Net.SFwd])
    | cons s ss =>
      obtain ⟨hf, h⟩ := h
      obtain ⟨_, hc⟩ := hc
      cases ls with
      | nil =>
        cases ss with
        | nil => exact ⟨_, rfl, by cases hc; exact hf.1⟩
        | cons => exact absurd h (by simp [Net.SFwd])
      | cons l2 ls =>
        obtain ⟨l, e, hl⟩ := ih h hc (by simp)
        refine ⟨l, ?_, hl⟩
        rw [← e]; rfl

/-- The state after a backward pass with gradients `Gs`. -/
def addG [Add α] (sts : List (SSt α)) (Gs : List (PRef → α)) : List (SSt α) :=
  List.zipWith (fun st G => { st with g := st.s.newGrad st.g G }) sts Gs

omit [LT α] [DecidableLT α] in
theorem stackGrads_length (ss : List (Stage α)) : ∀ v u : Nat → α, (stackGrads ss v u).length = ss.length := by
  induction ss with
  | nil => intro v u; rfl
  | cons p ps ih => intro v u; simp [stackGrads, ih]

omit [LT α] [DecidableLT α] in
theorem addG_s (sts : List (SSt α)) : ∀ (Gs : List (PRef → α)), Gs.length = sts.length → (addG sts Gs).map (·.s) = sts.map (·.s) := by
  induction sts with
  | nil => intro Gs _; simp [addG]
  | cons st sts ih =>
    intro Gs h
    cases Gs with
    | nil => simp at h
    | cons g Gs => have := ih Gs (by simpa using h); simp [addG] at this ⊢; exact this

theorem bp_stack {net : Net α} {sts : List (SSt α)} (h : net.Holds sts) : ∀ {a b : Nat × Nat × Nat} {x d : Ten α} {v u : Nat → α} (full : Bool),
    net.SFwd (sts.map (·.s)) v → StackFits a (sts.map (·.s)) b → StackInput (sts.map (·.s)) x v → FlatIs d b u →
    Ok (bpRec full x d net) (fun net' => net'.Holds (addG sts (stackGrads (sts.map (·.s)) v u)) ∧ net'.SFwd (sts.map (·.s)) v ∧
      (full = true → net ≠ [] → ∃ l dl, lget net' 0 = .ok l ∧ l.delta = .ok dl ∧ FlatIs dl a (stackBack (sts.map (·.s)) v u))) := by
  induction h with
  | nil => intro a b x d v u full _ _ _ _; exact Ok_ok.2 ⟨.nil, trivial, fun _ h => absurd rfl h⟩
  | @cons l st ls sts h hs ih =>
    intro a b x d v u full hf hc hx hd
    obtain ⟨e, hc⟩ := hc
    obtain ⟨hff, hf⟩ := hf
    subst e
    cases hs with
    | nil =>
      cases hc
      unfold bpRec
      refine (h.bwd hff (hx st.s rfl) hd full).bind (fun l' q => ?_)
      refine Ok_ok.2 ⟨.cons q.1 .nil, ⟨q.2.1, trivial⟩, fun hfull _ => ?_⟩
      obtain ⟨dl, e1, e2⟩ := q.2.2 hfull
      exact ⟨_, dl, rfl, e1, e2⟩
    | @cons l2 st2 ls sts h2 hs =>
      rw [bpRec_cons]
      refine (ih (x := l.value) (v := st.s.out v) true hf hc (fun s hs' => ?_) hd).bind (fun r q => ?_)
      · have e2 : st2.s = s := by simpa using hs'
        subst e2
        refine Stage.in_of_flat ?_
        rw [hc.1]; exact hff.1
      · obtain ⟨q1, q2, q3⟩ := q
        obtain ⟨n0, dl, e1, e2, hdl⟩ := q3 rfl (by simp)
        rw [e1, bind_ok, e2, bind_ok]
        refine (h.bwd hff (hx st.s rfl) hdl full).bind (fun l' q => ?_)
        refine Ok_ok.2 ⟨.cons q.1 q1, ⟨q.2.1, q2⟩, fun hfull _ => ?_⟩
        obtain ⟨dl', e3, e4⟩ := q.2.2 hfull
        exact ⟨_, dl', rfl, e3, e4⟩

omit [LT α] [DecidableLT α] in
theorem stackSample_length (dL : (Nat → α) → (Nat → α) → Nat → α) (ss : List (Stage α)) (vw : (Nat → α) × (Nat → α)) :
    (stackSample dL ss vw).length = ss.length := stackGrads_length _ _ _

theorem Train.Holds.step {t : Train α} {sts : List (SSt α)} {a b : Nat × Nat × Nat} {dL : (Nat → α) → (Nat → α) → Nat → α}
    (h : t.Holds sts a b dL) {x y : Ten α} {v w : Nat → α} (hx : StackInput (sts.map (·.s)) x v) (hy : VecIs y.data (cells b) w) :
    Ok (do let t ← t.feedforward x; t.backprop x y) (fun t' => t'.Holds (addG sts (stackSample dL (sts.map (·.s)) (v, w))) a b dL ∧
      t'.loss = t.loss) := by
  have hlen : t.net.length = sts.length := h.net.length_eq
  have hne : t.net ≠ [] := by
    intro e; rw [e] at hlen; have := h.two; simp at hlen; omega
  unfold Train.feedforward
  rw [Net.feedforward_eq _ _ hne (by rw [hlen]; exact h.word)]
  obtain ⟨net', e, hat, hfwd⟩ := ff_stack h.net h.fits hx
  have hlen' : net'.length = sts.length := hat.length_eq
  have hne' : net' ≠ [] := by
    intro e; rw [e] at hlen'; have := h.two; simp at hlen'; omega
  obtain ⟨l, e1, hl⟩ := hfwd.last h.fits hne'
  rw [e, bind_ok, e1]
  show Ok (Train.backprop x y { t with net := net' }) _
  obtain ⟨loss, L, hloss, hL⟩ := h.loss
  unfold Train.backprop
  have hw : wsub net'.length 1 = net'.length - 1 := wsub_eq (by have := h.two; omega) (by rw [hlen']; exact h.word)
  dsimp only
  rw [hw, e1, bind_ok, hloss]
  show Ok (Ten.onData t.delta _ >>= _) _
  obtain ⟨k1, k2, k3, k4⟩ := h.delta
  obtain ⟨d', e2, hd'⟩ := hL.df t.delta.data y.data l.value.data _ _ k4 hy hl.2.2.2
  have e3 : t.delta.onData (fun d => loss.df d y.data l.value.data) = .ok { t.delta with data := d' } := by
    unfold Ten.onData; dsimp only; rw [e2]; rfl
  rw [e3, bind_ok, Net.backprop_eq _ _ _ (by rw [hlen']; exact h.two) (by rw [hlen']; exact h.word)]
  have hfd : FlatIs ({ t.delta with data := d' } : Ten α) b (dL w (stackOut (sts.map (·.s)) v)) := ⟨k1, k2, k3, hd'⟩
  refine (bp_stack hat false hfwd h.fits hx hfd).bind (fun net2 q => ?_)
  have hg : (stackGrads (sts.map (·.s)) v (dL w (stackOut (sts.map (·.s)) v))).length = sts.length := by simp [stackGrads_length]
  have hp := addG_s sts (stackSample dL (sts.map (fun st : SSt α => st.s)) (v, w)) hg
  have hlen2 : (addG sts (stackSample dL (sts.map (·.s)) (v, w))).length = sts.length := by
    have := congrArg List.length hp; simpa using this
  refine Ok_ok.2 ⟨⟨q.1, hlen2 ▸ h.two, hlen2 ▸ h.word, by rw [hp]; exact h.fits, ⟨k1, k2, k3, hd'.length⟩, ⟨loss, L, ?_, hL⟩⟩, ?_⟩
  · rfl
  · rfl

end

end Trixy
