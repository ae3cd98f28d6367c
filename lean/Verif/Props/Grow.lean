import Verif.Spec.Grow
import Verif.Proof.Shared
import Verif.Proof.TrainSafe
import Verif.Props.Loss
import Verif.Props.ContRef
import Verif.Props.Checkpoint
/- C100: layers added to a network after its training object was created. -/
namespace Trixy
set_option linter.unusedSectionVars false

variable {α γ ρ σ : Type}

/-! ### Library losses -/

theorem lt_of_get {b : Buf α} {i : Nat} {a : α} (h : b.get i = .ok a) : i < b.length := by
  unfold Buf.get at h
  by_contra hn
  rw [List.getElem?_eq_none (by omega)] at h
  cases h

theorem of_set {b b' : Buf α} {i : Nat} {a : α} (h : b.set i a = .ok b') : i < b.length ∧ b' = List.set b i (some a) := by
  unfold Buf.set at h
  split at h
  · cases h; exact ⟨by assumption, rfl⟩
  · cases h

/-- A loop that writes cell `i` of the result in round `i`, with a value that does not depend on the result. -/
theorem overwrites_of {f : Loss α} {v : Buf α → Buf α → Nat → Res α} (hv : ∀ t p i a, v t p i = .ok a → i < p.length)
    (hf : ∀ r t p, f.df r t p = forN r.length r (fun i r => do let a ← v t p i; r.set i a)) : f.Overwrites := by
  have rel : ∀ (t p : Buf α) (r r' : Buf α), r.length = r'.length → ∀ n, n ≤ r.length →
      RelRes (fun a b => a.length = r.length ∧ b.length = r.length ∧ (∀ i, i < n → a[i]? = b[i]?) ∧ (∀ i, i < n → i < p.length))
        (forN n r (fun i r => do let a ← v t p i; r.set i a)) (forN n r' (fun i r => do let a ← v t p i; r.set i a)) := by
    intro t p r r' hr n
    induction n with
    | zero => intro _; rw [forN_zero, forN_zero]; exact .ok ⟨rfl, hr.symm, fun i hi => absurd hi (by omega), fun i hi => absurd hi (by omega)⟩
    | succ n ih =>
      intro hn
      rw [forN_succ, forN_succ]
      refine (ih (by omega)).bind2 (fun a b q => ?_)
      obtain ⟨q1, q2, q3, q4⟩ := q
      refine .same _ (fun x hx => ?_)
      have ha : a.set n x = .ok (List.set a n (some x)) := by unfold Buf.set; rw [if_pos (by omega)]
      have hb : Buf.set b n x = .ok (List.set b n (some x)) := by unfold Buf.set; rw [if_pos (by omega)]
      show RelRes _ (Buf.set a n x) (Buf.set b n x)
      rw [ha, hb]
      refine .ok ⟨by rw [List.length_set]; exact q1, by rw [List.length_set]; exact q2, fun i hi => ?_, fun i hi => ?_⟩
      · by_cases e : i = n
        · subst e; rw [List.getElem?_set_self (by omega), List.getElem?_set_self (by omega)]
        · rw [List.getElem?_set_ne (Ne.symm e), List.getElem?_set_ne (Ne.symm e)]; exact q3 i (by omega)
      · by_cases e : i = n
        · subst e; exact hv _ _ _ _ hx
        · exact q4 i (by omega)
  refine ⟨fun r r' t p hr => ?_, fun r t p d h => ?_, fun r t p d h => ?_⟩
  · have := rel t p r r' hr r.length (Nat.le_refl _)
    rw [hf, hf, ← hr]
    revert this
    generalize forN r.length r _ = a
    generalize forN r.length r' _ = b
    intro this
    cases this with
    | err e => rfl
    | ok h =>
      obtain ⟨q1, q2, q3, _⟩ := h
      congr 1
      refine List.ext_getElem? (fun i => ?_)
      by_cases hi : i < r.length
      · exact q3 i hi
      · rw [List.getElem?_eq_none (by omega), List.getElem?_eq_none (by omega)]
  · have := rel t p r r rfl r.length (Nat.le_refl _)
    rw [hf] at h
    rw [h] at this
    cases this with
    | ok h => exact h.1
  · have := rel t p r r rfl r.length (Nat.le_refl _)
    rw [hf] at h
    rw [h] at this
    cases this with
    | ok h =>
      by_contra hn
      exact absurd (h.2.2.2 p.length (by omega)) (by omega)

theorem set_get {b : Buf α} {i : Nat} (hi : i < b.length) (a : α) : Buf.get (List.set b i (some a)) i = .ok a := by
  unfold Buf.get; rw [List.getElem?_set_self hi]

theorem set_ok {b : Buf α} {i : Nat} (hi : i < b.length) (a : α) : b.set i a = .ok (List.set b i (some a)) := by
  unfold Buf.set; rw [if_pos hi]

open Losses in
/-- All loss classes of the library. -/
theorem C100_losses : MSE.Overwrites ∧ MAE.Overwrites ∧ CCE.Overwrites ∧ BCE.Overwrites ∧ MSLE.Overwrites ∧ NLL.Overwrites ∧ LC.Overwrites := by
  have two : ∀ (g : ℝ → ℝ → ℝ) (f : Loss ℝ), (∀ r t p, f.df r t p = forN r.length r (fun i r => do
      let b ← p.get i
      let a ← t.get i
      r.set i (g a b))) → f.Overwrites := by
    intro g f hf
    refine overwrites_of (v := fun t p i => do let b ← p.get i; let a ← t.get i; return g a b) (fun t p i a h => ?_) (fun r t p => ?_)
    · obtain ⟨_, h1, _⟩ := res_bind_inv h
      exact lt_of_get h1
    · rw [hf]
      refine congrArg _ (funext fun i => funext fun r => ?_)
      cases p.get i with
      | error e => rfl
      | ok b => cases t.get i <;> rfl
  refine ⟨two (fun a b => b - a) _ (fun _ _ _ => rfl), ?_, two (fun a b => b - a) _ (fun _ _ _ => rfl), ?_, ?_, two (fun a b => b - a) _ (fun _ _ _ => rfl),
    two (fun a b => Real.tanh (b - a)) _ (fun _ _ _ => rfl)⟩
  · refine overwrites_of (v := fun t p i => do
      let a ← t.get i
      let b ← p.get i
      return (if a - b < 0 then -1 else if a - b > 0 then 1 else 0)) (fun t p i a h => ?_) (fun r t p => ?_)
    · obtain ⟨_, _, h⟩ := res_bind_inv h
      obtain ⟨_, h1, _⟩ := res_bind_inv h
      exact lt_of_get h1
    · refine (forN_inv_congr (fun s : Buf ℝ => s.length = r.length) rfl (fun i s hi hs => ⟨?_, fun s' e => ?_⟩)).1
      · cases t.get i with
        | error e => rfl
        | ok a =>
          cases p.get i with
          | error e => rfl
          | ok b =>
            show (s.set i (a - b) >>= _) = Buf.set s i _
            rw [set_ok (by omega), set_ok (by omega)]
            show (Buf.get _ i >>= _) = _
            rw [set_get (by omega)]
            show Buf.set _ i _ = _
            rw [set_ok (by rw [List.length_set]; omega), List.set_set]
      · obtain ⟨a, _, e⟩ := res_bind_inv e
        rw [(of_set e).2, List.length_set, hs]
  · refine overwrites_of (v := fun t p i => do
      let a ← t.get i
      let b ← p.get i
      return (a * (b - 1) + b * (1 - a))) (fun t p i a h => ?_) (fun r t p => ?_)
    · obtain ⟨_, _, h⟩ := res_bind_inv h
      obtain ⟨_, h1, _⟩ := res_bind_inv h
      exact lt_of_get h1
    · refine congrArg _ (funext fun i => funext fun r => ?_)
      cases t.get i with
      | error e => rfl
      | ok b => cases p.get i <;> rfl
  · refine overwrites_of (v := fun t p i => do
      let b ← p.get i
      let a ← t.get i
      let q ← fdiv (b + 1) (a + 1)
      fdiv (Real.log q) (b + 1)) (fun t p i a h => ?_) (fun r t p => ?_)
    · obtain ⟨_, h1, _⟩ := res_bind_inv h
      exact lt_of_get h1
    · refine (forN_inv_congr (fun s : Buf ℝ => s.length = r.length) rfl (fun i s hi hs => ⟨?_, fun s' e => ?_⟩)).1
      · cases p.get i with
        | error e => rfl
        | ok b =>
          show (s.set i (b + 1) >>= _) = _
          rw [set_ok (by omega)]
          show (Buf.get _ i >>= _) = _
          rw [set_get (by omega)]
          cases t.get i with
          | error e => rfl
          | ok a =>
            show (fdiv (b + 1) (a + 1) >>= _) = ((fdiv (b + 1) (a + 1) >>= _) >>= _)
            cases fdiv (b + 1) (a + 1) with
            | error e => rfl
            | ok q =>
              show (fdiv (Real.log q) (b + 1) >>= _) = (fdiv (Real.log q) (b + 1) >>= _)
              cases fdiv (Real.log q) (b + 1) with
              | error e => rfl
              | ok q' =>
                show Buf.set _ i _ = Buf.set s i _
                rw [set_ok (by rw [List.length_set]; omega), set_ok (by omega), List.set_set]
      · obtain ⟨b, _, e⟩ := res_bind_inv e
        rw [(of_set e).2, List.length_set, hs]

/-! ### Same output shape: the old training object is as good as a new one -/

section
variable [Zero α] [One α] [Add α] [Mul α] [LT α] [DecidableLT α] [DecidableEq α]

/-- Two training objects on the same network that differ at most in the contents of `delta`, which has shape `o`. -/
structure Alike (o : Nat × Nat × Nat) (t t' : Train α) : Prop where
  net : t.net = t'.net
  loss : t.loss = t'.loss
  shape : t.delta.d = o.1 ∧ t.delta.h = o.2.1 ∧ t.delta.w = o.2.2 ∧ t.delta.data.length = o.1 * o.2.1 * o.2.2
  shape' : t'.delta.d = o.1 ∧ t'.delta.h = o.2.1 ∧ t'.delta.w = o.2.2 ∧ t'.delta.data.length = o.1 * o.2.1 * o.2.2
  over : ∀ l, t.loss = some l → l.Overwrites

variable {o : Nat × Nat × Nat}

theorem Alike.withNet {t t' : Train α} (h : Alike o t t') (net : Net α) : Alike o { t with net := net } { t' with net := net } :=
  ⟨rfl, h.loss, h.shape, h.shape', h.over⟩

theorem Alike.onNet {t t' : Train α} (h : Alike o t t') {f : Net α → Res (Net α)} :
    RelRes (Alike o) (f t.net >>= fun n => Except.ok { t with net := n }) (f t'.net >>= fun n => Except.ok { t' with net := n }) := by
  rw [← h.net]
  exact .same _ (fun n _ => .ok (h.withNet n))

theorem Alike.feedforward {t t' : Train α} (h : Alike o t t') (x : Ten α) : RelRes (Alike o) (t.feedforward x) (t'.feedforward x) := by
  unfold Train.feedforward
  rw [← h.net]
  exact .same _ (fun n _ => .ok (h.withNet _))

theorem Alike.backprop {t t' : Train α} (h : Alike o t t') (x y : Ten α) : RelRes (Alike o) (t.backprop x y) (t'.backprop x y) := by
  unfold Train.backprop
  rw [← h.net, ← h.loss]
  refine .same _ (fun l _ => .same _ (fun loss hl => ?_))
  have ho : loss.Overwrites := by
    cases e : t.loss with
    | none => rw [e] at hl; cases hl
    | some l' => rw [e] at hl; cases hl; exact h.over _ e
  obtain ⟨a1, a2, a3, a4⟩ := h.shape
  obtain ⟨b1, b2, b3, b4⟩ := h.shape'
  have e : t.delta.onData (fun d => loss.df d y.data l.value.data) = t'.delta.onData (fun d => loss.df d y.data l.value.data) := by
    unfold Ten.onData
    dsimp only
    rw [ho.same t.delta.data t'.delta.data _ _ (by rw [a4, b4]), a1, a2, a3, b1, b2, b3]
  rw [e]
  refine .same _ (fun d hd => .same _ (fun n _ => .ok ?_))
  have hd' : d.d = o.1 ∧ d.h = o.2.1 ∧ d.w = o.2.2 ∧ d.data.length = o.1 * o.2.1 * o.2.2 := by
    obtain ⟨dd, h1, h2⟩ := res_bind_inv hd
    cases h2
    exact ⟨b1, b2, b3, (ho.length _ _ _ _ h1).trans b4⟩
  exact ⟨rfl, rfl, hd', hd', h.over⟩

theorem Alike.sample {t t' : Train α} (h : Alike o t t') (idata odata : List (Ten α)) (i : Nat) :
    RelRes (Alike o) (t.sample idata odata i) (t'.sample idata odata i) := by
  unfold Train.sample
  refine .same _ (fun x _ => (h.feedforward x).bind2 (fun a b hab => .same _ (fun y _ => hab.backprop x y)))

theorem Alike.updating {t t' : Train α} (h : Alike o t t') (upd : Upd σ α) (alpha : α) (s : σ) :
    RelRes (fun r r' => r.1 = r'.1 ∧ Alike o r.2 r'.2) (Train.updating upd alpha (s, t)) (Train.updating upd alpha (s, t')) := by
  unfold Train.updating
  rw [← h.net]
  exact .same _ (fun ⟨s, n⟩ _ => .ok ⟨rfl, h.withNet n⟩)

theorem Alike.exec {upd : Upd σ α} {idata odata : List (Ten α)} {s : σ} {t t' : Train α} (h : Alike o t t') (e : TEv α) :
    RelRes (fun r r' => r.1 = r'.1 ∧ Alike o r.2 r'.2) (TEv.exec upd idata odata (s, t) e) (TEv.exec upd idata odata (s, t') e) := by
  cases e with
  | reset => exact (h.onNet (f := Net.reseting)).bind2 (fun a b hab => .ok ⟨rfl, hab⟩)
  | sample i => exact (h.sample idata odata i).bind2 (fun a b hab => .ok ⟨rfl, hab⟩)
  | accumulate => exact (h.onNet (f := Net.accumulating)).bind2 (fun a b hab => .ok ⟨rfl, hab⟩)
  | update a => exact h.updating upd a s

theorem Alike.run {upd : Upd σ α} {idata odata : List (Ten α)} : ∀ (es : List (TEv α)) {s : σ} {t t' : Train α}, Alike o t t' →
    RelRes (fun r r' => r.1 = r'.1 ∧ Alike o r.2 r'.2) (TEv.run upd idata odata (s, t) es) (TEv.run upd idata odata (s, t') es)
  | [], _, _, _, h => .ok ⟨rfl, h⟩
  | e :: es, _, _, _, h => (h.exec e).bind2 (fun ⟨_, _⟩ ⟨_, _⟩ ⟨q1, q2⟩ => by cases q1; exact Alike.run es q2)

variable [Div α] [NatCast α]

theorem Alike.op {upd : Upd σ α} {gen : Gen γ ρ Nat} {s : σ} {g : ρ} {t t' : Train α} (h : Alike o t t') (op : TrainOp α γ)
    (hop : GrowOp.Sane o (.call op)) :
    RelRes (fun r r' => r.1.1 = r'.1.1 ∧ Alike o r.1.2 r'.1.2 ∧ r.2 = r'.2) (TrainOp.exec upd gen ((s, t), g) op) (TrainOp.exec upd gen ((s, t'), g) op) := by
  cases op with
  | batch idata odata epochs =>
    by_cases hne : idata = []
    · subst hne; exact .err _
    · show RelRes _ (Train.batch upd idata odata epochs (s, t) >>= _) (Train.batch upd idata odata epochs (s, t') >>= _)
      rw [C39_schedule upd idata odata hne, C39_schedule upd idata odata hne]
      exact (h.run _).bind2 (fun a b hab => .ok ⟨hab.1, hab.2, rfl⟩)
  | mini idata odata epochs m =>
    by_cases hm : m = 0
    · subst hm; exact .err _
    · show RelRes _ (Train.miniBatch upd idata odata epochs m (s, t) >>= _) (Train.miniBatch upd idata odata epochs m (s, t') >>= _)
      rw [C40_schedule upd idata odata epochs m hm, C40_schedule upd idata odata epochs m hm]
      exact (h.run _).bind2 (fun a b hab => .ok ⟨hab.1, hab.2, rfl⟩)
  | sto idata odata iterations c =>
    show RelRes _ (Train.stochastic upd idata odata iterations gen c g (s, t)) (Train.stochastic upd idata odata iterations gen c g (s, t'))
    unfold Train.stochastic
    refine RelRes.bind2 (R := fun a b : (σ × Train α) × γ × ρ => (a.1.1 = b.1.1 ∧ Alike o a.1.2 b.1.2) ∧ a.2 = b.2)
      (RelRes.forN (fun i a b hab => ?_) ⟨⟨rfl, h⟩, rfl⟩ _) (fun ⟨⟨a1, a4⟩, a2, a3⟩ ⟨⟨b1, b4⟩, b2, b3⟩ hab => ?_)
    · obtain ⟨⟨a1, a4⟩, a2, a3⟩ := a
      obtain ⟨⟨b1, b4⟩, b2, b3⟩ := b
      obtain ⟨⟨q1, q3⟩, q2⟩ := hab
      dsimp only at q1 q2 q3 ⊢
      cases q2
      cases q1
      refine .same _ (fun j _ => ?_)
      refine (q3.sample idata odata j).bind2 (fun u u' hu => ?_)
      exact (hu.updating upd 1 a1).bind2 (fun a b hab => .ok ⟨hab, rfl⟩)
    · dsimp only at hab ⊢
      obtain ⟨⟨q1, q3⟩, q2⟩ := hab
      cases q2
      cases q1
      exact .ok ⟨rfl, q3, rfl⟩
  | lossOf idata odata =>
    show RelRes _ (t.lossMean idata odata >>= _) (t'.lossMean idata odata >>= _)
    refine RelRes.bind2 (R := fun a b => Alike o a.2 b.2) ?_ (fun a b hab => .ok ⟨rfl, hab, rfl⟩)
    unfold Train.lossMean
    rw [← h.net, ← h.loss]
    refine .same _ (fun ⟨a, n⟩ _ => ?_)
    dsimp only
    split
    · exact .err _
    · exact .ok ⟨rfl, rfl, h.shape, h.shape', h.over⟩
  | eval x =>
    exact (h.feedforward x).bind2 (fun a b hab => .ok ⟨rfl, hab, rfl⟩)
  | setLoss l =>
    refine .ok ⟨rfl, ⟨h.net, rfl, h.shape, h.shape', fun l' e => ?_⟩, rfl⟩
    cases e
    exact hop

theorem make_snoc {net : Net α} {l : Layer α} (hw : net.length + 1 < W64) :
    Train.make (net ++ [l]) = .ok ⟨net ++ [l], Ten.alloc l.osize.1 l.osize.2.1 l.osize.2.2, none⟩ := by
  unfold Train.make
  have : wsub (net ++ [l]).length 1 = net.length := by
    rw [wsub_eq (by simp) (by simpa using hw)]; simp
  rw [this]
  have : lget (net ++ [l]) net.length = .ok l := by unfold lget; simp
  rw [this]
  rfl

/-- C100 when every added layer has the output shape `o` the network had when its training object was created: the network is trained
exactly as with training objects created anew after every `add`, and one program is defined exactly if the other is. -/
theorem C100_same_shape_partial (upd : Upd σ α) (gen : Gen γ ρ Nat) (net : Net α) (first : Layer α) (t : Train α)
    (ht : Train.make (net ++ [first]) = .ok t) (loss : Option (Loss α)) (hl : ∀ l, loss = some l → l.Overwrites)
    (ops : List (GrowOp α γ)) (hops : ∀ op ∈ ops, op.Sane first.osize)
    (hw : net.length + 1 + ops.length < W64) (s : σ) (g : ρ) :
    (GrowOp.run upd gen ((s, { t with loss := loss }), g) ops).map GrowOp.seen =
      (GrowOp.runNew upd gen ((s, { t with loss := loss }), g) ops).map GrowOp.seen := by
  have hlen : ∀ (op : TrainOp α γ) (st st' : (σ × Train α) × ρ), TrainOp.exec upd gen st op = .ok st' → st'.1.2.net.length = st.1.2.net.length := by
    intro op st st' h
    have fx : ∀ {n n' : Net α}, n'.map Layer.fixed = n.map Layer.fixed → n'.length = n.length := fun e => by simpa using congrArg List.length e
    have kx : ∀ {n n' : Net α}, n'.map Layer.keys = n.map Layer.keys → n'.length = n.length := fun e => by simpa using congrArg List.length e
    cases op with
    | batch idata odata epochs =>
      obtain ⟨r, h1, h2⟩ := res_bind_inv h
      cases h2
      by_cases hne : idata = []
      · subst hne; cases h1
      · rw [C39_schedule upd idata odata hne] at h1
        exact fx (TEv.run_keeps h1)
    | mini idata odata epochs m =>
      obtain ⟨r, h1, h2⟩ := res_bind_inv h
      cases h2
      by_cases hm : m = 0
      · subst hm; cases h1
      · rw [C40_schedule upd idata odata epochs m hm] at h1
        exact fx (TEv.run_keeps h1)
    | sto idata odata iterations c =>
      obtain ⟨⟨a, b⟩, h1, h2⟩ := res_bind_inv h
      cases h2
      refine fx (forN_keeps (f := fun q : (σ × Train α) × γ × ρ => q.1.2.net.map Layer.fixed) (fun i q q' hb => ?_) h1)
      obtain ⟨_, _, hb⟩ := res_bind_inv hb
      obtain ⟨t1, k1, hb⟩ := res_bind_inv hb
      obtain ⟨q2, k2, hb⟩ := res_bind_inv hb
      cases hb
      have e1 := TEv.exec_keeps (upd := upd) (idata := idata) (odata := odata) (st := q.1) (st' := (q.1.1, t1)) (e := .sample _)
        (by show (Train.sample idata odata _ q.1.2 >>= _) = _; rw [k1]; rfl)
      exact (TEv.exec_keeps (upd := upd) (idata := idata) (odata := odata) (e := .update 1) k2).trans e1
    | lossOf idata odata =>
      obtain ⟨r, h1, h2⟩ := res_bind_inv h
      cases h2
      exact kx (Train.lossMean_keys h1)
    | eval x =>
      obtain ⟨r, h1, h2⟩ := res_bind_inv h
      cases h2
      exact kx (Train.feedforward_keys h1)
    | setLoss l => cases h; rfl
  have key : ∀ (ops : List (GrowOp α γ)) (t t' : Train α) (s : σ) (g : ρ), Alike first.osize t t' → (∀ op ∈ ops, op.Sane first.osize) →
      t.net.length + ops.length < W64 →
      (GrowOp.run upd gen ((s, t), g) ops).map GrowOp.seen = (GrowOp.runNew upd gen ((s, t'), g) ops).map GrowOp.seen := by
    intro ops
    induction ops with
    | nil =>
      intro t t' s g h _ _
      show Except.ok _ = Except.ok _
      unfold GrowOp.seen
      rw [h.net, h.loss]
    | cons op ops ih =>
      intro t t' s g h hs hlt
      cases op with
      | call op =>
        show ((TrainOp.exec upd gen ((s, t), g) op >>= _).map _) = ((TrainOp.exec upd gen ((s, t'), g) op >>= _).map _)
        have hr := h.op (upd := upd) (gen := gen) (s := s) (g := g) op (hs _ List.mem_cons_self)
        cases hx : TrainOp.exec upd gen ((s, t), g) op with
        | error e =>
          rw [hx] at hr
          cases hy : TrainOp.exec upd gen ((s, t'), g) op with
          | error e' => rw [hy] at hr; cases hr; rfl
          | ok b => rw [hy] at hr; cases hr
        | ok a =>
          rw [hx] at hr
          cases hy : TrainOp.exec upd gen ((s, t'), g) op with
          | error e' => rw [hy] at hr; cases hr
          | ok b =>
            rw [hy] at hr
            cases hr with
            | ok hr =>
              obtain ⟨q1, q2, q3⟩ := hr
              obtain ⟨⟨a1, a2⟩, a3⟩ := a
              obtain ⟨⟨b1, b2⟩, b3⟩ := b
              dsimp only at q1 q2 q3
              subst q1
              subst q3
              have e := hlen op _ _ hx
              dsimp only at e
              exact ih a2 b2 a1 a3 q2 (fun op ho => hs op (List.mem_cons_of_mem _ ho)) (by rw [e]; simp only [List.length_cons] at hlt; omega)
      | add l =>
        have hl : l.osize = first.osize := hs _ List.mem_cons_self
        simp only [List.length_cons] at hlt
        show (GrowOp.run upd gen ((s, t.add l), g) ops).map _ = ((Train.make (t'.net ++ [l]) >>= _).map _)
        rw [make_snoc (by rw [← h.net]; omega)]
        refine ih (t.add l) _ s g ⟨?_, h.loss, h.shape, ?_, h.over⟩ (fun op ho => hs op (List.mem_cons_of_mem _ ho)) ?_
        · show t.net ++ [l] = t'.net ++ [l]
          rw [h.net]
        · rw [hl]
          exact ⟨rfl, rfl, rfl, by simp [Ten.alloc, Buf.alloc]⟩
        · simp only [Train.add, List.length_append, List.length_singleton]; omega
  rw [make_snoc (by omega)] at ht
  cases ht
  refine key ops _ _ s g ⟨rfl, rfl, ?_, ?_, hl⟩ hops (by simp only [List.length_append, List.length_singleton]; omega)
  · exact ⟨rfl, rfl, rfl, by simp [Ten.alloc, Buf.alloc]⟩
  · exact ⟨rfl, rfl, rfl, by simp [Ten.alloc, Buf.alloc]⟩

/-! ### Another output size: undefined behaviour -/

theorem zipInto_reads {op : α → α → α} {r x r' : Buf α} (h : zipInto op r x = .ok r') : r.length ≤ x.length := by
  have : ∀ n (r' : Buf α), forN n r (fun i r => do
      let a ← r.get i
      let b ← x.get i
      r.set i (op a b)) = .ok r' → n ≤ x.length := by
    intro n
    induction n with
    | zero => intro _ _; omega
    | succ n ih =>
      intro r' h
      rw [forN_succ] at h
      obtain ⟨r1, h1, h2⟩ := res_bind_inv h
      obtain ⟨_, _, h2⟩ := res_bind_inv h2
      obtain ⟨_, h3, _⟩ := res_bind_inv h2
      exact lt_of_get h3
  exact this _ _ h

theorem Fits.snoc_reads {k' : LayerKind α} {o : Shp} : ∀ {ks : List (LayerKind α)} {s : Shp}, Fits s (ks ++ [k']) o →
    ∀ k, ks.getLast? = some k → k'.Reads k.outShape
  | [], _, _, k, hk => by cases hk
  | [k0], _, h, k, hk => by cases hk; exact h.2.2.1
  | k0 :: k1 :: ks, _, h, k, hk => by
    refine Fits.snoc_reads (ks := k1 :: ks) (s := k0.outShape) h.2.2 k ?_
    rw [List.getLast?_cons_cons] at hk
    exact hk

/-- VIOLATED when the added (dense) layer has another number of outputs: the training object's `delta` keeps the size of the old output, and
every batch training, with whatever optimizer, is undefined, although network, samples and targets fit together. -/
theorem C100_other_size_violated (size : Nat → Nat) (ks : List (LayerKind α)) (n m : Nat) (act : Act α) (kB kW : Nat) (s o : Shp)
    (hS : Static size (ks ++ [.dense n m act kB kW]) s o) (hnm : n ≠ m) (net : Net α) (hnet : List.Forall₂ Layer.Sound net ks)
    (l : Layer α) (hl : l.Sound (.dense n m act kB kW)) (t : Train α) (ht : Train.make net = .ok t) (loss : Loss α) (hloss : loss.Overwrites)
    (upd : Upd σ α) (st : σ) (idata odata : List (Ten α)) (hd : DataFits idata odata s o) (hne : idata ≠ []) (epochs : Nat) (he : 0 < epochs) :
    ∃ e, Train.batch upd idata odata epochs (st, Train.add l { t with loss := some loss }) = .error e := by
  have hlen : net.length = ks.length := hnet.length_eq
  have h2 := hS.two
  have hw := hS.word
  rw [List.length_append, List.length_singleton] at h2 hw
  -- the size of delta
  have hdelta : t.delta.data.length = n ∧ t.net = net := by
    unfold Train.make at ht
    rw [wsub_eq (by omega) (by omega)] at ht
    obtain ⟨l0, h0, ht⟩ := res_bind_inv ht
    cases ht
    refine ⟨?_, rfl⟩
    have a1 : net.length - 1 < net.length := by omega
    have a2 : net.length - 1 < ks.length := by omega
    unfold lget at h0
    rw [List.getElem?_eq_getElem a1] at h0
    cases h0
    have hk := hnet.get a1 a2
    have := Fits.snoc_reads hS.fits ks[net.length - 1] (by rw [List.getLast?_eq_getElem?, List.getElem?_eq_some_iff]; exact ⟨by omega, by simp only [hlen]⟩)
    have e : (net.get ⟨net.length - 1, a1⟩).osize = (ks.get ⟨net.length - 1, a2⟩).outShape := hk.osize
    simp only [List.get_eq_getElem] at e
    show (Buf.alloc _).length = n
    rw [e]
    simp only [Buf.alloc, List.length_replicate]
    exact this
  -- the training
  obtain ⟨epochs, rfl⟩ : ∃ k, epochs = k + 1 := ⟨epochs - 1, by omega⟩
  rw [C39_schedule upd idata odata hne]
  have hi : 0 < idata.length := List.length_pos_iff.2 hne
  obtain ⟨ni, hni⟩ : ∃ k, idata.length = k + 1 := ⟨idata.length - 1, by omega⟩
  have htr : ∃ es, batchTrace (1 / (idata.length : α)) idata.length (epochs + 1) = .reset :: .sample 0 :: es := by
    unfold batchTrace stepTrace
    rw [List.replicate_succ, List.flatten_cons, hni, List.range_succ_eq_map, List.flatMap_cons]
    exact ⟨_, rfl⟩
  obtain ⟨es, htr⟩ := htr
  rw [htr]
  cases hrun : TEv.run upd idata odata (st, Train.add l { t with loss := some loss }) (.reset :: .sample 0 :: es) with
  | error e => exact ⟨e, rfl⟩
  | ok r =>
    exfalso
    obtain ⟨⟨s1, t1⟩, h1, hrun⟩ := res_bind_inv hrun
    obtain ⟨⟨s2, t2⟩, h3, _⟩ := res_bind_inv hrun
    obtain ⟨t1', h1, h1'⟩ := res_bind_inv h1
    cases h1'
    obtain ⟨t2', h3, h3'⟩ := res_bind_inv h3
    cases h3'
    obtain ⟨n1, hre, h1'⟩ := res_bind_inv h1
    cases h1'
    have hsound : List.Forall₂ Layer.Sound (t.net ++ [l]) (ks ++ [.dense n m act kB kW]) := by
      rw [hdelta.2]
      exact List.rel_append hnet (.cons hl .nil)
    have hn1 : List.Forall₂ Layer.Sound n1 (ks ++ [.dense n m act kB kW]) := by
      have := mapL_sound (fun l k hl => hl.reset) hsound
      rw [← Net.reseting_eq] at this
      obtain ⟨n1', e1, e2⟩ := this
      have h1'' : Net.reseting (t.net ++ [l]) = .ok n1 := hre
      rw [e1] at h1''
      cases h1''
      exact e2
    obtain ⟨x, hx, h3⟩ := res_bind_inv h3
    obtain ⟨t3, h4, h3⟩ := res_bind_inv h3
    obtain ⟨y, hy, h3⟩ := res_bind_inv h3
    obtain ⟨⟨n2, v2⟩, hff, h4'⟩ := res_bind_inv h4
    cases h4'
    have hxs : ShapeIs x s := by
      unfold lget at hx
      rw [List.getElem?_eq_getElem hi] at hx
      cases hx
      exact hd.1 _ (List.getElem_mem hi)
    have hn2 : List.Forall₂ Layer.Sound n2 (ks ++ [.dense n m act kB kW]) := by
      obtain ⟨q, e1, e2⟩ := Net.feedforward_sound hS hn1 hxs
      have h4'' : Net.feedforward x n1 = .ok (n2, v2) := hff
      rw [e1] at h4''
      cases h4''
      exact e2.1
    have hlen2 : n2.length = ks.length + 1 := by rw [hn2.length_eq]; simp
    obtain ⟨la, hla, h3⟩ := res_bind_inv h3
    obtain ⟨lo, hlo, h3⟩ := res_bind_inv h3
    obtain ⟨d, hdd, h3⟩ := res_bind_inv h3
    obtain ⟨n3, h5, _⟩ := res_bind_inv h3
    cases hlo
    have hws : wsub n2.length 1 = ks.length := by rw [wsub_eq (by omega) (by omega), hlen2]; omega
    have hlaS : la.Sound (.dense n m act kB kW) := by
      have hla' : lget n2 (wsub n2.length 1) = .ok la := hla
      rw [hws] at hla'
      have a1 : ks.length < n2.length := by omega
      unfold lget at hla'
      rw [List.getElem?_eq_getElem a1] at hla'
      cases hla'
      have := hn2.get a1 (by simp)
      simpa using this
    cases la with
    | fc f =>
      obtain ⟨⟨b, W, hf⟩, hact, _, _⟩ := hlaS
      obtain ⟨dd, hdf, hd2⟩ := res_bind_inv hdd
      cases hd2
      have e1 := hloss.length _ _ _ _ hdf
      have e2 := hloss.reads _ _ _ _ hdf
      have e3 : f.value.data.length = m := by
        obtain ⟨v, hv⟩ := hf.value
        exact hv.2.2.2.1
      have e4 : t.delta.data.length ≤ m := by
        have : t.delta.data.length ≤ f.value.data.length := e2
        omega
      obtain ⟨l1, k1, h5⟩ := res_bind_inv h5
      obtain ⟨p1, _, h5⟩ := res_bind_inv h5
      obtain ⟨l2, k2, _⟩ := res_bind_inv h5
      cases (show Except.ok (Layer.fc f) = Except.ok l1 from (hla.symm.trans k1))
      obtain ⟨f2, k2, _⟩ := res_bind_inv k2
      obtain ⟨gB, k3, k2⟩ := res_bind_inv k2
      obtain ⟨gB2, k4, _⟩ := res_bind_inv k2
      have e5 := zipInto_reads k4
      obtain ⟨⟨F, D, hA⟩, _⟩ := hS.valid (.dense n m act kB kW) (by simp)
      obtain ⟨vb, hvb⟩ := hf.buff
      obtain ⟨gB', k3', hg⟩ := hA.df f.gradB f.buff vb hf.gradB.len hvb
      rw [hact, k3'] at k3
      cases k3
      have e6 : gB.length = m := hg.1
      have e7 : t.delta.data.length = dd.length := e1.symm
      have e8 : gB.length ≤ dd.length := e5
      omega
    | conv f => cases hlaS
    | pool f => cases hlaS
    | rawFC f => cases hlaS
    | rawConv f => cases hlaS
    | rawPool f => cases hlaS

end

/-! ### Non-vacuity -/

def growAct : Act Int := Act.elementwise (fun x => x) (fun _ => 1)
/-- Difference of prediction and target, over the integers. -/
def growLoss : Loss Int := ⟨fun _ _ => .ok 0, fun r t p => forN r.length r (fun i r => do let a ← (do let b ← p.get i; let a ← t.get i; return b - a); r.set i a)⟩

theorem growLoss_overwrites : growLoss.Overwrites :=
  overwrites_of (v := fun t p i => do let b ← p.get i; let a ← t.get i; return b - a)
    (fun t p i a h => by obtain ⟨_, h1, _⟩ := res_bind_inv h; exact lt_of_get h1) (fun _ _ _ => rfl)

def growKinds : List (LayerKind Int) := [.dense 1 1 growAct 0 1, .dense 1 1 growAct 2 3]
def growSize (a : Nat) : Nat := [1, 1, 1, 1, 2, 2].getD a 0
def growRow (xs : List Int) : Ten Int := ⟨1, 1, xs.length, Buf.of xs⟩
def growFC (n m : Nat) (kB kW : Nat) : Layer Int := .fc (FC.make n m growAct kB kW)

/-- The hypotheses of `C100_other_size_violated`. -/
example : Static growSize (growKinds ++ [.dense 1 2 growAct 4 5]) (1, 1, 1) (1, 1, 2) ∧
    (∃ net, LayerKind.makeAll growKinds = .ok net ∧ List.Forall₂ Layer.Sound net growKinds) ∧
    (growFC 1 2 4 5).Sound (.dense 1 2 growAct 4 5) ∧ DataFits [growRow [1]] [growRow [2, 3]] (1, 1, 1) (1, 1, 2) := by
  have ha : ∀ n, ∃ F D, growAct.Is n F D := fun n => ⟨_, _, Act.Is.elementwise _ _ n⟩
  have hv : ∀ k ∈ growKinds ++ [.dense 1 2 growAct 4 5], k.Valid growSize := by
    intro k hk
    simp only [growKinds, List.cons_append, List.nil_append, List.mem_cons, List.not_mem_nil, or_false] at hk
    rcases hk with rfl | rfl | rfl <;> exact ⟨ha _, rfl, rfl⟩
  refine ⟨⟨hv, ⟨rfl, rfl, rfl, rfl, rfl, rfl⟩, by decide, by show 3 < W64; decide⟩,
    LayerKind.makeAll_sound (fun k hk => hv k (List.mem_append_left _ hk)), ⟨⟨_, _, FC.Wf_make 1 2 growAct 4 5⟩, rfl, rfl, rfl⟩, ?_, ?_, rfl⟩
  · intro x hx
    cases List.mem_singleton.1 hx
    exact ⟨rfl, rfl, rfl, _, VecIs_of _ (fun _ => 1) (fun i hi => by have : i < 1 := hi; interval_cases i; rfl)⟩
  · intro x hx
    cases List.mem_singleton.1 hx
    exact ⟨_, VecIs_of _ (fun i => if i = 0 then 2 else 3) (fun i hi => by have : i < 2 := hi; interval_cases i <;> rfl)⟩

/-- A layer with one output is added after one epoch and training goes on: the parameters at the end, with the old training object and
with a new one. After a layer with two outputs the old object is undefined and a new one is not. -/
def growRun (new : Bool) (l : Layer Int) (y : Ten Int) : Res (List (List (Buf Int))) := do
  let net ← LayerKind.makeAll growKinds
  let t ← Train.make net
  let ops : List (GrowOp Int Unit) := [.call (.batch [growRow [1]] [growRow [2]] 1), .add l, .call (.sto [growRow [1]] [y] 2 ())]
  let r ← (if new then GrowOp.runNew (ρ := Unit) else GrowOp.run) gdUpdate (fun _ _ => (0, (), ())) ((1, { t with loss := some growLoss }), ()) ops
  return r.1.2.net.params

example : growRun false (growFC 1 1 4 5) (growRow [2]) = growRun true (growFC 1 1 4 5) (growRow [2]) ∧
    growRun true (growFC 1 1 4 5) (growRow [2]) = .ok [[[some 0], [some 0]], [[some 6], [some 0]], [[some (-14)], [some (-60)]]] ∧
    growRun false (growFC 1 2 4 5) (growRow [2, 3]) = .error .oob ∧
    growRun true (growFC 1 2 4 5) (growRow [2, 3]) = .ok [[[some 0], [some 0]], [[some 6], [some 0]], [[some (-14), some (-21)], [some (-60), some (-90)]]] := by
  refine ⟨?_, ?_, ?_, ?_⟩ <;> decide +kernel

end Trixy
