import Verif.Spec.Init
import Verif.Proof.Trace
/- What `init` writes. -/
namespace Trixy

variable {α γ ρ : Type}

theorem draws_succ {β : Type} (gen : Gen γ ρ β) (k : Nat) : ∀ (c : γ) (g : ρ),
    draws gen (k + 1) c g = draws gen k c g ++ [(gen (drawn gen k c g).1 (drawn gen k c g).2).1] ∧
    drawn gen (k + 1) c g = (gen (drawn gen k c g).1 (drawn gen k c g).2).2 := by
  induction k with
  | zero => intro c g; exact ⟨rfl, rfl⟩
  | succ k ih =>
    intro c g
    have := ih (gen c g).2.1 (gen c g).2.2
    constructor
    · conv_lhs => unfold draws
      rw [this.1]; rfl
    · conv_lhs => unfold drawn
      rw [this.2]; rfl

theorem draws_length {β : Type} (gen : Gen γ ρ β) (k : Nat) : ∀ (c : γ) (g : ρ), (draws gen k c g).length = k := by
  induction k with
  | zero => intro c g; rfl
  | succ k ih => intro c g; simp [draws, ih]

/-- `fill(generator)` writes consecutive values drawn from a copy of the generator. -/
theorem fillBy_eq (gen : Gen γ ρ α) (c : γ) (g : ρ) (r : Buf α) :
    fillBy gen c g r = .ok (Buf.of (draws gen r.length c g), (drawn gen r.length c g).2) := by
  unfold fillBy
  have key : ∀ k, k ≤ r.length → forN k (r, c, g) (fun i (p : Buf α × γ × ρ) => do
      let (a, c, g) := gen p.2.1 p.2.2
      let r ← p.1.set i a
      return (r, c, g)) = .ok (Buf.of (draws gen k c g) ++ r.drop k, drawn gen k c g) := by
    intro k
    induction k with
    | zero => intro _; simp [draws, drawn, Buf.of]
    | succ k ih =>
      intro hk
      rw [forN_succ, ih (by omega), bind_ok]
      obtain ⟨e1, e2⟩ := draws_succ gen k c g
      have hlen : (Buf.of (draws gen k c g)).length = k := by simp [Buf.of, draws_length]
      have hset : ∀ a, Buf.set (Buf.of (draws gen k c g) ++ r.drop k) k a =
          .ok (Buf.of (draws gen k c g ++ [a]) ++ r.drop (k + 1)) := by
        intro a
        unfold Buf.set
        rw [if_pos (by rw [List.length_append, hlen, List.length_drop]; omega)]
        rw [List.set_append_right _ _ (by omega), hlen, Nat.sub_self]
        have : r.drop k = r[k]'(by omega) :: r.drop (k + 1) := List.drop_eq_getElem_cons (by omega)
        rw [this, List.set_cons_zero]
        unfold Buf.of
        rw [List.map_append, List.append_assoc]
        rfl
      simp only [hset, bind_ok]
      rw [e1, e2]
      rfl
  have := key r.length (Nat.le_refl _)
  rw [List.drop_length, List.append_nil] at this
  rw [this]
  rfl

/-- What the tensors of the given sizes receive, one after the other. -/
def initSpec (gen : Gen γ ρ α) (c : γ) : ρ → List Nat → List (Buf α) × ρ
  | g, [] => ([], g)
  | g, k :: ks =>
    let r := initSpec gen c (drawn gen k c g).2 ks
    (Buf.of (draws gen k c g) :: r.1, r.2)

theorem initSpec_append (gen : Gen γ ρ α) (c : γ) (as bs : List Nat) : ∀ g : ρ,
    initSpec gen c g (as ++ bs) =
      ((initSpec gen c g as).1 ++ (initSpec gen c (initSpec gen c g as).2 bs).1, (initSpec gen c (initSpec gen c g as).2 bs).2) := by
  induction as with
  | nil => intro g; rfl
  | cons a as ih => intro g; simp only [List.cons_append, initSpec, ih]

theorem initSpec_lengths (gen : Gen γ ρ α) (c : γ) (ks : List Nat) : ∀ g : ρ, (initSpec gen c g ks).1.map List.length = ks := by
  induction ks with
  | nil => intro g; rfl
  | cons k ks ih => intro g; simp only [initSpec, List.map_cons, ih]; simp [Buf.of, draws_length]

/-- Filling a container of tensors. -/
theorem convFill_eq (gen : Gen γ ρ α) (c : γ) (Ws : List (Ten α)) (g : ρ) :
    ∃ Ws' g', forN Ws.length (Ws, g) (fun f s => do
      let W ← lget s.1 f
      let (d, g) ← fillBy gen c s.2 W.data
      let Ws ← lset s.1 f { W with data := d }
      return (Ws, g)) = .ok (Ws', g') ∧
      (Ws'.map (·.data), g') = initSpec gen c g (Ws.map (fun W => W.data.length)) := by
  have key : ∀ (rest pre : List (Ten α)) (g : ρ), ∃ Ws' g', forN rest.length (pre ++ rest, g) (fun f s => do
      let W ← lget s.1 (pre.length + f)
      let (d, g) ← fillBy gen c s.2 W.data
      let Ws ← lset s.1 (pre.length + f) { W with data := d }
      return (Ws, g)) = .ok (pre ++ Ws', g') ∧
      (Ws'.map (·.data), g') = initSpec gen c g (rest.map (fun W => W.data.length)) := by
    intro rest
    induction rest with
    | nil => intro pre g; exact ⟨[], g, by simp, rfl⟩
    | cons W rest ih =>
      intro pre g
      obtain ⟨Ws', g', e, h⟩ := ih (pre ++ [{ W with data := Buf.of (draws gen W.data.length c g) }]) (drawn gen W.data.length c g).2
      refine ⟨{ W with data := Buf.of (draws gen W.data.length c g) } :: Ws', g', ?_, ?_⟩
      · rw [List.length_cons, forN_first]
        dsimp only
        rw [Nat.add_zero, lget_mid, bind_ok, fillBy_eq, bind_ok]
        dsimp only
        rw [lset_mid, bind_ok]
        simp only [List.length_append, List.length_singleton, List.append_assoc, List.singleton_append] at e
        have e' : ∀ i, pre.length + 1 + i = pre.length + (i + 1) := by intro i; omega
        simp only [e'] at e
        exact e
      · simp only [List.map_cons, initSpec, ← h]
  obtain ⟨Ws', g', e, h⟩ := key Ws [] g
  simp only [List.length_nil, Nat.zero_add, List.nil_append] at e
  exact ⟨Ws', g', e, h⟩

theorem Layer.init_eq (gen : Gen γ ρ α) (c : γ) (g : ρ) (l : Layer α) :
    ∃ l' g', l.init gen c g = .ok (l', g') ∧ (l'.initOrder, g') = initSpec gen c g (l.initOrder.map List.length) := by
  have conv : ∀ f : Conv α, ∃ f' g', f.init gen c g = .ok (f', g') ∧
      (f'.Ws.map (·.data) ++ [f'.B], g') = initSpec gen c g ((f.Ws.map (·.data) ++ [f.B]).map List.length) := by
    intro f
    obtain ⟨Ws', g', e, h⟩ := convFill_eq gen c f.Ws g
    refine ⟨{ f with B := Buf.of (draws gen f.B.length c g'), Ws := Ws' }, (drawn gen f.B.length c g').2, ?_, ?_⟩
    · unfold Conv.init
      rw [e, bind_ok]
      dsimp only
      rw [fillBy_eq, bind_ok]
      rfl
    · dsimp only
      rw [List.map_append, initSpec_append, List.map_map]
      have e2 : (List.length ∘ fun (x : Ten α) => x.data) = fun W : Ten α => W.data.length := rfl
      rw [e2, ← h]
      rfl
  cases l with
  | fc f =>
    refine ⟨.fc { f with B := Buf.of (draws gen f.B.length c g), W := { f.W with data := Buf.of (draws gen f.W.data.length c (drawn gen f.B.length c g).2) } }, (drawn gen f.W.data.length c (drawn gen f.B.length c g).2).2, ?_, rfl⟩
    unfold Layer.init FC.init
    dsimp only
    rw [fillBy_eq, bind_ok]
    dsimp only
    rw [fillBy_eq, bind_ok]
    rfl
  | conv f =>
    obtain ⟨f', g', e, h⟩ := conv f
    exact ⟨.conv f', g', by unfold Layer.init; dsimp only; rw [e]; rfl, h⟩
  | rawConv f =>
    obtain ⟨f', g', e, h⟩ := conv f
    exact ⟨.rawConv f', g', by unfold Layer.init; dsimp only; rw [e]; rfl, h⟩
  | pool f => exact ⟨_, _, rfl, rfl⟩
  | rawFC f => exact ⟨_, _, rfl, rfl⟩
  | rawPool f => exact ⟨_, _, rfl, rfl⟩

theorem Net.init_eq (gen : Gen γ ρ α) (c : γ) (g : ρ) (net : Net α) :
    ∃ net' g', Net.init gen c g net = .ok (net', g') ∧
      (net'.flatMap Layer.initOrder, g') = initSpec gen c g ((net.flatMap Layer.initOrder).map List.length) ∧
      net'.map (fun l => l.initOrder.map List.length) = net.map (fun l => l.initOrder.map List.length) := by
  have key : ∀ (rest pre : Net α) (g : ρ), ∃ net' g', forN rest.length (pre ++ rest, g) (fun i s => do
      let l ← lget s.1 (pre.length + i)
      let (l, g) ← l.init gen c s.2
      let net ← lset s.1 (pre.length + i) l
      return (net, g)) = .ok (pre ++ net', g') ∧
      (net'.flatMap Layer.initOrder, g') = initSpec gen c g ((rest.flatMap Layer.initOrder).map List.length) ∧
      net'.map (fun l => l.initOrder.map List.length) = rest.map (fun l => l.initOrder.map List.length) := by
    intro rest
    induction rest with
    | nil => intro pre g; exact ⟨[], g, by simp, rfl, rfl⟩
    | cons l rest ih =>
      intro pre g
      obtain ⟨l', g1, e1, h1⟩ := l.init_eq gen c g
      obtain ⟨net', g', e, h⟩ := ih (pre ++ [l']) g1
      refine ⟨l' :: net', g', ?_, ?_, ?_⟩
      · rw [List.length_cons, forN_first]
        dsimp only
        rw [Nat.add_zero, lget_mid, bind_ok, e1, bind_ok]
        dsimp only
        rw [lset_mid, bind_ok]
        simp only [List.length_append, List.length_singleton, List.append_assoc, List.singleton_append] at e
        have e' : ∀ i, pre.length + 1 + i = pre.length + (i + 1) := by intro i; omega
        simp only [e'] at e
        exact e
      · rw [List.flatMap_cons, List.flatMap_cons, List.map_append, initSpec_append, ← h1, ← h.1]
      · have := initSpec_lengths gen c (l.initOrder.map List.length) g
        rw [← h1] at this
        rw [List.map_cons, List.map_cons, h.2]
        exact congrArg (· :: _) this
  obtain ⟨net', g', e, h⟩ := key net [] g
  simp only [List.length_nil, Nat.zero_add, List.nil_append] at e
  exact ⟨net', g', e, h⟩

/-! ### The two kinds of functors -/

theorem draws_byRef (step : ρ → α × ρ) (k : Nat) : ∀ g : ρ, draws (byRef step) k () g = stream step k g := by
  induction k with
  | zero => intro g; rfl
  | succ k ih => intro g; simp only [draws, stream, byRef]; rw [← ih]

theorem draws_byVal (step : ρ → α × ρ) (k : Nat) : ∀ c : ρ, draws (byVal step) k c () = stream step k c := by
  induction k with
  | zero => intro g; rfl
  | succ k ih => intro g; simp only [draws, stream, byVal]; rw [← ih]

theorem stream_add (step : ρ → α × ρ) (a b : Nat) : ∀ g : ρ,
    stream step (a + b) g = stream step a g ++ stream step b (drawn (byRef step) a () g).2 := by
  induction a with
  | zero => intro g; simp [stream, drawn]
  | succ a ih =>
    intro g
    rw [show a + 1 + b = (a + b) + 1 by omega]
    simp only [stream, List.cons_append, drawn]
    rw [ih]; rfl

theorem initSpec_byRef (step : ρ → α × ρ) (ks : List Nat) : ∀ g : ρ,
    (initSpec (byRef step) () g ks).1.flatten = Buf.of (stream step ks.sum g) := by
  induction ks with
  | nil => intro g; rfl
  | cons k ks ih =>
    intro g
    rw [List.sum_cons, stream_add]
    simp only [initSpec, List.flatten_cons, ih, draws_byRef, Buf.of, List.map_append]

theorem initSpec_byVal (step : ρ → α × ρ) (c : ρ) (ks : List Nat) :
    (initSpec (byVal step) c () ks).1 = ks.map (fun k => Buf.of (stream step k c)) := by
  induction ks with
  | nil => rfl
  | cons k ks ih =>
    simp only [initSpec, List.map_cons, draws_byVal]
    rw [ih]

end Trixy
