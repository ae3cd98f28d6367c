import Verif.Proof.Shared
import Verif.Props.Checkpoint
/- C99: one optimizer object can serve several networks (every optimizer of the library except Adam). -/
namespace Trixy
set_option linter.unusedSectionVars false

variable {α γ ρ σ ε : Type}

section
variable [Zero α] [One α] [Add α] [Mul α] [Div α] [NatCast α] [LT α] [DecidableLT α] [DecidableEq α]
variable {upd : Upd σ α} {view : σ → Nat → ε}

theorem Net.keys_eq (net : Net α) : Net.keys net = (net.map Layer.keys).flatten := by
  unfold Net.keys; rw [List.flatMap_def]

/-- `xs` is the list of what `R` gives at every index. -/
theorem forall₂_range {A : Type} {R : Nat → A → Prop} {n : Nat} {xs : List A} :
    List.Forall₂ R (List.range n) xs ↔ xs.length = n ∧ ∀ i e, xs[i]? = some e → R i e := by
  rw [List.forall₂_iff_get]
  constructor
  · rintro ⟨h1, h2⟩
    rw [List.length_range] at h1
    refine ⟨h1.symm, fun i e he => ?_⟩
    obtain ⟨hi, rfl⟩ := List.getElem?_eq_some_iff.1 he
    have := h2 i (by rw [List.length_range]; omega) hi
    simpa using this
  · rintro ⟨h1, h2⟩
    refine ⟨by rw [List.length_range, h1], fun i hi hi' => ?_⟩
    have := h2 i _ (List.getElem?_eq_getElem hi')
    simpa using this

theorem Shared.run_iff (L : LocalUpd upd view) (gen : Gen γ ρ Nat) (ends : List (Train α × ρ)) :
    ∀ (ops : List (Nat × TrainOp α γ)) (s : σ) (ss : Nat → σ) (ts : List (Train α × ρ)),
    ts.Pairwise (fun a b => ∀ k ∈ Net.keys a.1.net, k ∉ Net.keys b.1.net) → (∀ o ∈ ops, o.1 < ts.length) →
    (∀ (i : Nat) (c : Train α × ρ), ts[i]? = some c → ∀ k ∈ Net.keys c.1.net, view s k = view (ss i) k) →
    ((∃ s', Shared.run upd gen s ts ops = .ok (s', ends)) ↔
      List.Forall₂ (fun i e => ∃ c, ts[i]? = some c ∧ Shared.alone upd gen (ss i) c (Shared.mine i ops) = .ok e) (List.range ts.length) ends) := by
  intro ops
  induction ops with
  | nil =>
    intro s ss ts _ _ _
    rw [forall₂_range]
    constructor
    · rintro ⟨s', h⟩
      cases h
      exact ⟨rfl, fun i e he => ⟨e, he, rfl⟩⟩
    · rintro ⟨h1, h2⟩
      refine ⟨s, ?_⟩
      have : ts = ends := by
        refine List.ext_getElem? (fun i => ?_)
        cases he : ends[i]? with
        | none => rw [List.getElem?_eq_none_iff] at he ⊢; omega
        | some e =>
          obtain ⟨c, hc, h⟩ := h2 i e he
          cases h
          exact hc
      rw [this]; rfl
  | cons o ops ih =>
    obtain ⟨i, op⟩ := o
    intro s ss ts hP hO hV
    have hi : i < ts.length := hO (i, op) List.mem_cons_self
    obtain ⟨c, hc⟩ : ∃ c, ts[i]? = some c := ⟨_, List.getElem?_eq_getElem hi⟩
    have hl : lget ts i = .ok c := by unfold lget; rw [hc]
    have hrun : Shared.run upd gen s ts ((i, op) :: ops) = (TrainOp.exec upd gen ((s, c.1), c.2) op >>= fun r =>
        Shared.run upd gen r.1.1 (ts.set i (r.1.2, r.2)) ops) := by
      show (lget ts i >>= _) = _
      rw [hl]; rfl
    have hself : Shared.mine i ((i, op) :: ops) = op :: Shared.mine i ops := by simp [Shared.mine]
    have hother : ∀ j, j ≠ i → Shared.mine j ((i, op) :: ops) = Shared.mine j ops := by
      intro j hj
      simp [Shared.mine, Ne.symm hj]
    have hstep := TrainOp.exec_rel (K := c.1.net.map Layer.keys) (L.rel _ s (ss i)) gen (x := (s, c.1)) (y := (ss i, c.1))
      ⟨⟨fun k hk => hV i c hc k (by rw [Net.keys_eq]; exact hk), fun k _ => ⟨rfl, rfl⟩⟩, rfl, rfl⟩ c.2 op
    rw [hrun]
    cases hx : TrainOp.exec upd gen ((s, c.1), c.2) op with
    | error e =>
      rw [hx] at hstep
      constructor
      · rintro ⟨s', h⟩; cases h
      · intro h
        rw [forall₂_range] at h
        obtain ⟨c', hc', h'⟩ := h.2 i _ (List.getElem?_eq_getElem (h.1 ▸ hi))
        cases hc.symm.trans hc'
        rw [hself] at h'
        obtain ⟨r, h1, _⟩ := res_bind_inv h'
        obtain ⟨r1, h1, _⟩ := res_bind_inv h1
        rw [h1] at hstep
        cases hstep
    | ok r =>
      cases hy : TrainOp.exec upd gen ((ss i, c.1), c.2) op with
      | error e => rw [hx, hy] at hstep; cases hstep
      | ok r' =>
        rw [hx, hy] at hstep
        cases hstep with
        | ok hstep =>
        obtain ⟨⟨⟨ha, hf⟩, ht, hk⟩, hg⟩ := hstep
        rw [← Net.keys_eq] at ha hf
        have hk' : Net.keys r.1.2.net = Net.keys c.1.net := by rw [Net.keys_eq, hk, Net.keys_eq]
        show (∃ s', Shared.run upd gen r.1.1 (ts.set i (r.1.2, r.2)) ops = .ok (s', ends)) ↔ _
        rw [List.pairwise_iff_getElem] at hP
        have hdis : ∀ (j : Nat) (d : Train α × ρ), j ≠ i → ts[j]? = some d → ∀ k ∈ Net.keys d.1.net, k ∉ Net.keys c.1.net := by
          intro j d hj hd k hk1 hk2
          obtain ⟨hj', rfl⟩ := List.getElem?_eq_some_iff.1 hd
          obtain ⟨hi', rfl⟩ := List.getElem?_eq_some_iff.1 hc
          rcases Nat.lt_or_gt_of_ne hj with h | h
          · exact hP _ _ hj' hi' h k hk1 hk2
          · exact hP _ _ hi' hj' h k hk2 hk1
        have hget : ∀ (j : Nat), j ≠ i → (ts.set i (r.1.2, r.2))[j]? = ts[j]? := fun j hj => List.getElem?_set_ne (Ne.symm hj)
        have hgeti : (ts.set i (r.1.2, r.2))[i]? = some (r.1.2, r.2) := List.getElem?_set_self hi
        have hkeys : ∀ (j : Nat) (d : Train α × ρ), (ts.set i (r.1.2, r.2))[j]? = some d → ∃ d', ts[j]? = some d' ∧ Net.keys d'.1.net = Net.keys d.1.net := by
          intro j d hd
          by_cases hj : j = i
          · subst hj
            cases hgeti.symm.trans hd
            exact ⟨c, hc, hk'.symm⟩
          · exact ⟨d, (hget j hj).symm.trans hd, rfl⟩
        rw [ih r.1.1 (fun j => if j = i then r'.1.1 else ss j) (ts.set i (r.1.2, r.2)) ?_ ?_ ?_, List.length_set]
        · have e : (fun j (e : Train α × ρ) => ∃ c, (ts.set i (r.1.2, r.2))[j]? = some c ∧
                Shared.alone upd gen (if j = i then r'.1.1 else ss j) c (Shared.mine j ops) = .ok e) =
              (fun j e => ∃ c, ts[j]? = some c ∧ Shared.alone upd gen (ss j) c (Shared.mine j ((i, op) :: ops)) = .ok e) := by
            funext j e
            refine propext ?_
            by_cases hj : j = i
            · subst hj
              rw [if_pos rfl, hgeti, hself, hc]
              have : Shared.alone upd gen (ss j) c (op :: Shared.mine j ops) = Shared.alone upd gen r'.1.1 (r.1.2, r.2) (Shared.mine j ops) := by
                unfold Shared.alone
                show ((TrainOp.exec upd gen ((ss j, c.1), c.2) op >>= fun st => TrainOp.run upd gen st (Shared.mine j ops)) >>= _) = _
                rw [hy]
                show (TrainOp.run upd gen r' (Shared.mine j ops) >>= _) = _
                have : r' = ((r'.1.1, r.1.2), r.2) := by rw [ht, hg]
                rw [← this]
              constructor
              · rintro ⟨d, hd, h⟩; cases hd; exact ⟨c, rfl, this.trans h⟩
              · rintro ⟨d, hd, h⟩; cases hd; exact ⟨_, rfl, this.symm.trans h⟩
            · rw [if_neg hj, hget j hj, hother j hj]
          rw [e]
        · rw [List.pairwise_iff_getElem]
          intro a b ha' hb' hab k hk1 hk2
          obtain ⟨d1, hd1, e1⟩ := hkeys a _ (List.getElem?_eq_getElem ha')
          obtain ⟨d2, hd2, e2⟩ := hkeys b _ (List.getElem?_eq_getElem hb')
          obtain ⟨h1, rfl⟩ := List.getElem?_eq_some_iff.1 hd1
          obtain ⟨h2, rfl⟩ := List.getElem?_eq_some_iff.1 hd2
          exact hP a b h1 h2 hab k (e1 ▸ hk1) (e2 ▸ hk2)
        · intro o ho
          rw [List.length_set]
          exact hO o (List.mem_cons_of_mem _ ho)
        · intro j d hd k hk
          by_cases hj : j = i
          · subst hj
            cases hgeti.symm.trans hd
            rw [if_pos rfl]
            exact ha k (hk' ▸ hk)
          · rw [if_neg hj]
            have hd' := (hget j hj).symm.trans hd
            rw [(hf k (hdis j d hj hd' k hk)).1]
            exact hV j d hd' k hk

/-- An optimizer whose update reads and writes its state only at the address it is given serves any number of networks. -/
theorem LocalUpd.serves (L : LocalUpd upd view) (s : σ) : Serves γ ρ upd s := by
  intro gen ts ends ops hP hO
  exact Shared.run_iff L gen ends ops s (fun _ => s) ts hP hO (fun _ _ _ _ _ => rfl)

end

theorem local_gd [Mul α] [Sub α] : LocalUpd (gdUpdate (α := α)) (fun s _ => s) where
  dep s s' k P G h := by
    cases h
    cases gdUpdate s k P G with
    | error e => exact .err e
    | ok r => exact .ok ⟨rfl, rfl⟩
  other s k P G r h k' _ := by
    obtain ⟨_, _, h⟩ := res_bind_inv h
    obtain ⟨_, _, h⟩ := res_bind_inv h
    cases h; rfl

theorem local_sgd [Mul α] [Sub α] : LocalUpd (sgdUpdate (α := α)) (fun s _ => s) where
  dep s s' k P G h := by
    cases h
    cases sgdUpdate s k P G with
    | error e => exact .err e
    | ok r => exact .ok ⟨rfl, rfl⟩
  other s k P G r h k' _ := by
    obtain ⟨_, _, h⟩ := res_bind_inv h
    obtain ⟨_, _, h⟩ := res_bind_inv h
    obtain ⟨_, _, h⟩ := res_bind_inv h
    cases h; rfl

/-- C99, except Adam: gradient descent, stochastic gradient descent, momentum, Nestorov, AdaGrad and RMSProp each serve any number
of networks, from whatever state they are in (tables from earlier training included). -/
theorem C99_library_partial [Field α] [LT α] [DecidableLT α] [DecidableEq α] (isq : α → α) :
    (∀ lr : α, Serves γ ρ gdUpdate lr) ∧ (∀ s : Sgd α, Serves γ ρ sgdUpdate s) ∧ (∀ s : Mom α, Serves γ ρ momUpdate s) ∧
    (∀ s : Mom α, Serves γ ρ nesUpdate s) ∧ (∀ s : Ada α, Serves γ ρ (adagradUpdate isq) s) ∧ (∀ s : Ada α, Serves γ ρ (rmspropUpdate isq) s) :=
  ⟨fun s => local_gd.serves s, fun s => local_sgd.serves s, fun s => local_mom.serves s, fun s => local_nes.serves s,
    fun s => (local_adagrad isq).serves s, fun s => (local_rmsprop isq).serves s⟩

/-! ### Adam, and non-vacuity -/

/-- Two networks (the addresses of the second are those of `shTrains`' second list entry), each with the trivial engine. -/
def shTrains : List (Train ℚ × Unit) := [(ckTrain 10 11 12 13, ()), (ckTrain 20 21 22 23, ())]
def shGen : Gen Unit Unit Nat := fun _ _ => (0, (), ())
/-- One epoch on a single sample. -/
def shBatch : TrainOp ℚ Unit := .batch [⟨1, 1, 1, [some 1]⟩] [⟨1, 1, 1, [some 2]⟩] 1
/-- The networks take turns, the second one first. -/
def shOps : List (Nat × TrainOp ℚ Unit) := [(1, shBatch), (0, shBatch), (1, shBatch), (0, shBatch)]

/-- The parameters of the first network after the calls on both, and after its own calls with an optimizer of its own. -/
def shShared (upd : Upd σ ℚ) (s : σ) : Res (List (List (Buf ℚ))) := do
  let r ← Shared.run upd shGen s shTrains shOps
  let c ← lget r.2 0
  return c.1.net.params
def shAlone (upd : Upd σ ℚ) (s : σ) : Res (List (List (Buf ℚ))) := do
  let r ← Shared.alone upd shGen s (ckTrain 10 11 12 13, ()) [shBatch, shBatch]
  return r.1.net.params

/-- The hypotheses of `Serves` hold of these two networks, and training changes them. -/
example : shTrains.Pairwise (fun a b => ∀ k ∈ Net.keys a.1.net, k ∉ Net.keys b.1.net) ∧ (∀ o ∈ shOps, o.1 < shTrains.length) ∧
    shShared momUpdate (Mom.make (1/8 : ℚ) (1/2)) = .ok [[[some (43 / 128)], [some (171 / 128)]], [[some (11 / 32)], [some (85 / 64)]]] ∧
    shAlone momUpdate (Mom.make (1/8 : ℚ) (1/2)) = shShared momUpdate (Mom.make (1/8 : ℚ) (1/2)) := by decide +kernel

/-- VIOLATED for Adam: the decaying powers of the betas are one pair of numbers for the whole object and are advanced by every call
on every parameter tensor, so the steps a network takes depend on how often the other networks have been updated. -/
theorem C99_adam_violated : ¬ Serves Unit Unit (adamUpdate (fun _ : ℚ => 1)) (AdamS.make (1/8 : ℚ) (1/2) (1/2)) := by
  intro h
  have hne : shShared (adamUpdate (fun _ : ℚ => 1)) (AdamS.make (1/8 : ℚ) (1/2) (1/2)) ≠ shAlone (adamUpdate (fun _ : ℚ => 1)) (AdamS.make (1/8 : ℚ) (1/2) (1/2)) := by
    decide +kernel
  have hok : (shShared (adamUpdate (fun _ : ℚ => 1)) (AdamS.make (1/8 : ℚ) (1/2) (1/2))).isOk := by decide +kernel
  refine hne ?_
  unfold shShared at hok ⊢
  cases hr : Shared.run (adamUpdate (fun _ : ℚ => 1)) shGen (AdamS.make (1/8 : ℚ) (1/2) (1/2)) shTrains shOps with
  | error e => rw [hr] at hok; cases hok
  | ok r =>
    have := (h shGen shTrains r.2 shOps (by decide +kernel) (by decide +kernel)).1 ⟨r.1, hr⟩
    rw [forall₂_range] at this
    have hlen : 0 < r.2.length := by rw [this.1]; decide
    obtain ⟨c, hc, h1⟩ := this.2 0 _ (List.getElem?_eq_getElem hlen)
    cases hc
    have hl : lget r.2 0 = .ok r.2[0] := by unfold lget; rw [List.getElem?_eq_getElem hlen]
    show (lget r.2 0 >>= _) = _
    rw [hl]
    unfold shAlone
    have h2 : Shared.mine 0 shOps = [shBatch, shBatch] := rfl
    rw [h2] at h1
    rw [h1]

end Trixy
