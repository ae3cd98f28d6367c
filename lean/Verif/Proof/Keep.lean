import Verif.Props.Descent
/- Training never replaces the activation object of a layer or moves its parameters. -/
namespace Trixy

variable {α γ ρ σ : Type}

/-- Sizes, activation and addresses of the parameters of a dense training layer. -/
def Layer.fixed : Layer α → Option (Nat × Nat × Act α × Nat × Nat)
  | .fc l => some (l.isize, l.osize, l.act, l.keyB, l.keyW)
  | _ => none

theorem forN_keeps {σ τ : Type} (f : σ → τ) {n : Nat} {s s' : σ} {body : Nat → σ → Res σ}
    (hb : ∀ i s s', body i s = .ok s' → f s' = f s) (h : forN n s body = .ok s') : f s' = f s := by
  induction n generalizing s' with
  | zero => rw [forN_zero] at h; cases h; rfl
  | succ n ih =>
    rw [forN_succ] at h
    obtain ⟨a, h1, h2⟩ := res_bind_inv h
    rw [hb n a s' h2, ih h1]

theorem lset_keeps {A τ : Type} (f : A → τ) {l l' : List A} {i : Nat} {a b : A} (h1 : lget l i = .ok a) (h2 : lset l i b = .ok l')
    (h : f b = f a) : l'.map f = l.map f := by
  unfold lget at h1
  unfold lset at h2
  split at h2
  · cases h2
    cases hl : l[i]? with
    | none => rw [hl] at h1; cases h1
    | some c =>
      rw [hl] at h1; cases h1
      rw [List.map_set, h]
      apply List.ext_getElem?
      intro j
      rw [List.getElem?_set]
      split
      · subst_vars
        split
        · rw [List.getElem?_map, hl]; rfl
        · rename_i hn
          rw [List.length_map] at hn
          exact absurd (List.getElem?_eq_some_iff.1 hl).1 hn
      · rfl
  · cases h2

section
variable [Zero α] [One α] [Add α] [Mul α] [LT α] [DecidableLT α] [DecidableEq α]

theorem Layer.forward_keeps {l l' : Layer α} {x : Ten α} (h : l.forward x = .ok l') : l'.fixed = l.fixed := by
  cases l with
  | fc l =>
    obtain ⟨f, h1, h2⟩ := res_bind_inv h
    cases h2
    obtain ⟨_, _, h1⟩ := res_bind_inv h1
    obtain ⟨_, _, h1⟩ := res_bind_inv h1
    obtain ⟨_, _, h1⟩ := res_bind_inv h1
    cases h1; rfl
  | conv l => obtain ⟨f, _, h2⟩ := res_bind_inv h; cases h2; rfl
  | pool l => obtain ⟨f, _, h2⟩ := res_bind_inv h; cases h2; rfl
  | rawFC l => obtain ⟨f, _, h2⟩ := res_bind_inv h; cases h2; rfl
  | rawConv l => obtain ⟨f, _, h2⟩ := res_bind_inv h; cases h2; rfl
  | rawPool l => obtain ⟨f, _, h2⟩ := res_bind_inv h; cases h2; rfl

theorem Layer.backward_keeps {l l' : Layer α} {x d : Ten α} {full : Bool} (h : l.backward x d full = .ok l') : l'.fixed = l.fixed := by
  cases l with
  | fc l =>
    obtain ⟨f, h1, h2⟩ := res_bind_inv h
    cases h2
    obtain ⟨_, _, h1⟩ := res_bind_inv h1
    obtain ⟨_, _, h1⟩ := res_bind_inv h1
    obtain ⟨_, _, h1⟩ := res_bind_inv h1
    obtain ⟨_, _, h1⟩ := res_bind_inv h1
    cases h1; rfl
  | conv l => obtain ⟨f, _, h2⟩ := res_bind_inv h; cases h2; rfl
  | pool l => obtain ⟨f, _, h2⟩ := res_bind_inv h; cases h2; rfl
  | rawFC l => cases h
  | rawConv l => cases h
  | rawPool l => cases h

theorem Layer.reset_keeps {l l' : Layer α} (h : l.reset = .ok l') : l'.fixed = l.fixed := by
  cases l with
  | fc l =>
    obtain ⟨f, h1, h2⟩ := res_bind_inv h
    cases h2
    obtain ⟨_, _, h1⟩ := res_bind_inv h1
    obtain ⟨_, _, h1⟩ := res_bind_inv h1
    cases h1; rfl
  | conv l => cases h; rfl
  | pool l => cases h; rfl
  | rawFC l => cases h
  | rawConv l => cases h
  | rawPool l => cases h

theorem Layer.accumulate_keeps {l l' : Layer α} (h : l.accumulate = .ok l') : l'.fixed = l.fixed := by
  cases l with
  | fc l =>
    obtain ⟨f, h1, h2⟩ := res_bind_inv h
    cases h2
    obtain ⟨_, _, h1⟩ := res_bind_inv h1
    obtain ⟨_, _, h1⟩ := res_bind_inv h1
    cases h1; rfl
  | conv l => cases h; rfl
  | pool l => cases h; rfl
  | rawFC l => cases h
  | rawConv l => cases h
  | rawPool l => cases h

theorem Layer.update_keeps {upd : Upd σ α} {s : σ} {alpha : α} {l : Layer α} {r : σ × Layer α} (h : l.update upd s alpha = .ok r) :
    r.2.fixed = l.fixed := by
  cases l with
  | fc l =>
    obtain ⟨⟨s1, f⟩, h1, h2⟩ := res_bind_inv h
    cases h2
    unfold FC.update at h1
    split at h1
    · obtain ⟨⟨_, _, _, _, _⟩, _, h1⟩ := res_bind_inv h1
      cases h1; rfl
    · obtain ⟨⟨_, _, _, _, _⟩, _, h1⟩ := res_bind_inv h1
      cases h1; rfl
  | conv l => obtain ⟨⟨s1, f⟩, _, h2⟩ := res_bind_inv h; cases h2; rfl
  | pool l => cases h; rfl
  | rawFC l => cases h
  | rawConv l => cases h
  | rawPool l => cases h

theorem Net.feedforward_keeps {x : Ten α} {net : Net α} {r : Net α × Ten α} (h : Net.feedforward x net = .ok r) :
    r.1.map Layer.fixed = net.map Layer.fixed := by
  obtain ⟨l, h1, h⟩ := res_bind_inv h
  obtain ⟨l1, h2, h⟩ := res_bind_inv h
  obtain ⟨n1, h3, h⟩ := res_bind_inv h
  obtain ⟨n2, h4, h⟩ := res_bind_inv h
  obtain ⟨l2, h5, h⟩ := res_bind_inv h
  cases h
  rw [← lset_keeps Layer.fixed h1 h3 (Layer.forward_keeps h2)]
  unfold forLoop at h4
  refine forN_keeps (List.map Layer.fixed) (fun i s s' hb => ?_) h4
  obtain ⟨_, _, hb⟩ := res_bind_inv hb
  obtain ⟨_, k1, hb⟩ := res_bind_inv hb
  obtain ⟨_, k2, hb⟩ := res_bind_inv hb
  exact lset_keeps Layer.fixed k1 hb (Layer.forward_keeps k2)

theorem Net.backprop_keeps {x d : Ten α} {net r : Net α} (h : Net.backprop x d net = .ok r) :
    r.map Layer.fixed = net.map Layer.fixed := by
  obtain ⟨l, h1, h⟩ := res_bind_inv h
  obtain ⟨_, _, h⟩ := res_bind_inv h
  obtain ⟨l1, h2, h⟩ := res_bind_inv h
  obtain ⟨n1, h3, h⟩ := res_bind_inv h
  obtain ⟨n2, h4, h⟩ := res_bind_inv h
  obtain ⟨l2, h5, h⟩ := res_bind_inv h
  obtain ⟨_, _, h⟩ := res_bind_inv h
  obtain ⟨_, _, h⟩ := res_bind_inv h
  obtain ⟨l3, h6, h⟩ := res_bind_inv h
  rw [← lset_keeps Layer.fixed h1 h3 (Layer.backward_keeps h2), lset_keeps Layer.fixed h5 h (Layer.backward_keeps h6)]
  refine forN_keeps (List.map Layer.fixed) (fun i s s' hb => ?_) h4
  obtain ⟨_, _, hb⟩ := res_bind_inv hb
  obtain ⟨_, _, hb⟩ := res_bind_inv hb
  obtain ⟨_, _, hb⟩ := res_bind_inv hb
  obtain ⟨_, k1, hb⟩ := res_bind_inv hb
  obtain ⟨_, k2, hb⟩ := res_bind_inv hb
  exact lset_keeps Layer.fixed k1 hb (Layer.backward_keeps k2)

/-- No elementary action of a training run changes an activation object or the address of a parameter. -/
theorem TEv.exec_keeps {upd : Upd σ α} {idata odata : List (Ten α)} {st st' : σ × Train α} {e : TEv α}
    (h : TEv.exec upd idata odata st e = .ok st') : st'.2.net.map Layer.fixed = st.2.net.map Layer.fixed := by
  cases e with
  | reset =>
    obtain ⟨t, h1, h2⟩ := res_bind_inv h
    obtain ⟨n, h3, h4⟩ := res_bind_inv h1
    cases h2; cases h4
    refine forN_keeps (List.map Layer.fixed) (fun i s s' hb => ?_) h3
    obtain ⟨_, k1, hb⟩ := res_bind_inv hb
    obtain ⟨_, k2, hb⟩ := res_bind_inv hb
    exact lset_keeps Layer.fixed k1 hb (Layer.reset_keeps k2)
  | sample i =>
    obtain ⟨t, h1, h2⟩ := res_bind_inv h
    cases h2
    obtain ⟨x, _, h4⟩ := res_bind_inv h1
    obtain ⟨t1, h5, h6⟩ := res_bind_inv h4
    obtain ⟨⟨n1, v1⟩, k1, h8⟩ := res_bind_inv h5
    cases h8
    obtain ⟨y, _, h9⟩ := res_bind_inv h6
    obtain ⟨l, _, h10⟩ := res_bind_inv h9
    obtain ⟨lo, _, h11⟩ := res_bind_inv h10
    obtain ⟨d, _, h12⟩ := res_bind_inv h11
    obtain ⟨n2, k2, h13⟩ := res_bind_inv h12
    cases h13
    exact (Net.backprop_keeps k2).trans (Net.feedforward_keeps k1)
  | accumulate =>
    obtain ⟨t, h1, h2⟩ := res_bind_inv h
    obtain ⟨n, h3, h4⟩ := res_bind_inv h1
    cases h2; cases h4
    refine forN_keeps (List.map Layer.fixed) (fun i s s' hb => ?_) h3
    obtain ⟨_, k1, hb⟩ := res_bind_inv hb
    obtain ⟨_, k2, hb⟩ := res_bind_inv hb
    exact lset_keeps Layer.fixed k1 hb (Layer.accumulate_keeps k2)
  | update a =>
    obtain ⟨⟨s, n⟩, h1, h2⟩ := res_bind_inv h
    cases h2
    refine forN_keeps (f := fun q : σ × Net α => q.2.map Layer.fixed) (fun i s s' hb => ?_) h1
    obtain ⟨_, k1, hb⟩ := res_bind_inv hb
    obtain ⟨⟨_, _⟩, k2, hb⟩ := res_bind_inv hb
    obtain ⟨_, k3, hb⟩ := res_bind_inv hb
    cases hb
    exact lset_keeps Layer.fixed k1 k3 (Layer.update_keeps k2)

theorem TEv.run_keeps {upd : Upd σ α} {idata odata : List (Ten α)} : ∀ {es : List (TEv α)} {st st' : σ × Train α},
    TEv.run upd idata odata st es = .ok st' → st'.2.net.map Layer.fixed = st.2.net.map Layer.fixed
  | [], _, _, h => by cases h; rfl
  | _ :: _, _, _, h => by
    obtain ⟨a, h1, h2⟩ := res_bind_inv h
    rw [TEv.run_keeps h2, TEv.exec_keeps h1]

end

end Trixy
