import Verif.Model.Train
import Verif.Proof.FC
import Verif.Proof.Word
/- The index loops of the network and the training class as recursions over the list of layers. -/
namespace Trixy

variable {α γ ρ σ τ β : Type}

theorem forN_first (n : Nat) (s : σ) (body : Nat → σ → Res σ) :
    forN (n + 1) s body = body 0 s >>= fun s => forN n s (fun i => body (i + 1)) := by
  induction n with
  | zero => rw [forN_succ]; simp only [forN_zero, bind_ok]; cases body 0 s <;> rfl
  | succ n ih => rw [forN_succ, ih, bind_assoc]; rfl

theorem lget_mid {pre rest : List β} {l : β} : lget (pre ++ l :: rest) pre.length = .ok l := by
  unfold lget; simp
theorem lget_mid' {pre rest : List β} {l : β} {i : Nat} (h : i = pre.length) : lget (pre ++ l :: rest) i = .ok l := by
  subst h; exact lget_mid
theorem lset_mid {pre rest : List β} {l l' : β} : lset (pre ++ l :: rest) pre.length l' = .ok (pre ++ l' :: rest) := by
  unfold lset; simp
theorem lset_mid' {pre rest : List β} {l l' : β} {i : Nat} (h : i = pre.length) :
    lset (pre ++ l :: rest) i l' = .ok (pre ++ l' :: rest) := by
  subst h; exact lset_mid
theorem lget_zero {rest : List β} {l : β} : lget (l :: rest) 0 = .ok l := rfl
theorem lset_zero {rest : List β} {l l' : β} : lset (l :: rest) 0 l' = .ok (l' :: rest) := rfl

/-- Visiting all layers in order with a state. -/
def eachM (f : σ → β → Res (σ × β)) : σ → List β → Res (σ × List β)
  | s, [] => .ok (s, [])
  | s, l :: ls => do
    let (s, l) ← f s l
    let (s, ls) ← eachM f s ls
    return (s, l :: ls)

theorem each_loop (f : σ → β → Res (σ × β)) (rest : List β) : ∀ (pre : List β) (s : σ),
    forN rest.length (s, pre ++ rest) (fun i st => do
      let l ← lget st.2 (pre.length + i)
      let (s, l) ← f st.1 l
      let net ← lset st.2 (pre.length + i) l
      return (s, net)) = (eachM f s rest).map (fun r => (r.1, pre ++ r.2)) := by
  induction rest with
  | nil => intro pre s; rfl
  | cons l ls ih =>
    intro pre s
    rw [List.length_cons, forN_first]
    simp only [Nat.add_zero, lget_mid, bind_ok]
    unfold eachM
    cases f s l with
    | error e => rfl
    | ok p =>
      simp only [bind_ok, lset_mid]
      have := ih (pre ++ [p.2]) p.1
      simp only [List.length_append, List.length_singleton, List.append_assoc, List.singleton_append] at this
      have e : ∀ i, pre.length + 1 + i = pre.length + (i + 1) := by intro i; omega
      simp only [e] at this
      show forN ls.length _ _ = _
      rw [this]
      cases eachM f p.1 ls with
      | error e => rfl
      | ok q => show Except.ok _ = Except.ok _; simp

theorem eachM_eq (f : σ → β → Res (σ × β)) (s : σ) (net : List β) :
    forN net.length (s, net) (fun i st => do
      let l ← lget st.2 i
      let (s, l) ← f st.1 l
      let net ← lset st.2 i l
      return (s, net)) = eachM f s net := by
  have := each_loop f net [] s
  simp only [List.length_nil, Nat.zero_add, List.nil_append] at this
  rw [this]
  cases eachM f s net <;> rfl

/-- The same without a state. -/
def mapL (f : β → Res β) : List β → Res (List β)
  | [] => .ok []
  | l :: ls => do
    let l ← f l
    let ls ← mapL f ls
    return l :: ls

theorem map_loop (f : β → Res β) (rest : List β) : ∀ (pre : List β),
    forN rest.length (pre ++ rest) (fun i net => do
      let l ← lget net (pre.length + i)
      let l ← f l
      lset net (pre.length + i) l) = (mapL f rest).map (fun r => pre ++ r) := by
  induction rest with
  | nil => intro pre; rfl
  | cons l ls ih =>
    intro pre
    rw [List.length_cons, forN_first]
    simp only [Nat.add_zero, lget_mid, bind_ok]
    unfold mapL
    cases f l with
    | error e => rfl
    | ok p =>
      simp only [bind_ok, lset_mid]
      have := ih (pre ++ [p])
      simp only [List.length_append, List.length_singleton, List.append_assoc, List.singleton_append] at this
      have e : ∀ i, pre.length + 1 + i = pre.length + (i + 1) := by intro i; omega
      simp only [e] at this
      rw [this]
      cases mapL f ls with
      | error e => rfl
      | ok q => show Except.ok _ = Except.ok _; simp

theorem mapL_eq (f : β → Res β) (net : List β) :
    forN net.length net (fun i net => do
      let l ← lget net i
      let l ← f l
      lset net i l) = mapL f net := by
  have := map_loop f net []
  simp only [List.length_nil, Nat.zero_add, List.nil_append] at this
  rw [this]
  cases mapL f net <;> rfl

theorem Net.updating_eq [Mul α] [One α] [DecidableEq α] (upd : Upd σ α) (alpha : α) (s : σ) (net : Net α) :
    Net.updating upd alpha s net = eachM (fun s l => l.update upd s alpha) s net := eachM_eq (fun s (l : Layer α) => l.update upd s alpha) s net
theorem Net.reseting_eq [Zero α] (net : Net α) : Net.reseting net = mapL Layer.reset net := mapL_eq _ net
theorem Net.accumulating_eq [Add α] (net : Net α) : Net.accumulating net = mapL Layer.accumulate net := mapL_eq _ net

attribute [local irreducible] wsub W64

/-! ### feedforward -/

section
variable [Zero α] [One α] [Add α] [Mul α] [LT α] [DecidableLT α]

/-- Forward through a list of layers. -/
def ffRec (x : Ten α) : Net α → Res (Net α)
  | [] => .ok []
  | l :: ls => do
    let l ← l.forward x
    let ls ← ffRec l.value ls
    return l :: ls

theorem ff_loop (rest : Net α) : ∀ (pre : Net α) (p : Layer α),
    forN rest.length (pre ++ p :: rest) (fun i net => Net.step (pre.length + 1 + i) net) =
      (ffRec p.value rest).map (fun r => pre ++ p :: r) := by
  induction rest with
  | nil => intro pre p; rfl
  | cons l ls ih =>
    intro pre p
    rw [List.length_cons, forN_first]
    have e1 : Net.step (pre.length + 1 + 0) (pre ++ p :: l :: ls) = (do
        let l ← l.forward p.value
        .ok (pre ++ p :: l :: ls)) := by
      unfold Net.step
      rw [show pre.length + 1 + 0 - 1 = pre.length by omega, lget_mid, bind_ok]
      have e : pre ++ p :: l :: ls = (pre ++ [p]) ++ l :: ls := by simp
      rw [e, lget_mid' (by simp), bind_ok]
      cases l.forward p.value with
      | error _ => rfl
      | ok l' => simp only [bind_ok]; rw [lset_mid' (by simp)]; simp
    rw [e1]
    unfold ffRec
    cases l.forward p.value with
    | error e => rfl
    | ok l' =>
      simp only [bind_ok]
      have := ih (pre ++ [p]) l'
      simp only [List.length_append, List.length_singleton, List.append_assoc, List.singleton_append] at this
      have e : ∀ i, pre.length + 1 + 1 + i = pre.length + 1 + (i + 1) := by intro i; omega
      simp only [e] at this
      rw [this]
      cases ffRec l'.value ls with
      | error e => rfl
      | ok q => show Except.ok _ = Except.ok _; simp

theorem ffRec_length (net : Net α) : ∀ (x : Ten α) (r : Net α), ffRec x net = .ok r → r.length = net.length := by
  induction net with
  | nil => intro x r h; cases h; rfl
  | cons l ls ih =>
    intro x r h
    unfold ffRec at h
    cases e : l.forward x with
    | error _ => rw [e] at h; cases h
    | ok l' =>
      rw [e, bind_ok] at h
      cases e2 : ffRec l'.value ls with
      | error _ => rw [e2] at h; cases h
      | ok ls' => rw [e2, bind_ok] at h; cases h; simp [ih _ _ e2]

/-- `feedforward` is the recursion, and returns the value of the last layer. -/
theorem Net.feedforward_eq (x : Ten α) (net : Net α) (hne : net ≠ []) (hN : net.length < W64) :
    Net.feedforward x net = (do let r ← ffRec x net; let l ← lget r (r.length - 1); return (r, l.value)) := by
  cases net with
  | nil => exact absurd rfl hne
  | cons l ls =>
    have hw : ∀ r : Net α, r.length = (l :: ls).length → wsub r.length 1 = r.length - 1 := fun r hr =>
      wsub_eq (by rw [hr]; simp) (by rw [hr]; exact hN)
    unfold Net.feedforward
    generalize wsub = f at hw ⊢
    rw [lget_zero, bind_ok]
    unfold ffRec
    cases l.forward x with
    | error e => rfl
    | ok l' =>
      rw [bind_ok, bind_ok, lset_zero, bind_ok]
      have := ff_loop ls [] l'
      simp only [List.length_nil, Nat.zero_add, List.nil_append] at this
      unfold forLoop
      rw [show (l' :: ls).length - 1 = ls.length by simp, this]
      cases h : ffRec l'.value ls with
      | error e => simp only [Except.map, bind_err]
      | ok q =>
        have hl := ffRec_length _ _ _ h
        have := hw (l' :: q) (by simp [hl])
        rw [show Except.map (fun r => l' :: r) (Except.ok q : Res (Net α)) = .ok (l' :: q) from rfl, bind_ok, bind_ok, pure_eq_ok, bind_ok,
          this]

end

/-! ### backprop -/

section
variable [Zero α] [Add α] [Mul α]

/-- Backward through a list of layers; `d` is the delta entering the last one. -/
def bpRec (full : Bool) (x d : Ten α) : Net α → Res (Net α)
  | [] => .ok []
  | [l] => do let l ← l.backward x d full; return [l]
  | l :: l2 :: ls => do
    let r ← bpRec true l.value d (l2 :: ls)
    let n ← lget r 0
    let dl ← n.delta
    let l ← l.backward x dl full
    return l :: r

theorem bpRec_cons (full : Bool) (x d : Ten α) (l l2 : Layer α) (ls : Net α) : bpRec full x d (l :: l2 :: ls) = (do
    let r ← bpRec true l.value d (l2 :: ls)
    let n ← lget r 0
    let dl ← n.delta
    let l ← l.backward x dl full
    return l :: r) := rfl

theorem bpRec_length (d : Ten α) (net : Net α) : ∀ (full : Bool) (x : Ten α) (r : Net α),
    bpRec full x d net = .ok r → r.length = net.length := by
  induction net with
  | nil => intro _ _ r h; cases h; rfl
  | cons l ls ih =>
    intro full x r h
    cases ls with
    | nil =>
      unfold bpRec at h
      cases e : l.backward x d full with
      | error _ => rw [e] at h; cases h
      | ok l' => rw [e] at h; cases h; rfl
    | cons l2 ls =>
      rw [bpRec_cons] at h
      cases e : bpRec true l.value d (l2 :: ls) with
      | error _ => rw [e] at h; cases h
      | ok q =>
        rw [e, bind_ok] at h
        cases e1 : lget q 0 with
        | error _ => rw [e1] at h; cases h
        | ok n =>
          rw [e1, bind_ok] at h
          cases e2 : n.delta with
          | error _ => rw [e2] at h; cases h
          | ok dl =>
            rw [e2, bind_ok] at h
            cases e3 : l.backward x dl full with
            | error _ => rw [e3] at h; cases h
            | ok l' => rw [e3, bind_ok] at h; cases h; simp [ih _ _ _ e]

theorem bp_tail (d : Ten α) (rest : Net α) (hne : rest ≠ []) : ∀ (pre : Net α) (p : Layer α) (N : Nat),
    N = pre.length + 1 + rest.length →
    (do let l ← lget (pre ++ p :: rest) (N - 1)
        let q ← lget (pre ++ p :: rest) (N - 2)
        let l ← l.backward q.value d true
        let net ← lset (pre ++ p :: rest) (N - 1) l
        forN (rest.length - 1) net (fun k net => Net.backStep (N - 2 - k) net)) =
      (bpRec true p.value d rest).map (fun r => pre ++ p :: r) := by
  induction rest with
  | nil => exact absurd rfl hne
  | cons l rest' ih =>
    intro pre p N hN
    cases rest' with
    | nil =>
      have e : pre ++ p :: [l] = (pre ++ [p]) ++ l :: [] := by simp
      rw [e, lget_mid' (by simp [hN]), bind_ok, ← e, lget_mid' (by simp [hN]), bind_ok]
      unfold bpRec
      cases l.backward p.value d true with
      | error _ => rfl
      | ok l' => simp only [bind_ok]; rw [e, lset_mid' (by simp [hN])]; simp [Except.map]
    | cons l2 ls =>
      have IH := ih (by simp) (pre ++ [p]) l N (by simp [hN]; omega)
      have e : pre ++ p :: l :: l2 :: ls = (pre ++ [p]) ++ l :: l2 :: ls := by simp
      rw [← e] at IH
      rw [show (l :: l2 :: ls).length - 1 = ((l2 :: ls).length - 1) + 1 by simp]
      simp only [forN_succ, ← bind_assoc]
      simp only [← bind_assoc] at IH
      rw [IH]
      rw [bpRec_cons]
      cases h : bpRec true l.value d (l2 :: ls) with
      | error _ => rfl
      | ok r =>
        have hl := bpRec_length _ _ _ _ _ h
        cases r with
        | nil => cases hl
        | cons n r' =>
          show Net.backStep _ ((pre ++ [p]) ++ l :: n :: r') = _
          rw [show N - 2 - ((l2 :: ls).length - 1) = pre.length + 1 by simp [hN]; omega]
          unfold Net.backStep
          have e2 : (pre ++ [p]) ++ l :: n :: r' = pre ++ p :: l :: n :: r' := by simp
          have e3 : (pre ++ [p]) ++ l :: n :: r' = (pre ++ [p, l]) ++ n :: r' := by simp
          rw [show pre.length + 1 - 1 = pre.length by omega, e2, lget_mid, bind_ok, ← e2, e3, lget_mid' (by simp), bind_ok, ← e3]
          show _ = Except.map _ ((n.delta >>= fun dl => l.backward p.value dl true >>= fun l => .ok (l :: n :: r')))
          cases n.delta with
          | error _ => rfl
          | ok dl =>
            simp only [bind_ok]
            rw [lget_mid' (by simp), bind_ok]
            cases l.backward p.value dl true with
            | error _ => rfl
            | ok l' => simp only [bind_ok]; rw [lset_mid' (by simp)]; simp [Except.map]

/-- For two or more layers `backprop` is the recursion. -/
theorem Net.backprop_eq (x d : Ten α) (net : Net α) (h2 : 2 ≤ net.length) (hN : net.length < W64) :
    Net.backprop x d net = bpRec false x d net := by
  match net, h2 with
  | p :: l :: ls, _ =>
    have := bp_tail d (l :: ls) (by simp) [] p (p :: l :: ls).length (by simp; omega)
    unfold Net.backprop
    have w1 : wsub (p :: l :: ls).length 1 = (p :: l :: ls).length - 1 := wsub_eq (by simp) hN
    have w2 : wsub (p :: l :: ls).length 2 = (p :: l :: ls).length - 2 := wsub_eq (by simp) hN
    simp only [w1, w2]
    simp only [List.nil_append] at this
    rw [show (p :: l :: ls).length - 2 = (l :: ls).length - 1 by simp] at this ⊢
    simp only [← bind_assoc] at this ⊢
    rw [this]
    rw [bpRec_cons]
    cases h : bpRec true p.value d (l :: ls) with
    | error _ => rfl
    | ok r =>
      have hl := bpRec_length _ _ _ _ _ h
      cases r with
      | nil => cases hl
      | cons n r' =>
        simp only [Except.map, bind_ok, lget_zero]
        rw [show lget (p :: n :: r') 1 = .ok n from rfl]
        simp only [bind_ok]
        cases n.delta with
        | error _ => rfl
        | ok dl =>
          simp only [bind_ok]
          cases p.backward x dl false with
          | error _ => rfl
          | ok l' => rfl

/-- A single layer: `layer(N - 2)` is outside the network. -/
theorem Net.backprop_one (x d : Ten α) (l : Layer α) : Net.backprop x d [l] = .error .oob := by
  unfold Net.backprop
  have e : lget [l] (wsub 1 2) = .error .oob := by
    unfold lget
    rw [List.getElem?_eq_none (by show 1 ≤ wsub 1 2; unfold wsub W64; omega)]
  show (lget [l] (wsub 1 1) >>= fun l' => lget [l] (wsub 1 2) >>= fun p => _) = _
  rw [e, show wsub 1 1 = 0 from by unfold wsub W64; omega, lget_zero]
  rfl

end

end Trixy
