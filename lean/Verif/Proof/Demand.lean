import Verif.Proof.Shared
import Verif.Props.HeapOpt
/- How many arrays an update allocates, and at which addresses the tables of an optimizer have entries. -/
namespace Trixy
set_option linter.unusedSectionVars false

variable {α γ ρ γ' ρ' σ τ : Type}

/-! ### Element operations do not allocate -/

theorem Heap.put_next {H H' : Heap α} {p : Ptr} {i : Nat} {c : Option α} (h : H.put p i c = .ok H') : H'.next = H.next := by
  unfold Heap.put at h
  split at h
  · cases h
  · split at h
    · cases h
    · split at h
      · cases h; rfl
      · cases h

theorem fillLoop_next {H H' : Heap α} {p : Ptr} {n : Nat} {v : α} (h : fillLoop H p n v = .ok H') : H'.next = H.next :=
  forN_keeps Heap.next (fun _ _ _ h => Heap.put_next h) h

theorem assignConst_next {op : α → α → α} {H H' : Heap α} {p : Ptr} {n : Nat} {v : α} (h : assignConst op H p n v = .ok H') : H'.next = H.next :=
  forN_keeps Heap.next (fun _ _ _ h => by
    obtain ⟨_, _, h⟩ := res_bind_inv h
    exact Heap.put_next h) h

theorem assignPtr_next {op : α → α → α} {H H' : Heap α} {p q : Ptr} {n : Nat} (h : assignPtr op H p n q = .ok H') : H'.next = H.next :=
  forN_keeps Heap.next (fun _ _ _ h => by
    obtain ⟨_, _, h⟩ := res_bind_inv h
    obtain ⟨_, _, h⟩ := res_bind_inv h
    exact Heap.put_next h) h

theorem assignValPtr_next {op : α → α → α} {H H' : Heap α} {p q : Ptr} {n : Nat} {v : α} (h : assignValPtr op H p n v q = .ok H') : H'.next = H.next :=
  forN_keeps Heap.next (fun _ _ _ h => by
    obtain ⟨_, _, h⟩ := res_bind_inv h
    exact Heap.put_next h) h

theorem assignPtrPtr_next {op : α → α → α} {H H' : Heap α} {p q r : Ptr} {n : Nat} (h : assignPtrPtr op H p n q r = .ok H') : H'.next = H.next :=
  forN_keeps Heap.next (fun _ _ _ h => by
    obtain ⟨_, _, h⟩ := res_bind_inv h
    obtain ⟨_, _, h⟩ := res_bind_inv h
    exact Heap.put_next h) h

theorem applyLoop_next {f : α → α} {H H' : Heap α} {p : Ptr} {n : Nat} (h : applyLoop f H p n = .ok H') : H'.next = H.next :=
  forN_keeps Heap.next (fun _ _ _ h => by
    obtain ⟨_, _, h⟩ := res_bind_inv h
    exact Heap.put_next h) h

theorem applyPtr_next {f : α → α} {H H' : Heap α} {p q : Ptr} {n : Nat} (h : applyPtr f H p n q = .ok H') : H'.next = H.next :=
  forN_keeps Heap.next (fun _ _ _ h => by
    obtain ⟨_, _, h⟩ := res_bind_inv h
    exact Heap.put_next h) h

/-- Access to a table entry allocates one array for every entry it adds. -/
theorem OptMem.get_next {H : Heap α} {z : α} {t : OptMem.Tables} {key : Nat × Nat} {n : Nat} {r : Heap α × OptMem.Tables × OptMem.Rng}
    (h : OptMem.get H z t key n = .ok r) : r.1.next + t.length = H.next + r.2.1.length := by
  unfold OptMem.get at h
  split at h
  · cases h; rfl
  · obtain ⟨⟨H1, r1⟩, h1, h2⟩ := res_bind_inv h
    cases h2
    obtain ⟨H2, h3, h4⟩ := res_bind_inv h1
    obtain ⟨H3, h5, h6⟩ := res_bind_inv h4
    cases h6
    cases h3
    have := fillLoop_next h5
    have e : (H.new n).1.next = H.next + 1 := rfl
    simp only [List.length_append, List.length_singleton]
    omega

/-! ### The updates -/

theorem hmom_next [Zero α] [Add α] [Mul α] [Sub α] {addr : Ptr → Nat} {H : Heap α} {s : HMom α} {p g : Obj} {r : Heap α × HMom α}
    (h : hmomUpdate addr H s p g = .ok r) : r.1.next + s.tabs.length = H.next + r.2.tabs.length := by
  obtain ⟨⟨H1, t1, r1⟩, h1, h⟩ := res_bind_inv h
  obtain ⟨⟨H2, t2, r2⟩, h2, h⟩ := res_bind_inv h
  obtain ⟨H3, h3, h⟩ := res_bind_inv h
  obtain ⟨H4, h4, h⟩ := res_bind_inv h
  obtain ⟨H5, h5, h⟩ := res_bind_inv h
  obtain ⟨H6, h6, h⟩ := res_bind_inv h
  cases h
  have k1 := OptMem.get_next h1
  have k2 := OptMem.get_next h2
  have k3 := assignConst_next h3
  have k4 := assignValPtr_next h4
  have k5 := assignPtr_next h5
  have k6 := assignPtr_next h6
  dsimp only at *
  omega

theorem hnes_next [Zero α] [Add α] [Mul α] [Sub α] {addr : Ptr → Nat} {H : Heap α} {s : HMom α} {p g : Obj} {r : Heap α × HMom α}
    (h : hnesUpdate addr H s p g = .ok r) : r.1.next + s.tabs.length = H.next + r.2.tabs.length := by
  obtain ⟨⟨H1, t1, r1⟩, h1, h⟩ := res_bind_inv h
  obtain ⟨⟨H2, t2, r2⟩, h2, h⟩ := res_bind_inv h
  obtain ⟨H3, h3, h⟩ := res_bind_inv h
  obtain ⟨H4, h4, h⟩ := res_bind_inv h
  obtain ⟨H5, h5, h⟩ := res_bind_inv h
  obtain ⟨H6, h6, h⟩ := res_bind_inv h
  obtain ⟨H7, h7, h⟩ := res_bind_inv h
  obtain ⟨H8, h8, h⟩ := res_bind_inv h
  cases h
  have k1 := OptMem.get_next h1
  have k2 := OptMem.get_next h2
  have k3 := assignConst_next h3
  have k4 := assignValPtr_next h4
  have k5 := assignPtr_next h5
  have k6 := assignPtr_next h6
  have k7 := assignValPtr_next h7
  have k8 := assignPtr_next h8
  dsimp only at *
  omega

theorem hadagrad_next [Zero α] [Add α] [Mul α] [Sub α] {isq : α → α} {addr : Ptr → Nat} {H : Heap α} {s : HAda α} {p g : Obj} {r : Heap α × HAda α}
    (h : hadagradUpdate isq addr H s p g = .ok r) : r.1.next + s.tabs.length = H.next + r.2.tabs.length := by
  obtain ⟨⟨H1, t1, r1⟩, h1, h⟩ := res_bind_inv h
  obtain ⟨⟨H2, t2, r2⟩, h2, h⟩ := res_bind_inv h
  obtain ⟨H3, h3, h⟩ := res_bind_inv h
  obtain ⟨H4, h4, h⟩ := res_bind_inv h
  obtain ⟨H5, h5, h⟩ := res_bind_inv h
  obtain ⟨H6, h6, h⟩ := res_bind_inv h
  obtain ⟨H7, h7, h⟩ := res_bind_inv h
  obtain ⟨H8, h8, h⟩ := res_bind_inv h
  cases h
  have k1 := OptMem.get_next h1
  have k2 := OptMem.get_next h2
  have k3 := assignPtrPtr_next h3
  have k4 := assignPtr_next h4
  have k5 := applyPtr_next h5
  have k6 := assignPtr_next h6
  have k7 := assignConst_next h7
  have k8 := assignPtr_next h8
  dsimp only at *
  omega

theorem hrmsprop_next [Zero α] [Add α] [Mul α] [Sub α] {isq : α → α} {addr : Ptr → Nat} {H : Heap α} {s : HAda α} {p g : Obj} {r : Heap α × HAda α}
    (h : hrmspropUpdate isq addr H s p g = .ok r) : r.1.next + s.tabs.length = H.next + r.2.tabs.length := by
  obtain ⟨⟨H1, t1, r1⟩, h1, h⟩ := res_bind_inv h
  obtain ⟨⟨H2, t2, r2⟩, h2, h⟩ := res_bind_inv h
  obtain ⟨H3, h3, h⟩ := res_bind_inv h
  obtain ⟨H4, h4, h⟩ := res_bind_inv h
  obtain ⟨H5, h5, h⟩ := res_bind_inv h
  obtain ⟨H6, h6, h⟩ := res_bind_inv h
  obtain ⟨H7, h7, h⟩ := res_bind_inv h
  obtain ⟨H8, h8, h⟩ := res_bind_inv h
  obtain ⟨H9, h9, h⟩ := res_bind_inv h
  obtain ⟨H10, h10, h⟩ := res_bind_inv h
  cases h
  have k1 := OptMem.get_next h1
  have k2 := OptMem.get_next h2
  have k3 := assignConst_next h3
  have k4 := assignPtrPtr_next h4
  have k5 := assignConst_next h5
  have k6 := assignPtr_next h6
  have k7 := applyPtr_next h7
  have k8 := assignPtr_next h8
  have k9 := assignConst_next h9
  have k10 := assignPtr_next h10
  dsimp only at *
  omega

theorem hadam_next [Field α] [DecidableEq α] {isq : α → α} {addr : Ptr → Nat} {H : Heap α} {s : HAdam α} {p g : Obj} {r : Heap α × HAdam α}
    (h : hadamUpdate isq addr H s p g = .ok r) : r.1.next + s.tabs.length = H.next + r.2.tabs.length := by
  obtain ⟨⟨H1, t1, r1⟩, h1, h⟩ := res_bind_inv h
  obtain ⟨⟨H2, t2, r2⟩, h2, h⟩ := res_bind_inv h
  obtain ⟨⟨H2', t2', r2'⟩, h2', h⟩ := res_bind_inv h
  obtain ⟨H3, h3, h⟩ := res_bind_inv h
  obtain ⟨H4, h4, h⟩ := res_bind_inv h
  obtain ⟨H5, h5, h⟩ := res_bind_inv h
  obtain ⟨H6, h6, h⟩ := res_bind_inv h
  obtain ⟨H7, h7, h⟩ := res_bind_inv h
  obtain ⟨H8, h8, h⟩ := res_bind_inv h
  obtain ⟨H9, h9, h⟩ := res_bind_inv h
  obtain ⟨c2, _, h⟩ := res_bind_inv h
  obtain ⟨H10, h10, h⟩ := res_bind_inv h
  obtain ⟨H11, h11, h⟩ := res_bind_inv h
  obtain ⟨H12, h12, h⟩ := res_bind_inv h
  obtain ⟨c1, _, h⟩ := res_bind_inv h
  obtain ⟨H13, h13, h⟩ := res_bind_inv h
  obtain ⟨H14, h14, h⟩ := res_bind_inv h
  cases h
  have k1 := OptMem.get_next h1
  have k2 := OptMem.get_next h2
  have k2' := OptMem.get_next h2'
  have k3 := assignConst_next h3
  have k4 := assignValPtr_next h4
  have k5 := assignPtr_next h5
  have k6 := assignConst_next h6
  have k7 := assignPtrPtr_next h7
  have k8 := assignConst_next h8
  have k9 := assignPtr_next h9
  have k10 := assignValPtr_next h10
  have k11 := applyLoop_next h11
  have k12 := assignPtr_next h12
  have k13 := assignConst_next h13
  have k14 := assignPtr_next h14
  dsimp only at *
  omega

/-! ### Counting along a program -/

/-- The optimizer `R` describes, with one allocation after number `N` for every entry of its tables and none besides. -/
def Counted (tab : τ → OptMem.Tables) (R : Nat → Heap α → τ → σ → Prop) (N : Nat) (H : Heap α) (s : τ) (v : σ) : Prop :=
  R N H s v ∧ H.next = N + (tab s).length

theorem Counted.followsIn {addr : Ptr → Nat} {tab : τ → OptMem.Tables} {R : Nat → Heap α → τ → σ → Prop} {hu : HUpd τ α} {u : Upd σ α} {N : Nat}
    (hfo : HUpd.FollowsIn addr N (R N) hu u)
    (hn : ∀ H s p g r, hu H s p g = .ok r → r.1.next + (tab s).length = H.next + (tab r.2).length) :
    HUpd.FollowsIn addr N (Counted tab R N) hu u := by
  intro H s v v' p g bp bg bp' bg' hR h1 h2 h3 h4 h5 h6 e
  obtain ⟨r, hr, q1, q2⟩ := hfo H s v v' p g bp bg bp' bg' hR.1 h1 h2 h3 h4 h5 h6 e
  refine ⟨r, hr, ⟨q1, ?_⟩, q2⟩
  have := hn _ _ _ _ _ hr
  have := hR.2
  omega

theorem Counted.steady {tab : τ → OptMem.Tables} {R : Nat → Heap α → τ → σ → Prop} {N : Nat} (h : Steady N (R N)) : Steady N (Counted tab R N) :=
  fun _ _ _ _ _ hR ho hw => ⟨h _ _ _ _ _ hR.1 ho hw, ho.1.trans hR.2⟩

/-! ### The entries of the tables are those of the network's parameters -/

section
variable [Zero α] [_root_.One α] [Add α] [Mul α] [Div α] [NatCast α] [LT α] [DecidableLT α] [DecidableEq α]

/-- The tables have entries at the addresses `K` only. -/
def Confined (T : σ → Nat → Table α) (K : List Nat) (x : σ) : Prop := ∀ k key, key ∉ K → T x k key = none

theorem Confined.rel {T : σ → Nat → Table α} {upd : Upd σ α} (ho : ∀ s key P G r, upd s key P G = .ok r → ∀ k key', key' ≠ key → T r.1 k key' = T s k key')
    (K : List Nat) : UpdRel upd (fun k => k ∈ K) (fun x y => x = y ∧ Confined T K x) := by
  intro x y key P G h hk
  obtain ⟨rfl, h⟩ := h
  cases hx : upd x key P G with
  | error e => exact .err _
  | ok r =>
    refine .ok ⟨⟨rfl, fun k key' hk' => ?_⟩, rfl⟩
    rw [ho x key P G r hx k key' (fun e => hk' (e ▸ hk))]
    exact h k key' hk'

theorem TrainOp.run_confined {T : σ → Nat → Table α} {upd : Upd σ α}
    (ho : ∀ s key P G r, upd s key P G = .ok r → ∀ k key', key' ≠ key → T r.1 k key' = T s k key') (gen : Gen γ ρ Nat) {K : List (List Nat)} :
    ∀ (ops : List (TrainOp α γ)) {x r : (σ × Train α) × ρ}, Confined T K.flatten x.1.1 → x.1.2.net.map Layer.keys = K → TrainOp.run upd gen x ops = .ok r →
      Confined T K.flatten r.1.1 ∧ r.1.2.net.map Layer.keys = K
  | [], x, r, h1, h2, e => by cases e; exact ⟨h1, h2⟩
  | op :: ops, x, r, h1, h2, e => by
    obtain ⟨y, e1, e2⟩ := res_bind_inv e
    have hx : Lockstep (fun a b => a = b ∧ Confined T K.flatten a) K x.1 x.1 := ⟨⟨rfl, h1⟩, rfl, h2⟩
    have := TrainOp.exec_rel (Confined.rel ho K.flatten) gen hx x.2 op
    rw [e1] at this
    cases this with
    | ok h => exact TrainOp.run_confined ho gen ops h.1.1.2 h.1.2.2 e2

theorem Train.program_confined {T : σ → Nat → Table α} {upd : Upd σ α}
    (ho : ∀ s key P G r, upd s key P G = .ok r → ∀ k key', key' ≠ key → T r.1 k key' = T s k key') {ks : List (LayerKind α)} {gi : Gen γ' ρ' α}
    {ci : γ'} {ri : ρ'} {l : Loss α} {s0 : σ} (h0 : ∀ k key, T s0 k key = none) {gen : Gen γ ρ Nat} {g : ρ} {ops : List (TrainOp α γ)}
    {r : (σ × Train α) × ρ} (e : Train.program ks gi ci ri l s0 upd gen g ops = .ok r) : Confined T (Net.keys r.1.2.net) r.1.1 := by
  obtain ⟨n1, e1, e⟩ := res_bind_inv e
  obtain ⟨⟨n2, r2⟩, e2, e⟩ := res_bind_inv e
  obtain ⟨w0, e3, e⟩ := res_bind_inv e
  have h := TrainOp.run_confined ho gen _ (x := ((s0, w0), g)) (fun k key _ => h0 k key) rfl e
  have hk : Net.keys r.1.2.net = (r.1.2.net.map Layer.keys).flatten := by unfold Net.keys; rw [List.flatMap_def]
  rw [hk, h.2]
  exact h.1

end

end Trixy
