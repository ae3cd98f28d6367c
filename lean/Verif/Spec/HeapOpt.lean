import Verif.Model.HeapOpt
import Verif.Spec.HeapProg
import Verif.Spec.TrainSafe
/-
Optimizers whose state lives in the free store. The allocations of the program are numbered in the order in which they are made; those
before number `N` belong to the network, the training object and the data, those from `N` on to the optimizer.
-/
namespace Trixy

variable {α γ ρ σ τ : Type}

/-- `H'` differs from `H`, in the allocations before number `N`, at most in the cells of the objects `ws`: none of them is freed. -/
def Heap.OnlyBelow (N : Nat) (H H' : Heap α) (ws : List Obj) : Prop :=
  H.next ≤ H'.next ∧ (∀ b, b < N → (H'.live b ↔ H.live b)) ∧
  ∀ b o, b < N → (∀ w ∈ ws, ∀ pb po, w.data = .at pb po → ¬ (b = pb ∧ po ≤ o ∧ o < po + w.shape.size)) → H'.cellAt b o = H.cellAt b o

/-- The object lies in an allocation before number `N`. -/
def Obj.Below (N : Nat) (o : Obj) : Prop := ∃ b j, o.data = .at b j ∧ b < N

/-- The optimizer `h` with the state `s` in memory computes what `u` computes on values, where `R` says which value the state in memory has. -/
def HUpd.FollowsIn (addr : Ptr → Nat) (N : Nat) (R : Heap α → τ → σ → Prop) (h : HUpd τ α) (u : Upd σ α) : Prop :=
  ∀ (H : Heap α) (s : τ) (v v' : σ) (p g : Obj) (bp bg bp' bg' : Buf α), R H s v → N ≤ H.next → p.Below N → g.Below N →
    H.Keeps p bp → H.Keeps g bg → Obj.Apart p g → u v (addr p.data) bp bg = .ok (v', bp', bg') →
    Ok (h H s p g) (fun r => R r.1 r.2 v' ∧ r.1.Keeps p bp' ∧ r.1.Keeps g bg' ∧ H.OnlyBelow N r.1 [p, g])

/-- The state tables in memory are the tables `T 0, T 1, …`: every entry has an allocation of its own, made after number `N`, with the
contents of the entry, and there are no other allocations from number `N` on. -/
structure OptMem.Tables.Is (N : Nat) (H : Heap α) (tabs : OptMem.Tables) (T : Nat → Table α) : Prop where
  place : ∀ e ∈ tabs, ∃ b, e.2.first = .at b 0 ∧ N ≤ b ∧ b < H.next
  sep : tabs.Pairwise (fun e f => e.1 ≠ f.1 ∧ e.2.first ≠ f.2.first)
  live : ∀ b, N ≤ b → (H.live b ↔ ∃ e ∈ tabs, e.2.first = .at b 0)
  absent : ∀ k key, T k key = none → ∀ e ∈ tabs, e.1 ≠ (k, key)
  present : ∀ k key b, T k key = some b → ∃ r, ((k, key), r) ∈ tabs ∧ H.Keeps r.view b

/-- The tables of Momentum and Nestorov, of AdaGrad and RMSProp, and of Adam by number. -/
def Mom.tables (v : Mom α) : Nat → Table α
  | 0 => v.buff
  | 1 => v.opt
  | _ => fun _ => none
def Ada.tables (v : Ada α) : Nat → Table α
  | 0 => v.buff
  | 1 => v.opt
  | _ => fun _ => none
def AdamS.tables (v : AdamS α) : Nat → Table α
  | 0 => v.buff
  | 1 => v.m
  | 2 => v.s
  | _ => fun _ => none

/-- The optimizer object in memory has this value. -/
structure HMom.Is (N : Nat) (H : Heap α) (s : HMom α) (v : Mom α) : Prop where
  tabs : s.tabs.Is N H v.tables
  lr : s.lr = v.lr
  mu : s.mu = v.mu
structure HAda.Is (N : Nat) (H : Heap α) (s : HAda α) (v : Ada α) : Prop where
  tabs : s.tabs.Is N H v.tables
  lr : s.lr = v.lr
  beta : s.beta = v.beta
  rbeta : s.rbeta = v.rbeta
structure HAdam.Is (N : Nat) (H : Heap α) (s : HAdam α) (v : AdamS α) : Prop where
  tabs : s.tabs.Is N H v.tables
  lr : s.lr = v.lr
  beta1 : s.beta1 = v.beta1
  beta2 : s.beta2 = v.beta2
  rbeta1 : s.rbeta1 = v.rbeta1
  rbeta2 : s.rbeta2 = v.rbeta2
  tbeta1 : s.tbeta1 = v.tbeta1
  tbeta2 : s.tbeta2 = v.tbeta2

/-- A sensible program: the layers `as` (with the values `ss`) fit together and fit into memory, the loss is defined on the outputs, and every
call of `hops` (with the values `ops`) is given data of the right shapes that was in the memory `H0` before the network was built. -/
structure HTrain.Sensible [Zero α] (as : List (LayerArgs α)) (ss : List (LayerSpec α)) (s o : Shp) (hl : HLoss α) (l : Loss α) (H0 : Heap α)
    (hops : List (HTrainOp α γ)) (ops : List (TrainOp α γ)) : Prop where
  layers : List.Forall₂ LayerArgs.Same as ss
  room : ∀ s ∈ ss, s.Room
  sensible : ∀ s ∈ ss, s.Sensible
  fits : Trixy.Fits s (ss.map (LayerSpec.kind 0 (fun _ => 0))) o
  two : 2 ≤ ss.length
  few : ss.length < W64
  loss : hl.Follows l
  lossIs : ∃ L dL, l.Is o.vol L dL
  calls : List.Forall₂ (HTrainOp.Same H0) hops ops
  good : ∀ op ∈ ops, op.Good s o
  memory : ∀ b, H0.live b → b < H0.next

/-- The training object, its network and the optimizer's tables in memory: the network, the derivative of the loss and the loss have the value
`w`; all tensors lie apart from each other and from the tables; the memory `H0` from before is unchanged; and nothing else is allocated. -/
structure HTrain.InMemory (addr : Ptr → Nat) (N : Nat) (H0 : Heap α) (t : HTrain α τ) (tabs : OptMem.Tables) (w : Train α) : Prop where
  value : t.Is addr (t.opt, w)
  apart : AllApart t.owned
  data : H0.Extends t.heap
  place : ∀ o ∈ t.owned, ∃ b, o.data = .at b 0 ∧ H0.next ≤ b ∧ b < N
  tables : ∀ e ∈ tabs, ∃ b, e.2.first = .at b 0 ∧ N ≤ b
  alloc : ∀ b, t.heap.live b ↔ H0.live b ∨ (∃ o ∈ t.owned, o.data = .at b 0) ∨ ∃ e ∈ tabs, e.2.first = .at b 0

/-- The three objects of the program. -/
inductive Part
  | network
  | training
  | optimizer
  deriving DecidableEq

/-- One of the objects goes out of scope (UnifiedNet.hpp:70-74, Training/UnifiedNet.hpp:54, Range/Unified.hpp:43-46). -/
def HTrain.drop (t : HTrain α τ) (tabs : OptMem.Tables) (H : Heap α) : Part → Res (Heap α)
  | .network => HNet.destroy H t.net
  | .training => t.destroy H
  | .optimizer => OptMem.release H tabs

/-- They go out of scope one after the other. -/
def HTrain.dropAll (t : HTrain α τ) (tabs : OptMem.Tables) (H : Heap α) : List Part → Res (Heap α)
  | [] => .ok H
  | p :: ps => do
    let H ← t.drop tabs H p
    t.dropAll tabs H ps

end Trixy
