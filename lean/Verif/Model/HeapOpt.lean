import Verif.Model.HeapLife
import Verif.Model.OptMem
import Verif.Model.Optim
/-
The optimizers with state tables on the free store: the tables own arrays that are allocated when a parameter is updated for the first time,
and the updates work on these arrays in place. (Model/Optim.lean has the same functions with tables of values.)
-/
namespace Trixy

variable {α : Type}

/-- The range `[first, first + size)` as an operand of the functions of Lique/Linear.hpp (Linear.hpp:320-424 use only `first` and `last`;
Range/Unified.hpp:48-54). -/
def OptMem.Rng.view (r : OptMem.Rng) : Obj := ⟨.vec, r.first, ⟨1, 1, r.size, r.size⟩⟩

/-- Momentum.hpp:42-48, Nestorov.hpp:40-46: table 0 is `buff_table_`, table 1 is `optimized_table_`. -/
structure HMom (α : Type) where
  tabs : OptMem.Tables
  lr : α
  mu : α

/-- Momentum.hpp:51-62, Nestorov.hpp:49-60. -/
def HMom.make (lr mu : α) : HMom α := ⟨[], lr, mu⟩

/-- Momentum.hpp:81-94. -/
def hmomUpdate [Zero α] [Add α] [Mul α] [Sub α] (addr : Ptr → Nat) : HUpd (HMom α) α := fun H s param grad => do
  let (H, tabs, buff) ← OptMem.get H 0 s.tabs (0, addr param.data) param.shape.size
  let (H, tabs, opt) ← OptMem.get H 0 tabs (1, addr param.data) param.shape.size
  let H ← opt.view.join H s.mu
  let H ← buff.view.join2 H s.lr grad
  let H ← opt.view.sub H buff.view
  let H ← param.add H opt.view
  return (H, { s with tabs := tabs })

/-- Nestorov.hpp:79-94. -/
def hnesUpdate [Zero α] [Add α] [Mul α] [Sub α] (addr : Ptr → Nat) : HUpd (HMom α) α := fun H s param grad => do
  let (H, tabs, buff) ← OptMem.get H 0 s.tabs (0, addr param.data) param.shape.size
  let (H, tabs, opt) ← OptMem.get H 0 tabs (1, addr param.data) param.shape.size
  let H ← opt.view.join H s.mu
  let H ← buff.view.join2 H s.lr grad
  let H ← opt.view.sub H buff.view
  let H ← param.sub H buff.view
  let H ← buff.view.join2 H s.mu opt.view
  let H ← param.add H buff.view
  return (H, { s with tabs := tabs })

/-- AdaGrad.hpp:40-46, RMSProp.hpp:40-47 (`beta`, `rbeta` unused by AdaGrad): tables as above. -/
structure HAda (α : Type) where
  tabs : OptMem.Tables
  lr : α
  beta : α
  rbeta : α

/-- AdaGrad.hpp:49-58 / RMSProp.hpp:50-63. -/
def HAda.make [One α] [Sub α] (lr beta : α) : HAda α := ⟨[], lr, beta, 1 - beta⟩

/-- AdaGrad.hpp:77-93. -/
def hadagradUpdate [Zero α] [Add α] [Mul α] [Sub α] (isq : α → α) (addr : Ptr → Nat) : HUpd (HAda α) α := fun H s param grad => do
  let (H, tabs, buff) ← OptMem.get H 0 s.tabs (0, addr param.data) param.shape.size
  let (H, tabs, opt) ← OptMem.get H 0 tabs (1, addr param.data) param.shape.size
  let H ← buff.view.mul2 H grad grad
  let H ← opt.view.add H buff.view
  let H ← buff.view.apply2 H isq opt.view
  let H ← buff.view.mul H grad
  let H ← buff.view.join H s.lr
  let H ← param.sub H buff.view
  return (H, { s with tabs := tabs })

/-- RMSProp.hpp:82-100. -/
def hrmspropUpdate [Zero α] [Add α] [Mul α] [Sub α] (isq : α → α) (addr : Ptr → Nat) : HUpd (HAda α) α := fun H s param grad => do
  let (H, tabs, buff) ← OptMem.get H 0 s.tabs (0, addr param.data) param.shape.size
  let (H, tabs, opt) ← OptMem.get H 0 tabs (1, addr param.data) param.shape.size
  let H ← opt.view.join H s.beta
  let H ← buff.view.mul2 H grad grad
  let H ← buff.view.join H s.rbeta
  let H ← opt.view.add H buff.view
  let H ← buff.view.apply2 H isq opt.view
  let H ← buff.view.mul H grad
  let H ← buff.view.join H s.lr
  let H ← param.sub H buff.view
  return (H, { s with tabs := tabs })

/-- Adam.hpp:40-52: table 0 is `buff_table_`, 1 is `optimized_m_table_`, 2 is `optimized_s_table_`. -/
structure HAdam (α : Type) where
  tabs : OptMem.Tables
  lr : α
  beta1 : α
  beta2 : α
  rbeta1 : α
  rbeta2 : α
  tbeta1 : α
  tbeta2 : α

/-- Adam.hpp:55-75. -/
def HAdam.make [One α] [Sub α] (lr beta1 beta2 : α) : HAdam α := ⟨[], lr, beta1, beta2, 1 - beta1, 1 - beta2, 1, 1⟩

/-- Adam.hpp:103-138. -/
def hadamUpdate [Field α] [DecidableEq α] (isq : α → α) (addr : Ptr → Nat) : HUpd (HAdam α) α := fun H st param grad => do
  let (H, tabs, buff) ← OptMem.get H 0 st.tabs (0, addr param.data) param.shape.size
  let (H, tabs, m) ← OptMem.get H 0 tabs (1, addr param.data) param.shape.size
  let (H, tabs, s) ← OptMem.get H 0 tabs (2, addr param.data) param.shape.size
  let tbeta1 := st.tbeta1 * st.beta1
  let tbeta2 := st.tbeta2 * st.beta2
  let H ← m.view.join H st.beta1
  let H ← buff.view.join2 H st.rbeta1 grad
  let H ← m.view.add H buff.view
  let H ← s.view.join H st.beta2
  let H ← buff.view.mul2 H grad grad
  let H ← buff.view.join H st.rbeta2
  let H ← s.view.add H buff.view
  let c2 ← fdiv 1 (1 - tbeta2)
  let H ← buff.view.join2 H c2 s.view
  let H ← buff.view.apply H isq
  let H ← buff.view.mul H m.view
  let c1 ← fdiv st.lr (1 - tbeta1)
  let H ← buff.view.join H c1
  let H ← param.sub H buff.view
  return (H, { st with tabs := tabs, tbeta1 := tbeta1, tbeta2 := tbeta2 })

end Trixy
