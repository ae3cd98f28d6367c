import Verif.Model.Optim
/-
Adam once more, over any arithmetic with a total division (a floating-point type has a value for a quotient by zero). Nothing is
assumed of the operations. That this is the program of Model/Optim.lean wherever that one is defined is proved in
Props/AdamFlt.lean.
-/
namespace Trixy

variable {α : Type _}

/-- Adam.hpp:103-138. -/
def adamFlt [Zero α] [One α] [Add α] [Sub α] [Mul α] [Div α] (isq : α → α) : Upd (AdamS α) α := fun st key param grad => do
  let buff := st.buff.get key param.length
  let m := st.m.get key param.length
  let s := st.s.get key param.length
  let tbeta1 := st.tbeta1 * st.beta1
  let tbeta2 := st.tbeta2 * st.beta2
  let m ← scaleInto m st.beta1
  let buff ← scaleTo buff st.rbeta1 grad
  let m ← zipInto (· + ·) m buff
  let s ← scaleInto s st.beta2
  let buff ← zip2Into (· * ·) buff grad grad
  let buff ← scaleInto buff st.rbeta2
  let s ← zipInto (· + ·) s buff
  let buff ← scaleTo buff (1 / (1 - tbeta2)) s
  let buff ← mapSelf isq buff
  let buff ← zipInto (· * ·) buff m
  let buff ← scaleInto buff (st.lr / (1 - tbeta1))
  let param ← zipInto (· - ·) param buff
  return (⟨st.buff.put key buff, st.m.put key m, st.s.put key s, st.lr, st.beta1, st.beta2, st.rbeta1, st.rbeta2,
    tbeta1, tbeta2⟩, param, grad)

end Trixy
