import Verif.Model.Elem
import Verif.Proof.Linear
/- Element-wise loops. -/
namespace Trixy

variable {α : Type _}

theorem zipInto_spec {op : α → α → α} {r x : Buf α} {n n' : Nat} {a b : Nat → α} (hr : VecIs r n a) (hx : VecIs x n' b)
    (hn : n ≤ n') : Ok (zipInto op r x) (fun r' => VecIs r' n (fun i => op (a i) (b i))) := by
  unfold zipInto
  rw [hr.length]
  refine forN_vec hr (fun j hj r' g hg he => ?_)
  rw [hg.get hj he, bind_ok, hx.get (by omega), bind_ok]
  exact hg.set hj _

theorem zip2Into_spec {op : α → α → α} {r x y : Buf α} {n n1 n2 : Nat} {a b : Nat → α} (hr : r.length = n)
    (hx : VecIs x n1 a) (hy : VecIs y n2 b) (h1 : n ≤ n1) (h2 : n ≤ n2) :
    Ok (zip2Into op r x y) (fun r' => VecIs r' n (fun i => op (a i) (b i))) := by
  unfold zip2Into
  subst hr
  refine forN_vec (BufIs_self r) (fun j hj r' g hg _ => ?_)
  rw [hx.get (by omega), bind_ok, hy.get (by omega), bind_ok]
  exact hg.set hj _

theorem scaleInto_spec [Mul α] {r : Buf α} {n : Nat} {a : Nat → α} (hr : VecIs r n a) (v : α) :
    Ok (scaleInto r v) (fun r' => VecIs r' n (fun i => a i * v)) := by
  unfold scaleInto
  rw [hr.length]
  refine forN_vec hr (fun j hj r' g hg he => ?_)
  rw [hg.get hj he, bind_ok]
  exact hg.set hj _

theorem scaleTo_spec [Mul α] {r x : Buf α} {n n' : Nat} {a : Nat → α} (hr : r.length = n) (hx : VecIs x n' a) (hn : n ≤ n')
    (v : α) : Ok (scaleTo r v x) (fun r' => VecIs r' n (fun i => v * a i)) := by
  unfold scaleTo
  subst hr
  refine forN_vec (BufIs_self r) (fun j hj r' g hg _ => ?_)
  rw [hx.get (by omega), bind_ok]
  exact hg.set hj _

theorem mapInto_spec {g : α → α} {r x : Buf α} {n n' : Nat} {a : Nat → α} (hr : r.length = n) (hx : VecIs x n' a)
    (hn : n ≤ n') : Ok (mapInto g r x) (fun r' => VecIs r' n (fun i => g (a i))) := by
  unfold mapInto
  subst hr
  refine forN_vec (BufIs_self r) (fun j hj r' g' hg _ => ?_)
  rw [hx.get (by omega), bind_ok]
  exact hg.set hj _

theorem mapSelf_spec {g : α → α} {r : Buf α} {n : Nat} {a : Nat → α} (hr : VecIs r n a) :
    Ok (mapSelf g r) (fun r' => VecIs r' n (fun i => g (a i))) := by
  unfold mapSelf
  rw [hr.length]
  refine forN_vec hr (fun j hj r' g' hg he => ?_)
  rw [hg.get hj he, bind_ok]
  exact hg.set hj _

theorem fillInto_spec {r : Buf α} {n : Nat} (hr : r.length = n) (v : α) :
    Ok (fillInto r v) (fun r' => VecIs r' n (fun _ => v)) := by
  unfold fillInto
  subst hr
  exact forN_vec (BufIs_self r) (fun j hj r' g' hg _ => hg.set hj _)

theorem VecIs_filled (n : Nat) (v : α) : VecIs (filled n v) n (fun _ => v) :=
  ⟨by simp [filled], fun i hi => by simp [filled, hi]⟩

theorem Ten.onData_spec {t : Ten α} {f : Buf α → Res (Buf α)} {P : Buf α → Prop} (h : Ok (f t.data) P) :
    Ok (t.onData f) (fun t' => t'.d = t.d ∧ t'.h = t.h ∧ t'.w = t.w ∧ P t'.data) := by
  unfold Ten.onData
  exact h.bind (fun d hd => Ok_ok.2 ⟨rfl, rfl, rfl, hd⟩)

theorem Mat.onData_spec {t : Mat α} {f : Buf α → Res (Buf α)} {P : Buf α → Prop} (h : Ok (f t.data) P) :
    Ok (t.onData f) (fun t' => t'.h = t.h ∧ t'.w = t.w ∧ P t'.data) := by
  unfold Mat.onData
  exact h.bind (fun d hd => Ok_ok.2 ⟨rfl, rfl, hd⟩)

end Trixy
