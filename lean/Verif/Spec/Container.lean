import Verif.Model.Container
/- Abstract containers: each object is a list, or moved-from. -/
namespace Trixy

variable {α : Type _}

/-- Abstract state: no object / moved-from object / object with the given elements. -/
abbrev AState (α : Type _) := Nat → Option (Option (List α))

/-- Change one entry. -/
def aset (A : AState α) (x : Nat) (v : Option (Option (List α))) : AState α := fun y => if y = x then v else A y

/-- The same operation on lists. -/
def absStep (dflt : α) (A : AState α) : COp α → AState α
  | .default x => aset A x (some (some []))
  | .sized x n => aset A x (some (some (List.replicate n dflt)))
  | .ofList x l => aset A x (some (some l))
  | .copyCtor x y => aset A x (A y)
  | .moveCtor x y => aset (aset A y (some none)) x (A y)
  | .copyAssign x y => if x = y then A else aset A x (A y)
  | .moveAssign x y => if x = y then A else aset (aset A y (some none)) x (A y)
  | .resize x n arg => aset A x ((A x).map (·.map (fun l =>
      if n ≤ l.length then l.take n else l ++ (List.range (n - l.length)).map arg)))
  | .reserve _ _ => A
  | .emplaceBack x v => aset A x ((A x).map (·.map (· ++ [v])))
  | .popBack x => aset A x ((A x).map (·.map List.dropLast))
  | .write x i v => aset A x ((A x).map (·.map (·.set i v)))
  | .save _ => A
  | .destroy x => aset A x none

/-- Preconditions: constructors need a new name, other operations an object; a moved-from object may only be
destroyed, moved from or assigned to; `pop_back` needs an element, writes are in range; copy construction is
only allowed from a source without spare capacity (C23). -/
def CValid (w : CWorld α) (A : AState α) : COp α → Prop
  | .default x | .sized x _ | .ofList x _ => A x = none
  | .copyCtor x y => A x = none ∧ (∃ l, A y = some (some l)) ∧ ∀ c, w.conts y = some c → c.size = c.cap
  | .moveCtor x y => A x = none ∧ A y ≠ none
  | .copyAssign x y => A x ≠ none ∧ A y ≠ none ∧ (x ≠ y → ∃ l, A y = some (some l))
  | .moveAssign x y => A x ≠ none ∧ A y ≠ none
  | .resize x _ _ | .reserve x _ | .emplaceBack x _ | .save x => ∃ l, A x = some (some l)
  | .popBack x => ∃ l, A x = some (some l) ∧ l ≠ []
  | .write x i _ => ∃ l, A x = some (some l) ∧ i < l.length
  | .destroy x => A x ≠ none

/-- Every operation of the history meets its precondition when it is executed. -/
def CValidHist (dflt : α) (moved : α → α) (w : CWorld α) (A : AState α) : List (COp α) → Prop
  | [] => True
  | op :: ops => CValid w A op ∧ ∀ w', w.step dflt moved op = .ok w' → CValidHist dflt moved w' (absStep dflt A op) ops

/-- The abstract state after a history. -/
def absRun (dflt : α) (A : AState α) : List (COp α) → AState α
  | [] => A
  | op :: ops => absRun dflt (absStep dflt A op) ops

/-- What the public interface of container `c` shows is exactly the list `l`. -/
def Shows (s : Store α) (c : Cont) (l : List α) : Prop :=
  c.size = l.length ∧ c.size ≤ c.cap ∧ (c.empty = true ↔ l = []) ∧ c.iterate s = .ok l ∧
  (∀ i (h : i < l.length), c.at_ s i = .ok l[i]) ∧
  (∀ h : l ≠ [], c.front s = .ok (l.head h) ∧ c.back s = .ok (l.getLast h))

end Trixy
