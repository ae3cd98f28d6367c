import Verif.Model.ContThrow
import Verif.Spec.Container
/- Abstract effect of an operation that throws (C73). -/
namespace Trixy

variable {α : Type _}

/-- The exceptions the class copes with, and the abstract state in which they leave the program (`none`: not coped
with). A failing allocation in a constructor, `reserve`, `resize` or `emplace_back` changes nothing; a throwing element
constructor in `emplace_back` changes nothing; in `resize` it keeps the elements constructed so far. -/
def absThrow (A : AState α) : Crash → COp α → Option (AState α)
  | .alloc, .sized _ _ => some A
  | .alloc, .ofList _ _ => some A
  | .alloc, .copyCtor _ _ => some A
  | .alloc, .reserve _ _ => some A
  | .alloc, .emplaceBack _ _ => some A
  | .alloc, .resize _ _ _ => some A
  | .elem 0, .emplaceBack _ _ => some A
  | .elem k, .resize x _ arg => some (aset A x ((A x).map (·.map (· ++ (List.range k).map arg))))
  | _, _ => none

/-- The throwing point is reached: the allocation takes place (it exceeds the capacity), or the construction number `k`
is one of those the operation performs. -/
def Reached (w : CWorld α) : Crash → COp α → Prop
  | .alloc, .reserve x n => ∀ c, w.conts x = some c → c.cap < n
  | .alloc, .resize x n _ => ∀ c, w.conts x = some c → c.cap < n
  | .alloc, .emplaceBack x _ => ∀ c, w.conts x = some c → c.size = c.cap
  | .elem k, .resize x n _ => ∀ c, w.conts x = some c → c.size + k < n
  | _, _ => True

/-- A client history with exceptions the class copes with, together with its effect on lists. -/
def CValidEvs (dflt : α) (moved : α → α) (w : CWorld α) (A : AState α) : List (CEv α) → AState α → Prop
  | [], B => B = A
  | .done op :: es, B => CValid w A op ∧
      ∀ w', w.step dflt moved op = .ok w' → CValidEvs dflt moved w' (absStep dflt A op) es B
  | .threw pt op :: es, B => CValid w A op ∧ Reached w pt op ∧ ∃ A', absThrow A pt op = some A' ∧
      ∀ w', w.stepThrow dflt moved pt op = .ok w' → CValidEvs dflt moved w' A' es B

end Trixy
