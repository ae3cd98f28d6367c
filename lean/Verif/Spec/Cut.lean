import Verif.Spec.Serial
/- Streams that end early (C95). -/
namespace Trixy

variable {α β : Type}

/-- `part` is what a reader returns on a stream, `full` what it returns on the same stream followed by `t`: if the latter succeeds, the former either reports
the end of the stream (SF throws; the marker used here is `UB.oob`) or gives the same object. -/
def Cut {X : Type} (t : List β) (full part : Res (X × List β)) : Prop :=
  ∀ x r, full = .ok (x, r) → part = .error .oob ∨ ∃ r', part = .ok (x, r') ∧ r = r' ++ t

/-- What is assumed of the SF library in addition: its readers of numbers and elements look at nothing beyond what they consume, and report the end of the
stream when they meet it. -/
structure Codec.EndDetected (c : Codec α β) : Prop where
  nat : ∀ bs t, Cut t (c.getNat (bs ++ t)) (c.getNat bs)
  val : ∀ bs t, Cut t (c.getVal (bs ++ t)) (c.getVal bs)

/-- However many bytes at the end of the saved bytes are missing — one, or all of them — loading reports the end of the stream. -/
def CutDetected {Y : Type} (put : Res (List β)) (get : List β → Res (Y × List β)) : Prop :=
  ∃ bs, put = .ok bs ∧ ∀ p t, bs = p ++ t → t ≠ [] → get p = .error .oob

end Trixy
