import Verif.Spec.Net
import Mathlib.Data.Set.Function
/- Data sets that differ in the order of their samples. -/
namespace Trixy

variable {α : Type}

/-- The same (input, target) pairs in another order. -/
def SameSamples (idata odata idata' odata' : List (Ten α)) : Prop :=
  idata.length = odata.length ∧ idata'.length = odata'.length ∧ (idata.zip odata).Perm (idata'.zip odata')

/-- The `b`-th block of `k` consecutive elements. -/
def block {ι : Type} (l : List ι) (k b : Nat) : List ι := (l.drop (b * k)).take k

/-- `e` rearranges the indices `0 … h-1`. -/
def Reorders (h : Nat) (e : Nat → Nat) : Prop := Set.BijOn e (Set.Iio h) (Set.Iio h)

end Trixy
