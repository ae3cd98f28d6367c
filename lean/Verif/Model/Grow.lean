import Verif.Model.Train
/-
Layers added to a network that a training object already refers to.
-/
namespace Trixy

variable {α : Type}

/-- UnifiedNet.hpp:76-80 `add`, seen from a training object on the network: it holds a reference to the network
(Training/UnifiedNet.hpp:52) and sized its `delta` when it was constructed (Training/UnifiedNet.hpp:59-62); nothing adapts it
(`Training::update()`, lines 182-192, does not compile: `net.inner.back()` names a member function). -/
def Train.add (l : Layer α) (t : Train α) : Train α := { t with net := t.net ++ [l] }

end Trixy
