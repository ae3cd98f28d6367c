import Verif.Model.Net
/-
Model of Neuro/Training/UnifiedNet.hpp.
-/
namespace Trixy

variable {α γ ρ σ : Type}

/-- `ILoss` (Function/Base.hpp:42-54): `f` and `df` of (result, y_true, y_pred). -/
structure Loss (α : Type) where
  f : Buf α → Buf α → Res α
  df : Buf α → Buf α → Buf α → Res (Buf α)

/-- The members of a Training object (Training/UnifiedNet.hpp:52-57); `net` is the referenced network, `loss` is `loss_`
(null until `loss(ILoss*)` is called). -/
structure Train (α : Type) where
  net : Net α
  delta : Ten α
  loss : Option (Loss α)

/-- Training/UnifiedNet.hpp:59-62: `delta(network.inner().back()->osize())` allocates (indeterminate cells) a tensor of the
last layer's output shape; `back()` of an empty container is outside its contents. -/
def Train.make (net : Net α) : Res (Train α) := do
  let l ← lget net (wsub net.length 1)
  return { net := net, delta := Ten.alloc l.osize.1 l.osize.2.1 l.osize.2.2, loss := none }

/-- Dereferencing `loss_`. -/
def derefLoss (l : Option (Loss α)) : Res (Loss α) :=
  match l with
  | none => .error .nullDeref
  | some l => .ok l

/-- Training/UnifiedNet.hpp:156-159. -/
def Train.feedforward [Zero α] [One α] [Add α] [Mul α] [LT α] [DecidableLT α] (x : Ten α) (t : Train α) : Res (Train α) := do
  let (net, _) ← Net.feedforward x t.net
  return { t with net := net }

/-- Training/UnifiedNet.hpp:170-171, body: `layer(i).backward(layer(i - 1).value(), layer(i + 1).delta())`. -/
def Net.backStep [Zero α] [Add α] [Mul α] (i : Nat) (net : Net α) : Res (Net α) := do
  let p ← lget net (i - 1)
  let n ← lget net (i + 1)
  let d ← n.delta
  let l ← lget net i
  let l ← l.backward p.value d true
  lset net i l

/-- Training/UnifiedNet.hpp:161-174 after the loss derivative: `for (i = N - 2; i > 0; --i)` makes `N - 2` rounds (in
`size_t`), round `k` with `i = N - 2 - k`. -/
def Net.backprop [Zero α] [Add α] [Mul α] (x d : Ten α) (net : Net α) : Res (Net α) := do
  let N := net.length
  let l ← lget net (wsub N 1)
  let p ← lget net (wsub N 2)
  let l ← l.backward p.value d true
  let net ← lset net (wsub N 1) l
  let net ← forN (wsub N 2) net (fun k net => Net.backStep (wsub N 2 - k) net)
  let l ← lget net 0
  let n ← lget net 1
  let d ← n.delta
  let l ← l.backward x d false
  lset net 0 l

/-- Training/UnifiedNet.hpp:161-174. -/
def Train.backprop [Zero α] [Add α] [Mul α] (x target : Ten α) (t : Train α) : Res (Train α) := do
  let l ← lget t.net (wsub t.net.length 1)
  let loss ← derefLoss t.loss
  let delta ← t.delta.onData (fun d => loss.df d target.data l.value.data)
  let net ← Net.backprop x delta t.net
  return { t with net := net, delta := delta }

/-- Training/UnifiedNet.hpp:218-221. -/
def Net.updating [Mul α] [One α] [DecidableEq α] (upd : Upd σ α) (alpha : α) (s : σ) (net : Net α) : Res (σ × Net α) :=
  forN net.length (s, net) (fun i st => do
    let l ← lget st.2 i
    let (s, l) ← l.update upd st.1 alpha
    let net ← lset st.2 i l
    return (s, net))

/-- Training/UnifiedNet.hpp:223-226. -/
def Net.reseting [Zero α] (net : Net α) : Res (Net α) :=
  forN net.length net (fun i net => do
    let l ← lget net i
    let l ← l.reset
    lset net i l)

/-- Training/UnifiedNet.hpp:228-231. -/
def Net.accumulating [Add α] (net : Net α) : Res (Net α) :=
  forN net.length net (fun i net => do
    let l ← lget net i
    let l ← l.accumulate
    lset net i l)

/-- Training/UnifiedNet.hpp:218-221. -/
def Train.updating [Mul α] [One α] [DecidableEq α] (upd : Upd σ α) (alpha : α) (st : σ × Train α) : Res (σ × Train α) := do
  let (s, net) ← Net.updating upd alpha st.1 st.2.net
  return (s, { st.2 with net := net })

/-- Training/UnifiedNet.hpp:223-226. -/
def Train.reseting [Zero α] (t : Train α) : Res (Train α) := do
  let net ← Net.reseting t.net
  return { t with net := net }

/-- Training/UnifiedNet.hpp:228-231. -/
def Train.accumulating [Add α] (t : Train α) : Res (Train α) := do
  let net ← Net.accumulating t.net
  return { t with net := net }

/-- `feedforward(idata[sample]); backprop(idata[sample], odata[sample])` (Training/UnifiedNet.hpp:84-85, 105-106,
144-145). -/
def Train.sample [Zero α] [One α] [Add α] [Mul α] [LT α] [DecidableLT α] (idata odata : List (Ten α)) (i : Nat) (t : Train α) :
    Res (Train α) := do
  let x ← lget idata i
  let t ← t.feedforward x
  let y ← lget odata i
  t.backprop x y

/-- `1. / static_cast<precision_type>(n)`; for `n = 0` the result is not a number one can train with (reported as
division by zero). -/
def invCount [One α] [Div α] [NatCast α] (n : Nat) : Res α := if n = 0 then .error .divByZero else .ok (1 / (n : α))

/-- `a % b` on integers, undefined for `b = 0`. -/
def rem (a b : Nat) : Res Nat := if b = 0 then .error .divByZero else .ok (a % b)

/-- Training/UnifiedNet.hpp:73-90; the generator is taken by value. -/
def Train.stochastic [Zero α] [One α] [Add α] [Mul α] [LT α] [DecidableLT α] [DecidableEq α] (upd : Upd σ α)
    (idata odata : List (Ten α)) (iterations : Nat) (gen : Gen γ ρ Nat) (c : γ) (g : ρ) (st : σ × Train α) :
    Res ((σ × Train α) × ρ) := do
  let (st, _, g) ← forN iterations (st, c, g) (fun _ s => do
    let r := gen s.2.1 s.2.2
    let i ← rem r.1 idata.length
    let t ← s.1.2.sample idata odata i
    let st ← Train.updating upd 1 (s.1.1, t)
    return (st, r.2.1, r.2.2))
  return (st, g)

/-- Training/UnifiedNet.hpp:103-109 and 142-150, body: one sample, then `accumulating()`. -/
def Train.sampleAcc [Zero α] [One α] [Add α] [Mul α] [LT α] [DecidableLT α] (idata odata : List (Ten α)) (i : Nat) (t : Train α) :
    Res (Train α) := do
  let t ← t.sample idata odata i
  t.accumulating

/-- Training/UnifiedNet.hpp:99-112, body of the epoch loop. -/
def Train.epoch [Zero α] [One α] [Add α] [Mul α] [LT α] [DecidableLT α] [DecidableEq α] (upd : Upd σ α)
    (idata odata : List (Ten α)) (alpha : α) (st : σ × Train α) : Res (σ × Train α) := do
  let t ← st.2.reseting
  let t ← forN idata.length t (fun i t => t.sampleAcc idata odata i)
  Train.updating upd alpha (st.1, t)

/-- Training/UnifiedNet.hpp:92-113. -/
def Train.batch [Zero α] [One α] [Add α] [Mul α] [Div α] [NatCast α] [LT α] [DecidableLT α] [DecidableEq α] (upd : Upd σ α)
    (idata odata : List (Ten α)) (epochs : Nat) (st : σ × Train α) : Res (σ × Train α) := do
  let alpha ← invCount idata.length
  forN epochs st (fun _ st => Train.epoch upd idata odata alpha st)

/-- Training/UnifiedNet.hpp:141-149: `while (sample < sample_limit) { ...; ++sample; }`; every round increments `sample`, so
there are `limit - sample` rounds. -/
def Train.fill [Zero α] [One α] [Add α] [Mul α] [LT α] [DecidableLT α] (idata odata : List (Ten α)) (limit : Nat)
    (t : Train α) (sample : Nat) : Res (Train α × Nat) :=
  forN (limit - sample) (t, sample) (fun _ s => do
    let t ← s.1.sampleAcc idata odata s.2
    return (t, s.2 + 1))

/-- Training/UnifiedNet.hpp:135-153, body of the loop over mini-batches; the state is (optimizer, training, sample,
sample_limit). -/
def Train.miniStep [Zero α] [One α] [Add α] [Mul α] [LT α] [DecidableLT α] [DecidableEq α] (upd : Upd σ α)
    (idata odata : List (Ten α)) (m : Nat) (alpha : α) (s : (σ × Train α) × Nat × Nat) : Res ((σ × Train α) × Nat × Nat) := do
  let limit := s.2.2 + m
  let t ← s.1.2.reseting
  let (t, sample) ← t.fill idata odata limit s.2.1
  let st ← Train.updating upd alpha (s.1.1, t)
  return (st, sample, limit)

/-- Training/UnifiedNet.hpp:130-154, body of the epoch loop. -/
def Train.miniEpoch [Zero α] [One α] [Add α] [Mul α] [LT α] [DecidableLT α] [DecidableEq α] (upd : Upd σ α)
    (idata odata : List (Ten α)) (m scale : Nat) (alpha : α) (st : σ × Train α) : Res (σ × Train α) := do
  let s ← forN scale (st, 0, 0) (fun _ s => Train.miniStep upd idata odata m alpha s)
  return s.1

/-- `a / b` on integers, undefined for `b = 0`. -/
def quot (a b : Nat) : Res Nat := if b = 0 then .error .divByZero else .ok (a / b)

/-- Training/UnifiedNet.hpp:115-154. -/
def Train.miniBatch [Zero α] [One α] [Add α] [Mul α] [Div α] [NatCast α] [LT α] [DecidableLT α] [DecidableEq α] (upd : Upd σ α)
    (idata odata : List (Ten α)) (epochs m : Nat) (st : σ × Train α) : Res (σ × Train α) := do
  let alpha ← invCount m
  let scale ← quot idata.length m
  forN epochs st (fun _ st => Train.miniEpoch upd idata odata m scale alpha st)

/-- Training/UnifiedNet.hpp:194-207; `feedforward` changes the layers' values, so the network is returned as well. -/
def Train.lossMean [Zero α] [One α] [Add α] [Mul α] [Div α] [NatCast α] [LT α] [DecidableLT α] (idata odata : List (Ten α))
    (t : Train α) : Res (α × Train α) := do
  let (r, net) ← forN odata.length ((0 : α), t.net) (fun i s => do
    let loss ← derefLoss t.loss
    let y ← lget odata i
    let x ← lget idata i
    let (net, v) ← Net.feedforward x s.2
    let e ← loss.f y.data v.data
    return (s.1 + e, net))
  if odata.length = 0 then .error .divByZero else
  return (r / (odata.length : α), { t with net := net })

end Trixy
