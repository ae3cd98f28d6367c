import Verif.Spec.Cut
import Verif.Props.Serial
/- Property C95: an archive that was cut short is never loaded as if it were complete. -/
namespace Trixy
set_option linter.unusedSectionVars false

variable {α β : Type}

section
variable {X Y : Type} {t : List β}

theorem Cut.bind {a b : Res (X × List β)} {k k' : X × List β → Res (Y × List β)} (h : Cut t a b)
    (hk : ∀ x r, Cut t (k (x, r ++ t)) (k' (x, r))) : Cut t (a >>= k) (b >>= k') := by
  intro y r e
  cases a with
  | error u => cases e
  | ok p =>
    obtain ⟨x, r1⟩ := p
    rcases h x r1 rfl with hb | ⟨r', hb, rfl⟩
    · left; rw [hb]; rfl
    · rw [hb]; exact hk x r' y r e

theorem Cut.pure (x : X) (r : List β) : Cut t (Pure.pure (x, r ++ t) : Res (X × List β)) (Pure.pure (x, r)) := by
  intro y r' e
  cases e
  exact Or.inr ⟨r, rfl, rfl⟩

theorem Cut.err (e : UB) (b : Res (X × List β)) : Cut t (.error e) b := fun _ _ h => by cases h

theorem Cut.many {get : Nat → List β → Res (X × List β)} (h : ∀ k bs, Cut t (get k (bs ++ t)) (get k bs)) :
    ∀ n k bs, Cut t (getMany get n k (bs ++ t)) (getMany get n k bs) := by
  intro n
  induction n with
  | zero => exact fun k bs => Cut.pure [] bs
  | succ n ih =>
    intro k bs
    unfold getMany
    exact (h k bs).bind (fun x r => (ih (k + 1) r).bind (fun xs r => Cut.pure (x :: xs) r))

end

section
variable {c : Codec α β} (hc : c.EndDetected)
include hc

theorem cut_shape (bs t : List β) : Cut t (c.getShape (bs ++ t)) (c.getShape bs) := by
  unfold Codec.getShape
  exact (hc.nat bs t).bind (fun _ r => (hc.nat r t).bind (fun _ r => (hc.nat r t).bind (fun _ r => (hc.nat r t).bind (fun _ r => Cut.pure _ r))))

theorem cut_cell (bs t : List β) : Cut t (c.getCell (bs ++ t)) (c.getCell bs) := by
  unfold Codec.getCell
  exact (hc.val bs t).bind (fun _ r => Cut.pure _ r)

theorem cut_tensor (bs t : List β) : Cut t (c.getTensor (bs ++ t)) (c.getTensor bs) := by
  unfold Codec.getTensor
  exact (cut_shape hc bs t).bind (fun _ r => (hc.nat r t).bind (fun n r => (Cut.many (fun _ bs => cut_cell hc bs t) n 0 r).bind
    (fun _ r => Cut.pure _ r)))

theorem cut_vec (bs t : List β) : Cut t (c.getVec (bs ++ t)) (c.getVec bs) := by
  unfold Codec.getVec
  exact (cut_tensor hc bs t).bind (fun _ r => Cut.pure _ r)

theorem cut_mat (bs t : List β) : Cut t (c.getMat (bs ++ t)) (c.getMat bs) := by
  unfold Codec.getMat
  exact (cut_tensor hc bs t).bind (fun _ r => Cut.pure _ r)

theorem cut_ten (bs t : List β) : Cut t (c.getTen (bs ++ t)) (c.getTen bs) := by
  unfold Codec.getTen
  exact (cut_tensor hc bs t).bind (fun _ r => Cut.pure _ r)

theorem cut_reg (bs t : List β) : Cut t (c.getReg (bs ++ t)) (c.getReg bs) := by
  unfold Codec.getReg
  exact (cut_vec hc bs t).bind (fun _ r => (hc.nat r t).bind (fun _ r => Cut.pure _ r))

theorem cut_cont (s : Store α) (bs t : List β) : Cut t (c.getCont s (bs ++ t)) (c.getCont s bs) := by
  unfold Codec.getCont
  refine (hc.nat bs t).bind (fun n r => (Cut.many (fun _ bs => hc.val bs t) n 0 r).bind (fun l r => ?_))
  dsimp only
  cases Cont.ofList s l with
  | error e => exact Cut.err _ _
  | ok q => exact Cut.pure q r

theorem cut_act (R : Registry α) (bs t : List β) : Cut t (c.getAct R (bs ++ t)) (c.getAct R bs) := by
  unfold Codec.getAct
  refine (hc.nat bs t).bind (fun k r => ?_)
  dsimp only
  cases R.create k with
  | none => exact Cut.err _ _
  | some a => exact Cut.pure a r

theorem cut_dense (R : Registry α) (bs t : List β) : Cut t (c.getDense R (bs ++ t)) (c.getDense R bs) := by
  unfold Codec.getDense
  exact (cut_shape hc bs t).bind (fun _ r => (cut_shape hc r t).bind (fun _ r => (cut_vec hc r t).bind (fun _ r => (cut_mat hc r t).bind
    (fun _ r => (cut_act hc R r t).bind (fun _ r => Cut.pure _ r)))))

theorem cut_conv [Zero α] (kB : Nat) (kW : Nat → Nat) (bs t : List β) : Cut t (c.getConv kB kW (bs ++ t)) (c.getConv kB kW bs) := by
  unfold Codec.getConv
  refine (cut_shape hc bs t).bind (fun i r => (cut_shape hc r t).bind (fun o r => (hc.nat r t).bind (fun pad r => (hc.nat r t).bind (fun sv r =>
    (hc.nat r t).bind (fun sh r => (cut_vec hc r t).bind (fun b r => (hc.nat r t).bind (fun n r =>
      (Cut.many (fun _ bs => cut_ten hc bs t) n 0 r).bind (fun ws r => ?_))))))))
  dsimp only
  cases Conv.prepare kB kW i o pad sv sh b ws with
  | error e => exact Cut.err _ _
  | ok l => exact Cut.pure l r

theorem cut_pool [Zero α] (R : Registry α) (bs t : List β) : Cut t (c.getPool R (bs ++ t)) (c.getPool R bs) := by
  unfold Codec.getPool
  exact (cut_shape hc bs t).bind (fun _ r => (cut_shape hc r t).bind (fun _ r => (hc.nat r t).bind (fun _ r => (hc.nat r t).bind
    (fun _ r => (cut_act hc R r t).bind (fun _ r => Cut.pure _ r)))))

theorem cut_layer [Zero α] (R : Registry α) (kB : Nat) (kW : Nat → Nat) (bs t : List β) :
    Cut t (c.getLayer R kB kW (bs ++ t)) (c.getLayer R kB kW bs) := by
  unfold Codec.getLayer
  refine (hc.nat bs t).bind (fun k r => ?_)
  dsimp only
  unfold Codec.getObject
  split
  · exact (cut_dense hc R r t).bind (fun _ r => Cut.pure _ r)
  · exact (cut_conv hc kB kW r t).bind (fun _ r => Cut.pure _ r)
  · exact (cut_pool hc R r t).bind (fun _ r => Cut.pure _ r)
  · exact (cut_dense hc R r t).bind (fun _ r => Cut.pure _ r)
  · exact (cut_conv hc kB kW r t).bind (fun _ r => Cut.pure _ r)
  · exact (cut_pool hc R r t).bind (fun _ r => Cut.pure _ r)
  · exact Cut.err _ _

theorem cut_net [Zero α] (R : Registry α) (addr : Nat → Nat × (Nat → Nat)) (bs t : List β) :
    Cut t (c.getNet R addr (bs ++ t)) (c.getNet R addr bs) := by
  unfold Codec.getNet
  exact (hc.nat bs t).bind (fun n r => Cut.many (fun i bs => cut_layer hc R (addr i).1 (addr i).2 bs t) n 0 r)

theorem cut_deserialize {X : Type} (get : List β → Res (X × List β)) (bs t : List β) :
    Cut t (c.deserialize get (bs ++ t)) (c.deserialize get bs) := by
  unfold Codec.deserialize
  refine (hc.nat bs t).bind (fun n r => ?_)
  dsimp only
  by_cases h : r.length < n
  · rw [if_pos h]
    exact fun _ _ _ => Or.inl rfl
  · rw [if_neg h, if_neg (by rw [List.length_append]; omega), List.take_append_of_le_length (by omega), List.drop_append_of_le_length (by omega)]
    cases get (r.take n) with
    | error e => exact Cut.err _ _
    | ok q => exact Cut.pure q.1 (r.drop n)

end

/-- A reader that gives the object back and stops reading where the stream ends notices when bytes are missing. -/
theorem cut_detected {Y : Type} {put : Res (List β)} {get : List β → Res (Y × List β)} {Q : Y → Prop} (h : RoundTrip put get Q)
    (hg : ∀ bs t, Cut t (get (bs ++ t)) (get bs)) : CutDetected put get := by
  obtain ⟨bs, y, h1, h2, _⟩ := h
  refine ⟨bs, h1, fun p t e ht => ?_⟩
  have h3 := h2 []
  rw [List.append_nil, e] at h3
  rcases hg p t y [] h3 with h4 | ⟨r', _, h5⟩
  · exact h4
  · exact absurd (List.append_eq_nil_iff.1 h5.symm).2 ht

/-- Tensors, matrices, vectors. -/
theorem C95_tensor (c : Codec α β) (hc : c.Lawful) (he : c.EndDetected) (s : Shape) (h1 : s.d < W64) (h2 : s.h < W64) (h3 : s.w < W64)
    (h4 : s.size < W64) (b : Buf α) (hb : Full b s.size) : CutDetected (c.putTensor s b) c.getTensor :=
  cut_detected (C58_tensor c hc s h1 h2 h3 h4 b hb) (cut_tensor he)

/-- Regressions. -/
theorem C95_regression (c : Codec α β) (hc : c.Lawful) (he : c.EndDetected) (r : Reg α) (n : Nat) (hW : Full r.W n) (hn : n < W64)
    (hN : r.N < W64) : CutDetected (c.putReg r) c.getReg :=
  cut_detected (C58_regression c hc r n hW hn hN) (cut_reg he)

/-- Pooling layers. -/
theorem C95_pooling [Zero α] (c : Codec α β) (hc : c.Lawful) (he : c.EndDetected) (R : Registry α) (l : Pool α) (d oh ow sv sh : Nat)
    (hl : l.Wf d oh ow sv sh) (ha : R.Has l.act) (hi : Small3 d (oh * sv) (ow * sh)) (ho : Small3 d oh ow) (h1 : sv < W64) (h2 : sh < W64) :
    CutDetected (.ok (c.putPool R l)) (c.getPool R) :=
  cut_detected (C59_loaded c hc R l d oh ow sv sh hl ha hi ho h1 h2) (cut_pool he R)

/-- Networks of any number of FullyConnected and Convolutional layers. -/
theorem C95_network [CommSemiring α] [LinearOrder α] (c : Codec α β) (hc : c.Lawful) (he : c.EndDetected) (R : Registry α)
    (addr : Nat → Nat × (Nat → Nat)) (net : Net α) (hn : net.length < W64) (hs : ∀ l ∈ net, l.Savable R) :
    CutDetected (c.putNet R net) (c.getNet R addr) :=
  cut_detected (C58_network c hc R addr net hn hs) (cut_net he R addr)

/-- Containers, in every state reached by a valid history. -/
theorem C95_container (c : Codec α β) (hc : c.Lawful) (he : c.EndDetected) (dflt : α) (moved : α → α) (ops : List (COp α))
    (hv : CValidHist dflt moved CWorld.init (fun _ => none) ops) (x y : Nat) (l : List α) (hl : l.length < W64)
    (hx : absRun dflt (fun _ => none) ops x = some (some l)) (hy : absRun dflt (fun _ => none) ops y = none) :
    Ok (CWorld.init.run dflt moved ops) (fun w => ∃ k, w.conts x = some k ∧
      Ok (c.putCont w.store k) (fun r => ∀ p t, r.1 = p ++ t → t ≠ [] → c.getCont w.store p = .error .oob)) := by
  refine (C58_container c hc dflt moved ops hv x y l hl hx hy).mono (fun w h => ?_)
  obtain ⟨k, hk, h⟩ := h
  refine ⟨k, hk, h.mono (fun r h p t e ht => ?_)⟩
  obtain ⟨⟨q, r'⟩, e1, e2, _⟩ := h []
  rw [List.append_nil, e] at e1
  rcases cut_cont he w.store p t q r' e1 with h4 | ⟨r'', _, h5⟩
  · exact h4
  · have e2' : r' = [] := e2
    rw [e2'] at h5
    exact absurd (List.append_eq_nil_iff.1 h5.symm).2 ht

/-- `Serializer::deserialize` on a stream that ends anywhere inside what `serialize` wrote — for whatever object the serializer is used, even if its own
reader would not notice. -/
theorem C95_serializer {X Y : Type} (c : Codec α β) (hc : c.Lawful) (he : c.EndDetected) (put : X → Res (List β))
    (get : List β → Res (Y × List β)) (x : X) (Q : Y → Prop) (h : RoundTrip (put x) get Q)
    (hsz : ∀ bs, put x = .ok bs → bs.length < W64) (out : List β) :
    ∃ bs, c.serialize put out x = .ok (out ++ bs) ∧ ∀ p t, bs = p ++ t → t ≠ [] → c.deserialize get p = .error .oob := by
  obtain ⟨bs, y, h1, h2, _⟩ := C58_serializer c hc put get x Q h hsz out
  refine ⟨bs, h1, fun p t e ht => ?_⟩
  have h3 := h2 []
  rw [List.append_nil, e] at h3
  rcases cut_deserialize he get p t y [] h3 with h4 | ⟨r', _, h5⟩
  · exact h4
  · exact absurd (List.append_eq_nil_iff.1 h5.symm).2 ht

/-! ### Non-vacuity -/

theorem exCodec_end : exCodec.EndDetected := by
  constructor
  · intro bs t x r h
    cases bs with
    | nil => exact Or.inl rfl
    | cons b bs =>
      cases b with
      | inl n => cases h; exact Or.inr ⟨bs, rfl, rfl⟩
      | inr a => cases h
  · intro bs t x r h
    cases bs with
    | nil => exact Or.inl rfl
    | cons b bs =>
      cases b with
      | inl n => cases h
      | inr a => cases h; exact Or.inr ⟨bs, rfl, rfl⟩

/-- A network of a convolution and a dense layer, saved; the last number is missing. -/
example : (do
    let net ← exSaved
    let bs ← exCodec.putNet exReg net
    exCodec.getNet exReg (fun i => (i, fun j => j)) (bs.take (bs.length - 1)) : Res (Net Int × _)).toOption.isSome = false ∧
    (do
    let net ← exSaved
    let bs ← exCodec.putNet exReg net
    exCodec.getNet exReg (fun i => (i, fun j => j)) bs : Res (Net Int × _)).toOption.isSome = true := by decide +kernel

end Trixy
