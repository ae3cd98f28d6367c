import Verif.Spec.TrainSafe
import Verif.Proof.ConvExact
import Verif.Proof.Pool
import Verif.Proof.Net
import Verif.Proof.Trace
/- Training of mixed networks never leaves defined behaviour. -/
namespace Trixy
set_option linter.unusedSectionVars false

variable {α γ ρ σ : Type}

/-! ### Pooling over any comparison -/

theorem Full.shape {t : Ten α} {d h w : Nat} (h1 : t.d = d) (h2 : t.h = h) (h3 : t.w = w) (hf : Full t.data (d * h * w)) :
    ∃ v, TenIs t d h w v := by
  obtain ⟨v, hv⟩ := hf
  exact ⟨_, TenIs.of_flat h1 h2 h3 hv⟩

theorem ShapeIs.ten {t : Ten α} {d h w : Nat} (ht : ShapeIs t (d, h, w)) : ∃ v, TenIs t d h w v :=
  ht.2.2.2.shape ht.1 ht.2.1 ht.2.2.1

theorem TenIs.shape {t : Ten α} {d h w : Nat} {v : Nat → Nat → Nat → α} (ht : TenIs t d h w v) : ShapeIs t (d, h, w) :=
  ⟨ht.1, ht.2.1, ht.2.2.1, ht.flat.full⟩

theorem RowIs.shape {t : Ten α} {n : Nat} {v : Nat → α} (ht : RowIs t n v) : ShapeIs t (1, 1, n) :=
  ⟨ht.1, ht.2.1, ht.2.2.1, by simpa [Shp.vol] using ht.2.2.2.full⟩

theorem ShapeIs.fullData {t : Ten α} {s : Shp} {n : Nat} (h : ShapeIs t s) (e : s.vol = n) : Full t.data n := e ▸ h.2.2.2

theorem poolScanT_safe [Zero α] [LT α] [DecidableLT α] {input mask : Ten α} {x mk : Nat → Nat → Nat → α} {d oh ow sv sh c p q : Nat}
    (hsv : 1 ≤ sv) (hsh : 1 ≤ sh) (hx : TenIs input d (oh * sv) (ow * sh) x) (hm : TenIs mask d (oh * sv) (ow * sh) mk)
    (hc : c < d) (hp : p < oh) (hq : q < ow) :
    Ok (poolScanT input mask sv sh c (p * sv) (q * sh)) (fun s => (∃ mk', TenIs s.mask d (oh * sv) (ow * sh) mk') ∧
      s.imax < oh * sv ∧ s.jmax < ow * sh) := by
  unfold poolScanT
  have hin : ∀ a, a < sv → p * sv + a < oh * sv := fun a ha => idx2_lt hp ha
  have hin' : ∀ b, b < sh → q * sh + b < ow * sh := fun b hb => idx2_lt hq hb
  have h00 := hx.get hc (hin 0 (by omega)) (hin' 0 (by omega))
  rw [Nat.add_zero, Nat.add_zero] at h00
  rw [h00, bind_ok]
  let Inv : Scan α → Prop := fun s => (∃ mk', TenIs s.mask d (oh * sv) (ow * sh) mk') ∧ s.imax < oh * sv ∧ s.jmax < ow * sh
  refine forN_spec (fun _ s => Inv s) ⟨⟨_, hm⟩, hin 0 (by omega), hin' 0 (by omega)⟩ (fun a ha s hs => ?_)
  refine forN_spec (fun _ s => Inv s) hs (fun b hb s hs => ?_)
  obtain ⟨⟨mk', hmk⟩, h1, h2⟩ := hs
  rw [hx.get hc (hin a ha) (hin' b hb), bind_ok]
  refine (hmk.set hc (hin a ha) (hin' b hb) 0).bind (fun m' hm' => Ok_ok.2 ?_)
  unfold Scan.better
  split
  · exact ⟨⟨_, hm'⟩, hin a ha, hin' b hb⟩
  · exact ⟨⟨_, hm'⟩, h1, h2⟩

theorem Pool.forward_safe [Zero α] [One α] [LT α] [DecidableLT α] {l : Pool α} {d oh ow sv sh : Nat} (hl : l.Wf d oh ow sv sh)
    {input : Ten α} {x : Nat → Nat → Nat → α} (hx : TenIs input d (oh * sv) (ow * sh) x)
    {F D : (Nat → α) → Nat → α} (ha : l.act.Is (d * oh * ow) F D) :
    Ok (l.forward input) (fun l' => l'.Wf d oh ow sv sh ∧ l'.act = l.act) := by
  unfold Pool.forward
  obtain ⟨m0, hm0⟩ := hl.mask
  obtain ⟨v0, hv0⟩ := hl.value
  obtain ⟨b0, hb0⟩ := hl.buff
  have hsv := hl.hsv
  have hsh := hl.hsh
  refine (Ten.onData_spec (f := fun d => fillInto d 0) (fillInto_spec hm0.2.2.2.1 0)).bind (fun mask hmask => ?_)
  have hmk := TenIs.of_flat (t := mask) (hmask.1.trans hm0.1) (hmask.2.1.trans hm0.2.1) (hmask.2.2.1.trans hm0.2.2.1) hmask.2.2.2
  refine Ok.bind (P := fun r : Ten α × Ten α => (∃ v, TenIs r.1 d oh ow v) ∧ ∃ mk, TenIs r.2 d (oh * sv) (ow * sh) mk) ?_ (fun r hr => ?_)
  · unfold Pool.scanAll
    rw [hl.isz.1, hl.isz.2.1, hl.isz.2.2, hl.str.1, hl.str.2, rounds_mul hsv, rounds_mul hsh]
    let Inv : Ten α × Ten α → Prop := fun r => (∃ v, TenIs r.1 d oh ow v) ∧ ∃ mk, TenIs r.2 d (oh * sv) (ow * sh) mk
    refine forN_spec (fun _ s => Inv s) ⟨⟨_, hv0⟩, ⟨_, hmk⟩⟩ (fun c hc s hs => ?_)
    refine forN_spec (fun _ s => Inv s) hs (fun p hp s hs => ?_)
    refine forN_spec (fun _ s => Inv s) hs (fun q hq s hs => ?_)
    obtain ⟨⟨v, hv⟩, ⟨mk, hmk⟩⟩ := hs
    refine (poolScanT_safe hsv hsh hx hmk hc hp hq).bind (fun r hr => ?_)
    obtain ⟨⟨mk', hr1⟩, hr2, hr3⟩ := hr
    rw [Nat.mul_div_cancel _ (by omega), Nat.mul_div_cancel _ (by omega)]
    refine (hv.set hc hp hq _).bind (fun v' hv' => ?_)
    exact (hr1.set hc hr2 hr3 1).bind (fun m' hm' => Ok_ok.2 ⟨⟨_, hv'⟩, ⟨_, hm'⟩⟩)
  · obtain ⟨⟨v, hv⟩, ⟨mk, hmk⟩⟩ := hr
    refine (ha.f r.1.data l.buff.data _ hv.2.2.2.1 hb0.flat).bind (fun vd hvd => ?_)
    have t := TenIs.of_flat (t := { r.1 with data := vd }) hv.1 hv.2.1 hv.2.2.1 hvd
    exact Ok_ok.2 ⟨{ hl with value := ⟨_, t⟩, mask := ⟨_, hmk⟩ }, rfl⟩

theorem Pool.backward_safe [Mul α] {l : Pool α} {d oh ow sv sh : Nat} (hl : l.Wf d oh ow sv sh)
    {input idelta : Ten α} (hu : Full idelta.data (d * oh * ow)) {F D : (Nat → α) → Nat → α} (ha : l.act.Is (d * oh * ow) F D)
    (full : Bool) : Ok (l.backward input idelta full) (fun l' => l'.Wf d oh ow sv sh ∧ l'.act = l.act) := by
  obtain ⟨m0, hm0⟩ := hl.mask
  obtain ⟨b0, hb0⟩ := hl.buff
  obtain ⟨u, hu⟩ := hu
  have e : l.backward input idelta full = l.backward input ⟨d, oh, ow, idelta.data⟩ full := rfl
  rw [e]
  refine (Pool.backward_spec hl hb0 hm0 (TenIs.of_flat (t := ⟨d, oh, ow, idelta.data⟩) rfl rfl rfl hu) ha full).mono
    (fun l' q => ⟨q.1, ?_⟩)
  rw [q.2.2.2]

/-! ### One layer -/

theorem Layer.Sound.value [Zero α] {l : Layer α} {k : LayerKind α} (h : l.Sound k) : ShapeIs l.value k.outShape := by
  cases k <;> cases l <;> simp only [Layer.Sound] at h
  · obtain ⟨⟨b, W, hwf⟩, _⟩ := h
    obtain ⟨v, hv⟩ := hwf.value
    exact hv.shape
  · obtain ⟨⟨b, W, gb, gW, hwf⟩, _⟩ := h
    obtain ⟨v, hv⟩ := hwf.value
    exact hv.shape
  · obtain ⟨v, hv⟩ := h.1.value
    exact hv.shape

theorem Layer.Sound.delta [Zero α] {l : Layer α} {k : LayerKind α} (h : l.Sound k) : Ok l.delta (fun d => ShapeIs d k.inShape) := by
  cases k <;> cases l <;> simp only [Layer.Sound] at h
  · obtain ⟨⟨b, W, hwf⟩, _⟩ := h
    obtain ⟨v, hv⟩ := hwf.delta
    exact Ok_ok.2 hv.shape
  · obtain ⟨⟨b, W, gb, gW, hwf⟩, _⟩ := h
    obtain ⟨v, hv⟩ := hwf.delta
    exact Ok_ok.2 hv.shape
  · obtain ⟨v, hv⟩ := h.1.delta
    exact Ok_ok.2 hv.shape

theorem Layer.Sound.osize [Zero α] {l : Layer α} {k : LayerKind α} (h : l.Sound k) : l.osize = k.outShape := by
  cases k <;> cases l <;> simp only [Layer.Sound] at h
  · obtain ⟨⟨b, W, hwf⟩, _⟩ := h
    simp only [Layer.osize, LayerKind.outShape, hwf.osize]
  · obtain ⟨⟨b, W, gb, gW, hwf⟩, _⟩ := h
    simp only [Layer.osize, LayerKind.outShape, hwf.osz.1, hwf.osz.2.1, hwf.osz.2.2]
  · simp only [Layer.osize, LayerKind.outShape, h.1.osz.1, h.1.osz.2.1, h.1.osz.2.2]

section
variable [Zero α] {size : Nat → Nat}

theorem LayerKind.make_sound {k : LayerKind α} (hk : k.Valid size) : Ok k.make (fun l => l.Sound k) := by
  cases k with
  | dense n m act kB kW => exact Ok_ok.2 ⟨⟨_, _, FC.Wf_make n m act kB kW⟩, rfl, rfl, rfl⟩
  | conv d h w fc fh fw pad sv sh kB kW =>
    exact (Conv.make_Wf (d := d) hk.1 hk.2.1 kB kW).bind (fun l hl => Ok_ok.2 ⟨⟨_, _, _, _, hl.1⟩, hl.2.1, hl.2.2⟩)
  | pool d oh ow sv sh act =>
    exact (Pool.make_Wf d oh ow sv sh hk.1 hk.2.1 act).bind (fun l hl => Ok_ok.2 ⟨hl.1, hl.2.1⟩)

theorem LayerKind.makeAll_sound {ks : List (LayerKind α)} (hk : ∀ k ∈ ks, k.Valid size) :
    Ok (LayerKind.makeAll ks) (fun net => List.Forall₂ Layer.Sound net ks) := by
  induction ks with
  | nil => exact Ok_ok.2 .nil
  | cons k ks ih =>
    unfold LayerKind.makeAll
    refine (LayerKind.make_sound (hk k (by simp))).bind (fun l hl => ?_)
    exact (ih (fun k hk' => hk k (by simp [hk']))).bind (fun ls hls => Ok_ok.2 (.cons hl hls))

theorem Layer.Sound.init {l : Layer α} {k : LayerKind α} (h : l.Sound k) (gen : Gen γ ρ α) (c : γ) (g : ρ) :
    Ok (l.init gen c g) (fun r => r.1.Sound k) := by
  cases k <;> cases l <;> simp only [Layer.Sound] at h
  · obtain ⟨⟨b, W, hwf⟩, h1, h2, h3⟩ := h
    refine (FC.init_spec hwf gen c g).bind (fun r hr => ?_)
    obtain ⟨b', W', q1, q2⟩ := hr
    refine Ok_ok.2 ⟨⟨_, _, q1⟩, ?_, ?_, ?_⟩ <;> rw [q2] <;> assumption
  · obtain ⟨⟨b, W, gb, gW, hwf⟩, h1, h2⟩ := h
    refine (Conv.init_spec hwf gen c g).bind (fun r hr => ?_)
    obtain ⟨⟨b', W', q1⟩, q2⟩ := hr
    refine Ok_ok.2 ⟨⟨_, _, _, _, q1⟩, ?_, ?_⟩ <;> rw [q2] <;> assumption
  · exact Ok_ok.2 h

theorem Layer.Sound.forward [One α] [Add α] [Mul α] [LT α] [DecidableLT α] {l : Layer α} {k : LayerKind α} (h : l.Sound k)
    (hk : k.Valid size) {x : Ten α} {s : Shp} (hx : ShapeIs x s) (hs : k.Reads s) :
    Ok (l.forward x) (fun l' => l'.Sound k) := by
  cases k <;> cases l <;> simp only [Layer.Sound] at h
  · obtain ⟨⟨b, W, hwf⟩, h1, h2, h3⟩ := h
    obtain ⟨v, hv⟩ := hx.fullData hs
    obtain ⟨F, D, ha⟩ := hk.1
    refine (FC.forward_spec hwf (by rw [h1]; exact ha) hv).bind (fun l' q => ?_)
    refine Ok_ok.2 ⟨⟨_, _, q.1⟩, ?_, ?_, ?_⟩ <;> rw [q.2.2.2] <;> assumption
  · obtain ⟨⟨b, W, gb, gW, hwf⟩, h1, h2⟩ := h
    subst hs
    obtain ⟨v, hv⟩ := hx.ten
    refine (Conv.forward_exact hwf hv).bind (fun l' q => ?_)
    refine Ok_ok.2 ⟨⟨_, _, _, _, q.1⟩, ?_, ?_⟩ <;> rw [q.2.2] <;> assumption
  · subst hs
    obtain ⟨v, hv⟩ := hx.ten
    obtain ⟨_, _, F, D, ha⟩ := hk
    exact (Pool.forward_safe h.1 hv (by rw [h.2]; exact ha)).bind (fun l' q => Ok_ok.2 ⟨q.1, q.2.trans h.2⟩)

theorem Layer.Sound.backward [Add α] [Mul α] {l : Layer α} {k : LayerKind α} (h : l.Sound k)
    (hk : k.Valid size) {x d : Ten α} {s s' : Shp} (hx : ShapeIs x s) (hs : k.Reads s) (hd : ShapeIs d s') (hs' : k.Accepts s')
    (full : Bool) : Ok (l.backward x d full) (fun l' => l'.Sound k) := by
  cases k <;> cases l <;> simp only [Layer.Sound] at h
  · obtain ⟨⟨b, W, hwf⟩, h1, h2, h3⟩ := h
    obtain ⟨v, hv⟩ := hx.fullData hs
    obtain ⟨u, hu⟩ := hd.fullData hs'
    obtain ⟨F, D, ha⟩ := hk.1
    obtain ⟨z, hz⟩ := hwf.buff
    refine (FC.backward_spec hwf (by rw [h1]; exact ha) hv hu hz full).bind (fun l' q => ?_)
    refine Ok_ok.2 ⟨⟨_, _, q.1⟩, ?_, ?_, ?_⟩ <;> rw [q.2.2.2.2.2] <;> assumption
  · obtain ⟨⟨b, W, gb, gW, hwf⟩, h1, h2⟩ := h
    subst hs hs'
    obtain ⟨v, hv⟩ := hx.ten
    obtain ⟨u, hu⟩ := hd.ten
    refine (Conv.backward_exact hwf hv hu full).bind (fun l' q => ?_)
    refine Ok_ok.2 ⟨⟨_, _, _, _, q.1⟩, ?_, ?_⟩ <;> rw [q.2.2] <;> assumption
  · obtain ⟨_, _, F, D, ha⟩ := hk
    exact (Pool.backward_safe h.1 (hd.fullData hs') (by rw [h.2]; exact ha) full).bind (fun l' q => Ok_ok.2 ⟨q.1, q.2.trans h.2⟩)

theorem Layer.Sound.reset {l : Layer α} {k : LayerKind α} (h : l.Sound k) : Ok l.reset (fun l' => l'.Sound k) := by
  cases k <;> cases l <;> simp only [Layer.Sound] at h
  · obtain ⟨⟨b, W, hwf⟩, h1, h2, h3⟩ := h
    refine (FC.reset_spec hwf).bind (fun l' q => ?_)
    refine Ok_ok.2 ⟨⟨_, _, q.1⟩, ?_, ?_, ?_⟩ <;> rw [q.2.2.2.2] <;> assumption
  · exact Ok_ok.2 h
  · exact Ok_ok.2 h

theorem Layer.Sound.accumulate [Add α] {l : Layer α} {k : LayerKind α} (h : l.Sound k) : Ok l.accumulate (fun l' => l'.Sound k) := by
  cases k <;> cases l <;> simp only [Layer.Sound] at h
  · obtain ⟨⟨b, W, hwf⟩, h1, h2, h3⟩ := h
    obtain ⟨_, g1⟩ := hwf.gradB
    obtain ⟨_, g2⟩ := hwf.gradBs
    obtain ⟨_, g3⟩ := hwf.gradW
    obtain ⟨_, g4⟩ := hwf.gradWs
    refine (FC.accumulate_spec hwf g1 g2 g3 g4).bind (fun l' q => ?_)
    refine Ok_ok.2 ⟨⟨_, _, q.1⟩, ?_, ?_, ?_⟩ <;> rw [q.2.2.2.2] <;> assumption
  · exact Ok_ok.2 h
  · exact Ok_ok.2 h

theorem Layer.Sound.update [One α] [Mul α] [DecidableEq α] {upd : Upd σ α} {I : σ → Prop} (hu : UpdOk upd size I) {l : Layer α} {k : LayerKind α}
    (h : l.Sound k) (hk : k.Valid size) {s : σ} (hs : I s) (alpha : α) :
    Ok (l.update upd s alpha) (fun r => I r.1 ∧ r.2.Sound k) := by
  cases k <;> cases l <;> simp only [Layer.Sound] at h
  · obtain ⟨⟨b, W, hwf⟩, h1, h2, h3⟩ := h
    refine (FC.update_full hu hwf (by rw [h2]; exact hk.2.1) (by rw [h3]; exact hk.2.2) hs alpha).bind (fun r q => ?_)
    refine Ok_ok.2 ⟨q.1, q.2.1, ?_, ?_, ?_⟩ <;> rw [q.2.2] <;> assumption
  · obtain ⟨⟨b, W, gb, gW, hwf⟩, h1, h2⟩ := h
    refine (Conv.update_full hu hwf (by rw [h2]; exact hk.2.2.2) (by rw [h1]; exact hk.2.2.1) s hs alpha).bind (fun r q => ?_)
    refine Ok_ok.2 ⟨q.1, q.2.1, ?_, ?_⟩ <;> rw [q.2.2] <;> assumption
  · exact Ok_ok.2 ⟨hs, h⟩

/-! ### Networks -/

theorem mapL_sound {f : Layer α → Res (Layer α)} (hf : ∀ l k, Layer.Sound l k → Ok (f l) (fun l' => l'.Sound k)) {net : Net α}
    {ks : List (LayerKind α)} (h : List.Forall₂ Layer.Sound net ks) : Ok (mapL f net) (fun net' => List.Forall₂ Layer.Sound net' ks) := by
  induction h with
  | nil => exact Ok_ok.2 .nil
  | @cons l k ls ks h _ ih =>
    unfold mapL
    exact (hf l k h).bind (fun l' hl' => ih.bind (fun ls' hls' => Ok_ok.2 (.cons hl' hls')))

theorem eachM_sound {I : σ → Prop} {f : σ → Layer α → Res (σ × Layer α)} {ks : List (LayerKind α)}
    (hf : ∀ k ∈ ks, ∀ s l, I s → Layer.Sound l k → Ok (f s l) (fun r => I r.1 ∧ r.2.Sound k)) {net : Net α}
    (h : List.Forall₂ Layer.Sound net ks) : ∀ s, I s → Ok (eachM f s net) (fun r => I r.1 ∧ List.Forall₂ Layer.Sound r.2 ks) := by
  induction h with
  | nil => intro s hs; exact Ok_ok.2 ⟨hs, .nil⟩
  | @cons l k ls ks h _ ih =>
    intro s hs
    unfold eachM
    refine (hf k (by simp) s l hs h).bind (fun r hr => ?_)
    refine (ih (fun k hk => hf k (by simp [hk])) r.1 hr.1).bind (fun r' hr' => Ok_ok.2 ⟨hr'.1, .cons hr.2 hr'.2⟩)

theorem ffRec_sound [One α] [Add α] [Mul α] [LT α] [DecidableLT α] {o : Shp} : ∀ {ks : List (LayerKind α)} {net : Net α} {x : Ten α} {s : Shp},
    (∀ k ∈ ks, k.Valid size) → Fits s ks o → ShapeIs x s → List.Forall₂ Layer.Sound net ks →
    Ok (ffRec x net) (fun net' => List.Forall₂ Layer.Sound net' ks) := by
  intro ks
  induction ks with
  | nil => intro net x s _ hf; exact absurd hf id
  | cons k ks ih =>
    intro net x s hk hf hx hn
    cases hn with
    | @cons l _ ls _ hl hls =>
      cases ks with
      | nil =>
        cases hls
        unfold ffRec
        refine (hl.forward (hk k (by simp)) hx hf.1).bind (fun l' hl' => ?_)
        exact Ok_ok.2 (.cons hl' .nil)
      | cons k' ks =>
        unfold ffRec
        refine (hl.forward (hk k (by simp)) hx hf.1).bind (fun l' hl' => ?_)
        exact (ih (fun k hk' => hk k (by simp [hk'])) hf.2.2 hl'.value hls).bind (fun r hr => Ok_ok.2 (.cons hl' hr))

theorem bpRec_sound [Add α] [Mul α] {o : Shp} {d : Ten α} : ∀ {ks : List (LayerKind α)} {net : Net α} {x : Ten α} {s : Shp} (full : Bool),
    (∀ k ∈ ks, k.Valid size) → Fits s ks o → ShapeIs x s → ShapeIs d o → List.Forall₂ Layer.Sound net ks →
    (∀ k, ks.getLast? = some k → k.Accepts o) →
    Ok (bpRec full x d net) (fun net' => List.Forall₂ Layer.Sound net' ks) := by
  intro ks
  induction ks with
  | nil => intro net x s _ _ hf; exact absurd hf id
  | cons k ks ih =>
    intro net x s full hk hf hx hd hn hl
    cases hn with
    | @cons l _ ls _ hl1 hls =>
      cases ks with
      | nil =>
        cases hls
        unfold bpRec
        refine (hl1.backward (hk k (by simp)) hx hf.1 hd (hl k rfl) full).bind (fun l' hl' => ?_)
        exact Ok_ok.2 (.cons hl' .nil)
      | cons k' ks =>
        cases hls with
        | @cons l2 _ ls _ hl2 hls =>
        rw [bpRec_cons]
        refine (ih true (fun k hk' => hk k (by simp [hk'])) hf.2.2 hl1.value hd (.cons hl2 hls)
          (fun k e => hl k (by rw [List.getLast?_cons_cons]; exact e))).bind (fun r hr => ?_)
        cases hr with
        | @cons r0 _ rs _ hr0 hrs =>
          rw [lget_zero, bind_ok]
          refine hr0.delta.bind (fun dl hdl => ?_)
          refine (hl1.backward (hk k (by simp)) hx hf.1 hdl hf.2.1 full).bind (fun l' hl' => ?_)
          exact Ok_ok.2 (.cons hl' (.cons hr0 hrs))

/-- The last layer accepts a delta of its own output's shape. -/
theorem LayerKind.accepts_own (k : LayerKind α) : k.Accepts k.outShape := by
  cases k <;> simp [LayerKind.Accepts, LayerKind.outShape, Shp.vol]

theorem Fits.last {o : Shp} : ∀ {ks : List (LayerKind α)} {s : Shp}, Fits s ks o → ∀ k, ks.getLast? = some k → k.outShape = o := by
  intro ks
  induction ks with
  | nil => intro s h; exact absurd h id
  | cons k ks ih =>
    intro s h k' e
    cases ks with
    | nil => cases e; exact h.2
    | cons k2 ks => exact ih h.2.2 k' (by rw [← List.getLast?_cons_cons (a := k)]; exact e)

end

/-! ### Training -/

section
variable [Zero α] [One α] [Add α] [Mul α] [Div α] [NatCast α] [LT α] [DecidableLT α] [DecidableEq α]
variable {size : Nat → Nat} {I : σ → Prop} {upd : Upd σ α} {ks : List (LayerKind α)} {s o : Shp}

/-- The static facts about a network. -/
structure Static (size : Nat → Nat) (ks : List (LayerKind α)) (s o : Shp) : Prop where
  valid : ∀ k ∈ ks, k.Valid size
  fits : Fits s ks o
  two : 2 ≤ ks.length
  word : ks.length < W64

theorem Train.Safe.feedforward {t : Train α} (hS : Static size ks s o) (h : t.Safe ks o) {x : Ten α} (hx : ShapeIs x s) :
    Ok (t.feedforward x) (fun t' => t'.Safe ks o ∧ t'.loss = t.loss) := by
  have hlen : t.net.length = ks.length := h.net.length_eq
  have h2 := hS.two
  unfold Train.feedforward
  rw [Net.feedforward_eq x t.net (by intro e; rw [e] at hlen; simp at hlen; omega) (by rw [hlen]; exact hS.word)]
  refine Ok.bind (P := fun r : Net α × Ten α => List.Forall₂ Layer.Sound r.1 ks) ?_
    (fun r hr => Ok_ok.2 ⟨⟨hr, h.delta, h.loss⟩, rfl⟩)
  refine (ffRec_sound hS.valid hS.fits hx h.net).bind (fun r hr => ?_)
  have e : r.length = ks.length := hr.length_eq
  obtain ⟨l, hl⟩ : ∃ l, lget r (r.length - 1) = .ok l := by
    refine ⟨r[r.length - 1]'(by omega), ?_⟩
    unfold lget
    rw [List.getElem?_eq_getElem (by omega)]
  rw [hl]
  exact Ok_ok.2 hr

theorem Train.Safe.backprop {t : Train α} (hS : Static size ks s o) (h : t.Safe ks o) {x y : Ten α} (hx : ShapeIs x s)
    (hy : Full y.data o.vol) : Ok (t.backprop x y) (fun t' => t'.Safe ks o ∧ t'.loss = t.loss) := by
  have hlen : t.net.length = ks.length := h.net.length_eq
  have h2 := hS.two
  have hw := hS.word
  unfold Train.backprop
  obtain ⟨loss, L, dL, e, hloss⟩ := h.loss
  have hlast : ∃ l k, lget t.net (wsub t.net.length 1) = .ok l ∧ Layer.Sound l k ∧ ks.getLast? = some k := by
    rw [wsub_eq (by omega) (by omega), hlen]
    have a1 : ks.length - 1 < t.net.length := by omega
    have a2 : ks.length - 1 < ks.length := by omega
    refine ⟨t.net[ks.length - 1]'a1, ks[ks.length - 1]'a2, ?_, ?_, ?_⟩
    · unfold lget; rw [List.getElem?_eq_getElem a1]
    · exact h.net.get a1 a2
    · rw [List.getLast?_eq_getElem?, List.getElem?_eq_getElem a2]
  obtain ⟨l, k, e1, hl, e2⟩ := hlast
  have ho := Fits.last hS.fits k e2
  rw [e1, bind_ok, e]
  show Ok (Except.ok loss >>= _) _
  rw [bind_ok]
  obtain ⟨vt, hvt⟩ := hy
  have hval : ShapeIs l.value o := ho ▸ hl.value
  obtain ⟨vy, hvy⟩ := hval.2.2.2
  refine (Ten.onData_spec (f := fun d => loss.df d y.data l.value.data)
    (hloss.df t.delta.data y.data l.value.data vt vy h.delta.2.2.2 hvt hvy)).bind (fun dl hdl => ?_)
  have hd : ShapeIs dl o := ⟨hdl.1.trans h.delta.1, hdl.2.1.trans h.delta.2.1, hdl.2.2.1.trans h.delta.2.2.1, hdl.2.2.2.full⟩
  rw [Net.backprop_eq x dl t.net (by omega) (by omega)]
  refine (bpRec_sound false hS.valid hS.fits hx hd h.net (fun k' e' => ?_)).bind (fun net hnet => ?_)
  · have := Fits.last hS.fits k' e'
    rw [← this]; exact k'.accepts_own
  · exact Ok_ok.2 ⟨⟨hnet, ⟨hd.1, hd.2.1, hd.2.2.1, hd.2.2.2.len⟩, ⟨loss, L, dL, rfl, hloss⟩⟩, rfl⟩

theorem Train.Safe.sample {t : Train α} (hS : Static size ks s o) (h : t.Safe ks o) {idata odata : List (Ten α)}
    (hd : DataFits idata odata s o) {i : Nat} (hi : i < idata.length) :
    Ok (t.sample idata odata i) (fun t' => t'.Safe ks o) := by
  unfold Train.sample
  have g1 : lget idata i = .ok (idata[i]'hi) := by unfold lget; rw [List.getElem?_eq_getElem hi]
  have hi' : i < odata.length := hd.2.2 ▸ hi
  have g2 : lget odata i = .ok (odata[i]'hi') := by unfold lget; rw [List.getElem?_eq_getElem hi']
  have hx := hd.1 _ (List.getElem_mem hi)
  rw [g1, bind_ok]
  refine (h.feedforward hS hx).bind (fun t1 h1 => ?_)
  rw [g2, bind_ok]
  exact (h1.1.backprop hS hx (hd.2.1 _ (List.getElem_mem hi'))).mono (fun t2 h2 => h2.1)

theorem Train.Safe.reseting {t : Train α} (h : t.Safe ks o) : Ok t.reseting (fun t' => t'.Safe ks o) := by
  unfold Train.reseting
  rw [Net.reseting_eq]
  exact (mapL_sound (fun l k hl => hl.reset) h.net).bind (fun net hn => Ok_ok.2 ⟨hn, h.delta, h.loss⟩)

theorem Train.Safe.accumulating {t : Train α} (h : t.Safe ks o) : Ok t.accumulating (fun t' => t'.Safe ks o) := by
  unfold Train.accumulating
  rw [Net.accumulating_eq]
  exact (mapL_sound (fun l k hl => hl.accumulate) h.net).bind (fun net hn => Ok_ok.2 ⟨hn, h.delta, h.loss⟩)

theorem Train.Safe.updating {t : Train α} (hS : Static size ks s o) (hu : UpdOk upd size I) (h : t.Safe ks o) {st : σ} (hs : I st)
    (alpha : α) : Ok (Train.updating upd alpha (st, t)) (fun r => I r.1 ∧ r.2.Safe ks o) := by
  unfold Train.updating
  rw [Net.updating_eq]
  refine (eachM_sound (I := I) (fun k hk s l hs hl => hl.update hu (hS.valid k hk) hs alpha) h.net st hs).bind
    (fun r hr => Ok_ok.2 ⟨hr.1, hr.2, h.delta, h.loss⟩)

theorem Train.Safe.exec {t : Train α} (hS : Static size ks s o) (hu : UpdOk upd size I) (h : t.Safe ks o) {st : σ} (hs : I st)
    {idata odata : List (Ten α)} (hd : DataFits idata odata s o) (e : TEv α)
    (he : ∀ i, e = .sample i → i < idata.length) :
    Ok (TEv.exec upd idata odata (st, t) e) (fun r => I r.1 ∧ r.2.Safe ks o) := by
  cases e with
  | reset => exact h.reseting.bind (fun t' h' => Ok_ok.2 ⟨hs, h'⟩)
  | sample i => exact (h.sample hS hd (he i rfl)).bind (fun t' h' => Ok_ok.2 ⟨hs, h'⟩)
  | accumulate => exact h.accumulating.bind (fun t' h' => Ok_ok.2 ⟨hs, h'⟩)
  | update alpha => exact h.updating hS hu hs alpha

theorem Train.Safe.run (hS : Static size ks s o) (hu : UpdOk upd size I)
    {idata odata : List (Ten α)} (hd : DataFits idata odata s o) (es : List (TEv α))
    (he : ∀ i, TEv.sample i ∈ es → i < idata.length) :
    ∀ {st : σ} {t : Train α}, I st → t.Safe ks o → Ok (TEv.run upd idata odata (st, t) es) (fun r => I r.1 ∧ r.2.Safe ks o) := by
  induction es with
  | nil => intro st t hs h; exact Ok_ok.2 ⟨hs, h⟩
  | cons e es ih =>
    intro st t hs h
    unfold TEv.run
    refine (h.exec hS hu hs hd e (fun i hi => he i (by simp [hi]))).bind (fun r hr => ?_)
    exact ih (fun i hi => he i (by simp [hi])) hr.1 hr.2

end

/-! ### Whole calls -/

theorem mem_stepTrace {alpha : α} {lo k i : Nat} (h : TEv.sample i ∈ stepTrace alpha lo k) : ∃ j, j < k ∧ i = lo + j := by
  unfold stepTrace at h
  simp at h
  obtain ⟨j, hj, e⟩ := h
  exact ⟨j, hj, e⟩

theorem mem_batchTrace {alpha : α} {n epochs i : Nat} (h : TEv.sample i ∈ batchTrace alpha n epochs) : i < n := by
  unfold batchTrace at h
  rw [List.mem_flatten] at h
  obtain ⟨l, hl, hi⟩ := h
  rw [(List.mem_replicate.1 hl).2] at hi
  obtain ⟨j, hj, e⟩ := mem_stepTrace hi
  omega

theorem mem_miniTrace {alpha : α} {n m epochs i : Nat} (h : TEv.sample i ∈ miniTrace alpha n m epochs) : i < n := by
  unfold miniTrace at h
  rw [List.mem_flatten] at h
  obtain ⟨l, hl, hi⟩ := h
  rw [(List.mem_replicate.1 hl).2] at hi
  unfold miniEpochTrace at hi
  rw [List.mem_flatMap] at hi
  obtain ⟨k, hk, hi⟩ := hi
  rw [List.mem_range] at hk
  obtain ⟨j, hj, e⟩ := mem_stepTrace hi
  have h1 : k * m + j < n / m * m := idx2_lt hk hj
  have h2 : n / m * m ≤ n := Nat.div_mul_le_self n m
  omega

theorem mem_stoTrace [One α] {is : List Nat} {i : Nat} (h : (TEv.sample i : TEv α) ∈ stoTrace is) : i ∈ is := by
  unfold stoTrace at h
  simp at h
  exact h

section
variable [Zero α] [One α] [Add α] [Mul α] [Div α] [NatCast α] [LT α] [DecidableLT α] [DecidableEq α]
variable {size : Nat → Nat} {I : σ → Prop} {upd : Upd σ α} {ks : List (LayerKind α)} {s o : Shp}

theorem Net.feedforward_sound (hS : Static size ks s o) {net : Net α} (hr : List.Forall₂ Layer.Sound net ks) {x : Ten α}
    (hx : ShapeIs x s) : Ok (Net.feedforward x net) (fun q => List.Forall₂ Layer.Sound q.1 ks ∧ ShapeIs q.2 o) := by
  have hlen' : net.length = ks.length := List.Forall₂.length_eq hr
  have h2 := hS.two
  rw [Net.feedforward_eq _ net (by intro e; rw [e] at hlen'; simp at hlen'; omega) (by rw [hlen']; exact hS.word)]
  refine (ffRec_sound hS.valid hS.fits hx hr).bind (fun q hq => ?_)
  have e : q.length = ks.length := hq.length_eq
  have a1 : q.length - 1 < q.length := by omega
  have a2 : q.length - 1 < ks.length := by omega
  have g3 : lget q (q.length - 1) = .ok (q[q.length - 1]'a1) := by unfold lget; rw [List.getElem?_eq_getElem a1]
  rw [g3]
  have hv := (hq.get a1 a2).value
  have ho := Fits.last hS.fits (ks[q.length - 1]'a2) (by
    rw [List.getLast?_eq_getElem?, ← e, List.getElem?_eq_getElem a2])
  refine Ok_ok.2 ⟨hq, ?_⟩
  rw [← ho]; exact hv

theorem Train.Safe.lossMean {t : Train α} (hS : Static size ks s o) (h : t.Safe ks o) {idata odata : List (Ten α)}
    (hd : DataFits idata odata s o) (hne : idata ≠ []) :
    Ok (t.lossMean idata odata) (fun r => r.2.Safe ks o) := by
  unfold Train.lossMean
  obtain ⟨loss, L, dL, e, hloss⟩ := h.loss
  have hlen : odata.length ≠ 0 := by
    rw [← hd.2.2]; intro e; exact hne (List.length_eq_zero_iff.1 e)
  refine Ok.bind (P := fun r : α × Net α => List.Forall₂ Layer.Sound r.2 ks) ?_ (fun r hr => ?_)
  · refine forN_spec (fun _ (r : α × Net α) => List.Forall₂ Layer.Sound r.2 ks) h.net (fun i hi r hr => ?_)
    rw [e]
    show Ok (Except.ok loss >>= _) _
    rw [bind_ok]
    have hi' : i < idata.length := hd.2.2 ▸ hi
    have g1 : lget idata i = .ok (idata[i]'hi') := by unfold lget; rw [List.getElem?_eq_getElem hi']
    have g2 : lget odata i = .ok (odata[i]'hi) := by unfold lget; rw [List.getElem?_eq_getElem hi]
    rw [g2, bind_ok, g1, bind_ok]
    refine (Net.feedforward_sound hS hr (hd.1 _ (List.getElem_mem hi'))).bind (fun q hq => ?_)
    obtain ⟨vt, hvt⟩ := hd.2.1 _ (List.getElem_mem hi)
    obtain ⟨vy, hvy⟩ := hq.2.2.2.2
    dsimp only
    rw [hloss.f _ _ vt vy hvt hvy, bind_ok]
    exact Ok_ok.2 hq.1
  · dsimp only
    rw [if_neg hlen]
    exact Ok_ok.2 ⟨hr, h.delta, h.loss⟩

theorem TrainOp.exec_safe (hS : Static size ks s o) (hu : UpdOk upd size I) (gen : Gen γ ρ Nat) {st : (σ × Train α) × ρ}
    (hs : I st.1.1) (h : st.1.2.Safe ks o) (op : TrainOp α γ) (hop : op.Good s o) :
    Trixy.Ok (TrainOp.exec upd gen st op) (fun r => I r.1.1 ∧ r.1.2.Safe ks o) := by
  obtain ⟨⟨s0, t⟩, g⟩ := st
  cases op with
  | batch idata odata epochs =>
    have hne : idata.length ≠ 0 := fun e => hop.2 (List.length_eq_zero_iff.1 e)
    unfold TrainOp.exec; dsimp only
    rw [batch_run upd idata odata epochs _ hne]
    exact (Train.Safe.run hS hu hop.1 _ (fun i hi => mem_batchTrace hi) hs h).bind (fun r hr => Ok_ok.2 hr)
  | mini idata odata epochs m =>
    unfold TrainOp.exec; dsimp only
    rw [miniBatch_run upd idata odata epochs m _ hop.2]
    exact (Train.Safe.run hS hu hop.1 _ (fun i hi => mem_miniTrace hi) hs h).bind (fun r hr => Ok_ok.2 hr)
  | sto idata odata iterations c =>
    have hne : idata.length ≠ 0 := fun e => hop.2 (List.length_eq_zero_iff.1 e)
    unfold TrainOp.exec; dsimp only
    rw [stochastic_run upd idata odata gen hne]
    refine (Train.Safe.run hS hu hop.1 _ (fun i hi => ?_) hs h).bind (fun r hr => Ok_ok.2 hr)
    have := mem_stoTrace hi
    rw [List.mem_map] at this
    obtain ⟨a, _, e⟩ := this
    rw [← e]
    exact Nat.mod_lt _ (by omega)
  | lossOf idata odata =>
    exact (h.lossMean hS hop.1 hop.2).bind (fun r hr => Ok_ok.2 ⟨hs, hr⟩)
  | eval x => exact (h.feedforward hS hop).bind (fun t' h' => Ok_ok.2 ⟨hs, h'.1⟩)
  | setLoss l =>
    obtain ⟨L, dL, hl⟩ := hop
    exact Ok_ok.2 ⟨hs, h.net, h.delta, l, L, dL, rfl, hl⟩

theorem TrainOp.run_safe (hS : Static size ks s o) (hu : UpdOk upd size I) (gen : Gen γ ρ Nat) (ops : List (TrainOp α γ))
    (hops : ∀ op ∈ ops, op.Good s o) : ∀ {st : (σ × Train α) × ρ}, I st.1.1 → st.1.2.Safe ks o →
    Trixy.Ok (TrainOp.run upd gen st ops) (fun r => I r.1.1 ∧ r.1.2.Safe ks o) := by
  induction ops with
  | nil => intro st hs h; exact Ok_ok.2 ⟨hs, h⟩
  | cons op ops ih =>
    intro st hs h
    unfold TrainOp.run
    refine (TrainOp.exec_safe hS hu gen hs h op (hops op (by simp))).bind (fun r hr => ?_)
    exact ih (fun o ho => hops o (by simp [ho])) hr.1 hr.2

end

end Trixy
