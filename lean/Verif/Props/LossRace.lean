import Verif.Proof.LossRace
import Mathlib.Tactic.IntervalCases
/- Property C68 (losses can be evaluated concurrently). -/
namespace Trixy.Losses
open Finset

theorem lt_of_getElem? {β : Type} {l : List β} {k : Nat} {x : β} (h : l[k]? = some x) : k < l.length := by
  by_contra hn; rw [List.getElem?_eq_none (by omega)] at h; cases h

theorem Job.Started.inv {j : Job} {c : Call} (h : j.Started c) (s : Statics) : j.Inv 0 s c ∧ c.meas j.m = 5 * j.m + 1 := by
  obtain ⟨t, p, hh, rfl⟩ := h
  exact ⟨⟨hh, rfl, Nat.zero_le _, by simp [Call.start]⟩, rfl⟩

theorem bind_inv {β β' : Type} {x : Res β} {f : β → Res β'} {b : β'} (h : x >>= f = .ok b) : ∃ a, x = .ok a ∧ f a = .ok b := by
  cases x with
  | error u => cases h
  | ok a => exact ⟨a, rfl, h⟩

theorem Started_map {jobs : List Job} {cs : List Call} (h : List.Forall₂ Job.Started jobs cs) : cs.map Call.fn = jobs.map Job.fn := by
  induction h with
  | nil => rfl
  | cons h _ ih =>
    obtain ⟨_, _, _, rfl⟩ := h
    simp only [List.map_cons, ih]; rfl

/-! ### The part that holds -/

theorem exclusive_run {jobs : List Job} (ks : List Nat) (hk : ∀ k ∈ ks, k < jobs.length) (st : Statics × List Call)
    (hl : st.2.length = jobs.length) (hi : ∀ (k : Nat) (j : Job) (c : Call), jobs[k]? = some j → st.2[k]? = some c → j.Inv 0 st.1 c) (hx : Exclusive ks st) :
    Ok (runThreads ks st) (fun r => r.2.length = jobs.length ∧ ∀ (k : Nat) (j : Job) (c c' : Call), jobs[k]? = some j → st.2[k]? = some c → r.2[k]? = some c' →
      j.Inv 0 r.1 c' ∧ c'.meas j.m ≤ c.meas j.m - ks.count k) := by
  induction ks generalizing st with
  | nil =>
    refine Ok_ok.2 ⟨hl, fun k j c c' h1 h2 h3 => ?_⟩
    rw [h2] at h3; cases h3
    exact ⟨hi k j c h1 h2, by simp⟩
  | cons k ks ih =>
    have hk0 : k < jobs.length := hk k (by simp)
    have g1 : jobs[k]? = some jobs[k] := List.getElem?_eq_getElem hk0
    have g2 : st.2[k]? = some (st.2[k]'(by omega)) := List.getElem?_eq_getElem (by omega)
    have hI := hi k _ _ g1 g2
    show Ok (threadStep k st >>= runThreads ks) _
    obtain ⟨r, e, c1, e1, hI1, hm1, ho1⟩ := threadStep_of g2 hI.step
    rw [e, bind_ok]
    have hr : ∀ (q : Nat) (j : Job) (c c' : Call), jobs[q]? = some j → st.2[q]? = some c → r.2[q]? = some c' →
        j.Inv 0 r.1 c' ∧ c'.meas j.m ≤ c.meas j.m - (if k = q then 1 else 0) := by
      intro q j c c' h1 h2 h3
      rw [e1, List.getElem?_set] at h3
      by_cases hq : k = q
      · subst hq
        rw [if_pos rfl, if_pos (by omega)] at h3
        cases h3
        rw [h1] at g1; cases g1
        rw [h2] at g2; cases g2
        rw [if_pos rfl]
        exact ⟨hI1, hm1⟩
      · rw [if_neg hq, h2] at h3
        cases h3
        rw [if_neg hq]
        refine ⟨?_, by omega⟩
        have hI2 := hi q j c h1 h2
        by_cases hfn : j.fn = jobs[k].fn
        · refine hI2.outside (hx.1 _ g2 q c (fun h => hq h.symm) h2 ?_)
          rw [hI2.fn, hI.fn, hfn]
        · exact hI2.other (ho1 _ hfn)
    refine (ih (fun q hq => hk q (by simp [hq])) r (by rw [e1]; simpa using hl) (fun q j c h1 h2 => ?_) (hx.2 r e)).mono
      (fun r' hr' => ⟨hr'.1, fun q j c c' h1 h2 h3 => ?_⟩)
    · have hq : q < st.2.length := by have := lt_of_getElem? h1; omega
      exact (hr q j _ c h1 (List.getElem?_eq_getElem hq) h2).1
    · have hq : q < r.2.length := by rw [e1]; have := lt_of_getElem? h2; simpa using this
      obtain ⟨a1, a2⟩ := hr q j c _ h1 h2 (List.getElem?_eq_getElem hq)
      obtain ⟨b1, b2⟩ := hr'.2 q j _ c' h1 (List.getElem?_eq_getElem hq) h3
      refine ⟨b1, ?_⟩
      rw [List.count_cons]
      by_cases hkq : k = q
      · subst hkq; simp only [beq_self_eq_true, if_true] at a2 ⊢; omega
      · rw [if_neg hkq] at a2
        simp only [beq_iff_eq, if_neg hkq]; omega

theorem meas_zero {c : Call} {m : Nat} {j : Job} {e : ℝ} {s : Statics} (hm : j.m = m) (h : j.Inv e s c) (h0 : c.meas m = 0) : c.pc = .done := by
  have ha := h.at'
  subst hm
  cases hp : c.pc <;> rw [hp] at ha <;> simp only [Call.meas, hp] at h0 <;> simp only [Job.At] at ha <;> first | rfl | omega

/-- C68, the part that holds: any number of evaluations, in any order of steps in which no thread runs a function while another thread is
inside the loop body of the same function (in particular one after the other): every evaluation that has returned has returned the loss
of its own arguments, no step is undefined, and an evaluation of `m` components returns after at most `5 m + 1` of its steps. -/
theorem C68_exclusive_partial (jobs : List Job) (st : Statics × List Call) (hst : List.Forall₂ Job.Started jobs st.2) (ks : List Nat)
    (hk : ∀ k ∈ ks, k < jobs.length) (hx : Exclusive ks st) :
    Ok (runThreads ks st) (fun r => ∀ (k : Nat) (j : Job) (c : Call), jobs[k]? = some j → r.2[k]? = some c →
      (c.pc = .done → c.result = j.loss) ∧ (5 * j.m + 1 ≤ ks.count k → c.pc = .done)) := by
  have hl := hst.length_eq
  have hs : ∀ (k : Nat) (j : Job) (c : Call), jobs[k]? = some j → st.2[k]? = some c → j.Started c := by
    intro k j c h1 h2
    have h := hst.get (lt_of_getElem? h1) (lt_of_getElem? h2)
    rw [List.getElem?_eq_getElem (lt_of_getElem? h1)] at h1
    rw [List.getElem?_eq_getElem (lt_of_getElem? h2)] at h2
    rw [← Option.some.inj h1, ← Option.some.inj h2]; exact h
  refine (exclusive_run ks hk st hl.symm (fun k j c h1 h2 => ((hs k j c h1 h2).inv st.1).1) hx).mono (fun r hr k j c h1 h2 => ?_)
  have hq : k < st.2.length := by have := lt_of_getElem? h1; omega
  have g := List.getElem?_eq_getElem hq
  obtain ⟨a1, a2⟩ := hr.2 k j _ c h1 g h2
  refine ⟨fun hd => ?_, fun hc => meas_zero rfl a1 ?_⟩
  · have := a1.at'
    rw [hd] at this
    have h0 : c.result = 0 * 0.5 + j.loss := this
    rw [h0]; ring
  · rw [((hs k j _ h1 g).inv st.1).2] at a2; omega

theorem step_fn {s : Statics} {c : Call} {r : Statics × Call} (h : c.step s = .ok r) : r.2.fn = c.fn := by
  obtain ⟨fn, target, pred, i, result, pc⟩ := c
  cases pc <;> unfold Call.step at h <;> dsimp only at h
  · split at h
    · obtain ⟨a, _, h⟩ := bind_inv h
      obtain ⟨b, _, h⟩ := bind_inv h
      obtain ⟨x, _, h⟩ := bind_inv h
      cases h; rfl
    · cases h; rfl
  all_goals cases h; rfl

/-- … and any schedule at all is right if no two threads evaluate the same function. -/
theorem C68_one_thread_per_function_partial (jobs : List Job) (st : Statics × List Call) (hst : List.Forall₂ Job.Started jobs st.2)
    (hne : (jobs.map Job.fn).Nodup) (ks : List Nat) (hk : ∀ k ∈ ks, k < jobs.length) :
    Ok (runThreads ks st) (fun r => ∀ (k : Nat) (j : Job) (c : Call), jobs[k]? = some j → r.2[k]? = some c →
      (c.pc = .done → c.result = j.loss) ∧ (5 * j.m + 1 ≤ ks.count k → c.pc = .done)) := by
  refine C68_exclusive_partial jobs st hst ks hk ?_
  have h0 := Started_map hst
  rw [← h0] at hne
  clear h0 hst hk
  induction ks generalizing st with
  | nil => trivial
  | cons k ks ih =>
    refine ⟨fun c hc k' c' hkk hc' hf => ?_, fun st' hs => ih st' ?_⟩
    · exfalso
      have a1 : (st.2.map Call.fn)[k]? = some c.fn := by rw [List.getElem?_map, hc]; rfl
      have a2 : (st.2.map Call.fn)[k']? = some c.fn := by rw [List.getElem?_map, hc']; exact congrArg some hf
      exact hkk ((List.Nodup.getElem_inj_iff hne (hi := lt_of_getElem? a2) (hj := lt_of_getElem? a1)).1 (by
        rw [List.getElem?_eq_getElem (lt_of_getElem? a1)] at a1
        rw [List.getElem?_eq_getElem (lt_of_getElem? a2)] at a2
        rw [Option.some.inj a1, Option.some.inj a2]))
    · have : st'.2.map Call.fn = st.2.map Call.fn := by
        unfold threadStep at hs
        obtain ⟨c, h1, hs⟩ := bind_inv hs
        obtain ⟨⟨s', c'⟩, h2, hs⟩ := bind_inv hs
        obtain ⟨cs, h3, hs⟩ := bind_inv hs
        cases hs
        have hc : st.2[k]? = some c := by
          unfold lget at h1
          split at h1
          · cases h1
          · cases h1; assumption
        have hk := lt_of_getElem? hc
        rw [lset_ok hk] at h3
        cases h3
        have hf := step_fn h2
        refine List.ext_getElem? (fun q => ?_)
        rw [List.getElem?_map, List.getElem?_map, List.getElem?_set]
        by_cases e : k = q
        · subst e; rw [if_pos rfl, if_pos hk, hc]; exact congrArg some hf
        · rw [if_neg e]
      rw [this]; exact hne

/-! ### Violation -/

/-- Steps of a call until it has stored the error of a component in the static variable. -/
def StaticLoss.steps : StaticLoss → Nat
  | .mse => 1
  | .msle => 3

/-- A call that has stored the error of its component 0. -/
structure Job.Stored (j : Job) (c : Call) : Prop where
  holds : j.Holds c.target c.pred
  fn : c.fn = j.fn
  at' : c.i = 0 ∧ c.result = 0 ∧ c.pc = .sqR

/-- Thread `k`, just started, runs until it has stored its first error. -/
theorem store {k : Nat} {j : Job} {st : Statics × List Call} {c : Call} (hc : st.2[k]? = some c) (h : j.Started c) (hm : 0 < j.m) :
    Ok (runThreads (List.replicate j.fn.steps k) st) (fun r => ∃ c', r.2 = st.2.set k c' ∧ j.Stored c' ∧ r.1.get j.fn = j.err 0) := by
  have hk := lt_of_getElem? hc
  obtain ⟨t, p, ⟨ht, hp, hd⟩, rfl⟩ := h
  obtain ⟨fn, m, vt, vp⟩ := j
  have s1 : Ok (threadStep k st) (fun r => ∃ c', r.2 = st.2.set k c' ∧
      (r.1, c') = (st.1.set fn ((⟨fn, m, vt, vp⟩ : Job).first 0), { Call.start fn t p with pc := fn.next })) := by
    refine threadStep_of hc (Q := fun r => r = (st.1.set fn ((⟨fn, m, vt, vp⟩ : Job).first 0), { Call.start fn t p with pc := fn.next })) ?_
    unfold Call.step Call.start
    dsimp only
    rw [if_pos (by rw [ht.length]; exact hm), ht.get hm, bind_ok, hp.get hm, bind_ok]
    have := Job.first_ok (j := ⟨fn, m, vt, vp⟩) hm hd
    dsimp only at this ⊢
    rw [this]
    exact Ok_ok.2 rfl
  cases fn with
  | mse =>
    show Ok (threadStep k st >>= runThreads []) _
    refine s1.bind (fun r hr => Ok_ok.2 ?_)
    obtain ⟨c', e1, e2⟩ := hr
    obtain ⟨r1, r2⟩ := r
    cases e2
    exact ⟨_, e1, ⟨⟨ht, hp, hd⟩, rfl, rfl, rfl, rfl⟩, rfl⟩
  | msle =>
    show Ok (threadStep k st >>= fun st => threadStep k st >>= fun st => threadStep k st >>= runThreads []) _
    refine s1.bind (fun r hr => ?_)
    obtain ⟨c', e1, e2⟩ := hr
    obtain ⟨r1, r2⟩ := r
    cases e2
    dsimp only at e1
    have g1 : r2[k]? = some { Call.start .msle t p with pc := .logR } := by rw [e1, List.getElem?_set_self hk]; rfl
    refine (threadStep_of (st := (_, r2)) g1 (Q := fun q => q = (st.1.set .msle ((⟨.msle, m, vt, vp⟩ : Job).first 0), { Call.start .msle t p with pc := .logW ((⟨.msle, m, vt, vp⟩ : Job).first 0) })) (Ok_ok.2 rfl)).bind (fun r hr => ?_)
    obtain ⟨c', e2, e3⟩ := hr
    obtain ⟨q1, q2⟩ := r
    cases e3
    dsimp only at e2
    have g2 : q2[k]? = some { Call.start .msle t p with pc := .logW ((⟨.msle, m, vt, vp⟩ : Job).first 0) } := by
      rw [e2, e1, List.set_set, List.getElem?_set_self hk]
    refine (threadStep_of (st := (_, q2)) g2 (Q := fun q => q = ((st.1.set .msle ((⟨.msle, m, vt, vp⟩ : Job).first 0)).set .msle (Real.log ((⟨.msle, m, vt, vp⟩ : Job).first 0)), { Call.start .msle t p with pc := .sqR })) (Ok_ok.2 rfl)).bind (fun r hr => Ok_ok.2 ?_)
    obtain ⟨c', e3, e4⟩ := hr
    obtain ⟨w1, w2⟩ := r
    cases e4
    refine ⟨{ Call.start .msle t p with pc := .sqR }, ?_, ⟨⟨ht, hp, hd⟩, rfl, rfl, rfl, rfl⟩, ?_⟩
    · dsimp only at e3 ⊢; rw [e3, e2, e1, List.set_set, List.set_set]
    · exact Job.log_first (j := ⟨.msle, m, vt, vp⟩) rfl hm hd

/-- A call that has stored its first error finishes with whatever the variable holds now in place of that error. -/
theorem finish {k : Nat} {j : Job} {st : Statics × List Call} {c : Call} (hc : st.2[k]? = some c) (h : j.Stored c) (hm : 0 < j.m) :
    Ok (runThreads (List.replicate (5 * j.m + 3) k) st) (fun r => ∃ c', r.2 = st.2.set k c' ∧ c'.pc = .done ∧
      c'.result = j.loss + (st.1.get j.fn * st.1.get j.fn - j.err 0 * j.err 0) * 0.5) := by
  have hk := lt_of_getElem? hc
  obtain ⟨fn, t, p, i, res, pc⟩ := c
  obtain ⟨hh, hf, hi, hr, hp⟩ := h
  dsimp only at hh hf hi hr hp
  subst hf hi hr hp
  show Ok (threadStep k st >>= fun st => threadStep k st >>= runThreads (List.replicate (5 * j.m + 1) k)) _
  refine (threadStep_of hc (Q := fun q => q = (st.1, ⟨j.fn, t, p, 0, 0, .sqR2 (st.1.get j.fn)⟩)) (Ok_ok.2 rfl)).bind (fun r hr => ?_)
  obtain ⟨c', e1, e2⟩ := hr
  obtain ⟨r1, r2⟩ := r
  cases e2
  dsimp only at e1
  have g1 : r2[k]? = some ⟨j.fn, t, p, 0, 0, .sqR2 (st.1.get j.fn)⟩ := by rw [e1, List.getElem?_set_self hk]
  refine (threadStep_of (st := (_, r2)) g1 (Q := fun q => q = (st.1, ⟨j.fn, t, p, 1, 0 + st.1.get j.fn * st.1.get j.fn, .head⟩))
    (Ok_ok.2 rfl)).bind (fun r hr => ?_)
  obtain ⟨c', e2, e3⟩ := hr
  obtain ⟨q1, q2⟩ := r
  cases e3
  dsimp only at e2
  have g2 : q2[k]? = some ⟨j.fn, t, p, 1, 0 + st.1.get j.fn * st.1.get j.fn, .head⟩ := by rw [e2, e1, List.set_set, List.getElem?_set_self hk]
  have hI : j.Inv (st.1.get j.fn * st.1.get j.fn - j.err 0 * j.err 0) st.1 ⟨j.fn, t, p, 1, 0 + st.1.get j.fn * st.1.get j.fn, .head⟩ :=
    ⟨hh, rfl, hm, by dsimp only; rw [sum_range_one]; ring⟩
  refine (solo (5 * j.m + 1) (st := (st.1, q2)) g2 hI).mono (fun r hr => ?_)
  obtain ⟨c', e3, h3, h4⟩ := hr
  have hd := meas_zero rfl h3 (by simp only [Call.meas] at h4 ⊢; omega)
  refine ⟨c', by rw [e3]; dsimp only; rw [e2, e1, List.set_set, List.set_set], hd, ?_⟩
  have := h3.at'
  rw [hd] at this
  rw [show c'.result = _ from this]; ring

/-- C68 VIOLATED: two evaluations of the same function (`mean_squared_error` or `mean_squared_log_error`) whose first errors differ in
absolute value have an interleaving in which both return and the first one returns a wrong loss. -/
theorem C68_violated (j0 j1 : Job) (hf : j0.fn = j1.fn) (h0 : 0 < j0.m) (h1 : 0 < j1.m) (hne : |j0.err 0| ≠ |j1.err 0|)
    (s : Statics) (c0 c1 : Call) (hc0 : j0.Started c0) (hc1 : j1.Started c1) :
    ∃ ks : List Nat, Ok (runThreads ks (s, [c0, c1])) (fun r => ∃ d0 d1, r.2 = [d0, d1] ∧ d0.pc = .done ∧ d1.pc = .done ∧ d0.result ≠ j0.loss) := by
  refine ⟨List.replicate j0.fn.steps 0 ++ (List.replicate j1.fn.steps 1 ++ (List.replicate (5 * j0.m + 3) 0 ++ List.replicate (5 * j1.m + 3) 1)), ?_⟩
  rw [runThreads_append]
  refine (store (k := 0) (c := c0) rfl hc0 h0).bind (fun r hr => ?_)
  obtain ⟨a0, e0, ha0, _⟩ := hr
  rw [runThreads_append]
  have e0' : r.2 = [a0, c1] := e0
  refine (store (k := 1) (st := r) (c := c1) (by rw [e0']; rfl) hc1 h1).bind (fun r1 hr => ?_)
  obtain ⟨a1, e1, ha1, hs1⟩ := hr
  have e1' : r1.2 = [a0, a1] := by rw [e1, e0']; rfl
  rw [runThreads_append]
  refine (finish (k := 0) (st := r1) (c := a0) (by rw [e1']; rfl) ha0 h0).bind (fun r2 hr => ?_)
  obtain ⟨d0, e2, hd0, hr0⟩ := hr
  have e2' : r2.2 = [d0, a1] := by rw [e2, e1']; rfl
  refine (finish (k := 1) (st := r2) (c := a1) (by rw [e2']; rfl) ha1 h1).mono (fun r3 hr => ?_)
  obtain ⟨d1, e3, hd1, _⟩ := hr
  refine ⟨d0, d1, by rw [e3, e2']; rfl, hd0, hd1, ?_⟩
  rw [hr0, hf, hs1]
  intro e
  have : j1.err 0 * j1.err 0 - j0.err 0 * j0.err 0 = 0 := by
    have h2 : (j1.err 0 * j1.err 0 - j0.err 0 * j0.err 0) * 0.5 = 0 := by linarith
    linarith
  exact hne ((sq_eq_sq_iff_abs_eq_abs _ _).1 (by nlinarith))

/-- … and two non-empty evaluations of the same function, just started, are a data race (undefined behaviour in C++ whatever the
values are). -/
theorem C68_data_race_violated (j0 j1 : Job) (hf : j0.fn = j1.fn) (h0 : 0 < j0.m) (h1 : 0 < j1.m) (c0 c1 : Call) (hc0 : j0.Started c0)
    (hc1 : j1.Started c1) : Race [c0, c1] := by
  obtain ⟨t0, p0, k0, rfl⟩ := hc0
  obtain ⟨t1, p1, k1, rfl⟩ := hc1
  refine ⟨0, 1, _, _, by decide, rfl, rfl, hf, ?_, ?_⟩
  · show (if 0 < t0.length then some true else none) = _
    rw [if_pos (by rw [k0.1.length]; exact h0)]
  · show (if 0 < t1.length then some true else none).isSome = true
    rw [if_pos (by rw [k1.1.length]; exact h1)]; rfl

/-- Non-vacuity: targets 0 with predictions 1 and 2, for both functions. -/
example (fn : StaticLoss) : let j0 : Job := ⟨fn, 1, fun _ => 0, fun _ => 1⟩; let j1 : Job := ⟨fn, 1, fun _ => 0, fun _ => 2⟩
    j0.Started (Call.start fn (Buf.of [0]) (Buf.of [1])) ∧ j1.Started (Call.start fn (Buf.of [0]) (Buf.of [2])) ∧ |j0.err 0| ≠ |j1.err 0| := by
  have hv : ∀ a : ℝ, VecIs (Buf.of [a]) 1 (fun _ => a) := fun a => VecIs_of [a] _ (fun i hi => by simp)
  refine ⟨⟨_, _, ⟨hv 0, hv 1, ?_⟩, rfl⟩, ⟨_, _, ⟨hv 0, hv 2, ?_⟩, rfl⟩, ?_⟩
  · cases fn
    · trivial
    · intro i _; norm_num
  · cases fn
    · trivial
    · intro i _; norm_num
  · cases fn
    · simp [Job.err]
    · simp only [Job.err]
      rw [show (0:ℝ) + 1 = 1 by norm_num, Real.log_one, sub_zero, sub_zero, abs_of_pos (Real.log_pos (by norm_num)),
        abs_of_pos (Real.log_pos (by norm_num))]
      exact (Real.log_lt_log (by norm_num) (by norm_num)).ne

/-! ### The functions without a static variable -/

theorem runLocal_spec {σ : Type} (fin : List σ) (init : List σ) (loops : List (LocalLoop σ)) (hl : init.length = loops.length) (hl' : fin.length = loops.length)
    (hseq : ∀ (k : Nat) (L : LocalLoop σ) (s s' : σ), loops[k]? = some L → init[k]? = some s → fin[k]? = some s' → forN L.n s L.body = .ok s')
    (ks : List Nat) (hk : ∀ k ∈ ks, k < loops.length) (cs : List (LocalCall σ)) (hc : cs.length = loops.length)
    (hi : ∀ (k : Nat) (L : LocalLoop σ) (s : σ) (c : LocalCall σ), loops[k]? = some L → init[k]? = some s → cs[k]? = some c →
      c.loop = L ∧ c.i ≤ L.n ∧ forN c.i s L.body = .ok c.st) :
    Ok (runLocal ks cs) (fun r => r.length = loops.length ∧
      ∀ (k : Nat) (L : LocalLoop σ) (s : σ) (c c' : LocalCall σ), loops[k]? = some L → init[k]? = some s → cs[k]? = some c → r[k]? = some c' →
      c'.loop = L ∧ c'.i ≤ L.n ∧ forN c'.i s L.body = .ok c'.st ∧ min L.n (c.i + ks.count k) ≤ c'.i) := by
  induction ks generalizing cs with
  | nil =>
    refine Ok_ok.2 ⟨hc, fun k L s c c' h1 h2 h3 h4 => ?_⟩
    rw [h3] at h4; cases h4
    obtain ⟨a, b, d⟩ := hi k L s c h1 h2 h3
    exact ⟨a, b, d, by simp⟩
  | cons k ks ih =>
    have hk0 : k < loops.length := hk k (by simp)
    have g0 : cs[k]? = some (cs[k]'(by omega)) := List.getElem?_eq_getElem (by omega)
    have g1 : loops[k]? = some loops[k] := List.getElem?_eq_getElem hk0
    have g2 : init[k]? = some (init[k]'(by omega)) := List.getElem?_eq_getElem (by omega)
    have g3 : fin[k]? = some (fin[k]'(by omega)) := List.getElem?_eq_getElem (by omega)
    obtain ⟨a1, a2, a3⟩ := hi k _ _ _ g1 g2 g0
    have hs := hseq k _ _ _ g1 g2 g3
    have hst : Ok ((cs[k]'(by omega)).step) (fun c' => c'.loop = loops[k] ∧ c'.i ≤ loops[k].n ∧
        forN c'.i (init[k]'(by omega)) loops[k].body = .ok c'.st ∧ min loops[k].n ((cs[k]'(by omega)).i + 1) ≤ c'.i) := by
      unfold LocalCall.step
      rw [a1]
      split
      · next hlt =>
        have hn : Ok (forN ((cs[k]'(by omega)).i + 1) (init[k]'(by omega)) loops[k].body) (fun _ => True) := by
          have : ∀ n i, i ≤ n → ∀ s', forN n (init[k]'(by omega)) loops[k].body = .ok s' → Ok (forN i (init[k]'(by omega)) loops[k].body) (fun _ => True) := by
            intro n
            induction n with
            | zero => intro i hi s' e; obtain rfl : i = 0 := by omega
                      exact ⟨s', e, trivial⟩
            | succ n ihn =>
              intro i hi s' e
              rcases Nat.lt_or_ge i (n + 1) with h | h
              · obtain ⟨x, ex, _⟩ := bind_inv (show forN n _ _ >>= _ = _ from e)
                exact ihn i (by omega) x ex
              · obtain rfl : i = n + 1 := by omega
                exact ⟨s', e, trivial⟩
          exact this _ _ hlt _ hs
        obtain ⟨x, ex, _⟩ := hn
        obtain ⟨y, ey, eb⟩ := bind_inv (show forN _ _ _ >>= _ = _ from ex)
        rw [a3] at ey; cases ey
        rw [eb, bind_ok]
        exact Ok_ok.2 ⟨rfl, hlt, ex, by dsimp only; omega⟩
      · exact Ok_ok.2 ⟨a1, a2, a3, by omega⟩
    show Ok (lget cs k >>= _) _
    rw [lget_ok g0, bind_ok]
    obtain ⟨c1, e1, b1, b2, b3, b4⟩ := hst
    rw [e1, bind_ok, lset_ok (by omega), bind_ok]
    have hset : ∀ (q : Nat) (c c' : LocalCall σ), cs[q]? = some c → (cs.set k c1)[q]? = some c' → (k = q ∧ c' = c1) ∨ (k ≠ q ∧ c' = c) := by
      intro q c c' h1 h2
      rw [List.getElem?_set] at h2
      by_cases e : k = q
      · rw [if_pos e, if_pos (by omega)] at h2; cases h2; exact .inl ⟨e, rfl⟩
      · rw [if_neg e, h1] at h2; cases h2; exact .inr ⟨e, rfl⟩
    refine (ih (fun q hq => hk q (by simp [hq])) (cs.set k c1) (by simpa using hc) (fun q L s c h1 h2 h3 => ?_)).mono
      (fun r hr => ⟨hr.1, fun q L s c c' h1 h2 h3 h4 => ?_⟩)
    · have hq : q < cs.length := by have := lt_of_getElem? h1; omega
      rcases hset q _ c (List.getElem?_eq_getElem hq) h3 with ⟨e, rfl⟩ | ⟨e, rfl⟩
      · subst e; rw [h1] at g1; cases g1; rw [h2] at g2; cases g2; exact ⟨b1, b2, b3⟩
      · exact hi q L s _ h1 h2 (List.getElem?_eq_getElem hq)
    · have hq : q < (cs.set k c1).length := by have := lt_of_getElem? h3; simpa using this
      have hq' := List.getElem?_eq_getElem hq
      obtain ⟨d1, d2, d3, d4⟩ := hr.2 q L s _ c' h1 h2 hq' h4
      refine ⟨d1, d2, d3, ?_⟩
      rw [List.count_cons]
      rcases hset q c _ h3 hq' with ⟨e, e'⟩ | ⟨e, e'⟩
      · rw [e'] at d4
        subst e
        rw [h1] at g1; cases g1
        rw [h3] at g0; cases g0
        simp only [beq_self_eq_true, if_true]
        omega
      · rw [e'] at d4
        simp only [beq_iff_eq, if_neg e]
        omega

/-- C68 for the loss functions without a static variable: whatever the interleaving of any number of evaluations, an evaluation that
has made all its rounds has the value its loop computes when run alone. -/
theorem C68_local_partial {σ : Type} (calls : List (LocalLoop σ × σ × σ))
    (hseq : ∀ x ∈ calls, forN x.1.n x.2.1 x.1.body = .ok x.2.2) (ks : List Nat) (hk : ∀ k ∈ ks, k < calls.length) :
    Ok (runLocal ks (calls.map fun x => ⟨x.1, 0, x.2.1⟩)) (fun r => ∀ (k : Nat) (x : LocalLoop σ × σ × σ) (c : LocalCall σ),
      calls[k]? = some x → r[k]? = some c → x.1.n ≤ ks.count k → c.st = x.2.2) := by
  refine (runLocal_spec (calls.map fun x => x.2.2) (calls.map fun x => x.2.1) (calls.map fun x => x.1) (by simp) (by simp)
    (fun k L s s' h1 h2 h3 => ?_) ks (by simpa using hk) _ (by simp) (fun k L s c h1 h2 h3 => ?_)).mono (fun r hr k x c h1 h2 h3 => ?_)
  · rw [List.getElem?_map] at h1 h2 h3
    cases hx : calls[k]? with
    | none => rw [hx] at h1; cases h1
    | some x =>
      rw [hx] at h1 h2 h3; cases h1; cases h2; cases h3
      exact hseq x (List.mem_of_getElem? hx)
  · rw [List.getElem?_map] at h1 h2 h3
    cases hx : calls[k]? with
    | none => rw [hx] at h1; cases h1
    | some x =>
      rw [hx] at h1 h2 h3; cases h1; cases h2; cases h3
      exact ⟨rfl, Nat.zero_le _, rfl⟩
  · obtain ⟨d1, d2, d3, d4⟩ := hr.2 k x.1 x.2.1 ⟨x.1, 0, x.2.1⟩ c (by rw [List.getElem?_map, h1]; rfl) (by rw [List.getElem?_map, h1]; rfl)
      (by rw [List.getElem?_map, h1]; rfl) h2
    dsimp only at d4
    have hi : c.i = x.1.n := by omega
    have hs := hseq x (List.mem_of_getElem? h1)
    rw [hi, hs] at d3
    exact (Except.ok.inj d3).symm

/-- The loops of these functions, run alone, are the functions. -/
theorem C68_local_loops (t p : Buf ℝ) :
    forN (cceLoop t p).n 0 (cceLoop t p).body = cce t p ∧ forN (maeLoop t p).n 0 (maeLoop t p).body = mae t p ∧
    forN (bceLoop t p).n 0 (bceLoop t p).body = bce t p ∧ forN (lcLoop t p).n 0 (lcLoop t p).body = logcosh t p ∧
    (forN (nllLoop t p).n 0 (nllLoop t p).body).map (fun s => -Real.log s) = nll t p := by
  refine ⟨rfl, rfl, rfl, rfl, ?_⟩
  unfold nll nllLoop
  dsimp only
  cases forN t.length (0 : ℝ) _ <;> rfl

/-- Non-vacuity: two evaluations of `mean_absolute_error`. -/
example : ∀ x ∈ [(maeLoop (Buf.of [1]) (Buf.of [3]), (0 : ℝ), |(3 : ℝ) - 1|), (maeLoop (Buf.of [0]) (Buf.of [5]), (0 : ℝ), |(5 : ℝ) - 0|)],
    forN x.1.n x.2.1 x.1.body = .ok x.2.2 := by
  intro x hx
  simp only [List.mem_cons, List.not_mem_nil, or_false] at hx
  rcases hx with rfl | rfl
  · exact congrArg Except.ok (zero_add |(3 : ℝ) - 1|)
  · exact congrArg Except.ok (zero_add |(5 : ℝ) - 0|)

end Trixy.Losses
