import Verif.Spec.LossRace
import Verif.Proof.Loss
/- Invariants of concurrent loss evaluation. -/
namespace Trixy.Losses
open Finset

/-- First value assigned to `f` for component `i`. -/
noncomputable def Job.first (j : Job) (i : Nat) : ℝ :=
  match j.fn with
  | .mse => j.t i - j.p i
  | .msle => (j.p i + 1) / (j.t i + 1)

theorem Job.loss_eq (j : Job) : j.loss = (∑ i ∈ range j.m, j.err i * j.err i) * 0.5 := by
  obtain ⟨fn, m, t, p⟩ := j
  cases fn
  · show (1 / 2) * ∑ i ∈ range m, (p i - t i) ^ 2 = (∑ i ∈ range m, (t i - p i) * (t i - p i)) * 0.5
    rw [mul_comm, sum_congr rfl (fun i _ => show (p i - t i) ^ 2 = (t i - p i) * (t i - p i) by ring)]; norm_num
  · show (1 / 2) * ∑ i ∈ range m, (Real.log (p i + 1) - Real.log (t i + 1)) ^ 2 = (∑ i ∈ range m, (_ - _) * (_ - _)) * 0.5
    rw [mul_comm, sum_congr rfl (fun i _ => sq (Real.log (p i + 1) - Real.log (t i + 1)))]; norm_num

/-- What holds at each point of the loop; `e` is an error already in `result`. -/
def Job.At (j : Job) (e : ℝ) (s : Statics) (i : Nat) (r : ℝ) : Pc → Prop
  | .head => i ≤ j.m ∧ r = e + ∑ q ∈ range i, j.err q * j.err q
  | .logR => i < j.m ∧ r = e + ∑ q ∈ range i, j.err q * j.err q ∧ j.fn = .msle ∧ s.get j.fn = j.first i
  | .logW x => i < j.m ∧ r = e + ∑ q ∈ range i, j.err q * j.err q ∧ j.fn = .msle ∧ x = j.first i
  | .sqR => i < j.m ∧ r = e + ∑ q ∈ range i, j.err q * j.err q ∧ s.get j.fn = j.err i
  | .sqR2 x => i < j.m ∧ r = e + ∑ q ∈ range i, j.err q * j.err q ∧ x = j.err i ∧ s.get j.fn = j.err i
  | .done => r = e * 0.5 + j.loss

/-- Invariant of a call. -/
structure Job.Inv (j : Job) (e : ℝ) (s : Statics) (c : Call) : Prop where
  holds : j.Holds c.target c.pred
  fn : c.fn = j.fn
  at' : j.At e s c.i c.result c.pc

/-- Bound on the remaining steps. -/
def Call.meas (m : Nat) (c : Call) : Nat :=
  match c.pc with
  | .head => 5 * (m - c.i) + 1
  | .logR => 5 * (m - c.i)
  | .logW _ => 5 * (m - c.i) - 1
  | .sqR => 5 * (m - c.i) - 2
  | .sqR2 _ => 5 * (m - c.i) - 3
  | .done => 0

theorem Statics.get_set (s : Statics) (k : StaticLoss) (x : ℝ) : (s.set k x).get k = x := by cases k <;> rfl
theorem Statics.get_set_ne (s : Statics) {k k' : StaticLoss} (x : ℝ) (h : k' ≠ k) : (s.set k x).get k' = s.get k' := by
  cases k <;> cases k' <;> first | rfl | exact absurd rfl h

theorem Job.Inv.outside {j : Job} {e : ℝ} {s s' : Statics} {c : Call} (h : j.Inv e s c) (ho : c.Outside) : j.Inv e s' c := by
  refine ⟨h.holds, h.fn, ?_⟩
  have := h.at'
  rcases ho with ho | ho <;> rw [ho] at this ⊢ <;> exact this

theorem Job.Inv.other {j : Job} {e : ℝ} {s s' : Statics} {c : Call} (h : j.Inv e s c) (hs : s'.get j.fn = s.get j.fn) : j.Inv e s' c := by
  refine ⟨h.holds, h.fn, ?_⟩
  have := h.at'
  cases hp : c.pc <;> rw [hp] at this <;> simp only [Job.At, hs] at this ⊢ <;> exact this

theorem Job.log_first {j : Job} (hf : j.fn = .msle) {i : Nat} (hi : i < j.m) (hd : j.fn.Dom j.m j.t j.p) :
    Real.log (j.first i) = j.err i := by
  obtain ⟨fn, m, t, p⟩ := j
  dsimp only at hf; subst hf
  obtain ⟨h1, h2⟩ := hd i hi
  exact Real.log_div (by linarith) (by linarith)

theorem Job.first_ok {j : Job} {i : Nat} (hi : i < j.m) (hd : j.fn.Dom j.m j.t j.p) :
    j.fn.first (j.t i) (j.p i) = .ok (j.first i) := by
  obtain ⟨fn, m, t, p⟩ := j
  cases fn
  · rfl
  · have h := hd i hi
    exact rdiv_ok (by dsimp only; linarith)

/-- One step keeps the invariant, comes closer to the end and touches only its function's variable. -/
theorem Job.Inv.step {j : Job} {e : ℝ} {s : Statics} {c : Call} (h : j.Inv e s c) :
    Ok (c.step s) (fun r => j.Inv e r.1 r.2 ∧ r.2.meas j.m ≤ c.meas j.m - 1 ∧ ∀ k, k ≠ j.fn → r.1.get k = s.get k) := by
  obtain ⟨fn, target, pred, i, result, pc⟩ := c
  obtain ⟨⟨ht, hp, hd⟩, hf, ha⟩ := h
  dsimp only at ht hp hf ha
  subst hf
  cases pc with
  | head =>
    obtain ⟨hi, hr⟩ := ha
    by_cases hlt : i < j.m
    · unfold Call.step
      dsimp only
      rw [if_pos (by rw [ht.length]; exact hlt), ht.get hlt, bind_ok, hp.get hlt, bind_ok, j.first_ok hlt hd, bind_ok]
      refine Ok_ok.2 ⟨⟨⟨ht, hp, hd⟩, rfl, ?_⟩, ?_, fun k hk => Statics.get_set_ne s _ hk⟩
      · obtain ⟨fn, m, t, p⟩ := j
        cases fn
        · exact ⟨hlt, hr, Statics.get_set s .mse (t i - p i)⟩
        · exact ⟨hlt, hr, rfl, Statics.get_set s .msle ((p i + 1) / (t i + 1))⟩
      · cases hfn : j.fn <;> simp only [Call.meas, StaticLoss.next] <;> omega
    · have hi' : i = j.m := by omega
      subst hi'
      unfold Call.step
      dsimp only
      rw [if_neg (by rw [ht.length]; exact hlt)]
      refine Ok_ok.2 ⟨⟨⟨ht, hp, hd⟩, rfl, ?_⟩, ?_, fun k hk => rfl⟩
      · show result * 0.5 = e * 0.5 + j.loss
        rw [hr, j.loss_eq]; ring
      · show 0 ≤ _; omega
  | logR =>
    obtain ⟨hi, hr, hf, hs⟩ := ha
    exact Ok_ok.2 ⟨⟨⟨ht, hp, hd⟩, rfl, hi, hr, hf, hs⟩, by simp only [Call.meas]; omega, fun k hk => rfl⟩
  | logW x =>
    obtain ⟨hi, hr, hf, hs⟩ := ha
    exact Ok_ok.2 ⟨⟨⟨ht, hp, hd⟩, rfl, hi, hr, by rw [Statics.get_set, hs]; exact j.log_first hf hi hd⟩,
      by simp only [Call.meas]; omega, fun k hk => Statics.get_set_ne s _ hk⟩
  | sqR =>
    obtain ⟨hi, hr, hs⟩ := ha
    exact Ok_ok.2 ⟨⟨⟨ht, hp, hd⟩, rfl, hi, hr, hs, hs⟩, by simp only [Call.meas]; omega, fun k hk => rfl⟩
  | sqR2 x =>
    obtain ⟨hi, hr, hx, hs⟩ := ha
    exact Ok_ok.2 ⟨⟨⟨ht, hp, hd⟩, rfl, hi, by rw [hr, hs, hx, sum_range_succ, add_assoc]⟩, by simp only [Call.meas]; omega, fun k hk => rfl⟩
  | done => exact Ok_ok.2 ⟨⟨⟨ht, hp, hd⟩, rfl, ha⟩, by simp only [Call.meas]; omega, fun k hk => rfl⟩

theorem lget_ok {β : Type} {l : List β} {k : Nat} {x : β} (h : l[k]? = some x) : lget l k = .ok x := by unfold lget; rw [h]
theorem lset_ok {β : Type} {l : List β} {k : Nat} (h : k < l.length) (y : β) : lset l k y = .ok (l.set k y) := by
  unfold lset; rw [if_pos h]

/-- A step of thread `k`. -/
theorem threadStep_of {k : Nat} {st : Statics × List Call} {c : Call} (hc : st.2[k]? = some c) {Q : Statics × Call → Prop}
    (h : Ok (c.step st.1) Q) : Ok (threadStep k st) (fun r => ∃ c', r.2 = st.2.set k c' ∧ Q (r.1, c')) := by
  have hk : k < st.2.length := by
    by_contra hn; rw [List.getElem?_eq_none (by omega)] at hc; cases hc
  obtain ⟨⟨s', c'⟩, e, hQ⟩ := h
  unfold threadStep
  rw [lget_ok hc, bind_ok, e, bind_ok]
  dsimp only
  rw [lset_ok hk, bind_ok]
  exact Ok_ok.2 ⟨c', rfl, hQ⟩

/-- Running one thread `n` times. -/
theorem solo {k : Nat} {j : Job} {e : ℝ} (n : Nat) {st : Statics × List Call} {c : Call} (hc : st.2[k]? = some c) (h : j.Inv e st.1 c) :
    Ok (runThreads (List.replicate n k) st) (fun r => ∃ c', r.2 = st.2.set k c' ∧ j.Inv e r.1 c' ∧ c'.meas j.m ≤ c.meas j.m - n) := by
  induction n generalizing st c with
  | zero =>
    have hk : k < st.2.length := by
      by_contra hn; rw [List.getElem?_eq_none (by omega)] at hc; cases hc
    refine Ok_ok.2 ⟨c, ?_, h, by omega⟩
    rw [List.getElem?_eq_getElem hk] at hc
    cases hc
    exact (List.set_getElem_self hk).symm
  | succ n ih =>
    show Ok (threadStep k st >>= runThreads (List.replicate n k)) _
    refine (threadStep_of hc h.step).bind (fun r hr => ?_)
    obtain ⟨c', e1, hi, hm, -⟩ := hr
    dsimp only at hm
    have hk : k < st.2.length := by
      by_contra hn; rw [List.getElem?_eq_none (by omega)] at hc; cases hc
    refine (ih (st := r) (c := c') (by rw [e1, List.getElem?_set_self hk]) hi).mono (fun r' hr' => ?_)
    obtain ⟨c'', e2, hi', hm'⟩ := hr'
    exact ⟨c'', by rw [e2, e1, List.set_set], hi', by omega⟩

theorem runThreads_append (a b : List Nat) (st : Statics × List Call) :
    runThreads (a ++ b) st = runThreads a st >>= runThreads b := by
  induction a generalizing st with
  | nil => rfl
  | cons k ks ih =>
    show threadStep k st >>= runThreads (ks ++ b) = (threadStep k st >>= runThreads ks) >>= runThreads b
    cases threadStep k st with
    | error u => rfl
    | ok st' => exact ih st'

end Trixy.Losses
