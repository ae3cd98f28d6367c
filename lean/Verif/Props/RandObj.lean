import Verif.Spec.RandObj
import Verif.Proof.Base
import Mathlib.Tactic.Common
/- C81: whose numbers are they? -/
namespace Trixy

variable {ρ γ : Type}

theorem drawnFrom_append (x : Nat) (a b : List (Nat × Int)) : drawnFrom x (a ++ b) = drawnFrom x a ++ drawnFrom x b := by
  unfold drawnFrom
  rw [List.filter_append, List.map_append]

theorem drawnFrom_one (x : Nat) (v : Int) : drawnFrom x [(x, v)] = [v] := by simp [drawnFrom]

theorem drawnFrom_other {x y : Nat} (h : y ≠ x) (v : Int) : drawnFrom x [(y, v)] = [] := by simp [drawnFrom, h]

theorem RWorld.run_append (G : GenClass ρ γ) : ∀ (w : RWorld ρ γ) (es fs : List REv),
    RWorld.run G w (es ++ fs) = (RWorld.run G w es >>= fun w => RWorld.run G w fs)
  | w, [], fs => rfl
  | w, e :: es, fs => by
    show (w.step G e >>= fun w => RWorld.run G w (es ++ fs)) = ((w.step G e >>= fun w => RWorld.run G w es) >>= _)
    rw [bind_assoc]
    exact bind_congr (fun w => RWorld.run_append G w es fs)

theorem RWorld.get_some {w : RWorld ρ γ} {x : Nat} {g : γ} (h : w.objs x = some g) : w.get x = .ok g := by
  unfold RWorld.get
  rw [h]

theorem rstream_length {τ : Type} (next : τ → Int × τ) : ∀ (k : Nat) (t : τ), (rstream next k t).length = k
  | 0, _ => rfl
  | k + 1, t => congrArg (· + 1) (rstream_length next k _)

section own
variable (init : Nat → γ) (next : γ → Int × γ)

/-- An event that does not touch `x` leaves it and its numbers alone. -/
theorem own_other {w w' : RWorld ρ γ} {x : Nat} {e : REv} (he : e.touches x ≠ true) (h : w.step (ownGen init next) e = .ok w') :
    w'.objs x = w.objs x ∧ drawnFrom x w'.out = drawnFrom x w.out := by
  have key : ∀ y, ¬(y == x) = true → x ≠ y := fun y hy e => hy (by rw [e]; simp)
  cases e with
  | make y s =>
    cases h
    exact ⟨if_neg (key y he), rfl⟩
  | makeNow y s =>
    cases h
    exact ⟨if_neg (key y he), rfl⟩
  | seed y s =>
    unfold RWorld.step at h
    dsimp only at h
    cases hg : w.get y with
    | error u => rw [hg] at h; cases h
    | ok g => rw [hg] at h; cases h; exact ⟨if_neg (key y he), rfl⟩
  | draw y =>
    unfold RWorld.step at h
    dsimp only at h
    cases hg : w.get y with
    | error u => rw [hg] at h; cases h
    | ok g =>
      rw [hg] at h; cases h
      refine ⟨if_neg (key y he), ?_⟩
      show drawnFrom x (w.out ++ [(y, _)]) = _
      rw [drawnFrom_append, drawnFrom_other (fun e => key y he e.symm), List.append_nil]
  | copy y z =>
    unfold RWorld.step at h
    dsimp only at h
    cases hg : w.get y with
    | error u => rw [hg] at h; cases h
    | ok g => rw [hg] at h; cases h; exact ⟨if_neg (key z he), rfl⟩

/-- From an object in state `g` the numbers are the stream of `g`, whatever happens to other objects. -/
theorem own_stream (x : Nat) : ∀ (post : List REv) (w w' : RWorld ρ γ) (g : γ), w.objs x = some g →
    RWorld.run (ownGen init next) w post = .ok w' → (∀ e ∈ post, e.touches x = true → e = .draw x) →
    drawnFrom x w'.out = drawnFrom x w.out ++ rstream next (post.count (.draw x)) g
  | [], w, w', g, _, h, _ => by
    cases h
    simp [rstream]
  | e :: post, w, w', g, hg, h, ht => by
    have h' : (w.step (ownGen init next) e >>= fun w => RWorld.run (ownGen init next) w post) = .ok w' := h
    cases hs : w.step (ownGen init next) e with
    | error u => rw [hs] at h'; cases h'
    | ok w1 =>
      rw [hs, bind_ok] at h'
      by_cases he : e.touches x = true
      · have := ht e (by simp) he
        subst this
        unfold RWorld.step at hs
        dsimp only at hs
        rw [RWorld.get_some hg, bind_ok] at hs
        cases hs
        rw [own_stream x post _ w' (next g).2 (if_pos rfl) h' (fun e he => ht e (by simp [he])), List.count_cons_self]
        show drawnFrom x (w.out ++ [(x, (next g).1)]) ++ _ = _
        rw [drawnFrom_append, drawnFrom_one, List.append_assoc]
        rfl
      · obtain ⟨h1, h2⟩ := own_other init next he hs
        rw [own_stream x post _ w' g (h1.trans hg) h' (fun e he => ht e (by simp [he])), h2, List.count_cons_of_ne]
        intro e1
        subst e1
        simp [REv.touches] at he

theorem own_seeded {w w' : RWorld ρ γ} {x s : Nat} {e : REv} (he : e.Seeds x s) (h : w.step (ownGen init next) e = .ok w') :
    w'.objs x = some (init s) := by
  rcases he with rfl | rfl | rfl
  · unfold RWorld.step at h
    dsimp only at h
    cases hg : w.get x with
    | error u => rw [hg] at h; cases h
    | ok g => rw [hg] at h; cases h; exact if_pos rfl
  · cases h; exact if_pos rfl
  · cases h; exact if_pos rfl

theorem run_last {G : GenClass ρ γ} {w w' : RWorld ρ γ} {pre : List REv} {e : REv} (h : RWorld.run G w (pre ++ [e]) = .ok w') :
    ∃ w1, RWorld.run G w pre = .ok w1 ∧ w1.step G e = .ok w' := by
  rw [RWorld.run_append] at h
  cases h1 : RWorld.run G w pre with
  | error u => rw [h1] at h; cases h
  | ok w1 =>
    rw [h1, bind_ok] at h
    refine ⟨w1, rfl, ?_⟩
    have h' : (w1.step G e >>= fun w => RWorld.run G w []) = .ok w' := h
    cases h2 : w1.step G e with
    | error u => rw [h2] at h'; cases h'
    | ok w2 => rw [h2] at h'; exact h'

/-- With a generator class that keeps its state in the object, the seed decides the numbers. -/
theorem C81_own : SeedDecides (ρ := ρ) (ownGen init next) (fun s k => rstream next k (init s)) := by
  intro r pre post x s ev w w' he h1 h2 ht
  obtain ⟨w1, _, h3⟩ := run_last h1
  exact own_stream init next x post w w' _ (own_seeded init next he h3) h2 ht

/-- A copy continues like the original: as many numbers drawn from either are the same numbers. -/
theorem C81_copy (r : ρ) (pre post : List REv) (x y : Nat) (hxy : x ≠ y) (w w' : RWorld ρ γ)
    (h1 : RWorld.run (ownGen init next) (RWorld.init r) (pre ++ [.copy x y]) = .ok w) (h2 : RWorld.run (ownGen init next) w post = .ok w')
    (hx : ∀ e ∈ post, e.touches x = true → e = .draw x) (hy : ∀ e ∈ post, e.touches y = true → e = .draw y)
    (hc : post.count (.draw x) = post.count (.draw y)) :
    ∃ new, drawnFrom x w'.out = drawnFrom x w.out ++ new ∧ drawnFrom y w'.out = drawnFrom y w.out ++ new ∧ new.length = post.count (.draw x) := by
  obtain ⟨w1, _, h3⟩ := run_last h1
  unfold RWorld.step at h3
  dsimp only at h3
  cases hg : w1.objs x with
  | none =>
    unfold RWorld.get at h3
    rw [hg] at h3
    cases h3
  | some g =>
    rw [RWorld.get_some hg, bind_ok] at h3
    cases h3
    refine ⟨rstream next (post.count (.draw x)) g, own_stream init next x post _ w' g ((if_neg hxy).trans hg) h2 hx, ?_, ?_⟩
    · rw [hc]
      exact own_stream init next y post _ w' g (if_pos rfl) h2 hy
    · exact rstream_length next _ g

end own

section default
variable (C : CRand ρ)

/-- With the default generator it does not, as soon as two seeds have different first numbers: constructing or seeding another `Random`
object in between changes the numbers. -/
theorem C81_default_violated (r : ρ) (a b : Nat) (hab : (C.rand (C.srand (a % 2 ^ 32))).1 ≠ (C.rand (C.srand (b % 2 ^ 32))).1) :
    ¬ ∃ number, SeedDecides (defaultGen C) number := by
  intro ⟨number, h⟩
  have h1 := h r [] [.draw 0] 0 a (.make 0 a) _ _ (Or.inr (Or.inl rfl)) rfl rfl (by simp [REv.touches])
  have h2 := h r [] [.make 1 b, .draw 0] 0 a (.make 0 a) _ _ (Or.inr (Or.inl rfl)) rfl rfl (by simp [REv.touches])
  have e : ([.make 1 b, .draw 0] : List REv).count (.draw 0) = ([.draw 0] : List REv).count (.draw 0) := by simp
  rw [e] at h2
  rw [← h1.trans rfl] at h2
  simp [drawnFrom, RWorld.put, RWorld.init, defaultGen] at h2
  exact hab h2.symm

/-- Drawing from one object also moves the others on: two objects with the same seed share one stream. -/
theorem C81_default_shared (r : ρ) (s : Nat) :
    numbersOf (defaultGen C) r [.make 1 s, .make 0 s, .draw 1, .draw 0] 0 = .ok [(C.rand (C.rand (C.srand (s % 2 ^ 32))).2).1] := by
  show Except.ok (drawnFrom 0 [(1, _), (0, _)]) = _
  simp [drawnFrom]
  rfl

theorem default_stream : ∀ (post : List REv) (w w' : RWorld ρ Unit), RWorld.run (defaultGen C) w post = .ok w' →
    (∀ e ∈ post, ∃ y, e = .draw y) → w'.out.map Prod.snd = w.out.map Prod.snd ++ rstream C.rand post.length w.lib
  | [], w, w', h, _ => by
    cases h
    simp [rstream]
  | e :: post, w, w', h, hp => by
    have h' : (w.step (defaultGen C) e >>= fun w => RWorld.run (defaultGen C) w post) = .ok w' := h
    obtain ⟨y, rfl⟩ := hp e (by simp)
    cases hg : w.get y with
    | error u =>
      unfold RWorld.step at h'
      dsimp only at h'
      rw [hg] at h'
      cases h'
    | ok g =>
      unfold RWorld.step at h'
      dsimp only at h'
      rw [hg, bind_ok] at h'
      rw [default_stream post _ w' h' (fun e he => hp e (by simp [he]))]
      show List.map _ (w.out ++ [(y, (C.rand w.lib).1)]) ++ _ = _
      rw [List.map_append, List.append_assoc]
      rfl

/-- What holds: the numbers drawn from all `Random` objects together after the last seeding are those of that seed (of its 32 low bits). -/
theorem C81_default_partial (r : ρ) (pre post : List REv) (x s : Nat) (ev : REv) (he : ev.Seeds x s) (w w' : RWorld ρ Unit)
    (h1 : RWorld.run (defaultGen C) (RWorld.init r) (pre ++ [ev]) = .ok w) (h2 : RWorld.run (defaultGen C) w post = .ok w')
    (hp : ∀ e ∈ post, ∃ y, e = .draw y) :
    w'.out.map Prod.snd = w.out.map Prod.snd ++ rstream C.rand post.length (C.srand (s % 2 ^ 32)) := by
  obtain ⟨w1, _, h3⟩ := run_last h1
  have hl : w.lib = C.srand (s % 2 ^ 32) := by
    rcases he with rfl | rfl | rfl
    · unfold RWorld.step at h3
      dsimp only at h3
      cases hg : w1.get x with
      | error u => rw [hg] at h3; cases h3
      | ok g => rw [hg] at h3; cases h3; rfl
    · cases h3; rfl
    · cases h3; rfl
  rw [← hl]
  exact default_stream C post w w' h2 hp

end default

/-! ### Example: a small linear congruential `rand` -/

def lcg : CRand Nat := ⟨fun s => s, fun r => ((r * 5 + 3) % 16, (r * 5 + 3) % 16)⟩

example : (lcg.rand (lcg.srand (1 % 2 ^ 32))).1 ≠ (lcg.rand (lcg.srand (2 % 2 ^ 32))).1 := by decide

example : numbersOf (defaultGen lcg) 1 [.make 0 1, .draw 0, .make 1 2, .draw 0] 0 = .ok [8, 13] ∧
    numbersOf (defaultGen lcg) 1 [.make 0 1, .draw 0, .draw 0] 0 = .ok [8, 11] ∧
    numbersOf (ownGen (ρ := Nat) (fun s => s) lcg.rand) 1 [.make 0 1, .draw 0, .make 1 2, .draw 1, .draw 0] 0 = .ok [8, 11] := by
  decide +kernel

end Trixy
