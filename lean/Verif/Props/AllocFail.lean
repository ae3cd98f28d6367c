import Verif.Proof.AllocFail
import Verif.Props.Memory
/- C72: allocation failure in the middle of an operation. -/
namespace Trixy

variable {α : Type _}

/-! ## C72 exceptions from `new[]` -/

/-- Violated: in every state reached by a well-behaved history, if the allocation inside `x.resize(...)` fails while `x` owns
storage, the program cannot be saved: whatever it does afterwards (any operations, further allocation failures
included), either undefined behaviour occurs or an object still holds the pointer that was deleted. In particular it
cannot destroy all its objects. -/
theorem C72_resize_violated (ops : List (Op α)) (h : ValidHist (World.init : World α) ops) (w : World α)
    (hw : (World.init : World α).run ops = .ok w) (x d ht wd : Nat) (a : Obj) (hx : w.own x = some a) (hs : a.data ≠ .null) :
    ∃ w1, w.stepThrow (.resize x d ht wd) = .ok w1 ∧ (∃ a1, w1.own x = some a1 ∧ a1.data = a.data) ∧
      w1.step (.destroy x) = .error .badFree ∧
      ∀ es w2, FreshNames w1 es → w1.runEv es = .ok w2 → ∃ y o, w2.own y = some o ∧ o.data = a.data := by
  obtain ⟨w', e', I⟩ := run_inv (w := World.init) WInv.init ops h
  rw [hw] at e'; cases e'
  rcases I.owned x a hx with hn | ⟨b, hb, hl, _⟩
  · exact absurd hn hs
  obtain ⟨H1, eH, _, hnext, _, hlive⟩ := I.drop hx
  have key : ∃ a1 : Obj, a1.data = a.data ∧
      w.stepThrow (.resize x d ht wd) = .ok { w with heap := H1, own := upd w.own x (some a1) } := by
    show ∃ a1 : Obj, a1.data = a.data ∧ (look w.own x >>= _) = _
    simp only [look, hx, bind_ok, Obj.resizeThrow, eH]
    cases a.kind
    · exact ⟨⟨.vec, a.data, Shape.mk3 1 wd 1⟩, rfl, rfl⟩
    · exact ⟨⟨.mat, a.data, { a.shape with h := ht, w := wd, size := wmul ht wd }⟩, rfl, rfl⟩
    · exact ⟨⟨.ten, a.data, Shape.mk3 d ht wd⟩, rfl, rfl⟩
  obtain ⟨a1, ha1, e1⟩ := key
  have hg : Gone b H1 := ⟨fun hb' => ((hlive b).1 hb').2 hb, by rw [hnext]; exact I.fresh b hl⟩
  refine ⟨_, e1, ⟨a1, upd_self _ _ _, ha1⟩, ?_, fun es w2 hf h2 => ?_⟩
  · show (look (upd w.own x (some a1)) x >>= _) = _
    simp only [look, upd_self, bind_ok, Obj.destroy, ha1, hb, Heap.delete]
    rw [if_neg (fun hc => hg.1 hc.2)]; rfl
  · have := doomed_run es (b := b) (w := { w with heap := H1, own := upd w.own x (some a1) })
      ⟨hg, x, a1, upd_self _ _ _, ha1.trans hb⟩ hf w2 h2
    rw [hb]; exact this.2

/-- Violated: the same for copy assignment `x = y` between different objects. -/
theorem C72_assign_violated (ops : List (Op α)) (h : ValidHist (World.init : World α) ops) (w : World α)
    (hw : (World.init : World α).run ops = .ok w) (x y : Nat) (hne : x ≠ y) (a t : Obj) (hx : w.own x = some a)
    (hy : w.own y = some t) (hs : a.data ≠ .null) :
    ∃ w1, w.stepThrow (.copyAssign x y) = .ok w1 ∧ w1.own x = some a ∧
      w1.step (.destroy x) = .error .badFree ∧
      ∀ es w2, FreshNames w1 es → w1.runEv es = .ok w2 → ∃ y o, w2.own y = some o ∧ o.data = a.data := by
  obtain ⟨w', e', I⟩ := run_inv (w := World.init) WInv.init ops h
  rw [hw] at e'; cases e'
  rcases I.owned x a hx with hn | ⟨b, hb, hl, _⟩
  · exact absurd hn hs
  obtain ⟨H1, eH, _, hnext, _, hlive⟩ := I.drop hx
  have e1 : w.stepThrow (.copyAssign x y) = .ok { w with heap := H1, own := upd w.own x (some a) } := by
    show (look w.own x >>= _) = _
    simp only [look, hx, hy, bind_ok, Obj.copyAssignThrow, eH, if_neg hne]
    rfl
  have hg : Gone b H1 := ⟨fun hb' => ((hlive b).1 hb').2 hb, by rw [hnext]; exact I.fresh b hl⟩
  refine ⟨_, e1, upd_self _ _ _, ?_, fun es w2 hf h2 => ?_⟩
  · show (look (upd w.own x (some a)) x >>= _) = _
    simp only [look, upd_self, bind_ok, Obj.destroy, hb, Heap.delete]
    rw [if_neg (fun hc => hg.1 hc.2)]; rfl
  · have := doomed_run es (b := b) (w := { w with heap := H1, own := upd w.own x (some a) })
      ⟨hg, x, a, upd_self _ _ _, hb⟩ hf w2 h2
    rw [hb]; exact this.2

/-- Histories in which allocations fail only in constructors or in `resize` / copy assignment of objects without storage
stay free of undefined behaviour, every allocation keeps exactly one owner, and nothing is leaked. -/
theorem C72_harmless_failures_partial (es : List (MemEv α)) (h : ValidEvs (World.init : World α) es) :
    ∃ w', (World.init : World α).runEv es = .ok w' ∧
      ((∀ x, w'.own x = none) → ∀ b, ¬ w'.heap.live b) ∧
      (∀ b, w'.heap.live b → ∃ x o, w'.own x = some o ∧ o.data = .at b 0 ∧
        ∀ y o', w'.own y = some o' → o'.data = .at b 0 → y = x) ∧
      (∀ x o, w'.own x = some o → o.Usable → w'.heap.Room o.data o.shape.size) := by
  obtain ⟨w', h1, I⟩ := runEv_inv (w := World.init) es WInv.init h
  refine ⟨w', h1, fun hn b hb => ?_, fun b hb => ?_, fun x o hx hu => ?_⟩
  · obtain ⟨x, o, h2, _⟩ := I.noleak b hb
    rw [hn x] at h2; cases h2
  · obtain ⟨x, o, h2, h3⟩ := I.noleak b hb
    exact ⟨x, o, h2, h3, fun y o' hy ho => I.inj y x o' o b hy h2 ho h3⟩
  · rcases hu.storage I hx with h0 | ⟨b, h1, _, h3⟩
    · exact Or.inl h0
    · exact Or.inr ⟨b, 0, h1, by simpa using h3⟩

/-- Constructors give the strong guarantee: a failing one changes nothing. -/
theorem C72_constructor_partial (w : World α) (x y : Nat) (k : Kind) (d ht wd : Nat) (v : α) (l : List α) (t : Obj)
    (hy : w.own y = some t) :
    w.stepThrow (.sizedCtor x k d ht wd) = .ok w ∧ w.stepThrow (.valueCtor x k d ht wd v) = .ok w ∧
    w.stepThrow (.listCtor x k l) = .ok w ∧ w.stepThrow (.copyCtor x y) = .ok w := by
  refine ⟨rfl, rfl, rfl, ?_⟩
  show (look w.own y >>= _) = _
  simp only [look, hy, bind_ok]; rfl

/-- The hypotheses of the negative results are met: a 2×3 matrix whose `resize(50, 50)` fails. -/
example : ∃ w1, (((World.init : World Nat).run [.valueCtor 0 .mat 1 2 3 7]) >>= fun w => w.stepThrow (.resize 0 1 50 50)) = .ok w1 ∧
    w1.step (.destroy 0) = .error .badFree := by
  obtain ⟨w1, h1, _, h2, _⟩ := C72_resize_violated (α := Nat) [.valueCtor 0 .mat 1 2 3 7]
    (.cons (Eq.refl none) rfl trivial) _ rfl 0 1 50 50 _ rfl (by decide)
  exact ⟨w1, h1, h2⟩

/-- A history with harmless failures: a failing constructor, a failing resize of a default constructed tensor, then normal
use of both. -/
example : ValidEvs (World.init : World Nat)
    [.threw (.sizedCtor 0 .ten 9 9 9), .done (.defaultCtor 0 .ten), .threw (.resize 0 9 9 9), .done (.resize 0 2 2 2),
     .done (.fill 0 1), .threw (.copyCtor 1 0), .done (.copyCtor 1 0), .done (.destroy 0), .done (.destroy 1)] := by
  refine ⟨Eq.refl none, trivial, fun w1 e => ?_⟩; cases e
  refine ⟨Eq.refl none, fun w1 e => ?_⟩; cases e
  refine ⟨⟨_, rfl⟩, fun a ha => by cases ha; rfl, fun w1 e => ?_⟩; cases e
  refine ⟨⟨_, rfl⟩, fun w1 e => ?_⟩; cases e
  refine ⟨⟨_, rfl, Or.inl (by decide)⟩, fun w1 e => ?_⟩; cases e
  refine ⟨⟨Eq.refl none, _, rfl, Or.inl (by decide)⟩, trivial, fun w1 e => ?_⟩; cases e
  refine ⟨⟨Eq.refl none, _, rfl, Or.inl (by decide)⟩, fun w1 e => ?_⟩; cases e
  refine ⟨⟨_, rfl⟩, fun w1 e => ?_⟩; cases e
  refine ⟨⟨_, rfl⟩, fun w1 e => ?_⟩; cases e
  trivial

end Trixy
