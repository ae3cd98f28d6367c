import Verif.Proof.HeapInit
/- The loss classes of Loss.hpp on objects in memory compute what they compute on values. -/
namespace Trixy.HLosses
open Losses

set_option linter.unusedSectionVars false

theorem MSE_follows : HLosses.MSE.Follows Losses.MSE := by
  refine HLoss.elementwise_follows (fun bt bp v e => ?_) (fun br bt bp b e => ?_)
  · obtain ⟨s, e1, e⟩ := res_inv e
    cases e
    refine ⟨s, forN_read (fun i _ m m' he => ?_) e1, rfl⟩
    exact he
  · refine forN_read (fun i _ m m' he => ?_) e
    obtain ⟨b', f1, he⟩ := res_inv he
    obtain ⟨a', f2, he⟩ := res_inv he
    rw [f2, bind_ok, f1, bind_ok]; exact he

theorem CCE_follows : HLosses.CCE.Follows Losses.CCE := by
  refine HLoss.elementwise_follows (fun bt bp v e => ⟨v, e, rfl⟩) (fun br bt bp b e => ?_)
  refine forN_read (fun i _ m m' he => ?_) e
  obtain ⟨b', f1, he⟩ := res_inv he
  obtain ⟨a', f2, he⟩ := res_inv he
  rw [f2, bind_ok, f1, bind_ok]; exact he

theorem BCE_follows : HLosses.BCE.Follows Losses.BCE :=
  HLoss.elementwise_follows (fun _ _ v e => ⟨v, e, rfl⟩) (fun _ _ _ _ e => e)

theorem NLL_follows : HLosses.NLL.Follows Losses.NLL := by
  refine HLoss.elementwise_follows (fun bt bp v e => ?_) (fun br bt bp b e => ?_)
  · obtain ⟨s, e1, e⟩ := res_inv e
    cases e
    exact ⟨s, e1, rfl⟩
  · refine forN_read (fun i _ m m' he => ?_) e
    obtain ⟨b', f1, he⟩ := res_inv he
    obtain ⟨a', f2, he⟩ := res_inv he
    rw [f2, bind_ok, f1, bind_ok]; exact he

theorem LC_follows : HLosses.LC.Follows Losses.LC := by
  refine HLoss.elementwise_follows (fun bt bp v e => ⟨v, ?_, rfl⟩) (fun br bt bp b e => ?_)
  · refine forN_read (fun i _ m m' he => ?_) e
    obtain ⟨b', f1, he⟩ := res_inv he
    obtain ⟨a', f2, he⟩ := res_inv he
    rw [f2, bind_ok, f1, bind_ok]; exact he
  · refine forN_read (fun i _ m m' he => ?_) e
    obtain ⟨b', f1, he⟩ := res_inv he
    obtain ⟨a', f2, he⟩ := res_inv he
    rw [f2, bind_ok, f1, bind_ok]; exact he

theorem MAE_follows : HLosses.MAE.Follows Losses.MAE := by
  have base : (HLoss.elementwise (α := ℝ) (fun s a b => .ok (s + |b - a|)) id (fun a _ => .ok a)).Follows
      ⟨mae, fun r t p => forN r.length r (fun i r => do
        let a ← Buf.get t i
        let b ← Buf.get p i
        let q ← (Except.ok a : Res ℝ)
        Buf.set r i q)⟩ := by
    refine HLoss.elementwise_follows (fun bt bp v e => ⟨v, ?_, rfl⟩) (fun br bt bp b e => e)
    refine forN_read (fun i _ m m' he => ?_) e
    obtain ⟨b', f1, he⟩ := res_inv he
    obtain ⟨a', f2, he⟩ := res_inv he
    rw [f2, bind_ok, f1, bind_ok]; exact he
  refine ⟨fun H t p bt bp v ht hp e => base.f H t p bt bp v ht hp e, fun H r t p br bt bp b hr ht hp at' ap e => ?_⟩
  show Ok (forN r.shape.size H _) _
  rw [hr.1]
  have at1 : Trixy.Apart r.data br.length t.data bt.length := by rw [← hr.1, ← ht.1]; exact at'
  have ap1 : Trixy.Apart r.data br.length p.data bp.length := by rw [← hr.1, ← hp.1]; exact ap
  refine Ok.mono (P := fun H' => One r.data br.length H H' b) ?_ (fun H' h => One.sets hr.1 h)
  refine forN_sim (One r.data br.length H) (One.start hr.2 rfl) (fun i _ s t t' hR he => ?_) e
  obtain ⟨u, f1, he⟩ := res_inv he
  obtain ⟨y, f2, he⟩ := res_inv he
  obtain ⟨r1, f3, he⟩ := res_inv he
  obtain ⟨d, f4, he⟩ := res_inv he
  unfold Obj.get1 Obj.set1
  rw [hR.other ht.2 at1 f1, bind_ok, hR.other hp.2 ap1 f2, bind_ok]
  refine (hR.store f3).bind (fun H1 h1 => ?_)
  rw [h1.self f4, bind_ok]
  exact h1.store he

theorem MSLE_follows : HLosses.MSLE.Follows Losses.MSLE := by
  have base : (HLoss.elementwise (α := ℝ) (fun s a b => do let f ← fdiv (b + 1) (a + 1); return s + Real.log f * Real.log f) (· * 0.5)
      (fun a _ => .ok a)).Follows
      ⟨msle, fun r t p => forN r.length r (fun i r => do
        let a ← Buf.get t i
        let b ← Buf.get p i
        let q ← (Except.ok a : Res ℝ)
        Buf.set r i q)⟩ := by
    refine HLoss.elementwise_follows (fun bt bp v e => ?_) (fun br bt bp b e => e)
    obtain ⟨s, e1, e⟩ := res_inv e
    cases e
    refine ⟨s, ?_, rfl⟩
    refine forN_read (fun i _ m m' he => ?_) e1
    obtain ⟨b', f1, he⟩ := res_inv he
    obtain ⟨a', f2, he⟩ := res_inv he
    rw [f2, bind_ok, f1, bind_ok]; exact he
  refine ⟨fun H t p bt bp v ht hp e => base.f H t p bt bp v ht hp e, fun H r t p br bt bp b hr ht hp at' ap e => ?_⟩
  show Ok (forN r.shape.size H _) _
  rw [hr.1]
  have at1 : Trixy.Apart r.data br.length t.data bt.length := by rw [← hr.1, ← ht.1]; exact at'
  have ap1 : Trixy.Apart r.data br.length p.data bp.length := by rw [← hr.1, ← hp.1]; exact ap
  refine Ok.mono (P := fun H' => One r.data br.length H H' b) ?_ (fun H' h => One.sets hr.1 h)
  refine forN_sim (One r.data br.length H) (One.start hr.2 rfl) (fun i _ s t t' hR he => ?_) e
  obtain ⟨u, f1, he⟩ := res_inv he
  obtain ⟨r1, f2, he⟩ := res_inv he
  obtain ⟨d, f3, he⟩ := res_inv he
  obtain ⟨y, f4, he⟩ := res_inv he
  obtain ⟨q, f5, he⟩ := res_inv he
  obtain ⟨d2, f6, he⟩ := res_inv he
  obtain ⟨q2, f7, he⟩ := res_inv he
  unfold Obj.get1 Obj.set1
  rw [hR.other hp.2 ap1 f1, bind_ok]
  refine (hR.store f2).bind (fun H1 h1 => ?_)
  cases f3.symm.trans f6
  rw [h1.self f3, bind_ok, h1.other ht.2 at1 f4, bind_ok, f5, bind_ok, bind_ok]
  rw [f7, bind_ok] at he ⊢
  exact h1.store he

end Trixy.HLosses
