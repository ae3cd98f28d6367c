import Verif.Props.Place
import Verif.Props.Checkpoint
/- C79 for networks with a convolution. -/
namespace Trixy

/-- Convolution → fully connected (`plTrain`): batch for `E₁` epochs, save, load into new objects, batch for `E₂` epochs. -/
def cvResumed {σ : Type} (upd : Upd σ ℚ) (s : σ) (E₁ E₂ : Nat) : Res (List (List (Buf ℚ))) := do
  let r ← Train.batch upd [⟨1, 1, 3, Buf.of [1, 2, 3]⟩] [⟨1, 1, 1, Buf.of [38]⟩] E₁ (s, plTrain 3 4 5 6)
  let t' ← reload ckCodec ckReg (fun i => (20 + 2 * i, fun _ => 21 + 2 * i)) [] (sqLoss 1 1) r.2.net
  let r ← Train.batch upd [⟨1, 1, 3, Buf.of [1, 2, 3]⟩] [⟨1, 1, 1, Buf.of [38]⟩] E₂ (r.1, t')
  return r.2.net.params

/-- VIOLATED with GradDescent, too, as soon as there is a convolution: the scaled gradients it carries from one step to the next (C84) are not part
of what is saved, so one epoch, saving, loading and another epoch leave other filters than two epochs. -/
theorem C79_convolution_violated :
    ∃ r r', trained (Train.batch gdUpdate [⟨1, 1, 3, Buf.of [1, 2, 3]⟩] [⟨1, 1, 1, Buf.of [38]⟩] 2 ((1/64 : ℚ), plTrain 3 4 5 6)) = .ok r ∧
      cvResumed gdUpdate (1/64 : ℚ) 1 1 = .ok r' ∧ r ≠ r' := by
  refine ⟨[[Buf.of [21349 / 2048], Buf.of [21587 / 2048, 3319 / 256]], [Buf.of [239 / 128], Buf.of [4299 / 1024, 8971 / 2048]]],
    [[Buf.of [21363 / 2048], Buf.of [21609 / 2048, 6647 / 512]], [Buf.of [239 / 128], Buf.of [4299 / 1024, 8971 / 2048]]], ?_, ?_, ?_⟩ <;> decide +kernel

/-- Saving and loading alone changes no parameter here. -/
example : cvResumed gdUpdate (1/64 : ℚ) 1 0 =
    trained (Train.batch gdUpdate [⟨1, 1, 3, Buf.of [1, 2, 3]⟩] [⟨1, 1, 1, Buf.of [38]⟩] 1 ((1/64 : ℚ), plTrain 3 4 5 6)) := by decide +kernel

end Trixy
