import Verif.Spec.InstrHeard
import Verif.Spec.Line
/-!
The course of a loudness with attack, decay, sustain and release.
-/
namespace BK

/-- The level `f j` after `j` ticks while the note is held: from `v0` up to the maximum within `a` ticks, down to `s`
within further `d` ticks, then `s`; on straight lines if these take at most 32768 ticks. -/
structure AdsrHeld (a d : Nat) (s v0 : Int) (f : Nat → Int) : Prop where
  start : 0 < a → f 0 = v0
  rise : ∀ j, j + 1 < a → f j ≤ f (j + 1)
  most : ∀ j, f j ≤ 32767
  peak : 0 < d → f a = 32767
  fall : ∀ j, a ≤ j → j + 1 < a + d → f (j + 1) ≤ f j
  above : ∀ j, a ≤ j → s ≤ f j
  hold : ∀ j, a + d ≤ j → f j = s
  riseLine : a ≤ 32768 → ∀ j, j < a → NearLine a v0 32767 j (f j)
  fallLine : d ≤ 32768 → ∀ j, j < d → NearLine d 32767 s j (f (a + j))

/-- The level `g j` when the note was released `j` ticks ago at level `v0`: down to silence within `r` ticks,
on a straight line if these are at most 32768. -/
structure AdsrReleased (r : Nat) (v0 : Int) (g : Nat → Int) : Prop where
  start : 0 < r → g 0 = v0
  fall : ∀ j, j + 1 < r → g (j + 1) ≤ g j
  above : ∀ j, 0 ≤ g j
  silent : ∀ j, r ≤ j → g j = 0
  line : r ≤ 32768 → ∀ j, j < r → NearLine r v0 0 j (g j)

/-- The parts of instrument `i` besides the volume are value sequences. -/
def IWorld.OtherValues (w : IWorld) (i : Nat) : Prop :=
  ∀ k id, 0 < k → (w.instrs i).sequences k = some id →
    ∃ vals so sl, vals ≠ [] ∧ (NewSeq.values vals so sl).Short ∧ w.Plays i k (.values vals so sl)

end BK
