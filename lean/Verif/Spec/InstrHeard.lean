import Verif.Spec.Played
/-!
What the parts of an instrument add to a note.
-/
namespace BK

/-- What part `k` of instrument `i` (0 volume, 1 panning, 2 pitch, 3 duty cycle) gives when it has advanced `f` times: the value
written there, or full volume and no change if the instrument has no such part. -/
def IWorld.Gives (w : IWorld) (i k f : Nat) (a : Int) : Prop :=
  (∃ vals so sl, vals ≠ [] ∧ (NewSeq.values vals so sl).Short ∧ w.Plays i k (.values vals so sl) ∧ a = heldValue vals so sl f) ∨
  ((w.instrs i).sequences k = none ∧ k ≠ 3 ∧ a = if k = 0 then 32767 else 0)

/-- The same for a note released when the part had advanced `f` times, after `g` more times. -/
def IWorld.GivesReleased (w : IWorld) (i k f g : Nat) (a : Int) : Prop :=
  (∃ vals so sl, vals ≠ [] ∧ (NewSeq.values vals so sl).Short ∧ w.Plays i k (.values vals so sl) ∧
    a = releasedValue vals so sl (heldValue vals so sl f) g) ∨
  ((w.instrs i).sequences k = none ∧ k ≠ 3 ∧ a = if k = 0 then 32767 else 0)

end BK
