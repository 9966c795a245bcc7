import Verif.Spec.Instrument
import Verif.Spec.Track
/-!
What a note with an instrument plays.
-/
namespace BK

/-- Sequence `k` of instrument `i` is the one set with `new`. -/
def IWorld.Plays (w : IWorld) (i k : Nat) (new : NewSeq) : Prop :=
  ∃ id q, (w.instrs i).sequences k = some id ∧ w.heap id = some q ∧ new.create = .ok (some (some q))

/-- The sequence has a part that lasts as long as the note is held. -/
def NewSeq.Sustained : NewSeq → Prop
  | .nothing => False
  | .values vals so _ => sustainBegin vals.length so < vals.length
  | .points ps so _ => sustainBegin ps.length so < ps.length

/-- The value of a value sequence while the note is held, when it has advanced `f` times: the first
time shows the first value, as before.  A sequence without sustain range stays at its last value. -/
def heldValue (vals : List Int) (so sl : Int) (f : Nat) : Int :=
  entry vals (if sustainBegin vals.length so < vals.length
    then heldIndex (sustainBegin vals.length so) (max (sustainSize vals.length so sl) 1) (f - 1)
    else min (f - 1) (vals.length - 1))

/-- The same after release: the values behind the sustain range, then the last value.  If there are
none, the value `v` at the time of the release stays. -/
def releasedValue (vals : List Int) (so sl : Int) (v : Int) (f : Nat) : Int :=
  if sustainBegin vals.length so + sustainSize vals.length so sl < vals.length
  then entry vals (min (sustainBegin vals.length so + sustainSize vals.length so sl + (f - 1)) (vals.length - 1))
  else v

/-- A value sequence has come to its end while the note is held: it has no sustain range and has advanced
past its last value. -/
def heldOver (vals : List Int) (so : Int) (f : Nat) : Prop :=
  sustainBegin vals.length so = vals.length ∧ vals.length < f

/-- The same after release. -/
def releasedOver (vals : List Int) (so sl : Int) (f : Nat) : Prop :=
  sustainBegin vals.length so + sustainSize vals.length so sl = vals.length ∨
  vals.length < sustainBegin vals.length so + sustainSize vals.length so sl + f

end BK
