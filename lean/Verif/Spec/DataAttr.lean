import Verif.Model.DataAttr
/-!
What the settings of a data object should be, told by the calls that were made.
-/
namespace BK

/-- Numbers of frames and channels after some calls: those of the last call that was accepted. -/
def framesSet (ops : List DOp) : Option (Nat × Nat) :=
  (ops.filterMap fun
    | .frames n c => if 2 ≤ n ∧ 1 ≤ c ∧ c ≤ 8 then some (n, c) else none
    | _ => none).getLast?

/-- The pitch that was given last. -/
def pitchGiven (ops : List DOp) : Option Int :=
  (ops.filterMap fun | .attr .samplePitch v => some v | _ => none).getLast?

/-- A position in `n` frames: negative numbers count from the end, −1 is the end; others are limited. -/
def position (n v : Int) : Int := if v < 0 then max 0 (n + 1 + v) else min n v

/-- A range: two positions in order; nothing if there is no range or if its ends are equal. -/
def rangeOf (n : Int) : Option (Int × Int) → Int × Int
  | none => (0, 0)
  | some (a, b) => if a = b then (0, 0) else (min (position n a) (position n b), max (position n a) (position n b))

end BK
