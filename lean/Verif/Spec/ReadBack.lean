import Verif.Model.Track
/-!
What settings of several values should read like, and which calls change them.
-/
namespace BK

/-- The nearest number between `lo` and `hi`. -/
def nearest (lo hi v : Int) : Int := max lo (min hi v)

/-- The `i`-th value passed; missing ones count as 0. -/
def given (vals : List Int) (i : Nat) : Int := vals.getD i 0

/-- What an effect should read like after it was set: steps, amplitude and slide steps in their limits. -/
def effectWanted : Effect → List Int → List Int
  | .tremolo, vals => [nearest 0 65536 (given vals 0), nearest 0 32767 (given vals 1), nearest 0 65536 (given vals 2)]
  | .vibrato, vals => [nearest 0 65536 (given vals 0), given vals 1, nearest 0 65536 (given vals 2)]
  | _, vals => [nearest 0 65536 (given vals 0), 0, 0]

/-- What it reads like: the values of oscillators are scaled. -/
def effectRead : Effect → List Int → List Int
  | .tremolo, vals => [nearest 0 65536 (given vals 0) * 16384, nearest 0 32767 (given vals 1) * 32768, nearest 0 65536 (given vals 2)]
  | .vibrato, vals => [nearest 0 65536 (given vals 0) * 16384, given vals 1, nearest 0 65536 (given vals 2)]
  | _, vals => [nearest 0 65536 (given vals 0), 0, 0]

/-- An arpeggio reads like its first 8 notes. -/
def arpeggioWanted (ns : List Int) : List Int := (min ns.length 8 : Nat) :: ns.take 8

/-- A call that does not set effect `e`, nor all effects. -/
def TOp.leavesEffect (e : Effect) : TOp → Prop
  | .effect f _ => f ≠ e
  | .attr (.slide f) _ => f ≠ e
  | .clear => False
  | .reset => False
  | _ => True

/-- A call that does not set the arpeggio. -/
def TOp.leavesArpeggio : TOp → Prop
  | .arpeggio _ => False
  | .clear => False
  | .reset => False
  | _ => True

/-- A call that does not set the sample, its ranges or the waveform. -/
def TOp.leavesSample : TOp → Prop
  | .attr .waveform _ => False
  | .data _ _ => False
  | .range _ => False
  | .sustain _ => False
  | .clear => False
  | .reset => False
  | _ => True

/-- A call that does not change the instrument `i` of track `x`. -/
def WOp.leavesInstrument (x : Nat) (i : Option Nat) : WOp → Prop
  | .track y (.instrument _) => y ≠ x
  | .track y .clear => y ≠ x
  | .track y .reset => y ≠ x
  | .detachInstr j => some j ≠ i
  | .disposeInstr j => some j ≠ i
  | _ => True

end BK
