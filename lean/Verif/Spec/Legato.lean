import Verif.Props.Played
/-!
Notes played one after the other without a release between them.
-/
namespace BK

/-- Notes, each with the number of ticks until the next. -/
def melody (x : Nat) (ms : List (Int × Nat)) : List WOp := ms.flatMap fun p => notePlayed x p.1 p.2

/-- The number of ticks of all notes. -/
def melodyTicks (ms : List (Int × Nat)) : Nat := (ms.map (·.2)).sum

end BK
