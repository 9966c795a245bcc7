import Verif.Spec.ArpHeard
import Verif.Model.Track
/-!
An arpeggio set on a track.
-/
namespace BK

/-- Have track `x` play the arpeggio of the intervals `ns`, each for `e` ticks. -/
def arpSet (x e : Nat) (ns : List Int) : List WOp := (arpCalls e ns).map (.track x)

end BK
