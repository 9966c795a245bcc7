import Verif.Spec.AllFx
/-!
An arpeggio set on a track, in terms of calls.
-/
namespace BK

/-- Advance every `d` ticks; play the arpeggio of the intervals `ns` from its beginning. -/
def arpCalls (d : Int) (ns : List Int) : List TOp :=
  [.attr .arpeggioDivider d, .arpeggio [1, 0], .arpeggio (ns.length :: ns)]

/-- The interval heard at tick `k`: each one for `d` ticks, in order, over and over. -/
def intervalAt (d : Nat) (ns : List Int) (k : Nat) : Int := ns.getD (k / d % ns.length) 0

end BK
