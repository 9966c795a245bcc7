import Verif.Spec.Swing
import Verif.Spec.Sweep
/-!
All effects of a track, in terms of calls.
-/
namespace BK

/-- A glide from note `a` to `b`, a fade from volume `S` to `v`, a sweep from place `A` to `B`, each with its own number of
steps, a vibrato and a tremolo. -/
def allCalls (d a b n S v n2 A B n3 D n4 E n5 : Int) : List TOp :=
  glideCalls d a b n ++ (fadeCalls d S v n2 ++ (sweepCalls d A B n3 ++ (vibratoCalls d D n4 ++ tremoloCalls d E n5)))

end BK
