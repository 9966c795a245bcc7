import Verif.Spec.Fade
/-!
Panning slides set on a track, in terms of calls.
-/
namespace BK

/-- Make one step every `d` ticks; have panning `S` at once, then `v` in `n` steps. -/
def sweepCalls (d S v n : Int) : List TOp :=
  [.attr .effectDivider d, .attr (.slide .panningSlide) 0, .attr .panning S,
   .attr (.slide .panningSlide) n, .attr .panning v]

/-- Volume of the left channel at position `p` of a sound of volume `v`: full on the left, falling to 0 on the right. -/
def leftOf (v p : Int) : Int := if 0 < p then v * (32767 - p) / 32768 else v

/-- Volume of the right channel. -/
def rightOf (v p : Int) : Int := if p < 0 then v * (32767 + p) / 32768 else v

end BK
