import Verif.Model.Tone
/-!
Exact meaning of the pitch lookups, in unbounded integers: a linear interpolation
between table entries of the pitch limited to the supported range.
-/
namespace BK

/-- A value limited to a range. -/
def limit (lo hi x : Int) : Int := max lo (min hi x)

/-- Entry of the note table at a whole semitone. -/
def noteEntry (i : Int) : Int := tonePeriods.getD i.toNat 0

/-- Entry of the sample pitch table at a whole semitone. -/
def pitchEntry (i : Int) : Int := log2Periods.getD i.toNat 0

/-- Exact period: interpolate with 16 fractional bits, then scale by the rate. -/
def exactPeriod (pitch rate : Int) : Int :=
  let p := limit 0 (96 * 1048576) pitch
  let i := p / 1048576
  let f := p % 1048576 / 16
  4 * (limit 16000 96000 rate *
    ((noteEntry i * (65536 - f) + noteEntry (min (i + 1) 96) * f) / 262144))

end BK
