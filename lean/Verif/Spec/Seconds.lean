import Verif.Model.Seconds
import Mathlib.Data.Rat.Floor
import Mathlib.Algebra.Order.Field.Basic
/-!
The numbers that `double`s and times stand for.
-/
namespace BK

/-- The number. -/
def Dbl.val (s : Dbl) : ℚ := s.m * 2 ^ s.e

/-- Samples in so many seconds, counted in 2^-20 samples. -/
def unitsIn (rate : Int) (seconds : ℚ) : ℚ := rate * 1048576 * seconds

/-- A time of a 32-bit build, counted in 2^-20 samples. -/
def T32.units (t : T32) : Int := t.time * 1048576 + t.frac

end BK
