import Verif.Model.Time
/-!
`BKTimeFromSeconds` of `/repo/src/BKContext.h`, both build variants, and the period of the master clock.

A `double` is modelled by its mantissa and its exponent.  Operations round to the nearest number with 53 bits, ties to even, as
IEEE 754 does.  The exponent has no limits: numbers too large for a `double` do not fit `BKTime` either, and numbers so small that
a `double` loses precision are cut to 0 samples.  Infinities and NaN are left out.
-/
namespace BK

/-- A finite `double`: `m * 2 ^ e`. -/
structure Dbl where
  m : Int
  e : Int
  deriving DecidableEq, Repr

/-- Number of bits. -/
def bitLen (n : Nat) : Nat := if n = 0 then 0 else n.log2 + 1

/-- `m / 2 ^ k` rounded to the nearest integer, ties to even. -/
def roundShift (m : Int) (k : Nat) : Int :=
  let q := m / 2 ^ k
  let r := m % 2 ^ k
  if 2 * r > 2 ^ k ∨ (2 * r = 2 ^ k ∧ q % 2 = 1) then q + 1 else q

/-- `m * 2 ^ e` rounded to 53 bits. -/
def Dbl.round (m e : Int) : Dbl :=
  let k := bitLen m.natAbs - 53
  ⟨roundShift m k, e + k⟩

/-- Product with an integer that is itself a `double`. -/
def Dbl.mulInt (s : Dbl) (n : Int) : Dbl := Dbl.round (s.m * n) s.e

/-- Difference to an integer that is itself a `double`. -/
def Dbl.subInt (s : Dbl) (n : Int) : Dbl :=
  if 0 ≤ s.e then Dbl.round (s.m * 2 ^ s.e.toNat - n) 0 else Dbl.round (s.m - n * 2 ^ (-s.e).toNat) s.e

/-- Integer part, as in conversions to integers. -/
def Dbl.trunc (s : Dbl) : Int := if 0 ≤ s.e then s.m * 2 ^ s.e.toNat else s.m.tdiv (2 ^ (-s.e).toNat)

/-- `BKTimeFromSeconds` of 64-bit builds, BKContext.h 210–213: the sample rate times 2^20 is computed as `int64_t`, and the product
with the seconds, a `double`, is converted to `int64_t`. -/
def T64.fromSeconds (rate : Int) (s : Dbl) : C Int := do
  let unit ← i64 (rate * U20)
  i64 (s.mulInt unit).trunc

/-- `BKTimeFromSeconds` of 32-bit builds, BKContext.h 217–226.  The fraction is converted to `uint32_t`, which is undefined for
negative values. -/
def T32.fromSeconds (rate : Int) (s : Dbl) : C T32 := do
  let samples := s.mulInt rate
  let time ← i32 samples.trunc
  let frac := ((samples.subInt time).mulInt U20).trunc
  if InU32 frac then return ⟨time, frac⟩ else .error .overflow

/-- `1.0 / BK_DEFAULT_CLOCK_RATE`, BKBase.h 118: the `double` that is nearest to 1/240. -/
def defaultTick : Dbl := ⟨4803839602528529, -60⟩

/-- The period of the master clock, `BKContextUpdateMasterClocks`, BKContext.c 42–53. -/
def T64.masterPeriod (rate : Int) : C Int := T64.fromSeconds rate defaultTick

/-- The same of 32-bit builds. -/
def T32.masterPeriod (rate : Int) : C T32 := T32.fromSeconds rate defaultTick

end BK
