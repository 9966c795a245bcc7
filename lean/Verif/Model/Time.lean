import Verif.Model.C
/-!
`/repo/src/BKTime.h`, both build variants.

A 64-bit build represents a time by one `int64_t` counting 2^-20 samples
(lines 34–112); a 32-bit build uses a sample count and a 20-bit fraction
(lines 114–231).
-/
namespace BK

namespace T64

/-- BKTime.h 39–42.  The shift and the addition happen in 32 bits: `samples` is an
`int32_t`, the sum is converted to `uint32_t` by the type of `frac`, and only the
result is widened. -/
def make (samples frac : Int) : C Int := do
  let s ← i32 (samples * U20)
  return wrapU32 (s + frac)
/-- BKTime.h 44–47. -/
def getTime (a : Int) : Int := wrapI32 (a / U20)
/-- BKTime.h 49–52. -/
def getFrac (a : Int) : Int := a % U20
/-- BKTime.h 54–57. -/
def getFUInt20 (a : Int) : Int := wrapU32 a
/-- BKTime.h 59–62. -/
def add (a b : Int) : C Int := i64 (a + b)
/-- BKTime.h 64–67. -/
def addF (a b : Int) : C Int := i64 (a + b)
/-- BKTime.h 69–72. -/
def sub (a b : Int) : C Int := i64 (a - b)
/-- BKTime.h 74–77. -/
def subF (a b : Int) : C Int := i64 (a - b)
/-- BKTime.h 79–82. -/
def isEqual (a b : Int) : Bool := a == b
/-- BKTime.h 84–87. -/
def isGreater (a b : Int) : Bool := decide (a > b)
/-- BKTime.h 89–92 (note the cast of the period to `BKInt`). -/
def isGreaterF (a b : Int) : Bool := decide (a > wrapI32 b)
/-- BKTime.h 94–97. -/
def isGreaterEqual (a b : Int) : Bool := decide (a ≥ b)
/-- BKTime.h 99–102. -/
def isLess (a b : Int) : Bool := decide (a < b)
/-- BKTime.h 104–107. -/
def isLessF (a b : Int) : Bool := decide (a < b)
/-- BKTime.h 109–112. -/
def isLessEqual (a b : Int) : Bool := decide (a ≤ b)

end T64

/-- The 32-bit `BKTime` struct (BKBase.h). -/
structure T32 where
  time : Int
  frac : Int
  deriving DecidableEq, Repr

namespace T32

/-- BKTime.h 119–127.  `samples + (frac >> 20)` is unsigned arithmetic converted
back to `BKInt`. -/
def make (samples frac : Int) : T32 :=
  { time := wrapI32 (wrapU32 (samples + frac / U20)), frac := frac % U20 }
/-- BKTime.h 129–132. -/
def getTime (a : T32) : Int := a.time
/-- BKTime.h 134–137. -/
def getFrac (a : T32) : Int := a.frac
/-- BKTime.h 139–142.  The shift is a signed 32-bit operation. -/
def getFUInt20 (a : T32) : C Int := do
  let s ← i32 (a.time * U20)
  return wrapU32 (s + a.frac)
/-- BKTime.h 144–155.  `a.time + b.time` is signed; adding the unsigned carry makes
the rest unsigned arithmetic converted back to `BKInt`. -/
def add (a b : T32) : C T32 := do
  let frac := wrapU32 (a.frac + b.frac)
  let s ← i32 (a.time + b.time)
  return { time := wrapI32 (wrapU32 (s + frac / U20)), frac := frac % U20 }
/-- BKTime.h 157–167. -/
def addF (a : T32) (b : Int) : C T32 := do
  let frac := wrapU32 (a.frac + b)
  return { time := wrapI32 (wrapU32 (a.time + frac / U20)), frac := frac % U20 }
/-- BKTime.h 169–180. -/
def sub (a b : T32) : C T32 := do
  let frac := wrapU32 (a.frac - b.frac)
  let s ← i32 (a.time - b.time)
  let t ← i32 (s + wrapI32 frac / U20)
  return { time := t, frac := frac % U20 }
/-- BKTime.h 182–192. -/
def subF (a : T32) (b : Int) : C T32 := do
  let frac := wrapU32 (a.frac - b)
  let t ← i32 (a.time + wrapI32 frac / U20)
  return { time := t, frac := frac % U20 }
/-- BKTime.h 194–197. -/
def isEqual (a b : T32) : Bool := a.time == b.time && a.frac == b.frac
/-- BKTime.h 199–202. -/
def isGreater (a b : T32) : Bool :=
  decide (a.time > b.time) || (a.time == b.time && decide (a.frac > b.frac))
/-- BKTime.h 204–209. -/
def isGreaterF (a : T32) (b : Int) : Bool :=
  isGreater a { time := wrapI32 (b / U20), frac := b % U20 }
/-- BKTime.h 211–214. -/
def isGreaterEqual (a b : T32) : Bool :=
  decide (a.time > b.time) || (a.time == b.time && decide (a.frac ≥ b.frac))
/-- BKTime.h 216–219. -/
def isLess (a b : T32) : Bool :=
  decide (a.time < b.time) || (a.time == b.time && decide (a.frac < b.frac))
/-- BKTime.h 221–226. -/
def isLessF (a : T32) (b : Int) : Bool :=
  isLess a { time := wrapI32 (b / U20), frac := b % U20 }
/-- BKTime.h 228–231. -/
def isLessEqual (a b : T32) : Bool :=
  decide (a.time < b.time) || (a.time == b.time && decide (a.frac ≤ b.frac))

end T32
end BK
