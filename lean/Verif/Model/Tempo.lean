import Verif.Model.Context
/-!
Pointer attributes of contexts, `/repo/src/BKContext.c` 183–260, and `BKClockSetPeriod`.

The master clock of a context is one of its clocks once something is attached to it
(`BKContextAttachDivider`, BKContext.c 535–559); its number is an argument here.  The period it has
before that is not modelled.
-/
namespace BK

variable {σ : Type}

/-- `BKClockSetPeriod`, BKClock.c 161–164. -/
def Clk.setPeriod (c : Clk) (p : Int) : Clk := { c with period := p }

/-- `BKContextSetPtr` with `BK_CLOCK_PERIOD`, BKContext.c 186–197; clock `i` is the master clock. -/
def Ctx.setPeriod (x : Ctx σ) (i : Nat) (p : Int) : Ret × Ctx σ :=
  if T64.isGreater p 0 then (.ok, { x with clocks := x.clocks.modify i fun c => c.setPeriod p })
  else (.invalidValue, x)

/-- `BKContextGetPtr` with `BK_CLOCK_PERIOD`, BKContext.c 230–235. -/
def Ctx.getPeriod (x : Ctx σ) (i : Nat) : C Int := do
  let c ← rd x.clocks i
  return c.period

/-- `BKContextGetPtr` with `BK_TIME`, BKContext.c 236–241. -/
def Ctx.getTime (x : Ctx σ) : Int := x.currentTime

/-- `BKContextSetPtr` with `BK_PULSE_KERNEL`, BKContext.c 198–212; `none` is `NULL`. -/
def Ctx.setKernel (x : Ctx σ) (k : Option (List (List Int))) : Ret × Ctx σ :=
  (.ok, { x with chans := x.chans.map fun b => { b with kernel := k.getD kernelHarm } })

/-- `BKContextGetPtr` with `BK_PULSE_KERNEL`, BKContext.c 242–247. -/
def Ctx.getKernel (x : Ctx σ) : C (List (List Int)) := do
  let b ← rd x.chans 0
  return b.kernel

end BK
