import Verif.Model.Time
import Verif.Model.Unit
/-!
Contexts and clocks, `/repo/src/BKContext.c` and `/repo/src/BKClock.c`, for 64-bit times.

Clocks, units and channels are plain lists here; that the pointer lists behave like that is the
subject of `Model/Links.lean`.  Differences to the code:

* What a clock runs when it ticks (its callback and then its dividers with their callbacks; for the
  master clock `BKContextTick` with the divider groups of the context) is one function of the clock's
  number, its time, a state of the program and the units without their times.  It may change all
  attributes of units.  Callbacks that attach, detach or reset clocks, set the period of a clock
  other than through `info.nextTime`, or attach or detach units while the context runs, are not
  modelled; so the loop over `BK_CONTEXT_FLAG_CLOCK_RESET` in `BKClocksAdvance` runs once.
* `ticks` is not in the code: it records which clock ticked at which time of the context.
* The time functions of `Model/Time.lean` report signed 64-bit overflow as a fault.
* What tracks do before their unit is rendered (`BKTrackRun`, BKTrack.c 446–451) is one function
  `flush` of the state of the program and the units, called before the loop over the units.  The code
  calls it for each track just before that track's unit is rendered; a track does not look at other
  units or at the channels then.  For units without tracks it does nothing.
-/
namespace BK

/-- `struct BKClock`, BKClock.h 60–72, without links, callback and dividers. -/
structure Clk where
  period : Int
  time : Int := 0
  nextTime : Int := 0
  counter : Int := 0
  deriving DecidableEq, Repr

/-- What is called while a context runs.  `tick`: number and time of the clock, program state and units
in; `info.nextTime`, program state and units out.  `flush`: see above. -/
structure ClockCb (σ : Type) where
  tick : Nat → Int → σ → List UCore → C (Int × σ × List UCore)
  flush : σ → List UCore → C (σ × List UCore) := fun s us => .ok (s, us)

instance {σ : Type} : CoeFun (ClockCb σ) fun _ => Nat → Int → σ → List UCore → C (Int × σ × List UCore) := ⟨ClockCb.tick⟩

/-- `struct BKContext`, BKContext.h 51–81. -/
structure Ctx (σ : Type) where
  sampleRate : Int
  deltaTime : Int := 0
  currentTime : Int := 0
  clocks : List Clk := []
  units : List BUnit := []
  chans : List Buf
  user : σ
  ticks : List (Nat × Int) := []

/-- `BKContextInitGeneric`, BKContext.c 55–77; allocation succeeds.  The arguments are unsigned. -/
def Ctx.init {σ : Type} (user : σ) (numChannels sampleRate : Int) : Ctx σ :=
  { sampleRate := cclamp sampleRate 16000 96000
    chans := List.replicate (cclamp numChannels 1 8).toNat Buf.init
    user := user }

/-- Attributes of `BKContextGetAttr`. -/
inductive CtxAttr where
  | numChannels | sampleRate | other
  deriving DecidableEq, Repr

/-- `BKContextGetAttrInt`, BKContext.c 154–176; `none` is `BK_INVALID_ATTRIBUTE`. -/
def Ctx.getAttr {σ : Type} (x : Ctx σ) : CtxAttr → Option Int
  | .numChannels => some (wrapI32 x.chans.length)
  | .sampleRate => some (wrapI32 x.sampleRate)
  | .other => none

/-- `BKContextSetAttrInt`, BKContext.c 129–147: no attribute can be set. -/
def Ctx.setAttr {σ : Type} (x : Ctx σ) (_attr : CtxAttr) (_value : Int) : Ret × Ctx σ :=
  (.invalidAttribute, x)

/-- `BKClockReset`, BKClock.c 166–180. -/
def Clk.reset (c : Clk) : Clk := { c with counter := 0, time := 0, nextTime := 0 }

/-- `BKClockAttach` at the end of the list, BKClock.c 87–133. -/
def Ctx.attachClock {σ : Type} (x : Ctx σ) (c : Clk) : Ctx σ := { x with clocks := x.clocks ++ [c.reset] }

/-- `BKUnitAttach`, BKUnit.c 260–283. -/
def Ctx.attachUnit {σ : Type} (x : Ctx σ) (c : UCore) : Ctx σ :=
  { x with units := x.units ++ [{ toUCore := c, time := x.deltaTime }] }

/-- BKClock.c 230–240: the next time of a clock after its tick; `next` is `info.nextTime`. -/
def Clk.afterTick (c : Clk) (next : Int) : C Clk :=
  if T64.isGreater next c.time then do
    let p ← T64.sub next c.time
    return { c with period := p, nextTime := next, counter := wrapU32 (c.counter + 1) }
  else do
    let t ← T64.add c.time c.period
    return { c with nextTime := t, counter := wrapU32 (c.counter + 1) }

/-- Give the units new attributes. -/
def setCores (us : List BUnit) (cs : List UCore) : List BUnit :=
  List.zipWith (fun u c => { toUCore := c, time := u.time }) us cs

/-- What the pass over the clocks in `BKClocksAdvance` changes. -/
structure Ticked (σ : Type) where
  clocks : List Clk
  next : Int
  user : σ
  units : List BUnit
  ticks : List (Nat × Int)

/-- One pass of the loop BKContext.c 350–356 for clock number `k`, with `BKClockTick`,
BKClock.c 214–244. -/
def Ticked.step {σ : Type} (cb : ClockCb σ) (now : Int) (k : Nat) (c : Clk) (s : Ticked σ) :
    C (Ticked σ) :=
  if T64.isEqual c.time c.nextTime then do
    let r ← cb k c.time s.user (s.units.map (·.toUCore))
    let c ← c.afterTick r.1
    return { clocks := s.clocks ++ [c]
             next := if T64.isLess c.nextTime s.next then c.nextTime else s.next
             user := r.2.1
             units := setCores s.units r.2.2
             ticks := s.ticks ++ [(k, now)] }
  else
    .ok { s with clocks := s.clocks ++ [c]
                 next := if T64.isLess c.nextTime s.next then c.nextTime else s.next }

/-- The loop BKContext.c 350–356 over the clocks from number `k` on. -/
def tickAll {σ : Type} (cb : ClockCb σ) (now : Int) : Nat → List Clk → Ticked σ → C (Ticked σ)
  | _, [], s => .ok s
  | k, c :: cs, s => do
    let s ← s.step cb now k c
    tickAll cb now (k + 1) cs s

/-- `BKClockAdvance`, BKClock.c 182–185. -/
def Clk.advance (c : Clk) (period : Int) : C Clk := do
  let t ← T64.addF c.time period
  return { c with time := t }

/-- `BK_TIME_MAX`, BKTime.h 37. -/
def timeMax : Int := 9223372036854775807

/-- `BK_INT_MAX / 3` as a time: 682 frames and a bit. -/
def maxStep : Int := 715827882

/-- BKContext.c 362–367: a time difference limited to `maxStep`. -/
def limitStep (delta : Int) : Int := if T64.isLessF delta maxStep then T64.getFUInt20 delta else maxStep

/-- `BKClocksAdvance`, BKContext.c 339–376: the time to the next tick, and the context. -/
def Ctx.clocksAdvance {σ : Type} (cb : ClockCb σ) (x : Ctx σ) : C (Int × Ctx σ) := do
  let s ← tickAll cb x.currentTime 0 x.clocks
    { clocks := [], next := timeMax, user := x.user, units := x.units, ticks := x.ticks }
  let delta ← T64.sub s.next x.currentTime
  let period := limitStep delta
  let clocks ← s.clocks.mapM fun c => c.advance period
  let now ← T64.addF x.currentTime period
  return (period, { x with currentTime := now, clocks := clocks, units := s.units, user := s.user,
                           ticks := s.ticks })

/-- The loops over the units, BKContext.c 396–397 and 404–405. -/
def runUnits (chk : Bool) (endTime : Int) : List BUnit → List Buf → C (List BUnit × List Buf)
  | [], chans => .ok ([], chans)
  | u :: us, chans => do
    let r ← u.run chk chans endTime
    let rs ← runUnits chk endTime us r.2
    return (r.1 :: rs.1, rs.2)

/-- Tracks bring their units up to date. -/
def Ctx.flush {σ : Type} (cb : ClockCb σ) (x : Ctx σ) : C (Ctx σ) := do
  let r ← cb.flush x.user (x.units.map (·.toUCore))
  return { x with user := r.1, units := setCores x.units r.2 }

/-- One pass of the loop in `BKContextRun`, BKContext.c 385–398. -/
def Ctx.runStep {σ : Type} (chk : Bool) (cb : ClockCb σ) (time : Int) (x : Ctx σ) : C (Int × Ctx σ) := do
  let r ← x.clocksAdvance cb
  let time := wrapU32 (time + r.1)
  let x ← r.2.flush cb
  let s ← runUnits chk time x.units x.chans
  return (time, { x with units := s.1, chans := s.2 })

/-- The loop in `BKContextRun`, BKContext.c 385–398.  The first argument bounds the number of
passes. -/
def Ctx.runLoop {σ : Type} (chk : Bool) (cb : ClockCb σ) (endTime : Int) :
    Nat → Int → Ctx σ → C (Int × Ctx σ)
  | 0, time, x => if time < endTime then .error .endless else .ok (time, x)
  | n + 1, time, x =>
    if time < endTime then do
      let r ← x.runStep chk cb time
      Ctx.runLoop chk cb endTime n r.1 r.2
    else .ok (time, x)

/-- `BKContextRun`, BKContext.c 378–409.  The loop is given so many passes that it can only run out
of them if some pass takes no time. -/
def Ctx.run {σ : Type} (chk : Bool) (cb : ClockCb σ) (x : Ctx σ) (endTime : Int) : C (Ctx σ) :=
  if x.clocks ≠ [] then do
    let r ← Ctx.runLoop chk cb endTime endTime.toNat x.deltaTime x
    return { r.2 with deltaTime := r.1 }
  else do
    let x ← x.flush cb
    let s ← runUnits chk endTime x.units x.chans
    return { x with units := s.1, chans := s.2 }

/-- `BKContextEnd`, BKContext.c 411–436.  `BKContextRun` returns the time as a `BKInt`, which is
taken for an error code if negative. -/
def Ctx.endAt {σ : Type} (chk : Bool) (cb : ClockCb σ) (x : Ctx σ) (endTime : Int) : C (Ctx σ) := do
  let x ← x.run chk cb endTime
  if wrapI32 endTime < 0 then return x
  else return { x with
    deltaTime := wrapU32 (x.deltaTime - endTime)
    units := x.units.map fun u => u.endAt endTime
    chans := x.chans.map fun b => b.shift endTime }

/-- `BKContextSize`, BKContext.c 438–442. -/
def Ctx.size {σ : Type} (x : Ctx σ) : C Int := do
  let b ← rd x.chans 0
  return b.size

/-- The loop of `BKContextRead` from channel `i` on, BKContext.c 449–453: the number of frames,
the channels and the writes to the output with their positions. -/
def readChans (chk : Bool) (n : Int) : Nat → List Buf → Int → C (Int × List Buf × List (Int × Int))
  | _, [], size => .ok (size, [], [])
  | i, b :: bs, size => do
    let r ← b.read chk size n
    let rs ← readChans chk n (i + 1) bs r.2.length
    return (rs.1, r.1 :: rs.2.1, (r.2.map fun w => (w.1 + (i : Int), w.2)) ++ rs.2.2)

/-- `BKContextRead`, BKContext.c 444–456. -/
def Ctx.read {σ : Type} (chk : Bool) (x : Ctx σ) (size : Int) : C (Int × Ctx σ × List (Int × Int)) := do
  let r ← readChans chk x.chans.length 0 x.chans size
  return (r.1, { x with chans := r.2.1 }, r.2.2)

/-- The loop of `BKContextGenerate`, BKContext.c 273–296: frames written so far, context and output
writes; `base` is the current position in the output.  The first argument bounds the number of
passes. -/
def Ctx.genLoop {σ : Type} (chk : Bool) (cb : ClockCb σ) :
    Nat → Int → Int → Int → Ctx σ → C (Int × Ctx σ × List (Int × Int))
  | 0, _, _, _, _ => .error .endless
  | k + 1, remaining, written, base, x => do
    let chunk := cmin remaining 1024
    let x ← x.endAt chk cb (wrapU32 (chunk * U20))
    let r ← x.read chk chunk
    let written := wrapU32 (written + r.1)
    let skip := if r.1 = 0 then remaining else r.1
    let out := r.2.2.map fun w => (w.1 + base, w.2)
    if remaining - skip = 0 then return (written, r.2.1, out)
    else do
      let rs ← Ctx.genLoop chk cb k (remaining - skip) written
        (base + wrapU32 (skip * r.2.1.chans.length)) r.2.1
      return (rs.1, rs.2.1, out ++ rs.2.2)

/-- `BKContextGenerate`, BKContext.c 262–299: the returned number, the context and the writes to
`outFrames`. -/
def Ctx.generate {σ : Type} (chk : Bool) (cb : ClockCb σ) (x : Ctx σ) (size : Int) :
    C (Int × Ctx σ × List (Int × Int)) := do
  let r ← Ctx.genLoop chk cb (size.toNat + 1) size 0 0 x
  return (wrapI32 r.1, r.2)

/-- `BKContextReset`, BKContext.c 458–479. -/
def Ctx.reset {σ : Type} (x : Ctx σ) : C (Ctx σ) := do
  let us ← x.units.mapM fun u => u.reset (some x.chans.length)
  return { x with deltaTime := 0, currentTime := 0, units := us, clocks := x.clocks.map Clk.reset,
                  chans := x.chans.map Buf.clear }

end BK
