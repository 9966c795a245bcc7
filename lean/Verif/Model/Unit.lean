import Verif.Model.Links
import Verif.Model.Buffer
/-!
Sound units, `/repo/src/BKUnit.c` and `BKUnit.h`.

A unit is modelled as its record without the link fields (those are in `Model/Links.lean`) and
without the function pointers, which have the values of `BKUnitInit`.  Differences to the code:

* `sample.frames` is the list of all values from the pointer to the end of the data; NULL is the
  empty list.  The attached data is a value, i.e. it stays alive and unchanged (the life of data
  objects is the subject of the data model).
* The calls of `BKBufferAddPulse` made during a run are collected in order and made afterwards.
  They do not influence the rest of the run.
* The sample callback only observes.  Its return value is ignored by the code
  (`BKUnitCallSampleCallback` always returns 0).
* An unsigned wrap-around of the running time in a waveform loop is reported as a fault.
-/
namespace BK

/-- Return codes, BKBase.h 355–375 (`failed` is a plain -1). -/
inductive Ret where
  | ok | failed | invalidAttribute | invalidValue | invalidState | invalidNumChannels
  | invalidNumFrames
  deriving DecidableEq, Repr

/-- Waveforms, BKBase.h 289–299; `none` is 0. -/
inductive Wave where
  | none | square | triangle | noise | sawtooth | sine | custom | sample
  deriving DecidableEq, Repr

/-- The number of a waveform, BKBase.h 289–299. -/
def Wave.code : Wave → Int
  | .none => 0 | .square => 16385 | .triangle => 16386 | .noise => 16387 | .sawtooth => 16388
  | .sine => 16389 | .custom => 16390 | .sample => 16391

/-- `squarePhases`, BKUnit.c 32–52; `MAV` is 32767. -/
def squarePhases : List (List Int) := [
  [0, 32767, 0, 0, 0, 0, 0, 0, 0, 0, 0, 0, 0, 0, 0, 0],
  [0, 32767, 0, 0, 0, 0, 0, 0, 0, 0, 0, 0, 0, 0, 0, 0],
  [0, 0, 32767, 32767, 0, 0, 0, 0, 0, 0, 0, 0, 0, 0, 0, 0],
  [0, 0, 32767, 32767, 32767, 0, 0, 0, 0, 0, 0, 0, 0, 0, 0, 0],
  [0, 0, 0, 32767, 32767, 32767, 32767, 0, 0, 0, 0, 0, 0, 0, 0, 0],
  [0, 0, 0, 32767, 32767, 32767, 32767, 32767, 0, 0, 0, 0, 0, 0, 0, 0],
  [0, 0, 0, 0, 32767, 32767, 32767, 32767, 32767, 32767, 0, 0, 0, 0, 0, 0],
  [0, 0, 0, 0, 32767, 32767, 32767, 32767, 32767, 32767, 32767, 0, 0, 0, 0, 0],
  [0, 0, 0, 0, 0, 32767, 32767, 32767, 32767, 32767, 32767, 32767, 32767, 0, 0, 0],
  [0, 0, 0, 0, 0, 0, -32767, -32767, -32767, -32767, -32767, -32767, -32767, -32767, -32767, 0],
  [0, 0, 0, 0, 0, -32767, -32767, -32767, -32767, -32767, -32767, -32767, -32767, -32767, -32767, 0],
  [0, 0, 0, 0, -32767, -32767, -32767, -32767, -32767, -32767, -32767, -32767, -32767, -32767, -32767, 0],
  [0, 0, 0, -32767, -32767, -32767, -32767, -32767, -32767, -32767, -32767, -32767, -32767, -32767, -32767, 0],
  [0, 0, -32767, -32767, -32767, -32767, -32767, -32767, -32767, -32767, -32767, -32767, -32767, -32767, -32767, 0],
  [0, -32767, -32767, -32767, -32767, -32767, -32767, -32767, -32767, -32767, -32767, -32767, -32767, -32767, -32767, 0],
  [-32767, -32767, -32767, -32767, -32767, -32767, -32767, -32767, -32767, -32767, -32767, -32767, -32767, -32767, -32767, 0],
  [-32767, -32767, -32767, -32767, -32767, -32767, -32767, -32767, -32767, -32767, -32767, -32767, -32767, -32767, -32767, 0]]

/-- `trianglePhases`, BKUnit.c 54–60. -/
def trianglePhases : List Int := [
  0, 2047, 4095, 6143, 8191, 10239, 12287, 14335,
  14335, 12287, 10239, 8191, 6143, 4095, 2047, 0,
  -2047, -4095, -6143, -8191, -10239, -12287, -14335, -16383,
  -16383, -14335, -12287, -10239, -8191, -6143, -4095, -2047]

/-- `sawtoothPhases`, BKUnit.c 62–65. -/
def sawtoothPhases : List Int := [
  32766, 27305, 21844, 16383, 10922, 5461, 0]

/-- `sinePhases`, BKUnit.c 67–73. -/
def sinePhases : List Int := [
  0, 6392, 12539, 18204, 23169, 27244, 30272, 32137,
  32767, 32137, 30272, 27244, 23169, 18204, 12539, 6392,
  0, -6392, -12539, -18204, -23169, -27244, -30272, -32137,
  -32767, -32137, -30272, -27244, -23169, -18204, -12539, -6392]

/-- What a unit sees of a `BKData` object (BKData.h). -/
structure SampleData where
  numFrames : Int
  numChannels : Int
  frames : List Int
  deriving DecidableEq, Repr

/-- `struct BKUnit`, BKUnit.h 55–107, without links and `time`. -/
structure UCore where
  period : Int := 0
  lastPulse : Nat → Int := fun _ => 0
  waveform : Wave := .none
  dutyCycle : Int := 0
  volume : Nat → Int := fun _ => 0
  mute : Int := 0
  phase : Int := 0
  wrap : Int := 0
  wrapCount : Int := 0
  count : Int := 0
  data : Option SampleData := none
  numChannels : Int := 0
  length : Int := 0
  offset : Int := 0
  stop : Int := 0               -- `sample.end`
  repeatMode : Int := 0
  repeatCount : Int := 0
  sustainOffset : Int := 0
  sustainEnd : Int := 0
  timeFrac : Int := 0
  samplePeriod : Int := 0       -- `sample.period`
  callback : Bool := false
  frames : List Int := []
  sustainRange : Bool := false  -- `BKUnitFlagSampleSustainRange`
  sustainJump : Bool := false   -- `BKUnitFlagSampleSustainJump`
  release : Bool := false       -- `BKUnitFlagRelease`

/-- A unit with its time. -/
structure BUnit extends UCore where
  time : Int := 0

/-- `BKAbs`, BKBase.h 140. -/
def cabs (x : Int) : C Int := if x < 0 then i32 (-x) else .ok x

/-- Attributes of `BKUnitSetAttr` and `BKUnitGetAttr`; `other` is any other number. -/
inductive UAttr where
  | dutyCycle | waveform | phase | phaseWrap | period | volume | volumeOf (i : Fin 8) | mute
  | sampleRepeat | samplePeriod | immedRelease | flagRelease | numPhases | other
  deriving DecidableEq, Repr

/-- The waveform numbers accepted by `BK_WAVEFORM` and their phase counts, BKUnit.c 417–446. -/
def waveOfAttr (value : Int) : Option (Wave × Int) :=
  if value = 0 then some (.none, 16)
  else if value = 16385 then some (.square, 16)
  else if value = 16386 then some (.triangle, 32)
  else if value = 16387 then some (.noise, 8)
  else if value = 16388 then some (.sawtooth, 7)
  else if value = 16389 then some (.sine, 32)
  else none

/-- Position to start a sample from, BKUnit.c 458–472. -/
def UCore.phaseValue (c : UCore) (value : Int) : Int :=
  if c.waveform ≠ .sample then cclamp value 0 (wrapU32 (c.count - 1))
  else
    let value := if value < 0 then (if c.stop > c.offset then 0 else wrapI32 (c.length - 1)) else value
    cclamp value 0 (wrapU32 (c.length - 1))

/-- `BKUnitSetAttr`, BKUnit.c 398–575. -/
def UCore.setAttr (c : UCore) (attr : UAttr) (value : Int) : C (Ret × UCore) :=
  match attr with
  | .dutyCycle =>
    let value := cclamp value 1 15
    if c.dutyCycle ≠ value then
      let phase := if c.waveform = .square ∧ value > c.dutyCycle ∧ c.phase < value then 0 else c.phase
      .ok (.ok, { c with phase := phase, dutyCycle := value })
    else .ok (.ok, c)
  | .waveform =>
    match waveOfAttr value with
    | some (w, n) =>
      let c := { c with count := n }
      let c := if c.waveform ≠ w then { c with phase := 0, waveform := w } else c
      .ok (.ok, { c with data := none })
    | none => .ok (.invalidValue, c)
  | .phase => .ok (.ok, { c with phase := c.phaseValue value })
  | .phaseWrap =>
    let value := if value ≠ 0 then cmax value 2 else 0
    .ok (.ok, { c with phase := 0, wrap := value, wrapCount := value })
  | .period => do
    let v ← cabs value
    return (.ok, { c with period := cmax v 0 })
  | .volume => .ok (.ok, { c with volume := fun _ => cclamp value 0 32767 })
  | .volumeOf i => .ok (.ok, { c with volume := upd c.volume i (cclamp value 0 32767) })
  | .mute => .ok (.ok, { c with mute := if value ≠ 0 then 1 else 0 })
  | .sampleRepeat =>
    .ok (.ok, { c with repeatMode := if value = 0 ∨ value = 1 ∨ value = 2 then value else 0 })
  | .samplePeriod => do
    let v ← cabs value
    let v := cclamp v 4096 268435456
    return (.ok, { c with samplePeriod := if c.samplePeriod < 0 then -v else v })
  | .immedRelease => .ok (.ok, { c with sustainJump := decide (value ≠ 0) })
  | .flagRelease =>
    if c.sustainRange then
      let c := { c with release := decide (value ≠ 0) }
      if value ≠ 0 ∧ c.sustainJump ∧ c.mute = 0 then
        if c.samplePeriod > 0 then .ok (.ok, { c with phase := c.sustainEnd })
        else do
          let p ← i32 (wrapI32 c.sustainOffset - 1)
          return (.ok, { c with phase := cmax 0 p })
      else .ok (.ok, c)
    else .ok (.ok, c)
  | .numPhases => .ok (.invalidAttribute, c)
  | .other => .ok (.invalidAttribute, c)

/-- `BKUnitGetAttr`, BKUnit.c 577–646.  Values are converted to `BKInt`. -/
def UCore.getAttr (c : UCore) (attr : UAttr) : C (Option Int) :=
  match attr with
  | .waveform => .ok (some c.waveform.code)
  | .dutyCycle => .ok (some (wrapI32 c.dutyCycle))
  | .period => .ok (some (wrapI32 c.period))
  | .phase => .ok (some (wrapI32 c.phase))
  | .phaseWrap => .ok (some (wrapI32 c.wrap))
  | .numPhases => .ok (some (wrapI32 (if c.waveform ≠ .sample then c.count else c.length)))
  | .volumeOf i => .ok (some (c.volume i))
  | .mute => .ok (some c.mute)
  | .sampleRepeat => .ok (some (wrapI32 c.repeatMode))
  | .samplePeriod => do
    let v ← cabs c.samplePeriod
    return some v
  | .immedRelease => .ok (some (if c.sustainJump then 1 else 0))
  | .flagRelease => .ok (some (if c.release then 1 else 0))
  | .volume => .ok none
  | .other => .ok none

/-- `BKUnitInit`, BKUnit.c 232–251. -/
def UCore.init (waveform : Int) : C UCore := do
  let c : UCore := {}
  let r ← c.setAttr .dutyCycle 2
  let r ← r.2.setAttr .waveform waveform
  return { r.2 with samplePeriod := U20, timeFrac := 0 }

/-- Setting data as custom waveform, BKUnit.c 88–113. -/
def UCore.trySetWave (c : UCore) (d : Option SampleData) : Ret × UCore :=
  match d with
  | some d =>
    if d.numFrames ≥ 2 then
      (.ok, { c with waveform := .custom, count := cmin d.numFrames 64, phase := 0, offset := 0,
                     stop := d.numFrames, frames := d.frames, repeatCount := 0 })
    else (.invalidNumFrames, c)
  | none =>
    if c.waveform = .custom then
      (.failed, { c with waveform := .none, offset := 0, stop := 0, frames := [] })
    else (.ok, c)

/-- Setting data as sample, BKUnit.c 115–160. -/
def UCore.trySetSample (c : UCore) (d : Option SampleData) (ctxChannels : Int) :
    C (Ret × UCore) :=
  match d with
  | some d =>
    if d.numChannels ≠ 1 ∧ d.numChannels ≠ ctxChannels then .ok (.invalidNumChannels, c)
    else if d.numFrames < 2 then .ok (.invalidNumFrames, c)
    else do
      let sp ← cabs c.samplePeriod
      return (.ok, { c with
        waveform := .sample, count := 1, length := d.numFrames, numChannels := d.numChannels,
        offset := 0, stop := d.numFrames, frames := d.frames, samplePeriod := sp, phase := 0,
        repeatMode := 0, repeatCount := 0, sustainOffset := 0, sustainEnd := 0,
        sustainRange := false, sustainJump := false, release := false })
  | none =>
    if c.waveform = .sample then
      .ok (.ok, { c with
        waveform := .none, offset := 0, stop := 0, sustainOffset := 0, sustainEnd := 0,
        frames := [], phase := 0, repeatMode := 0,
        sustainRange := false, sustainJump := false, release := false })
    else .ok (.ok, c)

/-- The two attributes that take data: `BK_WAVEFORM` and `BK_SAMPLE`. -/
inductive DataAttr where
  | waveform | sample
  deriving DecidableEq, Repr

/-- `BKUnitTrySetData` with the event `RESET`, BKUnit.c 78–168; `ctx` is the number of channels of
the context, `none` if the unit is not attached. -/
def UCore.trySetData (c : UCore) (ctx : Option Int) (type : DataAttr) (d : Option SampleData) :
    C (Ret × UCore) :=
  match ctx with
  | none => .ok (.invalidState, c)
  | some n => match type with
    | .waveform => .ok (c.trySetWave d)
    | .sample => c.trySetSample d n

/-- `BKUnitSetData`, BKUnit.c 170–191. -/
def UCore.setData (c : UCore) (ctx : Option Int) (type : DataAttr) (d : Option SampleData) :
    C (Ret × UCore) := do
  let r ← c.trySetData ctx type d
  if r.1 = .ok then return (.ok, { r.2 with data := d })
  else if r.2.waveform = .custom ∨ r.2.waveform = .sample then
    return (r.1, { r.2 with waveform := .none })
  else return r

/-- A range argument relative to the end if negative, BKUnit.c 323–327 and 375–383. -/
def rangeArg (len x : Int) : C Int := do
  if x < 0 then
    let l1 ← i32 (len + 1)
    let x ← i32 (x + l1)
    return cclamp x 0 len
  else return cclamp x 0 len

/-- The phase after setting a range, BKUnit.c 333–337 and 349–359.  `c` has the new range. -/
def UCore.rangePhase (c : UCore) (newPhase : Int) : Int :=
  if c.repeatCount = 0 then
    if c.offset < c.stop ∧ c.phase = wrapU32 (c.length - 1) then 0
    else if c.phase = 0 then wrapU32 (c.length - 1)
    else newPhase
  else newPhase

/-- `BKUnitUpdateSampleRange`, BKUnit.c 311–362. -/
def UCore.updateSampleRange (c : UCore) (off stop : Int) : C UCore :=
  match c.data with
  | none => .ok c
  | some d => do
    let off ← rangeArg d.numFrames off
    let stop ← rangeArg d.numFrames stop
    let oldOffset := wrapI32 (cmin c.offset c.stop)
    let newOffset := cmin off stop
    let diff ← i32 (off - stop)
    let newLength ← cabs diff
    let back ← i32 (oldOffset - newOffset)
    let newPhase := wrapI32 (c.phase + back)
    let newPhase := if newPhase < 0 ∨ newPhase ≥ newLength then 0 else newPhase
    let sp ← cabs c.samplePeriod
    let c := { c with
      offset := off, stop := stop, length := newLength,
      frames := d.frames.drop (wrapU32 (newOffset * c.numChannels)).toNat
      samplePeriod := if off > stop then -sp else sp }
    return { c with phase := c.rangePhase newPhase }

/-- `BKUnitUpdateSampleSustainRange`, BKUnit.c 364–396. -/
def UCore.updateSustainRange (c : UCore) (off stop : Int) : C UCore :=
  match c.data with
  | none => .ok c
  | some d => do
    let off ← rangeArg d.numFrames off
    let stop ← rangeArg d.numFrames stop
    let lo := if stop < off then stop else off
    let hi := if stop < off then off else stop
    return { c with sustainRange := decide (lo ≠ hi), sustainOffset := lo, sustainEnd := hi }

/-- `BKUnitSetPtr` with `BK_SAMPLE_RANGE`, BKUnit.c 675–693; `none` is a NULL pointer. -/
def UCore.setRange (c : UCore) (r : Option (Int × Int)) : C (Ret × UCore) :=
  if c.waveform ≠ .sample then .ok (.invalidState, c)
  else do
    let v := r.getD (0, -1)
    let c ← c.updateSampleRange v.1 v.2
    let c ← c.updateSustainRange 0 0
    return (.ok, c)

/-- `BKUnitSetPtr` with `BK_SAMPLE_SUSTAIN_RANGE`, BKUnit.c 694–711. -/
def UCore.setSustainRange (c : UCore) (r : Option (Int × Int)) : C (Ret × UCore) :=
  if c.waveform ≠ .sample then .ok (.invalidState, c)
  else do
    let v := match r with
      | some v => if v.1 = v.2 then (0, 0) else v
      | none => (0, 0)
    let c ← c.updateSustainRange v.1 v.2
    return (.ok, c)

/-- `BKUnitClear`, BKUnit.c 1228–1255, for a unit in a context. -/
def UCore.clear (c : UCore) (ctx : Option Int) : C UCore := do
  let r ← c.setData ctx .waveform none
  let r ← r.2.setData ctx .sample none
  let c := r.2
  let stop := match c.data with
    | some d => wrapU32 d.numFrames
    | none => 0
  return { c with
    sustainRange := false, sustainJump := false, release := false, wrap := 0, wrapCount := 0,
    offset := 0, stop := stop, repeatMode := 0, repeatCount := 0, sustainOffset := 0,
    sustainEnd := 0, samplePeriod := U20, timeFrac := 0 }

/-- `BKUnitReset`, BKUnit.c 1257–1267. -/
def BUnit.reset (u : BUnit) (ctx : Option Int) : C BUnit := do
  let c ← u.toUCore.clear ctx
  return { c with waveform := .none, phase := 0, lastPulse := fun i => if i < 8 then 0 else c.lastPulse i
                  time := 0 }

/-- One step of the noise register, BKUnit.c 841–842: the bit shifted in and the new register.  The
exclusive or of four bits is their sum modulo 2; the `|` only sets bit 15. -/
def noiseStep (phase : Int) : Int × Int :=
  let bit := (phase + phase / 4 + phase / 8 + phase / 32) % 2
  let half := phase / 2
  (bit, if half / 32768 % 2 = 1 then half else half + bit * 32768)

/-- Counting down to the phase wrap, BKUnit.c 834–839 and 926–931.  The counter is unsigned there,
so it wraps below 0 and `<= 0` means 0. -/
def wrapStep (wrap wc phase restart : Int) : Int × Int :=
  if wrap ≠ 0 then
    let wc := wrapU32 (wc - 1)
    if wc ≤ 0 then (wrap, restart) else (wc, phase)
  else (wc, phase)

/-- The loop bodies of the six waveform functions up to the level: the table value, the next phase
and the wrap counter.  BKUnit.c 775–776 (square), 801–802 (triangle), 834–843 (noise),
869–873 (sawtooth), 898–899 (sine), 926–937 (custom). -/
def UCore.waveNext (c : UCore) (phase wc : Int) : C (Int × Int × Int) :=
  match c.waveform with
  | .square => do
    let row ← rd squarePhases c.dutyCycle
    let p ← rd row phase
    return (p, (phase + 1) % 16, wc)
  | .triangle => do
    let p ← rd trianglePhases phase
    return (p, (phase + 1) % 32, wc)
  | .noise =>
    let w := wrapStep c.wrap wc phase 19009
    let n := noiseStep w.2
    .ok (if n.1 ≠ 0 then 16383 else -16383, n.2, w.1)
  | .sawtooth => do
    let p ← rd sawtoothPhases phase
    return (p, if phase + 1 ≥ 7 then 0 else phase + 1, wc)
  | .sine => do
    let p ← rd sinePhases phase
    return (p.tdiv 2, (phase + 1) % 32, wc)
  | .custom => do
    let w := wrapStep c.wrap wc phase 0
    let p ← rd c.frames w.2
    return (p, if w.2 + 1 ≥ c.count then 0 else w.2 + 1, w.1)
  | _ => .ok (0, phase, wc)

/-- Running state of a waveform loop on one channel. -/
structure WaveSt where
  time : Int
  phase : Int
  wc : Int
  last : Int
  deriving DecidableEq, Repr

/-- One pass of a waveform loop, e.g. BKUnit.c 774–784: the new state and the pulse sent.  The
argument `pulse` of `BKBufferAddPulse` is a `BKFrame`. -/
def UCore.waveStep (c : UCore) (vol : Int) (s : WaveSt) : C ((Int × Int) × WaveSt) := do
  let n ← c.waveNext s.phase s.wc
  let prod ← i32 (n.1 * vol)
  let delta := prod / 32768
  let chanDelta ← i32 (delta - s.last)
  if s.time + c.period > 4294967295 then .error .overflow
  else return ((s.time, wrapI16 chanDelta),
    { time := s.time + c.period, phase := n.2.1, wc := n.2.2, last := delta })

/-- The loop `for (; time < endTime; time += unit -> period)`.  The first argument bounds the number
of passes; `endTime - time` is enough. -/
def UCore.waveLoop (c : UCore) (vol endTime : Int) : Nat → WaveSt → C (List (Int × Int) × WaveSt)
  | 0, s => .ok ([], s)
  | n + 1, s =>
    if s.time < endTime then do
      let r ← c.waveStep vol s
      let rs ← c.waveLoop vol endTime n r.2
      return (r.1 :: rs.1, rs.2)
    else .ok ([], s)

/-- A pulse sent to a channel. -/
structure Pulse where
  chan : Nat
  time : Int
  amp : Int
  deriving DecidableEq, Repr

/-- The phase a waveform function starts with: noise replaces 0, BKUnit.c 827–830. -/
def UCore.startPhase (c : UCore) : Int :=
  if c.waveform = .noise ∧ c.phase = 0 then 19009 else c.phase

/-- What `BKUnitRunWaveform` does for channel `i`, BKUnit.c 974–1014.  `t0` is the unit's time,
`orig` the unit before the first channel; the state holds the time to return, the unit and the
pulses so far. -/
def UCore.waveChan (orig : UCore) (t0 endTime : Int) (st : Int × UCore × List Pulse) (i : Nat) :
    C (Int × UCore × List Pulse) :=
  if orig.volume i = 0 then .ok st
  else do
    let r ← orig.waveLoop (orig.volume i) endTime (endTime - t0).toNat
      { time := t0, phase := orig.startPhase, wc := wrapU32 orig.wrapCount, last := orig.lastPulse i }
    let c := st.2.1
    return (r.2.time, { c with phase := r.2.phase, wrapCount := wrapI32 r.2.wc,
                               lastPulse := upd c.lastPulse i r.2.last },
      st.2.2 ++ r.1.map fun p => ⟨i, p.1, p.2⟩)

/-- `BKUnitRunWaveform`, BKUnit.c 957–1018, for a context with `n` channels. -/
def UCore.runWaveform (c : UCore) (t0 endTime : Int) (n : Nat) : C (Int × UCore × List Pulse) :=
  if c.mute ≠ 0 then .ok (0, c, [])
  else (List.range n).foldlM (c.waveChan t0 endTime) (0, c, [])

/-- `BKUnitWrapSamplePhase (unit, 0, length)`, BKUnit.c 1023–1048: direction and wrapped phase.  The
loops add or subtract `length` until the phase is in range, i.e. compute the remainder; with a
length of 0 they do not end. -/
def wrapSamplePhase (phase length : Int) : C (Int × Int) :=
  if phase ≥ length then
    if length ≤ 0 then .error .endless else .ok (1, phase % length)
  else if phase < 0 then
    if length ≤ 0 then .error .endless else .ok (-1, phase % length)
  else .ok (0, phase)

/-- The repeat mode in effect, BKUnit.c 1053–1062: a callback returning 0 switches it off. -/
def UCore.effRepeat (c : UCore) : Int := if c.callback then 0 else c.repeatMode

/-- The phase after leaving the range in direction `dir`, `ph` being the wrapped one,
BKUnit.c 1064–1087. -/
def UCore.turnPhase (c : UCore) (dir ph : Int) : Int :=
  if c.effRepeat = 2 then
    if dir = 1 then wrapU32 (c.length - ph - 1)
    else if dir = -1 then wrapU32 (c.length - ph) else ph
  else ph

/-- The new direction, 0 to stop, BKUnit.c 1066–1087. -/
def UCore.turnMode (c : UCore) (dir : Int) : Int :=
  if c.effRepeat = 1 then dir else if c.effRepeat = 2 then -dir else 0

/-- `BKUnitResetSample`, BKUnit.c 1050–1107.  The first component is the return value: stop. -/
def UCore.resetSample (c : UCore) : C (Bool × UCore) := do
  let w ← wrapSamplePhase (wrapI32 c.phase) (wrapI32 c.length)
  if c.turnMode w.1 = 0 then
    return (true, { c with phase := c.turnPhase w.1 w.2, repeatCount := wrapU32 (c.repeatCount + 1),
                           mute := 1 })
  else do
    let sp ← cabs c.samplePeriod
    return (false, { c with phase := c.turnPhase w.1 w.2,
                            samplePeriod := if c.turnMode w.1 = -1 then -sp else sp,
                            repeatCount := wrapU32 (c.repeatCount + 1) })

/-- Pulse of the current frame on channel `i`, BKUnit.c 1138–1148. -/
def UCore.sampleChan (t idx : Int) (st : UCore × List Pulse) (i : Nat) : C (UCore × List Pulse) := do
  let c := st.1
  let pulse ← rd c.frames (idx + (if c.numChannels = 1 then 0 else (i : Int)))
  let prod ← i32 (pulse * c.volume i)
  let delta := prod / 32768
  let chanDelta ← i32 (delta - c.lastPulse i)
  let at' ← i32 (t + c.timeFrac)
  return ({ c with lastPulse := upd c.lastPulse i delta }, st.2 ++ [⟨i, wrapU32 at', wrapI16 chanDelta⟩])

/-- Advancing the position, BKUnit.c 1151–1154. -/
def UCore.advance (c : UCore) : C UCore := do
  let tf ← i32 (c.timeFrac + c.samplePeriod)
  let step ← i32 (tf / U20 - c.timeFrac / U20)
  return { c with phase := wrapU32 (c.phase + step), timeFrac := tf % U20 }

/-- Keeping the position in the sustain range, BKUnit.c 1164–1175. -/
def UCore.sustain (c : UCore) : C UCore :=
  if c.samplePeriod > 0 then
    if wrapI32 c.phase ≥ wrapI32 c.sustainEnd then .ok { c with phase := c.sustainOffset } else .ok c
  else if wrapI32 c.phase < wrapI32 c.sustainOffset then
    .ok { c with phase := wrapU32 (c.sustainEnd - 1) }
  else .ok c

/-- Leaving the range, BKUnit.c 1157–1161. -/
def UCore.checkRange (c : UCore) : C (Bool × UCore) :=
  if wrapI32 c.phase < 0 ∨ wrapI32 c.phase ≥ wrapI32 c.length then c.resetSample else .ok (false, c)

/-- BKUnit.c 1164–1175: the sustain range is only looked at until the release. -/
def UCore.checkSustain (c : UCore) (checkBounds : Bool) : C UCore :=
  if checkBounds then c.sustain else .ok c

/-- One pass of the loop in `BKUnitRunSample`, BKUnit.c 1134–1176: stop, unit, pulses. -/
def UCore.sampleStep (c : UCore) (checkBounds : Bool) (t : Int) (n : Nat) :
    C (Bool × UCore × List Pulse) := do
  let r ← (List.range n).foldlM (UCore.sampleChan t (wrapU32 (c.phase * c.numChannels))) (c, [])
  let c ← r.1.advance
  let h ← c.checkRange
  if h.1 then return (true, h.2, r.2)
  else do
    let c ← h.2.checkSustain checkBounds
    return (false, c, r.2)

/-- The loop of `BKUnitRunSample`.  `t` is signed, compared as unsigned with `endTime`. -/
def UCore.sampleLoop (checkBounds : Bool) (endTime : Int) (n : Nat) :
    Nat → Int → UCore → C (Int × UCore × List Pulse)
  | 0, t, c => .ok (t, c, [])
  | k + 1, t, c =>
    if wrapU32 t < endTime then do
      let r ← c.sampleStep checkBounds t n
      if r.1 then return (t, r.2.1, r.2.2)
      else do
        let t' ← i32 (t + U20)
        let rs ← UCore.sampleLoop checkBounds endTime n k t' r.2.1
        return (rs.1, rs.2.1, r.2.2 ++ rs.2.2)
    else .ok (t, c, [])

/-- `BKUnitRunSample`, BKUnit.c 1113–1179.  4097 passes are more than the range of the time. -/
def UCore.runSample (c : UCore) (t0 endTime : Int) (n : Nat) : C (Int × UCore × List Pulse) := do
  if c.mute ≠ 0 then return (endTime, c, [])
  else do
    let d ← i32 (wrapI32 c.stop - wrapI32 c.offset)
    let d ← cabs d
    if d < 2 then return (endTime, c, [])
    else do
      let r ← UCore.sampleLoop (c.sustainRange && !c.release) endTime n 4097 (wrapI32 t0) c
      return (wrapU32 r.1, r.2)

/-- The choice of the run function, BKUnit.c 1181–1202. -/
def UCore.runAny (c : UCore) (t0 endTime : Int) (n : Nat) : C (Int × UCore × List Pulse) :=
  if c.period = 0 then .ok (t0, c, [])
  else match c.waveform with
    | .none => .ok (t0, c, [])
    | .sample => c.runSample t0 endTime n
    | _ => c.runWaveform t0 endTime n

/-- The part of `BKUnitRun` before the buffers are ended, BKUnit.c 1181–1207. -/
def UCore.render (c : UCore) (t0 endTime : Int) (n : Nat) : C (Int × UCore × List Pulse) := do
  let r ← c.runAny t0 endTime n
  return (if r.1 < endTime then endTime else r.1, r.2)

/-- `BKBufferAddPulse` on one channel of a context. -/
def mixPulse (chk : Bool) (chans : List Buf) (p : Pulse) : C (List Buf) := do
  let b ← rd chans p.chan
  let b ← b.addPulse chk p.time p.amp
  wr chans p.chan b

/-- `BKUnitRun`, BKUnit.c 1181–1218. -/
def BUnit.run (chk : Bool) (u : BUnit) (chans : List Buf) (endTime : Int) :
    C (BUnit × List Buf) := do
  let r ← u.toUCore.render u.time endTime chans.length
  let chans ← r.2.2.foldlM (mixPulse chk) chans
  return ({ toUCore := r.2.1, time := r.1 }, chans.map fun b => b.endAt r.1)

/-- `BKUnitEnd`, BKUnit.c 1223–1226. -/
def BUnit.endAt (u : BUnit) (time : Int) : BUnit := { u with time := wrapU32 (u.time - time) }

end BK
