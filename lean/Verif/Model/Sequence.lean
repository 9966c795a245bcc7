import Verif.Model.C
/-!
Model of `/repo/src/BKSequence.c`: value sequences and envelopes.

The state list of a sequence (lines 395–427) has no influence on playback and is modelled
with the instruments.  `BKSequenceState` keeps its numeric fields; the pointer to the sequence
is an argument of the functions.  A left shift of a negative number is taken as multiplication
(what every supported compiler does).
-/
namespace BK

/-- `BK_INT_MAX`, BKBase.h: marks a finished sequence in `offset`. -/
notation "INT_MAX" => (2147483647 : Int)

/-- Sequence phases, BKSequence.h 37–42. -/
inductive SeqPhase where
  | mute | attack | release
  deriving DecidableEq, Repr

/-- Return values of step and setPhase, BKSequence.h 47–55. -/
inductive SeqRet where
  | none | step | rep | finish
  deriving DecidableEq, Repr

/-- `struct BKSequenceState` without the list pointers, BKSequence.h 115–127. -/
structure SeqState where
  phase : SeqPhase := .mute
  steps : Int := 0
  delta : Int := 0
  offset : Int := 0
  value : Int := 0
  shiftedValue : Int := 0
  endValue : Int := 0
  deriving DecidableEq, Repr

/-- `struct BKSequence` of a value sequence, BKSequence.h 99–110.  `values` is the memory that
was allocated and copied. -/
structure SimpleSeq where
  values : List Int
  length : Int
  sustainOffset : Int
  sustainLength : Int
  deriving DecidableEq, Repr

/-- `malloc (sizeof (* sequence) + size)` with `sizeof` = 48, BKSequence.c 9 and 208: true if
memory is given.  A negative `size` is converted to `size_t`: a request close to 2^64 bytes is
refused, but one that wraps around to less than the header gives a block that the `memset`
after it overruns. -/
def seqAlloc (size : Int) : C Bool :=
  if size ≥ 0 then .ok true
  else if size < -48 then .ok false
  else .error .oob

/-- `BKSequenceFuncSimpleCreate`, BKSequence.c 3–33.  The caller's array has exactly the
`length` entries it claims; `size` is a `BKInt`, so the number of entries really allocated and
copied is `size / 4`.  See `seqAlloc` for negative sizes; `none` is `BK_ALLOCATION_ERROR`.
Otherwise the allocation is assumed to succeed.  The sustain arguments are unsigned, negative
arguments are converted. -/
def SimpleSeq.create (vals : List Int) (sustainOffset sustainLength : Int) : C (Option SimpleSeq) := do
  let length : Int := vals.length
  let so := cclamp (wrapU32 sustainOffset) 0 length
  let sl := cclamp (wrapU32 sustainLength) 0 (length - so)
  let size := wrapI32 (4 * length)
  let given ← seqAlloc size
  if given then
    return some ⟨vals.take (size / 4).toNat, wrapI32 length, wrapI32 so, wrapI32 sl⟩
  else return none

/-- `BKSequenceFuncSimpleSetPhase`, BKSequence.c 35–72 (for the three legal phases; any other
value returns an error without a change). -/
def SimpleSeq.setPhase (q : SimpleSeq) (st : SeqState) (phase : SeqPhase) : C (SeqRet × SeqState) := do
  let offset ←
    match phase with
    | .mute => (pure q.length : C Int)
    | .attack => pure 0
    | .release => i32 (q.sustainOffset + q.sustainLength)
  if offset < q.length then
    let v ← rd q.values offset
    return (.none, { st with offset := offset, value := v, phase := phase })
  else
    return (.finish, { st with offset := INT_MAX, phase := phase })

/-- `BKSequenceFuncSimpleStep`, BKSequence.c 74–105, with `divided` = (level ≥
`BK_SEQUENCE_STEP_DIVIDED`). -/
def SimpleSeq.step (q : SimpleSeq) (st : SeqState) (divided : Bool) : C (SeqRet × SeqState) := do
  if divided = false then return (.none, st)
  else if st.offset = INT_MAX then return (.none, st)
  else
    let sustainEnd ← i32 (q.sustainOffset + q.sustainLength)
    let wrap : Bool := decide (st.phase = .attack) && decide (st.offset ≥ sustainEnd)
    let offset := if wrap then q.sustainOffset else st.offset
    let result := if wrap then SeqRet.rep else SeqRet.step
    if offset < q.length then
      let v ← rd q.values offset
      let o ← i32 (offset + 1)
      return (result, { st with value := v, offset := o })
    else
      return (.finish, { st with offset := INT_MAX })

/-- `struct BKSequencePhase`, BKSequence.h 90–94. -/
structure EnvPoint where
  steps : Int   -- BKUInt
  value : Int   -- BKInt
  deriving DecidableEq, Repr

/-- `struct BKSequence` of an envelope. -/
structure EnvSeq where
  points : List EnvPoint
  length : Int
  sustainOffset : Int
  sustainLength : Int
  fracShift : Nat
  deriving DecidableEq, Repr

/-- `BKSequencePhaseGetMaxAbsValue`, BKSequence.c 150–158. -/
def maxAbs : List EnvPoint → Int → C Int
  | [], m => .ok m
  | p :: ps, m => do
    let a ← if p.value < 0 then i32 (-p.value) else pure p.value
    maxAbs ps (cmax m a)

/-- Loop of `BKSequencePhaseGetFracShift`, BKSequence.c 171–172. -/
def fracLoop (maxValue : Int) : Nat → Nat → Nat
  | 0, shift => shift
  | fuel + 1, shift =>
    if (2 : Int) ^ shift ≤ maxValue then fracLoop maxValue fuel (shift + 1) else shift

/-- `BKSequencePhaseGetFracShift`, BKSequence.c 164–177. -/
def fracShiftOf (ps : List EnvPoint) : C Nat := do
  let m ← maxAbs ps 0
  return 30 - fracLoop m 30 0

/-- Step sum of `BKSequenceEnvelopeCheckValues`, BKSequence.c 190–191: a `BKInt` accumulates
unsigned numbers. -/
def sumSteps : List EnvPoint → Int → Int
  | [], acc => acc
  | p :: ps, acc => sumSteps ps (wrapI32 (acc + p.steps))

/-- `BKSequenceEnvelopeCheckValues`, BKSequence.c 182–197: true if accepted. -/
def envCheck (ps : List EnvPoint) (sustainOffset sustainLength : Int) : Bool :=
  if sustainOffset = ps.length then true
  else sumSteps ((ps.drop sustainOffset.toNat).take sustainLength.toNat) 0 ≠ 0

/-- `BKSequenceFuncEnvelopeCreate`, BKSequence.c 199–229; `none` is `BK_INVALID_VALUE` or
`BK_ALLOCATION_ERROR`. -/
def EnvSeq.create (ps : List EnvPoint) (sustainOffset sustainLength : Int) : C (Option EnvSeq) := do
  let length : Int := ps.length
  let so := cclamp (wrapU32 sustainOffset) 0 length
  let sl := cclamp (wrapU32 sustainLength) 0 (length - so)
  if envCheck ps so sl then
    let size := wrapI32 (8 * length)
    let given ← seqAlloc size
    if given then
      let fs ← fracShiftOf ps
      return some ⟨ps.take (size / 8).toNat, wrapI32 length, wrapI32 so, wrapI32 sl, fs⟩
    else return none
  else return none

/-- Second part of the loop of `BKSequenceFuncEnvelopeStep`, BKSequence.c 260–290: load the
next point and go on as long as it has no steps.  `fuel` bounds the iterations; running out is
the outcome `endless`. -/
def EnvSeq.fetch (q : EnvSeq) : Nat → SeqState → SeqRet → C (SeqRet × SeqState)
  | 0, _, _ => .error .endless
  | fuel + 1, st, res => do
    let sustainEnd ← i32 (q.sustainOffset + q.sustainLength)
    let wrap : Bool := decide (st.phase = .attack) && decide (st.offset ≥ sustainEnd)
    let offset := if wrap then q.sustainOffset else st.offset
    let res := if wrap then SeqRet.rep else res
    if offset < q.length then
      let p ← rd q.points offset
      if p.steps ≠ 0 then
        let e ← i32 (p.value * 2 ^ q.fracShift)
        let d ← i32 (e - st.shiftedValue)
        let delta ← i32 (d.tdiv (wrapI32 p.steps))
        return (res, { st with offset := offset, steps := wrapI32 p.steps, endValue := e,
                               delta := delta, value := st.shiftedValue / 2 ^ q.fracShift })
      else
        let s ← i32 (p.value * 2 ^ q.fracShift)
        let o ← i32 (offset + 1)
        q.fetch fuel { st with offset := o, steps := 0, shiftedValue := s,
                               value := s / 2 ^ q.fracShift } res
    else
      return (.finish, { st with offset := INT_MAX })

/-- Number of iterations granted to the loop. -/
def EnvSeq.fuel (q : EnvSeq) : Nat := 2 * q.length.toNat + 2

/-- `BKSequenceFuncEnvelopeStep`, BKSequence.c 231–293.  The first part of the loop (lines
245–258) can only be entered in the first iteration, because the loop goes on only while
`steps == 0`.  (`level < 0` is never true for the unsigned level.) -/
def EnvSeq.step (q : EnvSeq) (st : SeqState) : C (SeqRet × SeqState) := do
  if st.offset = INT_MAX then return (.none, st)
  else if st.steps ≠ 0 then
    let steps ← i32 (st.steps - 1)
    if steps > 0 then
      let s ← i32 (st.shiftedValue + st.delta)
      return (.step, { st with steps := steps, shiftedValue := s, value := s / 2 ^ q.fracShift })
    else
      let o ← i32 (st.offset + 1)
      q.fetch q.fuel { st with steps := steps, shiftedValue := st.endValue,
                               value := st.endValue / 2 ^ q.fracShift, offset := o } .step
  else q.fetch q.fuel st .step

/-- `BKSequenceFuncEnvelopeSetPhase`, BKSequence.c 295–342.  The check at 334–339 only applies
to the mute phase, since a step never returns "none" here. -/
def EnvSeq.setPhase (q : EnvSeq) (st : SeqState) (phase : SeqPhase) : C (SeqRet × SeqState) :=
  match phase with
  | .mute => do
    let s ← i32 (st.value * 2 ^ q.fracShift)
    return (.finish, { st with steps := 0, delta := 0, offset := q.length, shiftedValue := s,
                               endValue := 0, phase := .mute })
  | .attack => q.step { st with steps := 0, offset := 0, phase := .attack }
  | .release => do
    let o ← i32 (q.sustainOffset + q.sustainLength)
    q.step { st with steps := 0, offset := o, phase := .release }

/-- `BKSequenceFuncEnvelopeSetValue`, BKSequence.c 344–355. -/
def EnvSeq.setValue (q : EnvSeq) (st : SeqState) (value : Int) : C SeqState := do
  let s ← i32 (value * 2 ^ q.fracShift)
  if st.steps ≠ 0 then
    let d ← i32 (st.endValue - s)
    let delta ← i32 (d.tdiv st.steps)
    return { st with value := value, shiftedValue := s, delta := delta }
  else
    return { st with value := value, shiftedValue := s }

/-- `BKSequenceFuncSimpleSetValue`, BKSequence.c 107–112. -/
def SimpleSeq.setValue (_ : SimpleSeq) (st : SeqState) (value : Int) : SeqState :=
  { st with value := value }

/-- Points made by `BKInstrumentSetEnvelopeADSR`, BKInstrument.c 219–224. -/
def adsrPoints (attack decay sustain release : Int) : List EnvPoint :=
  [⟨attack, 32767⟩, ⟨decay, sustain⟩, ⟨240, sustain⟩, ⟨release, 0⟩]

/-- Envelope made by `BKInstrumentSetEnvelopeADSR`, BKInstrument.c 217–227. -/
def adsrCreate (attack decay sustain release : Int) : C (Option EnvSeq) :=
  EnvSeq.create (adsrPoints attack decay sustain release) 2 1

/-- Calls on a sequence state. -/
inductive SeqOp where
  | setPhase (p : SeqPhase)
  | step (divided : Bool)
  | setValue (v : Int)
  deriving DecidableEq, Repr

/-- One call on a state playing a value sequence. -/
def SimpleSeq.exec (q : SimpleSeq) (st : SeqState) : SeqOp → C (SeqRet × SeqState)
  | .setPhase p => q.setPhase st p
  | .step d => q.step st d
  | .setValue v => .ok (.none, q.setValue st v)

/-- One call on a state playing an envelope. -/
def EnvSeq.exec (q : EnvSeq) (st : SeqState) : SeqOp → C (SeqRet × SeqState)
  | .setPhase p => q.setPhase st p
  | .step _ => q.step st
  | .setValue v => do let s ← q.setValue st v; return (.none, s)

/-- Run calls, collecting (return value, current value). -/
def SimpleSeq.run (q : SimpleSeq) (st : SeqState) : List SeqOp → C (SeqState × List (SeqRet × Int))
  | [] => .ok (st, [])
  | op :: ops => do
    let r ← q.exec st op
    let t ← q.run r.2 ops
    return (t.1, (r.1, r.2.value) :: t.2)

/-- Run calls, collecting (return value, current value). -/
def EnvSeq.run (q : EnvSeq) (st : SeqState) : List SeqOp → C (SeqState × List (SeqRet × Int))
  | [] => .ok (st, [])
  | op :: ops => do
    let r ← q.exec st op
    let t ← q.run r.2 ops
    return (t.1, (r.1, r.2.value) :: t.2)

end BK
