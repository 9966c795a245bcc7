import Verif.Model.Sequence
import Verif.Model.Links
/-!
Model of `/repo/src/BKInstrument.c` together with the parts of `/repo/src/BKTrack.c` that play
notes with instruments (lines 44–62 and 557–674).

Instruments, instrument states (one per track) and sequences are numbers.  Sequences live in a
heap; using a freed one is the outcome `useAfterFree`, freeing it again `badFree`.  All states
have the callback that tracks install (BKTrack.c 44–62); its calls are recorded in `log`, and
what it does to the instrument state is modelled, the rest of the track is in the track model.
-/
namespace BK

/-- A sequence: value sequence or envelope, BKSequence.h 99–110 (`funcs` tells which). -/
inductive Sequence where
  | simple (q : SimpleSeq)
  | env (q : EnvSeq)
  deriving DecidableEq, Repr

/-- `funcs -> setPhase`. -/
def Sequence.setPhase : Sequence → SeqState → SeqPhase → C (SeqRet × SeqState)
  | .simple q, st, p => q.setPhase st p
  | .env q, st, p => q.setPhase st p

/-- `funcs -> step`. -/
def Sequence.step : Sequence → SeqState → Bool → C (SeqRet × SeqState)
  | .simple q, st, d => q.step st d
  | .env q, st, _ => q.step st

/-- `funcs -> setValue`. -/
def Sequence.setValue : Sequence → SeqState → Int → C SeqState
  | .simple q, st, v => .ok (q.setValue st v)
  | .env q, st, v => q.setValue st v

/-- The heap blocks holding sequences; `none` is not allocated. -/
abbrev SeqHeap := Nat → Option Sequence

/-- Following a sequence pointer. -/
def SeqHeap.get (heap : SeqHeap) (id : Nat) : C Sequence :=
  match heap id with
  | some q => .ok q
  | none => .error .useAfterFree

/-- `free`. -/
def SeqHeap.free (heap : SeqHeap) (id : Nat) : C SeqHeap :=
  match heap id with
  | some _ => .ok (upd heap id none)
  | none => .error .badFree

/-- `BKSequenceState` with its pointer to the sequence, BKSequence.h 115–127. -/
structure ISlot where
  seq : Option Nat := none
  st : SeqState := {}
  deriving DecidableEq, Repr

/-- `BKSequenceStateSetPhase`, BKSequence.c 460–466; `none` is `BK_INVALID_STATE`. -/
def ISlot.setPhase (heap : SeqHeap) (s : ISlot) (p : SeqPhase) : C (Option SeqRet × ISlot) :=
  match s.seq with
  | none => .ok (none, s)
  | some id => do
    let q ← heap.get id
    let r ← q.setPhase s.st p
    return (some r.1, { s with st := r.2 })

/-- `BKSequenceStateStep`, BKSequence.c 468–474. -/
def ISlot.step (heap : SeqHeap) (s : ISlot) (divided : Bool) : C (Option SeqRet × ISlot) :=
  match s.seq with
  | none => .ok (none, s)
  | some id => do
    let q ← heap.get id
    let r ← q.step s.st divided
    return (some r.1, { s with st := r.2 })

/-- `BKSequenceStateSetValue`, BKSequence.c 476–484. -/
def ISlot.setValue (heap : SeqHeap) (s : ISlot) (v : Int) : C ISlot :=
  match s.seq with
  | none => .ok { s with st := { s.st with value := v } }
  | some id => do
    let q ← heap.get id
    let st ← q.setValue s.st v
    return { s with st := { st with value := v } }

/-- `struct BKInstrument` without object header and list head, BKInstrument.h 61–67. -/
structure Instr where
  numSequences : Nat := 0
  sequences : Nat → Option Nat := fun _ => none

/-- `struct BKInstrumentState` without the list pointers, BKInstrument.h 49–59.  The array
`states` has the indices 0 to 3. -/
structure IState where
  phase : SeqPhase := .mute
  numActive : Int := 0
  slots : Nat → ISlot := fun _ => {}

/-- Events passed to the callback, BKInstrument.h 42–47. -/
inductive InstrEvent where
  | reset | dispose | mute
  deriving DecidableEq, Repr

/-- `sequenceDefaultValue`, BKInstrument.c 31–37. -/
def seqDefault (i : Nat) : Int := if i = 0 then 32767 else 0

/-- Access to the array of four. -/
def chk4 (i : Nat) : C Unit := if i < 4 then .ok () else .error .oob

/-- `state -> states [i] = s`. -/
def IState.setSlot (x : IState) (i : Nat) (s : ISlot) : IState :=
  { x with slots := upd x.slots i s }

/-- Loop body of `BKInstrumentStateSetDefaultValues`, BKInstrument.c 48–57. -/
def IState.defaultStep (heap : SeqHeap) (x : IState) (i : Nat) : C IState := do
  let s ← (x.slots i).setValue heap (if (x.slots i).seq = none then seqDefault i else 0)
  return x.setSlot i s

/-- `BKInstrumentStateSetDefaultValues`, BKInstrument.c 44–58. -/
def IState.setDefaults (heap : SeqHeap) (x : IState) : C IState :=
  [0, 1, 2, 3].foldlM (IState.defaultStep heap) x

/-- Loop body of `BKInstrumentStateSetPhase`, BKInstrument.c 352–358, with the counter. -/
def IState.phaseStep (heap : SeqHeap) (ins : Instr) (p : SeqPhase) (x : IState) (i : Nat) : C IState := do
  chk4 i
  match ins.sequences i with
  | none => return x
  | some _ => do
    let r ← (x.slots i).setPhase heap p
    let x := x.setSlot i r.2
    if r.1 = some .finish then return x
    else do
      let n ← i32 (x.numActive + 1)
      return { x with numActive := n }

/-- `BKInstrumentStateSetPhase` for an attached state, BKInstrument.c 342–390, up to the call of
the callback: whether it is called. -/
def IState.setPhaseCore (heap : SeqHeap) (ins : Instr) (x : IState) (p : SeqPhase) :
    C (Bool × IState) := do
  if x.phase = .release ∧ p = .release then return (false, x)
  else
    let x ← (List.range ins.numSequences).foldlM (IState.phaseStep heap ins p) { x with numActive := 0 }
    let p := if x.numActive = 0 ∧ p = .release then SeqPhase.mute else p
    match p with
    | .attack => return (false, { x with phase := .attack })
    | .release => return (false, { x with phase := .release })
    | .mute =>
      if x.phase = .mute then return (false, x)
      else return (true, { x with phase := .mute })

/-- `BKInstrumentStateSetPhase` for an attached state with the callback of the track, which on a
mute event sets the mute note, which sets the mute phase again (BKTrack.c 56–59, 626–638,
581–585).  The callback is not called then, because the phase already is mute. -/
def IState.setPhase (heap : SeqHeap) (ins : Instr) (x : IState) (p : SeqPhase) :
    C (List InstrEvent × IState) := do
  let r ← x.setPhaseCore heap ins p
  if r.1 then
    let r' ← r.2.setPhaseCore heap ins .mute
    return ([.mute], r'.2)
  else return ([], r.2)

/-- Loop body of `BKInstrumentStateTick`, BKInstrument.c 321–330. -/
def IState.tickStep (heap : SeqHeap) (ins : Instr) (divided : Bool) (a : List InstrEvent × IState)
    (i : Nat) : C (List InstrEvent × IState) := do
  chk4 i
  let r ← (a.2.slots i).step heap divided
  let x := a.2.setSlot i r.2
  if r.1 = some .finish then
    let n ← i32 (x.numActive - 1)
    let x := { x with numActive := n }
    if n = 0 then
      let t ← x.setPhase heap ins .mute
      return (a.1 ++ t.1, t.2)
    else return (a.1, x)
  else return (a.1, x)

/-- `BKInstrumentStateTick` for an attached state, BKInstrument.c 319–332. -/
def IState.tick (heap : SeqHeap) (ins : Instr) (x : IState) (divided : Bool) :
    C (List InstrEvent × IState) :=
  (List.range ins.numSequences).foldlM (IState.tickStep heap ins divided) ([], x)

/-- All instruments, instrument states and sequences.  `links.owner x` is the instrument of state
`x`, `links.first i` the list head of instrument `i` (`links.last` is not used). -/
structure IWorld where
  links : Links := {}
  states : Nat → IState := fun _ => { slots := fun i => { st := { value := seqDefault i } } }
  instrs : Nat → Instr := fun _ => {}
  heap : SeqHeap := fun _ => none
  fresh : Nat := 0
  log : List (Nat × InstrEvent) := []

/-- Links part of `BKInstrumentStateAddToInstrument`, BKInstrument.c 234–243.  (The flag
`Locked` is never set on instruments.) -/
def Links.addState (h : Links) (x i : Nat) : Links :=
  if h.owner x = none then
    let h := { h with owner := upd h.owner x (some i) }
    let h := { h with prev := upd h.prev x none }
    let h := { h with next := upd h.next x (h.first i) }
    let h := match h.first i with
      | some y => { h with prev := upd h.prev y (some x) }
      | none => h
    { h with first := upd h.first i (some x) }
  else h

/-- BKInstrument.c 255–256. -/
def Links.joinPrev (h : Links) (x : Nat) : Links :=
  match h.prev x with
  | some p => { h with next := upd h.next p (h.next x) }
  | none => h

/-- BKInstrument.c 258–259. -/
def Links.joinNext (h : Links) (x : Nat) : Links :=
  match h.next x with
  | some n => { h with prev := upd h.prev n (h.prev x) }
  | none => h

/-- BKInstrument.c 261–262. -/
def Links.cutFirst (h : Links) (i x : Nat) : Links :=
  if h.first i = some x then { h with first := upd h.first i (h.next x) } else h

/-- `BKInstrumentStateRemoveFromInstrument`, BKInstrument.c 250–269. -/
def Links.removeState (h : Links) (x : Nat) : Links :=
  match h.owner x with
  | none => h
  | some i =>
    let h := ((h.joinPrev x).joinNext x).cutFirst i x
    let h := { h with owner := upd h.owner x none }
    let h := { h with prev := upd h.prev x none }
    { h with next := upd h.next x none }

/-- Assignment of the four sequence pointers, BKInstrument.c 286–287 and 293–294. -/
def IState.setSeqs (x : IState) (f : Nat → Option Nat) : IState :=
  { x with slots := fun i => if i < 4 then { x.slots i with seq := f i } else x.slots i }

/-- `BKInstrumentStateSetPhase`, BKInstrument.c 334–391. -/
def IWorld.setPhase (w : IWorld) (x : Nat) (p : SeqPhase) : C IWorld :=
  match w.links.owner x with
  | none => .ok w
  | some i => do
    let r ← (w.states x).setPhase w.heap (w.instrs i) p
    return { w with states := upd w.states x r.2, log := w.log ++ r.1.map (fun e => (x, e)) }

/-- `BKInstrumentStateSetInstrument`, BKInstrument.c 280–298, with the call of
`BKInstrumentStateSetDefaultValues` at line 245 (the removal before makes the state unattached,
so adding always succeeds). -/
def IWorld.setInstrument (w : IWorld) (x : Nat) : Option Nat → C IWorld
  | some i => do
    let links := (w.links.removeState x).addState x i
    let s ← (w.states x).setDefaults w.heap
    let s ← (s.setSeqs (w.instrs i).sequences).setDefaults w.heap
    let w := { w with links := links, states := upd w.states x s }
    w.setPhase x .attack
  | none =>
    .ok { w with links := w.links.removeState x
                 states := upd w.states x ((w.states x).setSeqs fun _ => none) }

/-- `for (state = ...; state; state = state -> nextState)`: the pointer is read after the loop
body.  `fuel` bounds the iterations; running out is the outcome `endless`. -/
def IWorld.forAfter (body : IWorld → Nat → C IWorld) : Nat → IWorld → Option Nat → C IWorld
  | _, w, none => .ok w
  | 0, _, some _ => .error .endless
  | fuel + 1, w, some x => do
    let w ← body w x
    forAfter body fuel w (w.links.next x)

/-- The same with the pointer read before the loop body, BKInstrument.c 67–68. -/
def IWorld.forBefore (body : IWorld → Nat → C IWorld) : Nat → IWorld → Option Nat → C IWorld
  | _, w, none => .ok w
  | 0, _, some _ => .error .endless
  | fuel + 1, w, some x => do
    let next := w.links.next x
    let w ← body w x
    forBefore body fuel w next

/-- Loop of `BKInstrumentUpdateNumSequences`, BKInstrument.c 151–156. -/
def numSeqs (f : Nat → Option Nat) : Nat :=
  [0, 1, 2, 3].foldl (fun n i => if f i = none then n else max n (i + 1)) 0

/-- `BKInstrumentResetStates` with `BK_INSTR_STATE_EVENT_RESET`: loop body, BKInstrument.c
67–75.  The callback of the track does not change the instrument state then. -/
def IWorld.resetBody (w : IWorld) (x : Nat) : C IWorld :=
  .ok { w with log := w.log ++ [(x, InstrEvent.reset)] }

/-- The same with `BK_INSTR_STATE_EVENT_DISPOSE`: the callback of the track sets no instrument
(BKTrack.c 47–50), and so does the loop itself. -/
def IWorld.disposeBody (w : IWorld) (x : Nat) : C IWorld := do
  let w := { w with log := w.log ++ [(x, InstrEvent.dispose)] }
  let w ← w.setInstrument x none
  w.setInstrument x none

/-- Body of the loop in `BKInstrumentStateSetSequence`, BKInstrument.c 165–166. -/
def IWorld.pointBody (slot : Nat) (id : Option Nat) (w : IWorld) (x : Nat) : C IWorld :=
  let s := w.states x
  .ok { w with states := upd w.states x (s.setSlot slot { s.slots slot with seq := id }) }

/-- Body of the loop in `BKInstrumentSetSequenceValues`, BKInstrument.c 192–195. -/
def IWorld.muteBody (w : IWorld) (x : Nat) : C IWorld := do
  let s ← (w.states x).setDefaults w.heap
  { w with states := upd w.states x s }.setPhase x .mute

/-- What the caller wants to set. -/
inductive NewSeq where
  | nothing
  | values (vals : List Int) (sustainOffset sustainLength : Int)
  | points (ps : List EnvPoint) (sustainOffset sustainLength : Int)
  deriving DecidableEq, Repr

/-- `BKSequenceCreate` through `values && length`, BKInstrument.c 177–182: `none` is an error,
`some none` no sequence. -/
def NewSeq.create : NewSeq → C (Option (Option Sequence))
  | .nothing => .ok (some none)
  | .values vals so sl => do
    if vals = [] then return some none
    else
      let q ← SimpleSeq.create vals so sl
      return q.map fun q => some (.simple q)
  | .points ps so sl => do
    if ps = [] then return some none
    else
      let q ← EnvSeq.create ps so sl
      return q.map fun q => some (.env q)

/-- Freeing the old sequence, BKInstrument.c 184–185. -/
def SeqHeap.freeOpt (heap : SeqHeap) : Option Nat → C SeqHeap
  | none => .ok heap
  | some id => heap.free id

/-- Storing the new sequence in the heap. -/
def IWorld.store (w : IWorld) : Option Sequence → Option Nat × IWorld
  | none => (none, w)
  | some q => (some w.fresh, { w with heap := upd w.heap w.fresh (some q), fresh := w.fresh + 1 })

/-- `instr -> sequences [slot] = sequence`, BKInstrument.c 163. -/
def Instr.setSeq (ins : Instr) (slot : Nat) (id : Option Nat) : Instr :=
  { ins with sequences := upd ins.sequences slot id }

/-- `BKInstrumentUpdateNumSequences`, BKInstrument.c 149–159. -/
def Instr.updateNum (ins : Instr) : Instr := { ins with numSequences := numSeqs ins.sequences }

/-- `BKInstrumentSetSequenceValues` after creation of the new sequence, BKInstrument.c
184–197. -/
def IWorld.replace (w : IWorld) (fuel i slot : Nat) (q : Option Sequence) : C IWorld := do
  let id := (w.store q).1
  let w := (w.store q).2
  let heap ← w.heap.freeOpt ((w.instrs i).sequences slot)
  let w := { w with heap := heap }
  let w := { w with instrs := upd w.instrs i ((w.instrs i).setSeq slot id) }
  let w ← IWorld.forAfter (IWorld.pointBody slot id) fuel w (w.links.first i)
  let w := { w with instrs := upd w.instrs i (w.instrs i).updateNum }
  let w ← IWorld.forAfter IWorld.muteBody fuel w (w.links.first i)
  IWorld.forBefore IWorld.resetBody fuel w (w.links.first i)

/-- `BKInstrumentSetSequenceValues`, BKInstrument.c 169–205, and so `BKInstrumentSetSequence`
(207–210), `BKInstrumentSetEnvelope` (212–215).  The first component is false on error. -/
def IWorld.setSequence (w : IWorld) (fuel i slot : Nat) (new : NewSeq) : C (Bool × IWorld) := do
  if slot < 4 then
    match ← new.create with
    | none => return (false, w)
    | some q =>
      let w ← w.replace fuel i slot q
      return (true, w)
  else return (false, w)

/-- `BKInstrumentDetach`, BKInstrument.c 110–113. -/
def IWorld.detach (w : IWorld) (fuel i : Nat) : C IWorld :=
  IWorld.forBefore IWorld.disposeBody fuel w (w.links.first i)

/-- Disposing an instrument: `BKInstrumentDisposeObject`, BKInstrument.c 96–108, and the clearing
of the object by `BKDispose`. -/
def IWorld.dispose (w : IWorld) (fuel i : Nat) : C IWorld := do
  let w ← w.detach fuel i
  let heap ← [0, 1, 2, 3].foldlM (fun h k => SeqHeap.freeOpt h ((w.instrs i).sequences k)) w.heap
  return { w with heap := heap, instrs := upd w.instrs i {} }

/-- `BKTrackSetInstrumentInitValues`, BKTrack.c 557–563 (the flag `BKInstrumentFlag` is set while
an instrument is attached). -/
def IWorld.initValues (w : IWorld) (x : Nat) (dutyCycle : Int) : C IWorld :=
  match w.links.owner x with
  | none => .ok w
  | some i =>
    match (w.instrs i).sequences 3 with
    | none => .ok w
    | some _ => do
      let s ← ((w.states x).slots 3).setValue w.heap dutyCycle
      return { w with states := upd w.states x ((w.states x).setSlot 3 s) }

/-- Calls. -/
inductive InstrOp where
  /-- `BKInstrumentSetSequence`, `BKInstrumentSetEnvelope`, `BKInstrumentSetEnvelopeADSR` -/
  | setSequence (i slot : Nat) (new : NewSeq)
  /-- `BKInstrumentDetach` -/
  | detach (i : Nat)
  /-- `BKDispose` on an instrument -/
  | dispose (i : Nat)
  /-- `BKTrackSetInstrument`, BKTrack.c 647–674, with a note playing or not -/
  | setInstrument (x : Nat) (i : Option Nat) (playing : Bool) (dutyCycle : Int)
  /-- `BKTrackInstrumentAttack`, BKTrack.c 565–573 -/
  | attack (x : Nat) (dutyCycle : Int)
  /-- `BKTrackInstrumentRelease`, BKTrack.c 575–579 -/
  | release (x : Nat)
  /-- `BKTrackInstrumentMute`, BKTrack.c 581–585 -/
  | mute (x : Nat)
  /-- `BKTrackInstrumentTick`, BKTrack.c 233–237, which is only reached with an instrument -/
  | tick (x : Nat) (divided : Bool)
  deriving DecidableEq, Repr

/-- `BKTrackInstrumentAttack`, BKTrack.c 565–573. -/
def IWorld.attack (w : IWorld) (x : Nat) (dutyCycle : Int) : C IWorld := do
  let w ← w.initValues x dutyCycle
  w.setPhase x .attack

/-- `BKTrackSetInstrument`, BKTrack.c 647–674.  If no instrument is set and no note is playing,
the mute note is set, which does not reach the instrument state, because the flag is cleared. -/
def IWorld.trackSetInstrument (w : IWorld) (x : Nat) (i : Option Nat) (playing : Bool)
    (dutyCycle : Int) : C IWorld := do
  if i = w.links.owner x then return w
  else
    let w ← w.setInstrument x i
    if i = none then return w
    else
      let w ← w.initValues x dutyCycle
      if playing then w.attack x dutyCycle else w.setPhase x .mute

/-- `BKInstrumentStateTick`, BKInstrument.c 319–332. -/
def IWorld.tick (w : IWorld) (x : Nat) (divided : Bool) : C IWorld :=
  match w.links.owner x with
  | none => .error .null
  | some i => do
    let r ← (w.states x).tick w.heap (w.instrs i) divided
    return { w with states := upd w.states x r.2, log := w.log ++ r.1.map (fun e => (x, e)) }

/-- One call; the track only ticks its instrument state while an instrument is attached
(BKTrack.c 346–352). -/
def IWorld.exec (fuel : Nat) (w : IWorld) : InstrOp → C IWorld
  | .setSequence i slot new => do
    let r ← w.setSequence fuel i slot new
    return r.2
  | .detach i => w.detach fuel i
  | .dispose i => w.dispose fuel i
  | .setInstrument x i playing duty => w.trackSetInstrument x i playing duty
  | .attack x duty => w.attack x duty
  | .release x => w.setPhase x .release
  | .mute x => w.setPhase x .mute
  | .tick x d => if w.links.owner x = none then .ok w else w.tick x d

/-- Calls in sequence. -/
def IWorld.run (fuel : Nat) (w : IWorld) : List InstrOp → C IWorld
  | [] => .ok w
  | op :: ops => do
    let w ← w.exec fuel op
    w.run fuel ops

end BK
