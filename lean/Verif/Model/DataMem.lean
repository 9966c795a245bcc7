import Verif.Model.DataState
/-!
Memory of data objects and who uses it, `/repo/src/BKData.c` and `/repo/src/BKUnit.c`.

Memory is either allocated by the library (`lib`, with a number that is never used again) or belongs to the
caller (`user`, with its size in frames; the caller keeps it).  Sizes are numbers of frames of all channels and
do not overflow.  `realloc` always moves (the C standard allows it to), so that pointers to the old
memory are wrong afterwards.  Whether an allocation succeeds is an argument.  Playing reads up to `need` frames
(see C44–C50 for which ones).  Tracks use the functions of units for data.
-/
namespace BK

/-- A pointer to frames. -/
inductive Ptr where
  | lib (id : Nat)
  | user (size : Nat)
  deriving DecidableEq, Repr

/-- What a unit plays: one of the built-in waveforms or none, `BK_CUSTOM` or `BK_SAMPLE`. -/
inductive UKind where
  | builtin | custom | sample
  deriving DecidableEq, Repr

/-- The fields of `struct BKUnit` (BKUnit.h 51–102) that concern data: number of channels of the context if
attached, waveform, `sample.frames`, the number of frames that are read from there, `sample.numChannels`. -/
structure DUnit where
  ctx : Option Nat := none
  kind : UKind := .builtin
  frames : Option Ptr := none
  need : Nat := 0
  chans : Nat := 0
  deriving DecidableEq, Repr

/-- `struct BKData`, BKData.h 81–93; `alive` is `BKObjectFlagInitialized`, `copy` is `BK_DATA_FLAG_COPY`. -/
structure DData where
  alive : Bool := false
  copy : Bool := false
  frames : Option Ptr := none
  numFrames : Nat := 0
  numChannels : Nat := 0
  deriving DecidableEq, Repr

/-- Everything: `heap` says how many frames an allocated piece of memory has. -/
structure DWorld where
  links : Links := {}
  units : Nat → DUnit := fun _ => {}
  datas : Nat → DData := fun _ => {}
  heap : Nat → Option Nat := fun _ => none
  nextId : Nat := 0

/-- `malloc`. -/
def DWorld.malloc (w : DWorld) (size : Nat) : Nat × DWorld :=
  (w.nextId, { w with heap := upd w.heap w.nextId (some size), nextId := w.nextId + 1 })

/-- `free`. -/
def DWorld.free (w : DWorld) : Option Ptr → C DWorld
  | none => .ok w
  | some (.user _) => .error .badFree
  | some (.lib id) =>
    match w.heap id with
    | none => .error .badFree
    | some _ => .ok { w with heap := upd w.heap id none }

/-- Access to `n` frames. -/
def DWorld.access (w : DWorld) (n : Nat) : Option Ptr → C Unit
  | none => if n = 0 then .ok () else .error .null
  | some (.user size) => if n ≤ size then .ok () else .error .oob
  | some (.lib id) =>
    match w.heap id with
    | none => .error .useAfterFree
    | some size => if n ≤ size then .ok () else .error .oob

def DWorld.setUnit (w : DWorld) (u : Nat) (x : DUnit) : DWorld := { w with units := upd w.units u x }
def DWorld.setDat (w : DWorld) (d : Nat) (x : DData) : DWorld := { w with datas := upd w.datas d x }

/-- `BKUnitTrySetData`, BKUnit.c 78–168: success and the unit after it; `dispose` is
`event == BK_DATA_STATE_EVENT_DISPOSE`. -/
def DUnit.trySet (x : DUnit) (data : Option DData) (type : UKind) (dispose : Bool) : Bool × DUnit :=
  match x.ctx with
  | none => (false, x)
  | some c =>
    match type with
    | .builtin => (false, x)
    | .custom =>
      match data, dispose with
      | some d, false =>
        if 2 ≤ d.numFrames then
          (true, { x with kind := .custom, frames := d.frames, need := min d.numFrames 64 })
        else (false, x)
      | _, _ =>
        if x.kind = .custom then (false, { x with kind := .builtin, frames := none }) else (true, x)
    | .sample =>
      match data, dispose with
      | some d, false =>
        if d.numChannels ≠ 1 ∧ d.numChannels ≠ c then (false, x)
        else if d.numFrames < 2 then (false, x)
        else (true, { x with kind := .sample, frames := d.frames, need := d.numFrames * d.numChannels
                             chans := d.numChannels })
      | _, _ =>
        if x.kind = .sample then (true, { x with kind := .builtin, frames := none }) else (true, x)

/-- `BKUnitSampleDataStateCallback`, BKUnit.c 193–214: has it failed, and the units after it. -/
def DWorld.cb (w : DWorld) (dispose : Bool) (us : Nat → DUnit) (u : Nat) : C (Bool × (Nat → DUnit)) :=
  let x := us u
  if x.kind = .builtin then .ok (true, us)
  else
    let r := x.trySet ((w.links.owner u).map w.datas) x.kind dispose
    .ok (!r.1, upd us u r.2)

/-- `BKDataResetStates`, BKData.c 99–139.  (While a state is notified its pointer to the data is still set.) -/
def DWorld.reset (w : DWorld) (fuel d : Nat) (dispose : Bool) : C DWorld := do
  let (links, units) ← resetStates (w.cb dispose) dispose d fuel w.links w.units
  return { w with links := links, units := units }

/-- `BKUnitSetData`, BKUnit.c 170–191. -/
def DWorld.setData (w : DWorld) (fuel u : Nat) (type : UKind) (d : Option Nat) : C DWorld :=
  let r := (w.units u).trySet (d.map w.datas) type false
  if r.1 then do
    let links ← w.links.dataBind fuel u d
    return { w.setUnit u r.2 with links := links }
  else .ok (w.setUnit u { r.2 with kind := .builtin })

/-- New memory for `BKDataSetFrames` with `copy` and for `BKDataSetData`: `realloc` or `malloc`, BKData.c 347–353
and 564–570; `none` if there is no memory. -/
def DWorld.grow (w : DWorld) (d size : Nat) (mem : Bool) : C (Option (Nat × DWorld)) :=
  if mem then
    if (w.datas d).copy then do
      let w ← w.free (w.datas d).frames
      return some (w.malloc size)
    else .ok (some (w.malloc size))
  else .ok none

/-- The memory part of `BKDataSetFrames`, BKData.c 346–371. -/
def DWorld.newFrames (w : DWorld) (d : Nat) (src : Ptr) (size : Nat) (copy mem : Bool) :
    C (Option (Ptr × DWorld)) :=
  if copy then do
    match ← w.grow d size mem with
    | none => return none
    | some (id, w) => do
      w.access size (some src)
      return some (.lib id, w.setDat d { w.datas d with copy := true })
  else if (w.datas d).copy then do
    let w ← w.free (w.datas d).frames
    return some (src, w)
  else .ok (some (src, w))

/-- `BKDataSetFrames`, BKData.c 333–383, with frames of the caller. -/
def DWorld.setFrames (w : DWorld) (fuel d : Nat) (src : Ptr) (numFrames numChannels : Nat) (copy mem : Bool) :
    C DWorld :=
  if numFrames < 2 then .ok w
  else if numChannels < 1 ∨ numChannels > 8 then .ok w
  else do
    match ← w.newFrames d src (numFrames * numChannels) copy mem with
    | none => return w
    | some (p, w) =>
      (w.setDat d { w.datas d with frames := some p, numFrames := numFrames, numChannels := numChannels }).reset
        fuel d false

/-- `BKDataSetData`, BKData.c 542–584, for supported formats; see C60 for the contents. -/
def DWorld.setRaw (w : DWorld) (d numFrames numChannels : Nat) (mem : Bool) : C DWorld :=
  if numChannels < 1 ∨ numChannels > 8 then .ok w
  else do
    match ← w.grow d (numFrames * numChannels) mem with
    | none => return w
    | some (id, w) =>
      return w.setDat d { w.datas d with frames := some (.lib id), numFrames := numFrames
                                         numChannels := numChannels }

/-- The memory part of `BKDataLoadWAVE`, BKData.c 622–660, for a file that is accepted: `malloc`, whatever the object had; see
C97 for the contents.  Users are not notified. -/
def DWorld.load (w : DWorld) (d numFrames numChannels : Nat) (mem : Bool) : DWorld :=
  if mem then
    let r := w.malloc (numFrames * numChannels)
    r.2.setDat d { w.datas d with copy := true, frames := some (.lib r.1), numFrames := numFrames
                                  numChannels := numChannels }
  else w

/-- `BKDataPromoteToCopy`, BKData.c 141–160. -/
def DWorld.promote (w : DWorld) (d : Nat) (mem : Bool) : C (Option DWorld) :=
  let x := w.datas d
  if x.copy then .ok (some w)
  else if mem then do
    let (id, w) := w.malloc (x.numFrames * x.numChannels)
    w.access (x.numFrames * x.numChannels) x.frames
    return some (w.setDat d { x with frames := some (.lib id), copy := true })
  else .ok none

/-- `BKDataNormalize`, BKData.c 662–688; see C59 for the contents. -/
def DWorld.normalize (w : DWorld) (d : Nat) (mem : Bool) : C DWorld := do
  match ← w.promote d mem with
  | none => return w
  | some w => do
    w.access ((w.datas d).numFrames * (w.datas d).numChannels) (w.datas d).frames
    return w

/-- Memory for `BKDataConvert`, BKData.c 798–806 and 810: the frames themselves if they are a copy, else new memory (which is
not marked as a copy); `none` if there is no memory. -/
def DWorld.convertMem (w : DWorld) (d : Nat) (mem : Bool) : Option DWorld :=
  let x := w.datas d
  if x.copy then some w
  else if mem then
    let r := w.malloc (x.numFrames * x.numChannels)
    some (r.2.setDat d { x with frames := some (.lib r.1) })
  else none

/-- `BKDataConvert`, BKData.c 773–815; see C91 for the contents.  (The frames are read and written before line 810, line by line; here
the old ones are accessed first and the new ones then.) -/
def DWorld.convert (w : DWorld) (fuel d : Nat) (mem : Bool) : C DWorld :=
  match w.convertMem d mem with
  | none => .ok w
  | some w' => do
    w.access ((w.datas d).numFrames * (w.datas d).numChannels) (w.datas d).frames
    w'.access ((w.datas d).numFrames * (w.datas d).numChannels) (w'.datas d).frames
    w'.reset fuel d false

/-- `BKDispose` of data: `BKDataDisposeObject`, BKData.c 172–179, after which the object is cleared. -/
def DWorld.disposeData (w : DWorld) (fuel d : Nat) : C DWorld := do
  let w ← w.reset fuel d true
  let w ← if (w.datas d).copy then w.free (w.datas d).frames else pure w
  return w.setDat d {}

/-- Setting of a range: the pointer part of `BKUnitUpdateSampleRange`, BKUnit.c 311–350 (`BK_SAMPLE_RANGE`
is refused unless a sample is set, BKUnit.c 675–679). -/
def DWorld.range (w : DWorld) (u : Nat) : DWorld :=
  let x := w.units u
  if x.kind = .sample then
    match w.links.owner u with
    | none => w
    | some d => w.setUnit u { x with frames := (w.datas d).frames, need := (w.datas d).numFrames * x.chans }
  else w

/-- Playing: `BKUnitRun` reads the frames if custom waveform or sample are set. -/
def DWorld.play (w : DWorld) (u : Nat) : C DWorld := do
  let x := w.units u
  if x.ctx ≠ none ∧ x.kind ≠ .builtin then w.access x.need x.frames
  return w

/-- Calls; `use` sets data as custom waveform or sample, BKUnit.c 666–674. -/
inductive DataOp where
  | init (d : Nat)
  | setFrames (d : Nat) (src : Ptr) (numFrames numChannels : Nat) (copy mem : Bool)
  | setRaw (d : Nat) (numFrames numChannels : Nat) (mem : Bool)
  | load (d numFrames numChannels : Nat) (mem : Bool)
  | normalize (d : Nat) (mem : Bool)
  | convert (d : Nat) (mem : Bool)
  | detachAll (d : Nat)
  | dispose (d : Nat)
  | attach (u channels : Nat)
  | detach (u : Nat)
  | use (u : Nat) (type : UKind) (d : Option Nat)
  | waveform (u : Nat)
  | range (u : Nat)
  | play (u : Nat)
  | disposeUnit (u : Nat)

/-- `BKSetAttr` of `BK_WAVEFORM` to a built-in waveform, BKUnit.c 416–454. -/
def DWorld.waveform (w : DWorld) (fuel u : Nat) : C DWorld := do
  let links ← w.links.dataBind fuel u none
  return { w.setUnit u { w.units u with kind := .builtin } with links := links }

/-- Execution of a call. -/
def DWorld.exec (fuel : Nat) (w : DWorld) : DataOp → C DWorld
  | .init d => .ok (w.setDat d { alive := true })
  | .setFrames d src n c copy mem => w.setFrames fuel d src n c copy mem
  | .setRaw d n c mem => w.setRaw d n c mem
  | .load d n c mem => .ok (w.load d n c mem)
  | .normalize d mem => w.normalize d mem
  | .convert d mem => w.convert fuel d mem
  | .detachAll d => w.reset fuel d true
  | .dispose d => w.disposeData fuel d
  | .attach u c => .ok (if (w.units u).ctx = none then w.setUnit u { w.units u with ctx := some c } else w)
  | .detach u => .ok (w.setUnit u { w.units u with ctx := none })
  | .use u type d => w.setData fuel u type d
  | .waveform u => w.waveform fuel u
  | .range u => .ok (w.range u)
  | .play u => w.play u
  | .disposeUnit u => do
    let links ← w.links.dataBind fuel u none
    return { w.setUnit u {} with links := links }

/-- Execution of calls. -/
def DWorld.run (fuel : Nat) (w : DWorld) : List DataOp → C DWorld
  | [] => .ok w
  | op :: ops => do
    let w ← w.exec fuel op
    w.run fuel ops

end BK
