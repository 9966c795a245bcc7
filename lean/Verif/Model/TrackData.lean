import Verif.Model.TrackPtr
/-!
Tracks and the data objects they play, `/repo/src/BKData.c`, `/repo/src/BKUnit.c` and `/repo/src/BKTrack.c`.

Data objects are numbered; before their first call they have no frames.  The list of states of a data object is taken to be the
tracks that have it (see C63), in the order in which they were initialised.  Calls that change frames without telling the
tracks are left out (see C62).
-/
namespace BK

/-- Frames and pitch of a data object, BKData.h 81–93. -/
structure DataObj where
  data : SampleData := ⟨0, 0, []⟩
  pitch : Int := 0
  deriving DecidableEq, Repr

/-- `BKUnitSampleDataStateCallback`, BKUnit.c 193–214; `none` is the event `DISPOSE`. -/
def UCore.dataCallback (c : UCore) (ctx : Option Int) (new : Option SampleData) : C (Ret × UCore) :=
  match c.waveform with
  | .custom => c.trySetData ctx .waveform new
  | .sample => c.trySetData ctx .sample new
  | _ => .ok (.failed, c)

/-- What `BKDataResetStates` does with one track, BKData.c 110–135: its callback, and then the state is removed if the callback
failed or the data goes.  The state of the track points to the object, so `data` has the new contents already.  `own` says that the
callback is `BKTrackSampleDataStateCallback`, BKTrack.c 369–379, and not that of the unit. -/
def Track.dataCallback (own : Bool) (x : Nat) (w : IWorld) (t : Track) (new : Option SampleData) : C Track := do
  let r ← t.unit.toUCore.dataCallback (t.ctx.map (·.2)) new
  let c := match new with
    | some d => { r.2 with data := some d }
    | none => r.2
  let t1 := { t with unit := { t.unit with toUCore := c } }
  let t2 ← if own = true ∧ r.1 = .ok then t1.updateNote x w else .ok t1
  if r.1 = .ok ∧ new ≠ none then return t2
  else return { t2 with unit := { t2.unit with data := none }, dataId := none }

/-- Tracks and data objects; `own` says which tracks have their own callback, `known` are the tracks that were initialised. -/
structure AWorld where
  tw : TWorld := {}
  datas : Nat → DataObj := fun _ => {}
  own : Nat → Bool := fun _ => false
  known : List Nat := []

/-- One track is told. -/
def AWorld.tellOne (own : Nat → Bool) (iw : IWorld) (d : Nat) (new : Option SampleData) (ts : Nat → Option Track) (x : Nat) :
    C (Nat → Option Track) :=
  match ts x with
  | none => .ok ts
  | some t =>
    if t.dataId = some d then do
      let t ← t.dataCallback (own x) x iw new
      return upd ts x (some t)
    else .ok ts

/-- `BKDataResetStates`, BKData.c 99–139. -/
def AWorld.tell (s : AWorld) (d : Nat) (new : Option SampleData) : C AWorld := do
  let ts ← s.known.foldlM (AWorld.tellOne s.own s.tw.iw d new) s.tw.tracks
  return { s with tw := { s.tw with tracks := ts } }

/-- Calls. -/
inductive AOp where
  /-- a call on tracks and instruments -/
  | call (op : WOp)
  /-- `BKSetPtr` with `BK_WAVEFORM` or `BK_SAMPLE` -/
  | play (x : Nat) (type : DataAttr) (d : Option Nat)
  /-- `BKDataSetFrames` -/
  | setFrames (d : Nat) (new : SampleData)
  /-- `BKSetAttr` with `BK_SAMPLE_PITCH` on a data object -/
  | setPitch (d : Nat) (pitch : Int)
  /-- `BKDataDetach` -/
  | detachData (d : Nat)
  /-- `BKDispose` on a data object -/
  | disposeData (d : Nat)

/-- The data object as passed to a track. -/
def AWorld.arg (s : AWorld) (d : Nat) : DataArg := ⟨d, (s.datas d).data, (s.datas d).pitch⟩

/-- Which callback a track has after a call: its own after `BKTrackInit` (BKTrack.c 402–403), that of the unit after
`BKTrackClear` and `BKTrackReset` (BKUnit.c 1245–1246). -/
def AWorld.ownAfter (s : AWorld) : WOp → Nat → Bool
  | .init x _ => match s.tw.tracks x with
    | none => upd s.own x true
    | some _ => s.own
  | .track x .clear => upd s.own x false
  | .track x .reset => upd s.own x false
  | _ => s.own

def AWorld.knownAfter (s : AWorld) : WOp → List Nat
  | .init x _ => match s.tw.tracks x with
    | none => s.known ++ [x]
    | some _ => s.known
  | _ => s.known

/-- One call. -/
def AWorld.exec (fuel : Nat) (s : AWorld) : AOp → C AWorld
  | .call op => do
    let tw ← s.tw.exec fuel op
    return { s with tw := tw, own := s.ownAfter op, known := s.knownAfter op }
  | .play x type d => do
    let tw ← s.tw.exec fuel (.track x (.data type (d.map s.arg)))
    return { s with tw := tw }
  | .setFrames d new =>
    -- BKData.c 333–344: nothing happens with less than two frames or a wrong number of channels
    if new.numFrames < 2 ∨ new.numChannels < 1 ∨ new.numChannels > 8 then .ok s
    else { s with datas := upd s.datas d { s.datas d with data := new } }.tell d (some new)
  -- BKData.c 208–222: the tracks are not told
  | .setPitch d p => .ok { s with datas := upd s.datas d { s.datas d with pitch := cclamp p (-48 * U20) (48 * U20) } }
  -- BKData.c 181–187
  | .detachData d => s.tell d none
  -- BKData.c 172–179
  | .disposeData d => do
    let s ← s.tell d none
    return { s with datas := upd s.datas d {} }

/-- Calls in sequence. -/
def AWorld.run (fuel : Nat) (s : AWorld) : List AOp → C AWorld
  | [] => .ok s
  | op :: ops => do
    let s ← s.exec fuel op
    s.run fuel ops

end BK
