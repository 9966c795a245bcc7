import Verif.Model.Copy
import Verif.Model.Track
/-!
Attributes of data objects, `/repo/src/BKData.c`.

Objects are those of `Model/Copy`.  The frames themselves do not matter here.
-/
namespace BK

/-- Attributes of `BKDataSetAttr` and `BKDataGetAttr`; `other` is any other number. -/
inductive DAttr where
  | numFrames | numChannels | samplePitch | other
  deriving DecidableEq, Repr

/-- Codes returned: 0, `BK_INVALID_ATTRIBUTE`, `BK_INVALID_NUM_FRAMES`, `BK_INVALID_NUM_CHANNELS`. -/
inductive DRet where
  | ok | invalidAttribute | invalidNumFrames | invalidNumChannels
  deriving DecidableEq, Repr

/-- `BKDataSetAttrInt`, BKData.c 208–222. -/
def DObj.setAttr (o : DObj) (a : DAttr) (v : Int) : DRet × DObj :=
  match a with
  | .samplePitch => (.ok, { o with samplePitch := cclamp v (-48 * U20) (48 * U20) })
  | _ => (.invalidAttribute, o)

/-- `BKDataGetAttrInt`, BKData.c 229–254: the value, or `none` with `BK_INVALID_ATTRIBUTE`.  Counts are unsigned and are
returned as signed numbers. -/
def DObj.getAttr (o : DObj) : DAttr → Option Int
  | .numFrames => some (wrapI32 o.numFrames)
  | .numChannels => some (wrapI32 o.numChannels)
  | .samplePitch => some o.samplePitch
  | .other => none

/-- One end of a range, BKData.c 284–293. -/
def dataPos (len v : Int) : C Int := do
  let v ← if v < 0 then do
      let l ← i32 (len + 1)
      i32 (v + l)
    else .ok v
  return cclamp v 0 len

/-- The range given; none if there is no pointer or if the ends are equal, BKData.c 275–279. -/
def rangeGiven : Option (Int × Int) → Int × Int
  | none => (0, 0)
  | some r => if r.1 = r.2 then (0, 0) else r

/-- `BKDataSetPtr` with `BK_SAMPLE_SUSTAIN_RANGE`, BKData.c 262–312; `none` is a NULL pointer.  (Any other attribute changes
nothing and returns `BK_INVALID_ATTRIBUTE`.) -/
def DObj.setRange (o : DObj) (v : Option (Int × Int)) : C DObj := do
  let len := wrapI32 o.numFrames
  let off ← dataPos len (rangeGiven v).1
  let stop ← dataPos len (rangeGiven v).2
  return if stop < off then { o with sustainOffset := wrapU32 stop, sustainEnd := wrapU32 off }
    else { o with sustainOffset := wrapU32 off, sustainEnd := wrapU32 stop }

/-- `BKDataGetPtr` with `BK_SAMPLE_SUSTAIN_RANGE`, BKData.c 314–331. -/
def DObj.getRange (o : DObj) : Int × Int := (wrapI32 o.sustainOffset, wrapI32 o.sustainEnd)

/-- `BKDataSetFrames`, BKData.c 333–383: code and counts.  The memory is in `CopyWorld.setFrames` and in `Model/DataMem`; here there is
enough, and the pointer is not NULL. -/
def DObj.newFrames (o : DObj) (numFrames numChannels : Nat) : DRet × DObj :=
  if numFrames < 2 then (.invalidNumFrames, o)
  else if numChannels < 1 ∨ numChannels > 8 then (.invalidNumChannels, o)
  else (.ok, { o with numFrames := numFrames, numChannels := numChannels, numBits := 16 })

/-- Calls that set something. -/
inductive DOp where
  | attr (a : DAttr) (v : Int)
  | range (v : Option (Int × Int))
  | frames (numFrames numChannels : Nat)
  deriving DecidableEq, Repr

def DObj.exec (o : DObj) : DOp → C DObj
  | .attr a v => .ok (o.setAttr a v).2
  | .range v => o.setRange v
  | .frames n c => .ok (o.newFrames n c).2

/-- Calls on a new object; `BKDataInit` clears it, BKData.c 162–165 and BKObject.c 36–38. -/
def DObj.after (ops : List DOp) : C DObj := ops.foldlM DObj.exec {}

/-- The data as it is given to a track (`Track.setData`, which has BKTrack.c 991–1023): the frames and what lines 1012–1014 read. -/
def DObj.arg (o : DObj) (id : Nat) (frames : List Int) : DataArg :=
  { id := id, data := ⟨o.numFrames, o.numChannels, frames⟩, pitch := o.samplePitch }

end BK
