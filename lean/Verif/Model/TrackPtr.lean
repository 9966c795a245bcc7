import Verif.Model.Track
/-!
Reading settings of a track that do not fit into an integer, and the sizes passed with them.
-/
namespace BK

/-- `BKTrackGetPtrObj` with `BK_INSTRUMENT`, BKTrack.c 1073–1076: `instrState.instrument`. -/
def IWorld.getInstrument (w : IWorld) (x : Nat) : Option Nat := w.links.owner x

/-- `BKUnitGetPtr` with `BK_SAMPLE_RANGE`, BKUnit.c 745–749.  (The fields are unsigned and copied to `int`.) -/
def UCore.getRange (c : UCore) : Int × Int := (wrapI32 c.offset, wrapI32 c.stop)

/-- `BKUnitGetPtr` with `BK_SAMPLE_SUSTAIN_RANGE`, BKUnit.c 750–754. -/
def UCore.getSustainRange (c : UCore) : Int × Int := (wrapI32 c.sustainOffset, wrapI32 c.sustainEnd)

/-- `BKUnitGetPtr` with `BK_SAMPLE`, BKUnit.c 730–744. -/
def Track.getSample (t : Track) : Option Nat :=
  if t.unit.waveform = .custom ∨ t.unit.waveform = .sample then t.dataId else none

/-- The bytes of an `int` in memory, lowest first. -/
def intBytes (v : Int) : List Nat :=
  let u := (wrapU32 v).toNat
  [u % 256, u / 256 % 256, u / 65536 % 256, u / 16777216 % 256]

/-- Writing bytes to the beginning of a buffer. -/
def putBytes (buf bs : List Nat) : C (List Nat) :=
  if bs.length ≤ buf.length then .ok (bs ++ buf.drop bs.length) else .error .oob

/-- `BKTrackGetEffect`, BKTrack.c 969–974, for a size below 2 GB: the buffer `outValues` afterwards. -/
def Track.effectInto (t : Track) (e : Effect) (buf : List Nat) (size : Nat) : C (List Nat) :=
  let bs := (t.getEffect e).flatMap intBytes
  let outSize := min size 12
  putBytes buf (bs.take outSize ++ List.replicate (size - outSize) 0)

/-- `BKTrackGetPtrObj` with `BK_ARPEGGIO`, BKTrack.c 1077–1084: the size is not looked at. -/
def Track.arpeggioInto (t : Track) (buf : List Nat) (_size : Nat) : C (List Nat) :=
  putBytes buf (t.getArpeggio.flatMap intBytes)

/-- `BKTrackSetPtrObj` with `BK_ARPEGGIO`, BKTrack.c 1028–1038; `ws` is the memory passed. -/
def Track.arpeggioFrom (t : Track) (ws : List Int) (size : Nat) : C Track :=
  t.setArpeggio (if size = 0 then [] else ws)

/-- `BKTrackSetEffect`, BKTrack.c 850–859; `ws` is the memory passed, `count` the size in units of an `int`. -/
def Track.effectFrom (t : Track) (e : Effect) (ws : List Int) (count : Nat) : C Track :=
  if ws.length < min count 3 then .error .oob else t.setEffect e (ws.take (min count 3))

/-- `BKTrackSetPtr`, BKTrack.c 1052–1055, with an arpeggio. -/
def Track.setPtrArpeggio (t : Track) (ws : List Int) : C Track := t.arpeggioFrom ws 0

/-- `BKTrackSetPtr`, BKTrack.c 1052–1055, with an effect. -/
def Track.setPtrEffect (t : Track) (e : Effect) (ws : List Int) : C Track := t.effectFrom e ws 0

end BK
