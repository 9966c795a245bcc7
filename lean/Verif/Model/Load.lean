import Verif.Model.Copy
import Verif.Model.Wave
/-!
Data objects that are loaded from files: `BKDataLoadWAVE` and `BKDataLoadRaw`, `/repo/src/BKData.c`.

Objects and blocks of frames are those of `Model/Copy`, files those of `Model/Wave` (regular files that are readable; nothing fails when
they are read).  `mem n` is what `malloc` or `realloc` returns for `n` frames, with whatever it contains; the block gets the next number.
Users of the object are not notified, so they do not matter here; what they play is in `Model/DataMem`.
-/
namespace BK

/-- Codes returned: 0, `BK_INVALID_RETURN_VALUE`, `BK_ALLOCATION_ERROR`, `BK_INVALID_NUM_CHANNELS`, `BK_INVALID_NUM_BITS`. -/
inductive LoadRet where
  | ok | invalidReturnValue | noMemory | invalidNumChannels | invalidNumBits
  deriving DecidableEq, Repr

/-- A new block of frames. -/
def CopyWorld.block (w : CopyWorld) (l : List Int) : CopyWorld :=
  { w with heap := upd w.heap w.next (some l), next := w.next + 1 }

/-- `malloc` of `n` frames, where `n` is converted to `size_t`: there is never as much memory as a negative number means. -/
def mallocFrames (mem : Nat → Option (List Int)) (n : Int) : Option (List Int) :=
  if n < 0 then none else mem n.toNat

/-- `BKDataLoadWAVE`, BKData.c 622–660. -/
def CopyWorld.loadWave (w : CopyWorld) (d : Nat) (big : Bool) (file : File) (mem : Nat → Option (List Int)) :
    C (LoadRet × CopyWorld) := do
  let (h, r) ← (WaveReader.init file).readHeader big
  match h with
  | none => return (.invalidReturnValue, w)
  | some (ch, rate, n) => do
    let size ← i32 (n * ch)
    match mallocFrames mem size with
    | none => return (.noMemory, w)
    | some m => do
      let (out, _) ← r.readFrames big m
      return (.ok, (w.block out).put d
        { w.objs d with copied := true, numBits := 16, sampleRate := rate, numFrames := n.toNat
                        numChannels := ch.toNat, frames := some w.next })

/-- `BKDataSetData`, BKData.c 542–584, as in `setRawData`, with the object.  Lines 564–570: memory of the object which is a copy is
given to `realloc`, other memory is kept.  `BK_DATA_FLAG_COPY` is not set. -/
def CopyWorld.setRaw (w : CopyWorld) (d : Nat) (big : Bool) (mem : Nat → Option (List Int)) (bytes : List Int)
    (dataSize numChannels params : Int) : C (LoadRet × CopyWorld) := do
  match ← setRawData big mem bytes dataSize numChannels params with
  | .invalidNumChannels => return (.invalidNumChannels, w)
  | .invalidNumBits => return (.invalidNumBits, w)
  | .allocationError => return (.noMemory, w)
  | .ok f => do
    let w' ← w.drop d
    return (.ok, (w'.block f.frames).put d
      { w.objs d with frames := some w'.next, numFrames := f.numFrames.toNat, numChannels := f.numChannels.toNat
                      numBits := f.numBits })

/-- `BKDataLoadRaw`, BKData.c 586–620; `room` says whether there is memory for the bytes of the file (lines 606–611). -/
def CopyWorld.loadRaw (w : CopyWorld) (d : Nat) (big : Bool) (file : File) (numChannels params : Int) (room : Bool)
    (mem : Nat → Option (List Int)) : C (LoadRet × CopyWorld) :=
  let size := file.seekEnd.pos - file.pos
  if room then w.setRaw d big mem (((file.seekEnd).seek file.pos).read size).1 (wrapU32 size) numChannels params
  else .ok (.noMemory, w)

end BK
