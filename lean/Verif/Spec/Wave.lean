import Verif.Model.Wave
/-!
What a WAVE file is: see https://ccrma.stanford.edu/courses/422/projects/WaveFormat/ (cited in
BKWaveFileWriter.c 34–36).
-/
namespace BK

/-- The bytes from an offset on. -/
def slice (bytes : List Int) (offset n : Nat) : List Int := (bytes.drop offset).take n

/-- Number whose bytes are given, the least significant first. -/
def number (bs : List Int) : Int := bs.foldr (fun b x => b + 256 * x) 0

/-- A file is a PCM WAVE file with these properties, without further chunks. -/
structure IsWave (bytes : List Int) (numChannels sampleRate numBits : Int) (dataBytes : List Int) : Prop where
  riff : slice bytes 0 4 = [82, 73, 70, 70]
  size : number (slice bytes 4 4) = bytes.length - 8
  wave : slice bytes 8 4 = [87, 65, 86, 69]
  fmt : slice bytes 12 4 = [102, 109, 116, 32]
  fmtSize : number (slice bytes 16 4) = 16
  format : number (slice bytes 20 2) = 1
  channels : number (slice bytes 22 2) = numChannels
  rate : number (slice bytes 24 4) = sampleRate
  byteRate : number (slice bytes 28 4) = sampleRate * numChannels * numBits / 8
  blockAlign : number (slice bytes 32 2) = numChannels * numBits / 8
  bits : number (slice bytes 34 2) = numBits
  dataId : slice bytes 36 4 = [100, 97, 116, 97]
  dataSize : number (slice bytes 40 4) = dataBytes.length
  data : bytes.drop 44 = dataBytes
  whole : bytes.length = 44 + dataBytes.length

/-- Calls after a writer has been made. -/
inductive WaveOp where
  | append (frames : List Int)
  | terminate

/-- The frames appended by calls. -/
def WaveOp.frames : List WaveOp → List Int
  | [] => []
  | .append fs :: ops => fs ++ WaveOp.frames ops
  | .terminate :: ops => WaveOp.frames ops

/-- Execution of calls. -/
def WaveWriter.run (w : WaveWriter) : List WaveOp → C WaveWriter
  | [] => .ok w
  | .append fs :: ops => do
    let w ← w.append fs
    w.run ops
  | .terminate :: ops => w.terminate.run ops

/-- A file written from where `file` stands, by making a writer, the calls `ops` and disposal. -/
def writeWave (big : Bool) (file : File) (numChannels sampleRate numBits : Int) (ops : List WaveOp) :
    C (Option File) :=
  match WaveWriter.init big file numChannels sampleRate numBits with
  | none => .ok none
  | some w => do
    let w ← w.run ops
    return some w.dispose.file

/-- What is read from a file where it stands: channels, sample rate, number of frames and frames, into
a buffer of the documented size, which contained `junk` before. -/
def readWave (big : Bool) (file : File) (junk : Nat → List Int) : C (Option (Int × Int × Int × List Int)) := do
  let (h, r) ← (WaveReader.init file).readHeader big
  match h with
  | none => return none
  | some (ch, rate, n) => do
    let (out, _) ← r.readFrames big (junk (n * ch).toNat)
    return some (ch, rate, n, out)

end BK
