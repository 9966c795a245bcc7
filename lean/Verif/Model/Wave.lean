import Verif.Model.Convert
/-!
WAVE files, `/repo/src/BKWaveFileReader.c`, `/repo/src/BKWaveFileWriter.c`, `/repo/src/BKWaveFile_internal.h`.

A file is a list of bytes (0 to 255) and a position, as after opening a regular file in binary mode for
reading or writing (not for appending): reads give all bytes up to the end, writes and seeks succeed.
Whether the machine is big-endian (BKWaveFile_internal.h 70–80) is an argument.
-/
namespace BK

/-- A file of the C library. -/
structure File where
  bytes : List Int
  pos : Nat
  deriving DecidableEq, Repr

/-- `fread (…, 1, n, file)`. -/
def File.read (f : File) (n : Nat) : List Int × File :=
  let bs := (f.bytes.drop f.pos).take n
  (bs, { f with pos := f.pos + bs.length })

/-- `fwrite`: nothing is written for no bytes; a gap before the position is filled with 0. -/
def File.write (f : File) (bs : List Int) : File :=
  if bs = [] then f
  else
    let padded := f.bytes ++ List.replicate (f.pos - f.bytes.length) 0
    { bytes := padded.take f.pos ++ bs ++ padded.drop (f.pos + bs.length), pos := f.pos + bs.length }

/-- `fseek (…, SEEK_SET)`. -/
def File.seek (f : File) (pos : Nat) : File := { f with pos := pos }

/-- `fseek (…, 0, SEEK_END)`. -/
def File.seekEnd (f : File) : File := { f with pos := f.bytes.length }

/-- The `n` bytes of an unsigned number on a little-endian machine. -/
def leBytes : Nat → Int → List Int
  | 0, _ => []
  | n + 1, x => x % 256 :: leBytes n (x / 256)

/-- The unsigned number of bytes on a little-endian machine. -/
def leVal : List Int → Int
  | [] => 0
  | b :: bs => b + 256 * leVal bs

/-- Memory of an unsigned number. -/
def image (big : Bool) (n : Nat) (x : Int) : List Int :=
  if big then (leBytes n x).reverse else leBytes n x

/-- Unsigned number in memory. -/
def valOf (big : Bool) (bs : List Int) : Int :=
  if big then leVal bs.reverse else leVal bs

/-- `BKInt32Reverse` and `BKInt16Reverse`, BKWaveFile_internal.h 82–112. -/
def bytesReverse (n : Nat) (x : Int) : Int := leVal (leBytes n x).reverse

/-- A number that is reversed on big-endian machines before being written or after being read. -/
def swapIf (big : Bool) (n : Nat) (x : Int) : Int := if big then bytesReverse n x else x

/-- `"RIFF"`, `"WAVE"`, `"fmt "`, `"data"`. -/
def idRiff : List Int := [82, 73, 70, 70]
def idWave : List Int := [87, 65, 86, 69]
def idFmt : List Int := [102, 109, 116, 32]
def idData : List Int := [100, 97, 116, 97]

/-! ### Writer -/

/-- `struct BKWaveFileWriter`, BKWaveFileWriter.h 50–65, with its flags (BKWaveFileWriter.c 28–32);
`big` is `reverseEndian`. -/
structure WaveWriter where
  file : File
  initOffset : Nat
  sampleRate : Int
  numChannels : Int
  numBits : Int
  fileSize : Int
  dataSize : Int
  big : Bool
  headerWritten : Bool
  terminated : Bool
  deriving DecidableEq, Repr

/-- `BKWaveFileWriterInit`, BKWaveFileWriter.c 87–114, for a file that is writable and seekable; `none`
is `BK_INVALID_VALUE`. -/
def WaveWriter.init (big : Bool) (file : File) (numChannels sampleRate numBits : Int) :
    Option WaveWriter :=
  let w : WaveWriter :=
    { file := file, initOffset := file.pos, sampleRate := sampleRate, numChannels := numChannels
      numBits := if numBits = 0 then 16 else numBits
      fileSize := 0, dataSize := 0, big := big, headerWritten := false, terminated := false }
  if numBits = 0 then some w
  else if numBits ≠ 8 ∧ numBits ≠ 16 then none
  else some w

/-- The bytes of `header`, `fmtHeader` and `dataHeader` in `BKWaveFileWriterWriteHeader`,
BKWaveFileWriter.c 38–63 and 130–156.  `audioFormat` is not reversed. -/
def waveHeader (big : Bool) (numChannels sampleRate numBits blockAlign byteRate : Int) : List Int :=
  idRiff ++ image big 4 0 ++ idWave ++
  (idFmt ++ image big 4 (swapIf big 4 16) ++ image big 2 1 ++ image big 2 (swapIf big 2 (wrapU16 numChannels)) ++
    image big 4 (swapIf big 4 (wrapU32 sampleRate)) ++ image big 4 (swapIf big 4 (wrapU32 byteRate)) ++
    image big 2 (swapIf big 2 (wrapU16 blockAlign)) ++ image big 2 (swapIf big 2 (wrapU16 numBits))) ++
  (idData ++ image big 4 0)

/-- `BKWaveFileWriterWriteHeader`, BKWaveFileWriter.c 123–163. -/
def WaveWriter.writeHeader (w : WaveWriter) : C WaveWriter := do
  let a ← i32 (w.sampleRate * w.numChannels)
  let _ ← i32 (a * w.numBits)
  let b ← i32 (w.numChannels * w.numBits)
  let blockAlign := wrapU16 (b.tdiv 8)
  let byteRate ← i32 (w.sampleRate * blockAlign)
  let file := w.file.write (waveHeader w.big w.numChannels w.sampleRate w.numBits blockAlign byteRate)
  return { w with file := file, fileSize := w.fileSize + ((file.pos : Int) - 8), headerWritten := true }

/-- Memory of a frame to be written, BKWaveFileWriter.c 188–198. -/
def frameImage (big : Bool) (numBits x : Int) : List Int :=
  if numBits = 8 then [wrapU8 (x / 256 + 128)]
  else image big 2 (swapIf big 2 (wrapU16 x))

/-- The loop of `BKWaveFileWriterAppendFrames` over buffers of 1024 frames, BKWaveFileWriter.c 185–205;
`n` bounds the number of rounds. -/
def writeFrames (big : Bool) (numBits : Int) : Nat → List Int → File → C File
  | 0, [], f => .ok f
  | 0, _ :: _, _ => .error .endless
  | _ + 1, [], f => .ok f
  | n + 1, x :: xs, f =>
    writeFrames big numBits n ((x :: xs).drop 1024)
      (f.write (((x :: xs).take 1024).flatMap (frameImage big numBits)))

/-- The test for the header in `BKWaveFileWriterAppendFrames`, BKWaveFileWriter.c 173–177. -/
def WaveWriter.needHeader (w : WaveWriter) : C WaveWriter :=
  if w.headerWritten then .ok w else w.writeHeader

/-- The file after `BKWaveFileWriterAppendFrames`, BKWaveFileWriter.c 183–207. -/
def WaveWriter.putFrames (w : WaveWriter) (frames : List Int) : C File :=
  if w.big ∨ w.numBits ≠ 16 then writeFrames w.big w.numBits frames.length frames w.file
  else .ok (w.file.write (frames.flatMap fun x => image w.big 2 (wrapU16 x)))

/-- `BKWaveFileWriterAppendFrames`, BKWaveFileWriter.c 165–215. -/
def WaveWriter.append (w : WaveWriter) (frames : List Int) : C WaveWriter := do
  let w ← w.needHeader
  let dataSize ← i32 (w.numBits.tdiv 8 * frames.length)
  let file ← w.putFrames frames
  return { w with file := file, fileSize := w.fileSize + dataSize, dataSize := w.dataSize + dataSize
                  terminated := false }

/-- `BKWaveFileWriterTerminate`, BKWaveFileWriter.c 217–250. -/
def WaveWriter.terminate (w : WaveWriter) : WaveWriter :=
  let f := w.file.seek (w.initOffset + 4)
  let f := f.write (image w.big 4 (swapIf w.big 4 (wrapU32 w.fileSize)))
  let f := f.seek (w.initOffset + 12 + 24 + 4)
  let f := f.write (image w.big 4 (swapIf w.big 4 (wrapU32 w.dataSize)))
  { w with file := f.seekEnd, terminated := true }

/-- `BKWaveFileWriterDispose`, BKWaveFileWriter.c 116–121. -/
def WaveWriter.dispose (w : WaveWriter) : WaveWriter :=
  if w.terminated then w else w.terminate

/-- `BKWaveFileWriteData`, BKWaveFileWriter.c 252–266; `none` is −1. -/
def waveWriteData (big : Bool) (file : File) (frames : List Int) (numChannels sampleRate numBits : Int) :
    C (Option File) :=
  match WaveWriter.init big file sampleRate numChannels numBits with
  | none => .ok none
  | some w => do
    let w ← w.append frames
    return some (w.terminate.dispose).file

/-! ### Reader -/

/-- `struct BKWaveFileReader`, BKWaveFileReader.h 55–64. -/
structure WaveReader where
  file : File
  sampleRate : Int
  numChannels : Int
  numBits : Int
  numFrames : Int
  dataSize : Int
  deriving DecidableEq, Repr

/-- `BKWaveFileReaderInit`, BKWaveFileReader.c 52–67, for a file that is readable and seekable. -/
def WaveReader.init (file : File) : WaveReader :=
  { file := file, sampleRate := 0, numChannels := 0, numBits := 0, numFrames := 0, dataSize := 0 }

/-- A field of a structure that has been read, reversed on big-endian machines
(BKWaveFileReader.c 73–91). -/
def field (big : Bool) (bs : List Int) (offset n : Nat) : Int :=
  swapIf big n (valOf big ((bs.drop offset).take n))

/-- The loop searching the data chunk, BKWaveFileReader.c 136–152: its size, or `none` for −1. -/
def findData (big : Bool) : Nat → File → C (Option Int × File)
  | 0, _ => .error .endless
  | n + 1, f =>
    let h := (f.read 8).1
    let f := (f.read 8).2
    if h.length < 8 then .ok (none, f)
    else
      let size := field big h 4 4
      if h.take 4 = idData then .ok (some size, f)
      else findData big n (f.seek (f.pos + size.toNat))

/-- The end of `BKWaveFileReaderReadHeader`, BKWaveFileReader.c 154–186, after the headers `fmt` and that of
the data chunk with size `size` have been read. -/
def WaveReader.setHeader (r : WaveReader) (big : Bool) (fmt : List Int) (file : File) (size : Int) :
    C WaveReader :=
  let numBits := field big fmt 22 2
  let numChannels := field big fmt 10 2
  let frameSize := if numBits = 8 then 1 else 2
  let dataSize := if size = 0 then (file.bytes.length : Int) - file.pos else size
  if numChannels = 0 then .error .divZero
  else .ok { r with file := file, sampleRate := wrapI32 (field big fmt 12 4), numChannels := numChannels
                    numBits := numBits, dataSize := dataSize
                    numFrames := wrapI32 (((wrapI32 dataSize).tdiv numChannels).tdiv frameSize) }

/-- `BKWaveFileReaderReadHeader`, BKWaveFileReader.c 93–194: number of channels, sample rate and number of
frames, or `none` for −1. -/
def WaveReader.readHeader (r : WaveReader) (big : Bool) : C (Option (Int × Int × Int) × WaveReader) :=
  if r.sampleRate ≠ 0 then .ok (some (r.numChannels, r.sampleRate, r.numFrames), r)
  else
    let h := (r.file.read 12).1
    let f := (r.file.read 12).2
    if h.length < 12 ∨ h.take 4 ≠ idRiff ∨ (h.drop 8).take 4 ≠ idWave then .ok (none, { r with file := f })
    else
      let fmt := (f.read 24).1
      let f := (f.read 24).2
      if fmt.length < 24 ∨ fmt.take 4 ≠ idFmt ∨ field big fmt 8 2 ≠ 1 ∨
          (field big fmt 22 2 ≠ 8 ∧ field big fmt 22 2 ≠ 16) then .ok (none, { r with file := f })
      else do
        let d ← findData big (f.bytes.length + 1) f
        match d.1 with
        | none => return (none, { r with file := d.2 })
        | some size => do
          let r ← r.setHeader big fmt d.2 size
          return (some (r.numChannels, r.sampleRate, r.numFrames), r)

/-- Frames of 8-bit data, BKWaveFileReader.c 243–252.  (Shifting a negative number left is a
multiplication.) -/
def frames8 (bs : List Int) : List Int := bs.map fun b => (b - 128) * 256

/-- Frames of 16-bit data, BKWaveFileReader.c 253–267. -/
def frames16 (big : Bool) : List Int → List Int
  | a :: b :: bs => wrapI16 (swapIf big 2 (valOf big [a, b])) :: frames16 big bs
  | _ => []

/-- The loop of `BKWaveFileReaderReadFrames`, BKWaveFileReader.c 226–269, for samples of `size` bytes: the
number of bytes used, the file, the frames and the position in them. -/
def waveReadLoop (size : Nat) (conv : List Int → List Int) :
    Nat → Nat → Nat → File → List Int → Nat → C (Nat × File × List Int × Nat)
  | 0, _, _, _, _, _ => .error .endless
  | n + 1, remaining, used, f, out, pos =>
    if remaining = 0 then .ok (used, f, out, pos)
    else
      let want := min remaining 1024
      let want := want - want % size
      let bs := (f.read want).1
      let f := (f.read want).2
      let got := bs.length - bs.length % size
      if got = 0 then .ok (used, f, out, pos)
      else do
        let out ← store out pos (conv (bs.take got))
        waveReadLoop size conv n (remaining - got) (used + got) f out (pos + got / size)

/-- `memset (frames + pos, 0, n)` where `n` is a number of bytes, BKWaveFileReader.c 272. -/
def memsetFrames (big : Bool) (out : List Int) (pos n : Nat) : C (List Int) := do
  let out ← store out pos (List.replicate (n / 2) 0)
  if n % 2 = 0 then return out
  else do
    let x ← rd out (pos + n / 2)
    wr out (pos + n / 2) (if big then x % 256 else x - x % 256)

/-- `BKWaveFileReaderReadFrames`, BKWaveFileReader.c 196–275, into the buffer `out`. -/
def WaveReader.readFrames (r : WaveReader) (big : Bool) (out : List Int) : C (List Int × WaveReader) := do
  let size := if r.numBits = 8 then 1 else 2
  let conv := if r.numBits = 8 then frames8 else frames16 big
  let (used, file, out, pos) ← waveReadLoop size conv (r.dataSize.toNat + 1) r.dataSize.toNat 0 r.file out 0
  let out ← memsetFrames big out pos (r.dataSize.toNat - used)
  return (out, { r with file := file })

end BK
