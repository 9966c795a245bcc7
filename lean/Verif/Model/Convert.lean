import Verif.Model.C
/-!
Conversion of packed samples and normalisation, `/repo/src/BKData.c`.

Memory is a list of frames whose length is the allocated size; what it contains after `malloc` is an
argument.  Bytes are numbers from 0 to 255.  `x & mask >> n` is written as division and remainder.
Whether the machine is big-endian (BKData.c 388–395) is an argument.
-/
namespace BK

/-- `BKDataNumBitsFromParam`, BKData.c 397–439: bits and sign. -/
def numBitsFromParam (param : Int) : Option (Int × Bool) :=
  if param = 1 then some (1, false)
  else if param = 2 then some (2, false)
  else if param = 3 then some (4, false)
  else if param = 4 then some (8, true)
  else if param = 5 then some (8, false)
  else if param = 6 then some (16, true)
  else none

/-- `BKDataCalculateNumFramesFromNumBits`, BKData.c 441–458: the number of frames of all channels.
The product and the last multiplication are unsigned, the division is signed. -/
def calcNumFrames (dataSize numBits numChannels : Int) : C Int :=
  let dataSizeBits := wrapI32 (dataSize * 8)
  let packetSize := if numBits ≤ 8 then wrapI32 (numBits * numChannels)
    else wrapI32 ((numBits + 3) / 4 * 4 * numChannels)
  if packetSize = 0 then .error .divZero
  else .ok (wrapI32 (dataSizeBits.tdiv packetSize * numChannels))

/-- Successive writes from a position on. -/
def store (mem : List Int) (pos : Int) : List Int → C (List Int)
  | [] => .ok mem
  | v :: vs => do
    let mem ← wr mem pos v
    store mem (pos + 1) vs

/-- The frames written for one byte, BKData.c 479–521. -/
def byteFrames (numBits : Int) (isSigned : Bool) (c : Int) : List Int :=
  if numBits = 1 then
    [c / 128 % 2 * 32767, c / 64 % 2 * 32767, c / 32 % 2 * 32767, c / 16 % 2 * 32767,
     c / 8 % 2 * 32767, c / 4 % 2 * 32767, c / 2 % 2 * 32767, c / 1 % 2 * 32767].map wrapI16
  else if numBits = 2 then
    [(c / 64 % 4 * 32767).tdiv 3, (c / 16 % 4 * 32767).tdiv 3, (c / 4 % 4 * 32767).tdiv 3,
     (c / 1 % 4 * 32767).tdiv 3].map wrapI16
  else if numBits = 4 then
    [(c / 16 % 16 * 32767).tdiv 15, (c / 1 % 16 * 32767).tdiv 15].map wrapI16
  else if isSigned then
    [wrapI16 (((if c < 128 then c else c - 256) * 32767).tdiv 127)]
  else [wrapI16 ((c * 32767).tdiv 255)]

/-- The frame written for two bytes, BKData.c 522–532.  Shifting the second byte right by 8 gives 0. -/
def pairFrame (big reverse : Bool) (a b : Int) : Int :=
  if reverse then wrapI16 (a * 256 + b / 256)
  else if big then wrapI16 (a * 256 + b) else wrapI16 (b * 256 + a)

/-- The loop of `BKDataConvertFromBits` for at most 8 bits, BKData.c 477–537. -/
def convertBytes (f : Int → List Int) : List Int → Int → List Int → C (List Int)
  | [], _, mem => .ok mem
  | c :: cs, pos, mem => do
    let mem ← store mem pos (f c)
    convertBytes f cs (pos + ((f c).length : Int)) mem

/-- The same loop for 16 bits. -/
def convertPairs (f : Int → Int → Int) : List Int → Int → List Int → C (List Int)
  | [], _, mem => .ok mem
  | [_], _, _ => .error .oob
  | a :: b :: cs, pos, mem => do
    let mem ← store mem pos [f a b]
    convertPairs f cs (pos + 1) mem

/-- `BKDataConvertFromBits`, BKData.c 460–540, for one of the supported numbers of bits. -/
def convertFromBits (big : Bool) (mem bytes : List Int) (dataSize numBits : Int)
    (isSigned reverse : Bool) (numChannels : Int) : C (List Int) :=
  let mask := if numBits ≤ 8 then 1 else 2
  if mask * numChannels = 0 then .error .divZero
  else
    let size := dataSize - dataSize % (mask * numChannels)
    if (bytes.length : Int) < size then .error .oob
    else if numBits ≤ 8 then convertBytes (byteFrames numBits isSigned) (bytes.take size.toNat) 0 mem
    else convertPairs (pairFrame big reverse) (bytes.take size.toNat) 0 mem

/-- Frames and what `struct BKData` says about them, BKData.h 84–91. -/
structure Frames where
  frames : List Int
  numFrames : Int
  numChannels : Int
  numBits : Int
  deriving DecidableEq, Repr

/-- Results of `BKDataSetData`. -/
inductive SetDataRet where
  | ok (d : Frames)
  | invalidNumChannels | invalidNumBits | allocationError
  deriving DecidableEq, Repr

/-- `BKDataSetData`, BKData.c 542–584.  `mem n` is what `malloc` or `realloc` returns for `n` frames;
it is asked for `numFrames` of them.  `params` is unsigned. -/
def setRawData (big : Bool) (mem : Nat → Option (List Int)) (bytes : List Int)
    (dataSize numChannels params : Int) : C SetDataRet :=
  let endian := params / 65536 % 4
  if numChannels < 1 ∨ numChannels > 8 then .ok .invalidNumChannels
  else
    let reverse := decide (endian ≠ 0) && (big != decide (endian = 1))
    match numBitsFromParam (params % 16) with
    | none => .ok .invalidNumBits
    | some (numBits, isSigned) => do
      let numFrames ← calcNumFrames dataSize numBits numChannels
      if numFrames < 0 then return .invalidNumBits
      else match mem numFrames.toNat with
        | none => return .allocationError
        | some m => do
          let frames ← convertFromBits big m bytes dataSize numBits isSigned reverse numChannels
          return .ok { frames := frames, numFrames := wrapU32 numFrames / numChannels
                       numChannels := numChannels, numBits := numBits }

/-- `BKAbs` of a frame, which is an `int` there (BKData.c 674). -/
def frameAbs (x : Int) : Int := if x < 0 then -x else x

/-- The largest absolute value, BKData.c 673–678. -/
def maxFrame (frames : List Int) : Int :=
  frames.foldl (fun m x => if frameAbs x > m then frameAbs x else m) 0

/-- `BKDataNormalize`, BKData.c 662–688, on the frames of all channels, of which there are fewer than
2³¹.  (Memory is copied before if it belongs to the caller.) -/
def normalize (frames : List Int) : C (List Int) :=
  let max := maxFrame frames
  if max ≠ 0 then do
    let f ← i32 (32767 * 65536)
    let factor := f.tdiv max
    frames.mapM fun x => do
      let p ← i32 (x * factor)
      return wrapI16 (p / 65536)
  else .ok frames

end BK
