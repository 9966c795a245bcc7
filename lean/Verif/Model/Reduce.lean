import Verif.Model.C
/-!
Reducing of bits, `/repo/src/BKData.c` 698–815.

The noise that is added before rounding (lines 733–745) is computed with `rand` and floating-point numbers; here it is any
32-bit number for each frame, after the conversion in line 741.  `threshold` is the number of line 715.
-/
namespace BK

/-- Frame and noise, BKData.c 731–748.  For up to 8 bits there is noise, BKData.c 721–722. -/
def ditherFrame (bits : Nat) (threshold dither frame : Int) : C Int :=
  if (if frame < 0 then -frame else frame) ≥ threshold then
    if bits ≤ 8 then i32 (frame + dither) else .ok frame
  else .ok 0

/-- Body of the loop of `BKDataReduceBits`, BKData.c 724–770, for a number of bits of at most 15. -/
def reduceFrame (bits : Nat) (threshold dither frame : Int) : C Int := do
  let f ← ditherFrame bits threshold dither frame
  let f := cclamp f (-32767) 32767
  if bits ≤ 8 then
    let f := cclamp (f / 2 - 16384) (-32767) 32767
    let f := -(f / 2 ^ (15 - bits))
    let p ← i32 (f * 32767)
    return wrapI16 (Int.tdiv p (2 ^ (15 - (15 - bits))))
  else
    let f := -(f / 2 ^ (16 - bits))
    let p ← i32 (f * 32767)
    return wrapI16 (Int.tdiv p (2 ^ (15 - (16 - bits))))

/-- `BKDataReduceBits`, BKData.c 698–771, over all frames of all channels. -/
def reduceFrames (bits : Nat) (threshold : Int) : List (Int × Int) → C (List Int)
  | [] => .ok []
  | (f, d) :: l => do
    let y ← reduceFrame bits threshold d f
    let ys ← reduceFrames bits threshold l
    return y :: ys

/-- `BKDataConvert`, BKData.c 773–815: frames (with the noise for each) after it.  The number of bits is unsigned and limited in lines
795–796.  Memory is in `DWorld.convert`. -/
def dataConvert (targetNumBits : Nat) (threshold : Int) (l : List (Int × Int)) : C (List Int) :=
  reduceFrames (if targetNumBits > 15 then 15 else targetNumBits) threshold l

end BK
