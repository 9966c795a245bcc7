import Verif.Model.C
import Verif.Model.Kernels
/-!
`/repo/src/BKBuffer.h` and `/repo/src/BKBuffer.c`: the channel buffer.

The sample array is a function on indices with an explicit bound of
`BK_BUFFER_CAPACITY` = 4129 entries; every access is checked.  Signed arithmetic on
samples has two modes: checked (overflow is a fault, the C standard) and wrapping
(two's complement, what compilers usually produce), so that memory safety can be stated
without assuming that mixing does not overflow.
-/
namespace BK

/-- Signed 32-bit result in checked or wrapping mode. -/
def arith (chk : Bool) (x : Int) : C Int := if chk then i32 x else .ok (wrapI32 x)

/-- `BK_BUFFER_CAPACITY`, BKBuffer.h 36. -/
def bufFrames : Int := 4129

/-- `struct BKBuffer`, BKBuffer.h 48–55.  `kernel` is the table `pulse` points to. -/
structure Buf where
  time : Int
  capacity : Int
  accum : Int
  frames : Nat → Int
  kernel : List (List Int)

/-- Checked read of a sample. -/
def ldF (f : Nat → Int) (i : Int) : C Int :=
  if 0 ≤ i ∧ i < bufFrames then .ok (f i.toNat) else .error .oob

/-- Checked write of a sample. -/
def stF (f : Nat → Int) (i v : Int) : C (Nat → Int) :=
  if 0 ≤ i ∧ i < bufFrames then .ok (fun j => if j = i.toNat then v else f j) else .error .oob

/-- BKBuffer.c 116–124 with BKBuffer.c 171–177. -/
def Buf.init : Buf :=
  { time := 0, capacity := 0, accum := 0, frames := fun _ => 0, kernel := kernelHarm }

/-- BKBuffer.c 171–177. -/
def Buf.clear (b : Buf) : Buf :=
  { time := 0, capacity := 0, accum := 0, frames := fun _ => 0, kernel := b.kernel }

/-- BKBuffer.h 167–169: the loop body for step `i`. -/
def pulseStep (chk : Bool) (phase : List Int) (pulse offset : Int) (f : Nat → Int) (i : Nat) :
    C (Nat → Int) := do
  let p ← rd phase i
  let prod ← arith chk (p * pulse)
  let old ← ldF f (offset + i)
  let v ← arith chk (old + prod)
  stF f (offset + i) v

/-- BKBuffer.h 150–172, `BKBufferAddPulse`. -/
def Buf.addPulse (chk : Bool) (b : Buf) (time pulse : Int) : C Buf := do
  let time := wrapU32 (b.time + time)
  let offset := time / U20
  let frac := time % U20 / 32768
  let phase ← rd b.kernel frac
  let frames ← (List.range 32).foldlM (pulseStep chk phase pulse offset) b.frames
  return { b with frames := frames }

/-- BKBuffer.h 174–184, `BKBufferAddFrame`. -/
def Buf.addFrame (chk : Bool) (b : Buf) (time frame : Int) : C Buf := do
  let time := wrapU32 (b.time + time)
  let offset := time / U20
  let prod ← arith chk (32767 * frame)
  let old ← ldF b.frames offset
  let v ← arith chk (old + prod)
  let frames ← stF b.frames offset v
  return { b with frames := frames }

/-- BKBuffer.h 116–128, `BKBufferEnd`. -/
def Buf.endAt (b : Buf) (time : Int) : Buf :=
  let offset := wrapU32 (b.time + time) / U20
  if offset > b.capacity then { b with capacity := offset } else b

/-- BKBuffer.h 130–143, `BKBufferShift`. -/
def Buf.shift (b : Buf) (time : Int) : Buf :=
  let maxShift := wrapU32 (b.capacity * U20)
  let time := if wrapU32 (b.time + time) > maxShift then wrapU32 (maxShift - b.time) else time
  { b with time := wrapU32 (b.time + time) }

/-- BKBuffer.h 145–148, `BKBufferSize`. -/
def Buf.size (b : Buf) : Int := b.time / U20

/-- `x ^ 0x7FFF`: the low fifteen bits are inverted. -/
def xor7FFF (x : Int) : Int := x - x % 32768 + (32767 - x % 32768)

/-- BKBuffer.c 145–152: amplitude written for an accumulator value. -/
def outAmp (accum : Int) : Int :=
  let amp := accum / 16384
  if wrapI16 amp ≠ amp then wrapI16 (xor7FFF (amp / 65536)) else wrapI16 amp

/-- BKBuffer.c 141–154: loop over `n` samples starting at index `i`.  The result lists the
writes to the output as (position, value) pairs. -/
def readLoop (chk : Bool) (f : Nat → Int) (stride : Int) :
    Nat → Nat → Int → C (Int × List (Int × Int))
  | 0, _, accum => .ok (accum, [])
  | n + 1, i, accum => do
    let a ← arith chk (accum - accum / 512)
    let x ← ldF f i
    let a ← arith chk (a + x)
    let r ← readLoop chk f stride n (i + 1) a
    return (r.1, ((i : Int) * stride, outAmp a) :: r.2)

/-- BKBuffer.c 131–169, `BKBufferRead`.  Returns the new buffer and the writes to
`outFrames`; their number is the return value. -/
def Buf.read (chk : Bool) (b : Buf) (size interlace : Int) : C (Buf × List (Int × Int)) := do
  let interlace := cmax interlace 1
  let size := cmin size b.capacity
  let r ← readLoop chk b.frames interlace size.toNat 0 b.accum
  let bufferSize := wrapU32 (b.capacity + 33)
  -- memmove and memset touch indices below `bufferSize`
  if bufferSize ≤ bufFrames ∧ size ≤ bufferSize then
    let frames := fun (j : Nat) =>
      if (j : Int) < bufferSize - size then b.frames (j + size.toNat)
      else if (j : Int) < bufferSize then 0 else b.frames j
    return ({ b with
      frames := frames
      capacity := b.capacity - size
      accum := r.1
      time := wrapU32 (b.time - wrapU32 (size * U20)) }, r.2)
  else .error .oob

/-- The calls a program can make on a channel buffer. -/
inductive BufOp where
  | pulse (time amp : Int)
  | frame (time amp : Int)
  | endAt (time : Int)
  | shift (time : Int)
  | read (size interlace : Int)
  | clear

/-- One call; the second component is what was written to the caller's array. -/
def Buf.step (chk : Bool) (b : Buf) : BufOp → C (Buf × List (Int × Int))
  | .pulse t a => do let b ← b.addPulse chk t a; return (b, [])
  | .frame t a => do let b ← b.addFrame chk t a; return (b, [])
  | .endAt t => .ok (b.endAt t, [])
  | .shift t => .ok (b.shift t, [])
  | .read n s => b.read chk n s
  | .clear => .ok (b.clear, [])

/-- A sequence of calls; the outputs of all reads in order. -/
def Buf.run (chk : Bool) : Buf → List BufOp → C (Buf × List (List (Int × Int)))
  | b, [] => .ok (b, [])
  | b, op :: ops => do
    let r ← b.step chk op
    let s ← Buf.run chk r.1 ops
    return (s.1, r.2 :: s.2)

end BK
