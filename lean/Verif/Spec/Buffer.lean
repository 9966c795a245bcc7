import Verif.Model.Buffer
/-!
Independent notions for the channel buffer: what arguments are legal C values, which
states are legal, the ideal filter and the ideal mixing result.
-/
namespace BK

/-- Arguments are legal values of their C types. -/
def BufOp.Wf : BufOp → Prop
  | .pulse t a => InU32 t ∧ InI16 a
  | .frame t a => InU32 t ∧ InI16 a
  | .endAt t => InU32 t
  | .shift t => InU32 t
  | .read n s => InU32 n ∧ InU32 s
  | .clear => True

/-- The buffer points to one of the two built-in kernels. -/
def Buf.Builtin (b : Buf) : Prop := b.kernel = kernelSinc ∨ b.kernel = kernelHarm

/-- Legal buffer states. -/
structure Buf.Wf (b : Buf) : Prop where
  time : InU32 b.time
  capacity : 0 ≤ b.capacity ∧ b.capacity ≤ 4095
  accum : InI32 b.accum
  frames : ∀ i, InI32 (b.frames i)
  kernel : b.Builtin

/-- Full-scale limiting as a relation: a value in 16-bit range is unchanged, any other
becomes a (nearly) full-scale value of the same sign. -/
def Saturates (v out : Int) : Prop :=
  (InI16 v → out = v) ∧ (32767 < v → 32766 ≤ out ∧ out ≤ 32767) ∧
  (v < -32768 → -32768 ≤ out ∧ out ≤ -32767)

/-- Ideal high-pass accumulator sequence for the samples `xs`. -/
def accums (a : Int) : List Int → List Int
  | [] => []
  | x :: xs => (a - a / 512 + x) :: accums (a - a / 512 + x) xs

/-- Sum of the first `n` samples. -/
def sumTo (f : Nat → Int) : Nat → Int
  | 0 => 0
  | n + 1 => sumTo f n + f n

/-- Sum of the absolute values of the first `n` samples. -/
def absSumTo (f : Nat → Int) : Nat → Int
  | 0 => 0
  | n + 1 => absSumTo f n + (f n).natAbs

/-- The sample array. -/
def Buf.total (b : Buf) : Int := sumTo b.frames 4129

/-- Is it a mixing call? -/
def BufOp.isMix : BufOp → Bool
  | .pulse .. => true
  | .frame .. => true
  | _ => false

/-- Amplitude of a mixing call. -/
def BufOp.amp : BufOp → Int
  | .pulse _ a => a
  | .frame _ a => a
  | _ => 0

/-- Sum of amplitudes. -/
def ampSum : List BufOp → Int
  | [] => 0
  | op :: ops => op.amp + ampSum ops

/-- Sum of absolute amplitudes. -/
def absAmpSum : List BufOp → Int
  | [] => 0
  | op :: ops => (op.amp.natAbs : Int) + absAmpSum ops

end BK
