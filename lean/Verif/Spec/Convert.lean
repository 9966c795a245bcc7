import Verif.Model.Convert
/-!
What packed samples mean.
-/
namespace BK

/-- Formats: number of bits and sign. -/
inductive Fmt where
  | u1 | u2 | u4 | s8 | u8 | s16
  deriving DecidableEq, Repr

/-- The parameter for a format. -/
def Fmt.param : Fmt → Int
  | .u1 => 1 | .u2 => 2 | .u4 => 3 | .s8 => 4 | .u8 => 5 | .s16 => 6

/-- Bits of a format. -/
def Fmt.bits : Fmt → Nat
  | .u1 => 1 | .u2 => 2 | .u4 => 4 | .s8 => 8 | .u8 => 8 | .s16 => 16

/-- Digits of a number with respect to a base, most significant first. -/
def digits (base : Int) : Nat → Int → List Int
  | 0, _ => []
  | n + 1, x => digits base n (x / base) ++ [x % base]

/-- Number in two's complement. -/
def signed (bits : Nat) (x : Int) : Int := if x < 2 ^ (bits - 1) then x else x - 2 ^ bits

/-- Samples packed in bytes (with `big`, the more significant byte of 16-bit samples comes first). -/
def unpack (fmt : Fmt) (big : Bool) : List Int → List Int
  | [] => []
  | a :: cs =>
    match fmt with
    | .u1 => digits 2 8 a ++ unpack fmt big cs
    | .u2 => digits 4 4 a ++ unpack fmt big cs
    | .u4 => digits 16 2 a ++ unpack fmt big cs
    | .u8 => a :: unpack fmt big cs
    | .s8 => signed 8 a :: unpack fmt big cs
    | .s16 =>
      match cs with
      | [] => []
      | b :: cs => signed 16 (if big then a * 256 + b else b * 256 + a) :: unpack fmt big cs

/-- The largest sample of a format. -/
def Fmt.top : Fmt → Int
  | .u1 => 1 | .u2 => 3 | .u4 => 15 | .s8 => 127 | .u8 => 255 | .s16 => 32767

/-- The smallest sample of a format that has an amplitude in range. -/
def Fmt.bottom : Fmt → Int
  | .s8 => -127 | .s16 => -32768 | _ => 0

/-- Amplitude of a sample: scaled such that the largest sample has full amplitude, rounded to 0. -/
def Fmt.level (fmt : Fmt) (x : Int) : Int := (x * 32767).tdiv fmt.top

end BK
