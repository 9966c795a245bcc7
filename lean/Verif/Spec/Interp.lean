import Verif.Model.Interp
/-! Independent notions for slides and oscillators. -/
namespace BK

/-- `x` lies between `a` and `b`, in either order. -/
def Between (a b x : Int) : Prop := (a ≤ x ∧ x ≤ b) ∨ (b ≤ x ∧ x ≤ a)

/-- A user value `v` is exactly represented by the fixed-point number `x` of shift `k`. -/
def Represents (k : Nat) (x v : Int) : Prop := x = v * 2 ^ k

/-- Ideal triangle wave with four phases of `s` ticks each: value after `t` ticks, for the
amplitude `d` and whole increments `i` per tick. -/
def triangle (d i : Int) (s t : Nat) : Int :=
  let r : Int := (t % s : Nat)
  match t / s % 4 with
  | 0 => i * r
  | 1 => d - i * r
  | 2 => -(i * r)
  | _ => -d + i * r

/-- The values a user may pass to a slide of shift `k`: an interval whose ends fit in 30 bits
after scaling and whose width fits in 31. -/
structure SlideRange (k : Nat) (lo hi : Int) : Prop where
  le : lo ≤ hi
  low : -1073741824 ≤ lo * 2 ^ k
  high : hi * 2 ^ k ≤ 1073741824
  width : (hi - lo) * 2 ^ k ≤ 2147483647
  shift : k ≤ 30

/-- Legal calls for the value range `lo..hi`. -/
def SlideOp.Wf (lo hi : Int) : SlideOp → Prop
  | .set v n => lo ≤ v ∧ v ≤ hi ∧ n < 8388608
  | .setValue v => lo ≤ v ∧ v ≤ hi
  | .setSteps n => n < 8388608
  | _ => True

/-- Legal calls for the amplitude bound `m`. -/
def OscOp.Wf (m : Int) : OscOp → Prop
  | .set d n => -m ≤ d ∧ d ≤ m ∧ n < 8388608
  | .setDelta d => -m ≤ d ∧ d ≤ m
  | .setSteps n => n < 8388608
  | _ => True

end BK
