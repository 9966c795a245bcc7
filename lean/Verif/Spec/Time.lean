import Verif.Model.Time
/-!
What a time value means, independent of the operations: a number of 2^-20 samples.
-/
namespace BK

/-- A well-formed 32-bit time: the sample count fits, the fraction is below one. -/
def T32.Wf (t : T32) : Prop := InI32 t.time ∧ 0 ≤ t.frac ∧ t.frac < 1048576

/-- The number of 2^-20 samples a 32-bit time denotes. -/
def T32.val (t : T32) : Int := t.time * 1048576 + t.frac

/-- `t` and `n` are the same instant in the two builds. -/
def SameTime (t : T32) (n : Int) : Prop := t.Wf ∧ t.val = n

/-- Both builds produce a value, and the values are the same instant. -/
def SameResult (a : C T32) (b : C Int) : Prop := ∃ t n, a = .ok t ∧ b = .ok n ∧ SameTime t n

/-- The exact result fits in the 32-bit representation (the extreme sample
counts are left out, because forming them can pass through an overflowing sum). -/
def FitsT32 (n : Int) : Prop := -2147483647 * 1048576 ≤ n ∧ n < 2147483647 * 1048576

end BK
