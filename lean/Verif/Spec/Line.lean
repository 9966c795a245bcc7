/-!
Straight lines.
-/
namespace BK

/-- The value `x` is less than 2 away from the straight line that leads from `v0` to `v1` in `n` ticks, after `j` of them. -/
def NearLine (n : Nat) (v0 v1 : Int) (j : Nat) (x : Int) : Prop :=
  v0 * (n - j) + v1 * j - 2 * n < x * n ∧ x * n < v0 * (n - j) + v1 * j + 2 * n

example : NearLine 4 0 32767 1 8191 ∧ ¬ NearLine 4 0 32767 1 8194 := by unfold NearLine; decide

end BK
