import Verif.Model.C
/-! Amplitudes of few bits. -/
namespace BK

/-- The amplitudes of `n` bits, evenly spaced up to the largest one: up to 8 bits they are positive, with more bits they are of
both signs. -/
def levels (n : Nat) : List Int :=
  if n ≤ 8 then (List.range (2 ^ n)).map fun i : Nat => (((i : Int) + 1) * 32767).tdiv (2 ^ n)
  else (List.range (2 ^ n)).map fun i : Nat => (((i : Int) + 1 - 2 ^ (n - 1)) * 32767).tdiv (2 ^ (n - 1))

end BK
