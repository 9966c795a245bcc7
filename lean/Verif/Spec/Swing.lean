import Verif.Spec.Fade
/-!
Vibrato and tremolo set on a track, in terms of calls.
-/
namespace BK

/-- Make one step every `d` ticks; turn vibrato off, then on with depth `D` and `n` steps up to it. -/
def vibratoCalls (d D n : Int) : List TOp :=
  [.attr .effectDivider d, .effect .vibrato [0], .effect .vibrato [n, D]]

/-- Make one step every `d` ticks; turn tremolo off, then on with depth `D` and `n` steps up to it. -/
def tremoloCalls (d D n : Int) : List TOp :=
  [.attr .effectDivider d, .effect .tremolo [0], .effect .tremolo [n, D]]

/-- `r` swings between `D` and `-D` in steps, `n` of them from the middle to either end: it begins in the middle,
is at an end or in the middle every `n` steps, never leaves the range, keeps within `tol` of straight lines
in between, and repeats every `4 n` steps. -/
structure Swings (tol D : Int) (n : Nat) (r : Nat → Int) : Prop where
  start : r 0 = 0
  top : r n = D
  middle : r (2 * n) = 0
  bottom : r (3 * n) = -D
  range : ∀ j, -D ≤ r j ∧ r j ≤ D
  repeats : ∀ j, r (j + 4 * n) = r j
  up : ∀ j : Nat, j ≤ n → -(tol * n) ≤ r j * n - D * j ∧ r j * n - D * j ≤ tol * n
  back : ∀ j : Nat, j ≤ n → -(tol * n) ≤ r (n + j) * n - D * (n - j) ∧ r (n + j) * n - D * (n - j) ≤ tol * n
  down : ∀ j : Nat, j ≤ n → -(tol * n) ≤ r (2 * n + j) * n + D * j ∧ r (2 * n + j) * n + D * j ≤ tol * n
  home : ∀ j : Nat, j ≤ n → -(tol * n) ≤ r (3 * n + j) * n + D * (n - j) ∧ r (3 * n + j) * n + D * (n - j) ≤ tol * n

end BK
