import Verif.Spec.Track
import Verif.Spec.Interp
/-!
Slides set on a track, in terms of calls.
-/
namespace BK

/-- Calls on track `x`, one after the other. -/
def Track.calls (x : Nat) : List TOp → IWorld × Track → C (IWorld × Track)
  | [], s => .ok s
  | op :: ops, s => do
    let s ← s.2.exec x s.1 op
    Track.calls x ops s

/-- Make one step every `d` ticks; have volume `S` at once, then `v` in `n` steps. -/
def fadeCalls (d S v n : Int) : List TOp :=
  [.attr .effectDivider d, .attr (.slide .volumeSlide) 0, .attr .volume S,
   .attr (.slide .volumeSlide) n, .attr .volume v]

/-- Make one step every `d` ticks; play note `a` at once, then move to `b` in `n` steps. -/
def glideCalls (d a b n : Int) : List TOp :=
  [.attr .effectDivider d, .attr (.slide .portamento) 0, .attr .note a,
   .attr (.slide .portamento) n, .attr .note b]

/-- `r` leads from `S` to `v` in `n` steps: it starts at `S`, stays between, never turns back, keeps within
`tol` of the straight line, and is `v` from step `n` on. -/
structure LeadsTo (tol S v n : Int) (r : Nat → Int) : Prop where
  start : r 0 = S
  between : ∀ j, Between S v (r j)
  forward : ∀ i j, i ≤ j → Between (r i) v (r j)
  even : ∀ j : Nat, j ≤ n → -(tol * n) ≤ (r j - S) * n - (v - S) * j ∧ (r j - S) * n - (v - S) * j ≤ tol * n
  arrive : ∀ j : Nat, n ≤ j → r j = v

end BK
