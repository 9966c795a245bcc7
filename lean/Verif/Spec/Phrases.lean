import Verif.Spec.Legato
/-!
Phrases: melodies played legato, with a release at the end.
-/
namespace BK

/-- Notes with their ticks, the last of them apart, and the ticks after its release. -/
structure Phrase where
  start : List (Int × Nat)
  last : Int × Nat
  rest : Nat

/-- The notes of a phrase. -/
def Phrase.notes (p : Phrase) : List (Int × Nat) := p.start ++ [p.last]

/-- All notes are within the range and the last one is heard. -/
def Phrase.Fine (p : Phrase) : Prop := (∀ q ∈ p.notes, 0 ≤ q.1 ∧ q.1 ≤ 96 * U20) ∧ 1 ≤ p.last.2

/-- The calls that play a phrase. -/
def Phrase.played (x : Nat) (p : Phrase) : List WOp := melody x p.notes ++ notePlayed x (-1) p.rest

end BK
