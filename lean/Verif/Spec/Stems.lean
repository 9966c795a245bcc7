import Verif.Spec.Score
/-!
One track of a song played alone.
-/
namespace BK

/-- Is the call made on track `y`, or on an instrument? -/
def WOp.reaches (y : Nat) : WOp → Bool
  | .init x _ => decide (x = y)
  | .track x _ => decide (x = y)
  | _ => true

/-- The calls for playing track `y` alone: calls on all other tracks are left out. -/
def solo (y : Nat) (L : List (Int × List WOp)) : List (Int × List WOp) :=
  L.map fun e => (e.1, e.2.filter (WOp.reaches y))

/-- What is heard if `f c m` is added in frame `m` of channel `c`. -/
def heardOf (N T : Nat) (f : Nat → Nat → Int) : List Int :=
  (List.range T).flatMap fun n => (List.range N).map fun c => outAmp (levelAt (fun m => wrapI32 (f c m)) (n + 1))

/-- `R` are the first `T` frames that any context delivers in which only the calls for track `y` alone are
made. -/
def StemOf (N T : Nat) (L : List (Int × List WOp)) (y : Nat) (R : List Int) : Prop :=
  ∃ (ξ : Type) (q : Program ξ) (T' : Nat) (x' : Ctx (Band ξ)) (S' : List Int), q.Plays N ∧ T ≤ T' ∧ Concert N q T' x' S' ∧
    callsBefore (T * U20) x'.user.score = callsBefore (T * U20) (solo y L) ∧ R = S'.take (T * N)

/-- Sample of channel `c` in frame `n`. -/
def sampleAt (N : Nat) (S : List Int) (n c : Nat) : Int := S.getD (n * N + c) 0

end BK
