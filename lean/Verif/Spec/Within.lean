import Verif.Model.Track
/-!
Values written for a sequence.
-/
namespace BK

/-- All values, or the values of all points, lie between `lo` and `hi`. -/
def NewSeq.Within (lo hi : Int) : NewSeq → Prop
  | .nothing => True
  | .values vals _ _ => ∀ v ∈ vals, lo ≤ v ∧ v ≤ hi
  | .points ps _ _ => ∀ p ∈ ps, lo ≤ p.value ∧ p.value ≤ hi

end BK
