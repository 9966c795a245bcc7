import Verif.Model.Divider
/-!
When a divider should fire.
-/
namespace BK

/-- Value in effect after firing at tick `t` with the value `d` before. -/
def valueAfter (cb : DivCallback) (t : Nat) (d : Int) : Int :=
  match cb with
  | none => d
  | some f => max 1 (f t d)

/-- `FiresAt cb d t v`: a divider started with value `d` fires at tick `t` and has the value `v`
from then on.  It fires at tick 0, and after firing at `t` with new value `v` again at `t + v`. -/
inductive FiresAt (cb : DivCallback) (d : Int) : Nat → Int → Prop
  | start : FiresAt cb d 0 (valueAfter cb 0 d)
  | next {t : Nat} {v : Int} : FiresAt cb d t v →
      FiresAt cb d (t + v.toNat) (valueAfter cb (t + v.toNat) v)

/-- A callback whose answers fit a signed integer. -/
def SmallAnswers (cb : DivCallback) : Prop :=
  ∀ f, cb = some f → ∀ t d, 1 ≤ d → d < 2147483648 → 0 ≤ f t d ∧ f t d < 2147483648

end BK
