import Verif.Model.DataState
import Verif.Spec.Links
/-!
Which units use which data, without pointers: every data object has a plain list of its users.
-/
namespace BK

/-- Binding `s` to `d`, or to nothing. -/
def Lists.bind (A : Lists) (s : Nat) (d : Option Nat) : Lists := fun c =>
  if d = some c then (A c).filter (· ≠ s) ++ [s] else (A c).filter (· ≠ s)

/-- The users for which notification fails are no users any more. -/
def Lists.drop (A : Lists) (d : Nat) (fails : Nat → Bool) : Lists := fun c =>
  if c = d then (A c).filter (fun s => !fails s) else A c

/-- Users after a call. -/
def Lists.bindStep (A : Lists) : BindOp → Lists
  | .bind s d => A.bind s d
  | .changed d fails => A.drop d fails
  | .gone d => A.drop d (fun _ => true)

/-- Users that are notified by a call. -/
def Lists.told (A : Lists) : BindOp → List Nat
  | .bind _ _ => []
  | .changed d _ => A d
  | .gone d => A d

/-- Users after calls. -/
def Lists.bindRun (A : Lists) : List BindOp → Lists
  | [] => A
  | op :: ops => (A.bindStep op).bindRun ops

/-- Users that are notified by calls. -/
def Lists.toldRun (A : Lists) : List BindOp → List Nat
  | [] => []
  | op :: ops => A.told op ++ (A.bindStep op).toldRun ops

/-- Not two neighbours in a list are failing. -/
def NoTwo (fails : Nat → Bool) : List Nat → Prop
  | [] => True
  | [_] => True
  | a :: b :: l => ¬ (fails a = true ∧ fails b = true) ∧ NoTwo fails (b :: l)

/-- Apart from failing users at the begin of the list, no two neighbours fail. -/
def BindOp.Legal (A : Lists) : BindOp → Prop
  | .changed d fails => NoTwo fails ((A d).dropWhile fails)
  | _ => True

/-- That is so for all calls when it is their turn. -/
def Lists.LegalBind (A : Lists) : List BindOp → Prop
  | [] => True
  | op :: ops => op.Legal A ∧ (A.bindStep op).LegalBind ops

end BK
