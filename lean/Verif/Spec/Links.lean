import Verif.Model.Links
/-!
What attaching and detaching means without pointers: every owner has a plain list of elements.
-/
namespace BK

/-- The elements of each owner, in order. -/
abbrev Lists := Nat → List Nat

/-- Is `n` in some list? -/
def Lists.Attached (A : Lists) (n : Nat) : Prop := ∃ c, n ∈ A c

/-- Expected effect of attaching at the end: refused exactly if attached anywhere. -/
def Lists.AttachEnd (A : Lists) (n c : Nat) (ret : AttachRet) (A' : Lists) : Prop :=
  (A.Attached n ∧ ret = .invalidState ∧ A' = A) ∨
  (¬ A.Attached n ∧ ret = .ok ∧ A' = fun d => if d = c then A c ++ [n] else A d)

/-- Expected effect of detaching: gone from its list, everything else in place. -/
def Lists.Detach (A : Lists) (n : Nat) (A' : Lists) : Prop :=
  A' = fun d => (A d).filter (· ≠ n)

/-- `n` inserted before `b`. -/
def insertBefore (n b : Nat) : List Nat → List Nat
  | [] => []
  | x :: xs => if x = b then n :: x :: xs else x :: insertBefore n b xs

/-- Expected effect of attaching a clock; `ret` for all legal `before` arguments. -/
def Lists.AttachClock (A : Lists) (n c : Nat) (before : Before) (ret : AttachRet) (A' : Lists) :
    Prop :=
  (A.Attached n ∧ ret = .invalidState ∧ A' = A) ∨
  (¬ A.Attached n ∧ ret = .ok ∧ A' = fun d => if d = c then
    (match before with
     | .null => A c ++ [n]
     | .firstElement => n :: A c
     | .clock b => insertBefore n b (A c)) else A d)

/-- Expected effect of a unit call. -/
def Lists.UnitStep (A : Lists) : UnitOp → AttachRet → Lists → Prop
  | .attach n c, r, A' => A.AttachEnd n c r A'
  | .detach n, r, A' => r = .ok ∧ A.Detach n A'

/-- Expected effect of a sequence of unit calls. -/
inductive Lists.UnitRun : Lists → List UnitOp → List AttachRet → Lists → Prop
  | nil (A) : UnitRun A [] [] A
  | cons {A A' A'' op ops r rs} : A.UnitStep op r A' → UnitRun A' ops rs A'' →
      UnitRun A (op :: ops) (r :: rs) A''

/-- Expected effect of a clock call. -/
def Lists.ClockStep (A : Lists) : ClockOp → AttachRet → Lists → Prop
  | .attach n c b, r, A' => A.AttachClock n c b r A'
  | .detach n, r, A' => r = .ok ∧ A.Detach n A'

/-- Expected effect of a sequence of clock calls. -/
inductive Lists.ClockRun : Lists → List ClockOp → List AttachRet → Lists → Prop
  | nil (A) : ClockRun A [] [] A
  | cons {A A' A'' op ops r rs} : A.ClockStep op r A' → ClockRun A' ops rs A'' →
      ClockRun A (op :: ops) (r :: rs) A''

/-- `before` names a clock that is attached to `c` at this point. -/
def ClockOp.Legal (A : Lists) : ClockOp → Prop
  | .attach n c (.clock b) => A.Attached n ∨ b ∈ A c
  | _ => True

/-- All `before` arguments of a sequence of calls are legal when it is their turn. -/
def Lists.LegalRun : Lists → List ClockOp → Prop
  | _, [] => True
  | A, op :: ops => op.Legal A ∧ ∀ r A', A.ClockStep op r A' → LegalRun A' ops

/-- The pointers represent the lists. -/
structure Links.Repr (h : Links) (A : Lists) : Prop where
  nodup : ∀ c, (A c).Nodup
  owner : ∀ n c, h.owner n = some c ↔ n ∈ A c
  first : ∀ c, h.first c = (A c).head?
  last : ∀ c, h.last c = (A c).getLast?
  split : ∀ c l n r, A c = l ++ n :: r → h.prev n = l.getLast? ∧ h.next n = r.head?

/-- Walking the list from the first element visits exactly `l`, however much fuel there is. -/
def Links.Visits (h : Links) (c : Nat) (l : List Nat) : Prop :=
  ∀ fuel, l.length ≤ fuel → h.walk fuel (h.first c) = .ok l

end BK
