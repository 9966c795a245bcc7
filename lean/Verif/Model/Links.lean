import Verif.Model.C
/-!
The doubly linked lists of `/repo/src/BKUnit.c` (units of a context) and `/repo/src/BKClock.c`
(clocks of a context, dividers of a group).

Objects are numbers: a list element `n` has a previous and a next pointer and a pointer to its
owner (context or divider group); an owner `c` has a first and a last pointer.  Pointers are
followed without any knowledge about what they should point to.  Only the link fields are
modelled here; times and counters set by the same functions are in the context model.
-/
namespace BK

/-- Assignment to one element. -/
def upd {α : Type} (f : Nat → α) (i : Nat) (v : α) : Nat → α := fun j => if j = i then v else f j

/-- Link fields of all elements and owners (`struct BKUnit`, `struct BKContext`,
BKClock.h 43–72). -/
structure Links where
  prev : Nat → Option Nat := fun _ => none
  next : Nat → Option Nat := fun _ => none
  owner : Nat → Option Nat := fun _ => none
  first : Nat → Option Nat := fun _ => none
  last : Nat → Option Nat := fun _ => none

/-- Return value of an attach: `some` error or success. -/
inductive AttachRet where
  | ok | invalidState | invalidValue
  deriving DecidableEq, Repr

/-- `BKUnitAttach`, BKUnit.c 260–283. -/
def Links.unitAttach (h : Links) (n c : Nat) : AttachRet × Links :=
  if h.owner n = none then
    let h := { h with prev := upd h.prev n (h.last c) }
    let h := { h with next := upd h.next n none }
    let h := { h with owner := upd h.owner n (some c) }
    match h.last c with
    | some l =>
      let h := { h with next := upd h.next l (some n) }
      (.ok, { h with last := upd h.last c (some n) })
    | none =>
      let h := { h with first := upd h.first c (some n) }
      (.ok, { h with last := upd h.last c (some n) })
  else (.invalidState, h)

/-- `BKUnitDetach`, BKUnit.c 285–309, `BKClockDetach`, BKClock.c 135–159, and `BKDividerDetach`,
BKClock.c 339–362: the same text up to names. -/
def Links.detach (h : Links) (n : Nat) : Links :=
  match h.owner n with
  | none => h
  | some c =>
    let h := match h.prev n with
      | some p => { h with next := upd h.next p (h.next n) }
      | none => { h with first := upd h.first c (h.next n) }
    let h := match h.next n with
      | some x => { h with prev := upd h.prev x (h.prev n) }
      | none => { h with last := upd h.last c (h.prev n) }
    { h with owner := upd h.owner n none }

/-- `BKDividerAttachToGroup`, BKClock.c 314–337. -/
def Links.dividerAttach (h : Links) (n c : Nat) : AttachRet × Links :=
  if h.owner n = none then
    let h := { h with prev := upd h.prev n (h.last c) }
    let h := { h with next := upd h.next n none }
    let h := match h.last c with
      | some l => { h with next := upd h.next l (some n) }
      | none => { h with first := upd h.first c (some n) }
    let h := { h with last := upd h.last c (some n) }
    (.ok, { h with owner := upd h.owner n (some c) })
  else (.invalidState, h)

/-- The `beforeClock` argument of `BKClockAttach`. -/
inductive Before where
  | null | firstElement | clock (b : Nat)
  deriving DecidableEq, Repr

/-- The clock `beforeClock` stands for, BKClock.c 93–94. -/
def Before.resolve (first : Option Nat) : Before → Option Nat
  | .null => none
  | .firstElement => first
  | .clock b => some b

/-- `BKClockAttach`, BKClock.c 87–133. -/
def Links.clockAttach (h : Links) (n c : Nat) (before : Before) : C (AttachRet × Links) := do
  if h.owner n = none then
    let h := { h with owner := upd h.owner n (some c) }
    match before.resolve (h.first c) with
    | none =>
      let h := { h with prev := upd h.prev n (h.last c) }
      let h := { h with next := upd h.next n none }
      match h.last c with
      | some l =>
        let h := { h with next := upd h.next l (some n) }
        return (.ok, { h with last := upd h.last c (some n) })
      | none =>
        let h := { h with first := upd h.first c (some n) }
        return (.ok, { h with last := upd h.last c (some n) })
    | some b =>
      if h.owner b = some c then
        let h := { h with prev := upd h.prev n (h.prev b) }
        let h := { h with next := upd h.next n (some b) }
        if h.first c = some b then
          let h := { h with first := upd h.first c (some n) }
          return (.ok, { h with prev := upd h.prev b (some n) })
        else
          match h.prev b with
          | none => .error .null
          | some p =>
            let h := { h with next := upd h.next p (some n) }
            return (.ok, { h with prev := upd h.prev b (some n) })
      else
        return (.invalidValue, h)
  else
    return (.invalidState, h)

/-- `for (x = first; x; x = x -> next)`, as in BKContext.c: the elements visited.  `fuel` bounds
the number of elements; running out of it is the outcome `endless`. -/
def Links.walk (h : Links) : Nat → Option Nat → C (List Nat)
  | _, none => .ok []
  | 0, some _ => .error .endless
  | fuel + 1, some n => do
    let r ← h.walk fuel (h.next n)
    return n :: r

/-- `BKClockDisposeObject`, BKClock.c 75–85: the loop over the dividers of the clock's group
(the clock itself is detached before, which is `detach` on the clocks' links).  `divider` is the
loop variable. -/
def Links.disposeLoop (h : Links) : Nat → Option Nat → C Links
  | _, none => .ok h
  | 0, some _ => .error .endless
  | fuel + 1, some d =>
    let nextDivider := some d
    let h := h.detach d
    h.disposeLoop fuel nextDivider

/-- The loops over the units and over the clocks in `BKContextDisposeObject`, BKContext.c 109–117. -/
def Links.detachAll (h : Links) : Nat → Option Nat → C Links
  | _, none => .ok h
  | 0, some _ => .error .endless
  | fuel + 1, some n =>
    let nextElement := h.next n
    let h := h.detach n
    h.detachAll fuel nextElement

/-- Calls on unit lists. -/
inductive UnitOp where
  | attach (n c : Nat)
  | detach (n : Nat)
  deriving DecidableEq, Repr

/-- One call. -/
def Links.unitStep (h : Links) : UnitOp → AttachRet × Links
  | .attach n c => h.unitAttach n c
  | .detach n => (.ok, h.detach n)

/-- Calls in sequence, with all return values. -/
def Links.unitRun (h : Links) : List UnitOp → List AttachRet × Links
  | [] => ([], h)
  | op :: ops =>
    let r := h.unitStep op
    let t := r.2.unitRun ops
    (r.1 :: t.1, t.2)

/-- The same on divider groups. -/
def Links.dividerStep (h : Links) : UnitOp → AttachRet × Links
  | .attach n c => h.dividerAttach n c
  | .detach n => (.ok, h.detach n)

/-- Calls in sequence, with all return values. -/
def Links.dividerRun (h : Links) : List UnitOp → List AttachRet × Links
  | [] => ([], h)
  | op :: ops =>
    let r := h.dividerStep op
    let t := r.2.dividerRun ops
    (r.1 :: t.1, t.2)

/-- Calls on clock lists. -/
inductive ClockOp where
  | attach (n c : Nat) (before : Before)
  | detach (n : Nat)
  deriving DecidableEq, Repr

/-- One call. -/
def Links.clockStep (h : Links) : ClockOp → C (AttachRet × Links)
  | .attach n c b => h.clockAttach n c b
  | .detach n => .ok (.ok, h.detach n)

/-- Calls in sequence, with all return values. -/
def Links.clockRun (h : Links) : List ClockOp → C (List AttachRet × Links)
  | [] => .ok ([], h)
  | op :: ops => do
    let r ← h.clockStep op
    let t ← r.2.clockRun ops
    return (r.1 :: t.1, t.2)

end BK
