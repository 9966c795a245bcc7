import Verif.Model.C
/-!
Clock dividers, `/repo/src/BKClock.c`.

The group is a plain list here; that pointer lists behave like that is C73.  A callback is any
function of the tick number and the value shown to it; what it writes into `info -> divider` is
an unsigned 32-bit number.  Callbacks that attach or detach dividers of the group that is being
ticked are not modelled.
-/
namespace BK

/-- `struct BKDivider`, BKClock.h 43–52. -/
structure Divider where
  divider : Int
  counter : Int
  deriving DecidableEq, Repr

/-- `BKMax (1, x)` for an unsigned `x`, assigned to a `BKInt`. -/
def dividerValue (x : Int) : Int := wrapI32 (cmax 1 (wrapU32 x))

/-- `BKDividerInitGeneric`, BKClock.c 246–256. -/
def Divider.init (count : Int) : Divider := { divider := dividerValue count, counter := 0 }

/-- A callback: tick number and value in, value out; `none` is a NULL function pointer. -/
abbrev DivCallback := Option (Nat → Int → Int)

/-- Value after firing, BKClock.c 196–203. -/
def newDivider (cb : DivCallback) (t : Nat) (d : Int) : Int :=
  match cb with
  | some f => dividerValue (f t (wrapU32 d))
  | none => d

/-- Loop body of `BKDividerTick`, BKClock.c 193–208, at tick `t`.  The first component tells
whether the divider fired. -/
def Divider.tick (d : Divider) (cb : DivCallback) (t : Nat) : C (Bool × Divider) := do
  if d.counter ≤ 0 then
    let v := newDivider cb t d.divider
    let c ← i32 (v - 1)
    return (true, { divider := v, counter := c })
  else
    let c ← i32 (d.counter - 1)
    return (false, { d with counter := c })

/-- `BKDividerTick`, BKClock.c 187–212: all dividers of a group in order.  The result is the
return value, which dividers fired, and the new state. -/
def groupTick (t : Nat) : List (Divider × DivCallback) → C (Bool × List Bool × List (Divider × DivCallback))
  | [] => .ok (false, [], [])
  | (d, cb) :: ds => do
    let r ← d.tick cb t
    let rs ← groupTick t ds
    return (r.1 || rs.1, r.1 :: rs.2.1, (r.2, cb) :: rs.2.2)

/-- `BKDividerReset`, BKClock.c 364–367. -/
def Divider.reset (d : Divider) : Divider := { d with counter := 0 }

/-- `n` ticks starting with tick number `t`; for each tick the return value and who fired. -/
def groupRun (t : Nat) : Nat → List (Divider × DivCallback) →
    C (List (Bool × List Bool) × List (Divider × DivCallback))
  | 0, g => .ok ([], g)
  | n + 1, g => do
    let r ← groupTick t g
    let rs ← groupRun (t + 1) n r.2.2
    return ((r.1, r.2.1) :: rs.1, rs.2)

end BK
