import Verif.Model.C
/-!
Objects, `/repo/src/BKObject.c` and `BKObject.h`.

Only the header of an object is modelled.  Objects live in memory of the caller (`own`) or on the
heap (`heap`).  Addresses of freed memory are not used again by later allocations (with reuse, a call
on a freed object could not be told from one on the object that took its place).
The dispose function of a class is an entry in a log; it must not change the header of the object.
-/
namespace BK

/-- Return codes used here. -/
inductive ORet where
  | ok | allocationError | invalidState
  deriving DecidableEq, Repr

/-- Addresses of objects. -/
inductive Addr where
  | own (n : Nat)
  | heap (n : Nat)
  deriving DecidableEq, Repr

/-- `struct BKClass`, BKObject.h 59–68: size and whether there are functions to dispose and to set
attributes. -/
structure Cls where
  size : Int
  hook : Bool
  setAttr : Bool
  deriving DecidableEq, Repr

/-- `struct BKObject`, BKObject.h 73–77, with the flags of BKObject.h 49 and 50. -/
structure Header where
  init : Bool := false
  alloc : Bool := false
  isa : Option Nat := none
  deriving DecidableEq, Repr

/-- What is observed from outside. -/
inductive OEvent where
  | hook (a : Addr) (c : Nat)   -- the dispose function of class `c` is called for object `a`
  | free (a : Addr)
  | attr (a : Addr) (c : Nat)   -- the `setAttr` function of class `c` is called
  deriving DecidableEq, Repr

/-- Memory. -/
structure OMem where
  cells : Addr → Header := fun _ => {}
  freed : Nat → Bool := fun _ => false
  next : Nat := 0                         -- number of allocations so far
  log : List OEvent := []

/-- Calls.  `alloc` has the results of `malloc`. -/
inductive OCall where
  | init (a : Option Addr) (c : Option Nat) (guard : Int)
  | alloc (out : Bool) (c : Option Nat) (memory : Bool)
  | dispose (a : Option Addr)
  | attr (a : Option Addr)
  deriving DecidableEq, Repr

/-- May the memory be accessed? -/
def OMem.access (m : OMem) : Addr → C Unit
  | .own _ => .ok ()
  | .heap n => if n < m.next then (if m.freed n then .error .useAfterFree else .ok ()) else .error .oob

/-- Writing a header. -/
def OMem.put (m : OMem) (a : Addr) (h : Header) : OMem :=
  { m with cells := fun b => if b = a then h else m.cells b }

/-- `BKObjectInit`, BKObject.c 26–44. -/
def OMem.objectInit (cls : Nat → Cls) (m : OMem) (a : Option Addr) (c : Option Nat) (guard : Int) :
    C (ORet × OMem) :=
  match a, c with
  | some a, some c =>
    if (cls c).size ≠ guard then .ok (.allocationError, m)
    else do
      m.access a
      return (.ok, m.put a { init := true, alloc := false, isa := some c })
  | _, _ => .ok (.allocationError, m)

/-- `BKObjectAlloc`, BKObject.c 46–74: code, object returned and memory. -/
def OMem.objectAlloc (cls : Nat → Cls) (m : OMem) (out : Bool) (c : Option Nat) (memory : Bool) :
    ORet × Option Addr × OMem :=
  if out = false then (.allocationError, none, m)
  else match c with
  | none => (.allocationError, none, m)
  | some c =>
    if (cls c).size = 0 then (.allocationError, none, m)
    else if memory = false then (.allocationError, none, m)
    else
      let a := Addr.heap m.next
      (.ok, some a, { m with next := m.next + 1 }.put a { init := true, alloc := true, isa := some c })

/-- `free`. -/
def OMem.release (m : OMem) : Addr → C OMem
  | .own _ => .error .badFree
  | .heap n => .ok { m with freed := fun k => if k = n then true else m.freed k
                            log := m.log ++ [.free (.heap n)] }

/-- `BKDispose`, BKObject.c 149–180. -/
def OMem.dispose (cls : Nat → Cls) (m : OMem) (a : Option Addr) : C OMem :=
  match a with
  | none => .ok m
  | some a => do
    m.access a
    let h := m.cells a
    match h.isa with
    | none => return m
    | some c =>
      if h.init = false then return m
      else
        let m := if (cls c).hook then { m with log := m.log ++ [.hook a c] } else m
        let m := m.put a {}
        if h.alloc then m.release a else return m

/-- `BKSetAttr`, BKObject.c 76–92; the other three (94–147) are the same. -/
def OMem.attr (cls : Nat → Cls) (m : OMem) (a : Option Addr) : C (ORet × OMem) :=
  match a with
  | none => .ok (.invalidState, m)
  | some a => do
    m.access a
    match (m.cells a).isa with
    | none => .error .null
    | some c =>
      if (cls c).setAttr then return (.ok, { m with log := m.log ++ [.attr a c] })
      else return (.invalidState, m)

/-- One call with its result. -/
def OMem.exec (cls : Nat → Cls) (m : OMem) : OCall → C ((ORet × Option Addr) × OMem)
  | .init a c g => do let r ← m.objectInit cls a c g; return ((r.1, a), r.2)
  | .alloc out c mem => let r := m.objectAlloc cls out c mem; .ok ((r.1, r.2.1), r.2.2)
  | .dispose a => do let m ← m.dispose cls a; return ((.ok, a), m)
  | .attr a => do let r ← m.attr cls a; return ((r.1, a), r.2)

/-- Calls in sequence, with their results. -/
def OMem.run (cls : Nat → Cls) (m : OMem) : List OCall → C (List (OCall × ORet × Option Addr) × OMem)
  | [] => .ok ([], m)
  | op :: ops => do
    let r ← m.exec cls op
    let q ← r.2.run cls ops
    return ((op, r.1) :: q.1, q.2)

end BK
