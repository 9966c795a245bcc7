import Verif.Model.Links
/-!
Which units use a data object, `/repo/src/BKData.c`.

A data object `d` has a pointer to the first of its states (`first`), a state `s` (there is one in every
unit) has a pointer to its data object (`owner`) and to the next state (`next`).

Simplification: the flag `BKObjectFlagLocked` is set only while states are notified (BKData.c 106 and 138).
What is notified are the callbacks of units and tracks, which do not change which data a state uses, so the
flag has no effect; it is not modelled.  Not modelled either: functions of the user called by those callbacks
(`BK_EVENT_SAMPLE_BEGIN`) that bind units to other data.
-/
namespace BK

/-- The loop searching the last state, BKData.c 48–49. -/
def Links.lastState (h : Links) : Nat → Nat → C Nat
  | 0, _ => .error .endless
  | n + 1, s =>
    match h.next s with
    | none => .ok s
    | some t => h.lastState n t

/-- `BKDataStateAddToData`, BKData.c 42–63. -/
def Links.dataAdd (h : Links) (fuel : Nat) (s : Nat) : Option Nat → C Links
  | none => .ok h
  | some d =>
    if h.owner s = none then do
      let h ← match h.first d with
        | some f => do
          let l ← h.lastState fuel f
          pure { h with next := upd h.next l (some s) }
        | none => pure { h with first := upd h.first d (some s) }
      return { h with owner := upd h.owner s (some d), next := upd h.next s none }
    else .ok h

/-- The loop searching a state and the one before it, BKData.c 75–80: the one before, which is the last one
of the list if the state is not found. -/
def Links.prevState (h : Links) (s : Nat) : Nat → Option Nat → Option Nat → C (Option Nat)
  | 0, _, _ => .error .endless
  | _ + 1, none, prev => .ok prev
  | n + 1, some x, prev => if x = s then .ok prev else h.prevState s n (h.next x) (some x)

/-- Taking a state out between its neighbours, BKData.c 82–89. -/
def Links.dataCut (h : Links) (s d : Nat) : Option Nat → Links
  | some p => { h with next := upd h.next p (h.next s) }
  | none => if h.first d = some s then { h with first := upd h.first d (h.next s) } else h

/-- `BKDataStateRemoveFromData`, BKData.c 68–94. -/
def Links.dataRemove (h : Links) (fuel : Nat) (s : Nat) : C Links :=
  match h.owner s with
  | none => .ok h
  | some d => do
    let prev ← h.prevState s fuel (h.first d) none
    let h := h.dataCut s d prev
    return { h with owner := upd h.owner s none, next := upd h.next s none }

/-- `BKDataStateSetData`, BKData.c 690–696. -/
def Links.dataBind (h : Links) (fuel : Nat) (s : Nat) (d : Option Nat) : C Links := do
  let h ← h.dataRemove fuel s
  h.dataAdd fuel s d

/-- Taking out a state that is not to be kept, BKData.c 123–131. -/
def Links.dataDrop (h : Links) (d s : Nat) (prev next : Option Nat) : Links :=
  let h := match prev with
    | some p => { h with next := upd h.next p next }
    | none => h
  let h := if h.first d = some s then { h with first := upd h.first d (h.next s) } else h
  { h with next := upd h.next s none, owner := upd h.owner s none }

/-- The loop of `BKDataResetStates`, BKData.c 108–136, where `cb` notifies a state and says whether that
failed, and `all` is `event == BK_DATA_STATE_EVENT_DISPOSE`. -/
def resetLoop {α : Type} (cb : α → Nat → C (Bool × α)) (all : Bool) (d : Nat) :
    Nat → Option Nat → Option Nat → Links → α → C (Links × α)
  | 0, _, _, _, _ => .error .endless
  | _ + 1, none, _, h, a => .ok (h, a)
  | n + 1, some s, prev, h, a => do
    let next := h.next s
    let (res, a) ← cb a s
    if res ∨ all then resetLoop cb all d n next none (h.dataDrop d s prev next) a
    else resetLoop cb all d n next (some s) h a

/-- `BKDataResetStates`, BKData.c 99–139. -/
def resetStates {α : Type} (cb : α → Nat → C (Bool × α)) (all : Bool) (d fuel : Nat) (h : Links) (a : α) :
    C (Links × α) :=
  resetLoop cb all d fuel (h.first d) none h a

/-- Calls that concern the states of data objects: a state is bound to data or to nothing; the states of a
data object are notified that it has changed, which fails for some of them; or that it goes away. -/
inductive BindOp where
  | bind (s : Nat) (d : Option Nat)
  | changed (d : Nat) (fails : Nat → Bool)
  | gone (d : Nat)

/-- Execution of a call; the states that have been notified are appended to the log. -/
def Links.bindStep (fuel : Nat) (h : Links) (log : List Nat) : BindOp → C (Links × List Nat)
  | .bind s d => do
    let h ← h.dataBind fuel s d
    return (h, log)
  | .changed d fails => resetStates (fun log s => .ok (fails s, log ++ [s])) false d fuel h log
  | .gone d => resetStates (fun log s => .ok (false, log ++ [s])) true d fuel h log

/-- Execution of calls. -/
def Links.bindRun (fuel : Nat) (h : Links) (log : List Nat) : List BindOp → C (Links × List Nat)
  | [] => .ok (h, log)
  | op :: ops => do
    let (h, log) ← h.bindStep fuel log op
    h.bindRun fuel log ops

end BK
