import Verif.Model.Instrument
/-!
Sequences played by the caller itself, without instrument and track: the functions of
`/repo/src/BKSequence.c` 390–484 on states which belong to the caller.
-/
namespace BK

/-- Sequence states (the caller's memory) and allocated sequences.  `links` are the fields
`sequence`, `prevState`, `nextState` of the states and `stateList` of the sequences, `st` the remaining
fields of the states, BKSequence.h 99–127.  A state is initially cleared; `fresh` is the next address. -/
structure SeqPlay where
  links : Links := {}
  st : Nat → SeqState := fun _ => {}
  heap : SeqHeap := fun _ => none
  fresh : Nat := 0

/-- The call of `create` in `BKSequenceCreate`, BKSequence.c 390–393, for both kinds of sequences; `none` is
an error. -/
def NewSeq.make : NewSeq → C (Option Sequence)
  | .nothing => .ok none
  | .values vals so sl => do
    let q ← SimpleSeq.create vals so sl
    return q.map .simple
  | .points ps so sl => do
    let q ← EnvSeq.create ps so sl
    return q.map .env

/-- `BKSequenceCreate`, BKSequence.c 390–393, at a new address. -/
def SeqPlay.create (w : SeqPlay) (new : NewSeq) : C SeqPlay := do
  let r ← new.make
  match r with
  | none => return w
  | some q => return { w with heap := upd w.heap w.fresh (some q), fresh := w.fresh + 1 }

/-- `BKSequenceDispose`, BKSequence.c 454–457. -/
def SeqPlay.dispose (w : SeqPlay) (id : Nat) : C SeqPlay := do
  let heap ← w.heap.free id
  return { w with heap := heap }

/-- Lines 434–435 of `BKSequenceStateSetSequence`: removing the state from the list of its sequence, which
reads the sequence. -/
def SeqPlay.leave (w : SeqPlay) (x : Nat) : C Links :=
  match w.links.owner x with
  | none => .ok w.links
  | some i => do
    let _ ← w.heap.get i
    return w.links.removeState x

/-- `BKSequenceStateSetSequence`, BKSequence.c 429–447.  Lines 395–427 are the same text as in
BKInstrument.c (`Links.addState`, `Links.removeState`). -/
def SeqPlay.setSequence (w : SeqPlay) (x : Nat) (target : Option Nat) : C (Option SeqRet × SeqPlay) :=
  if w.links.owner x = target then .ok (none, w)
  else do
    let links ← w.leave x
    match target with
    | none => return (none, { w with links := links })
    | some id => do
      let q ← w.heap.get id
      let r ← q.setPhase (w.st x) (w.st x).phase
      return (some r.1, { w with links := links.addState x id, st := upd w.st x r.2 })

/-- `BKSequenceStateSetPhase`, BKSequence.c 459–465; `none` is `BK_INVALID_STATE`. -/
def SeqPlay.setPhase (w : SeqPlay) (x : Nat) (p : SeqPhase) : C (Option SeqRet × SeqPlay) :=
  match w.links.owner x with
  | none => .ok (none, w)
  | some id => do
    let q ← w.heap.get id
    let r ← q.setPhase (w.st x) p
    return (some r.1, { w with st := upd w.st x r.2 })

/-- `BKSequenceStateStep`, BKSequence.c 467–473. -/
def SeqPlay.step (w : SeqPlay) (x : Nat) (divided : Bool) : C (Option SeqRet × SeqPlay) :=
  match w.links.owner x with
  | none => .ok (none, w)
  | some id => do
    let q ← w.heap.get id
    let r ← q.step (w.st x) divided
    return (some r.1, { w with st := upd w.st x r.2 })

/-- `BKSequenceStateSetValue`, BKSequence.c 475–483. -/
def SeqPlay.setValue (w : SeqPlay) (x : Nat) (v : Int) : C SeqPlay :=
  match w.links.owner x with
  | none => .ok { w with st := upd w.st x { w.st x with value := v } }
  | some id => do
    let q ← w.heap.get id
    let s ← q.setValue (w.st x) v
    return { w with st := upd w.st x { s with value := v } }

/-- The caller clears a state (`memset`), which it does before the first use. -/
def SeqPlay.clear (w : SeqPlay) (x : Nat) : SeqPlay :=
  { w with st := upd w.st x {}, links := { w.links with
      owner := upd w.links.owner x none, prev := upd w.links.prev x none, next := upd w.links.next x none } }

/-- Calls. -/
inductive SeqCall where
  | create (new : NewSeq)
  | dispose (id : Nat)
  | clear (x : Nat)
  | bind (x : Nat) (target : Option Nat)
  | phase (x : Nat) (p : SeqPhase)
  | step (x : Nat) (divided : Bool)
  | value (x : Nat) (v : Int)
  deriving DecidableEq, Repr

/-- One call with its return value. -/
def SeqPlay.exec (w : SeqPlay) : SeqCall → C (Option SeqRet × SeqPlay)
  | .create new => do
    let w ← w.create new
    return (none, w)
  | .dispose id => do
    let w ← w.dispose id
    return (none, w)
  | .clear x => .ok (none, w.clear x)
  | .bind x t => w.setSequence x t
  | .phase x p => w.setPhase x p
  | .step x d => w.step x d
  | .value x v => do
    let w ← w.setValue x v
    return (none, w)

/-- The state a call is made on. -/
def SeqCall.on : SeqCall → Option Nat
  | .create _ => none
  | .dispose _ => none
  | .clear x => some x
  | .bind x _ => some x
  | .phase x _ => some x
  | .step x _ => some x
  | .value x _ => some x

/-- Calls one after the other.  What is heard of state `x`: return value and current value after each call
on it. -/
def SeqPlay.run (x : Nat) (w : SeqPlay) : List SeqCall → C (SeqPlay × List (Option SeqRet × Int))
  | [] => .ok (w, [])
  | op :: ops => do
    let r ← w.exec op
    let t ← r.2.run x ops
    return (t.1, if op.on = some x then (r.1, (r.2.st x).value) :: t.2 else t.2)

end BK
