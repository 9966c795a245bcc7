import Verif.Model.Sequence
/-!
Sequences as heap blocks: creating, copying and disposing them.

`BKSequenceFuncSimpleCopy` (BKSequence.c 114–136) and `BKSequenceFuncEnvelopeCopy`
(BKSequence.c 357–379) are the same text except for the type of an entry; value sequences are
modelled.
-/
namespace BK

/-- One allocated sequence: the header with its `values` pointer (here: the block the pointer
leads into) and the entries that follow the header in the same block. -/
structure SeqBlock where
  length : Int
  sustainOffset : Int
  sustainLength : Int
  values : Nat
  data : List Int
  deriving DecidableEq, Repr

/-- Blocks by address; `none` is a freed block. -/
abbrev SeqBlocks := List (Option SeqBlock)

/-- Access to a block. -/
def SeqBlocks.get (h : SeqBlocks) (i : Nat) : C SeqBlock :=
  match h[i]? with
  | some (some b) => .ok b
  | some none => .error .useAfterFree
  | none => .error .oob

/-- `BKSequenceCreate` for value sequences, BKSequence.c 3–33: the values pointer leads into the
new block itself (line 17). -/
def SeqBlocks.create (h : SeqBlocks) (vals : List Int) (so sl : Int) : C (Option (SeqBlocks × Nat)) := do
  let q ← SimpleSeq.create vals so sl
  match q with
  | none => return none
  | some q =>
    return some (h ++ [some ⟨q.length, q.sustainOffset, q.sustainLength, h.length, q.values⟩], h.length)

/-- `BKSequenceFuncSimpleCopy`, BKSequence.c 114–136.  Line 125 sets the values pointer of the
copy, but line 127 overwrites it with the pointer of the original; the entries of the copy
(line 128 copies the original onto itself) stay uninitialised. -/
def SeqBlocks.copy (h : SeqBlocks) (i : Nat) : C (SeqBlocks × Nat) := do
  let b ← h.get i
  let _ ← h.get b.values
  return (h ++ [some { b with data := [] }], h.length)

/-- `BKSequenceDispose`, BKSequence.c 454–457. -/
def SeqBlocks.dispose (h : SeqBlocks) (i : Nat) : C SeqBlocks :=
  match h[i]? with
  | some (some _) => .ok (h.set i none)
  | _ => .error .badFree

/-- A call on a state that plays sequence `i`, BKSequence.c 459–483.  Entries are read through
the values pointer; reading from a freed block is `useAfterFree`. -/
def SeqBlocks.exec (h : SeqBlocks) (i : Nat) (st : SeqState) (op : SeqOp) : C (SeqRet × SeqState) := do
  let b ← h.get i
  match h.get b.values with
  | .ok v => SimpleSeq.exec ⟨v.data, b.length, b.sustainOffset, b.sustainLength⟩ st op
  | .error e =>
    match SimpleSeq.exec ⟨[], b.length, b.sustainOffset, b.sustainLength⟩ st op with
    | .error .oob => .error e
    | r => r

/-- Run calls, collecting (return value, current value). -/
def SeqBlocks.run (h : SeqBlocks) (i : Nat) (st : SeqState) :
    List SeqOp → C (SeqState × List (SeqRet × Int))
  | [] => .ok (st, [])
  | op :: ops => do
    let r ← h.exec i st op
    let t ← h.run i r.2 ops
    return (t.1, (r.1, r.2.value) :: t.2)

end BK
