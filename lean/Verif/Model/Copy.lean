import Verif.Model.SeqCopy
import Verif.Model.Links
/-!
Copying of data objects and instruments: `BKDataInitCopy` (`/repo/src/BKData.c`) and `BKInstrumentInitCopy`
(`/repo/src/BKInstrument.c`), and what `BKDispose` (`/repo/src/BKObject.c`) does with the copies.

Frames are in blocks with numbers; a block that is allocated gets a number which has not been used.  Whether an
allocation succeeds is an argument.  Block sizes do not overflow.  Instruments have value sequences (envelopes are
copied by the same text, see `SeqBlocks.copy`).
-/
namespace BK

/-- `struct BKData`, BKData.h 81–93.  `init`, `alloc` and `copied` are the flags `BKObjectFlagInitialized`,
`BKObjectFlagAllocated` (BKObject.h 49, 50) and `BK_DATA_FLAG_COPY` (BKData.c 35); the class pointer is that of
data; `users` are the states in `stateList`. -/
structure DObj where
  init : Bool := false
  alloc : Bool := false
  copied : Bool := false
  numBits : Int := 0
  sampleRate : Int := 0
  numFrames : Nat := 0
  numChannels : Nat := 0
  samplePitch : Int := 0
  sustainOffset : Int := 0
  sustainEnd : Int := 0
  frames : Option Nat := none
  users : List Nat := []
  deriving DecidableEq, Repr

/-- Codes returned, BKBase.h 355–385. -/
inductive CopyRet where
  | ok | noMemory | invalidNumFrames | invalidNumChannels
  deriving DecidableEq, Repr

/-- Objects and blocks of frames; `none` is a block which is not allocated. -/
structure CopyWorld where
  objs : Nat → DObj := fun _ => {}
  heap : Nat → Option (List Int) := fun _ => none
  next : Nat := 0

def CopyWorld.put (w : CopyWorld) (d : Nat) (x : DObj) : CopyWorld := { w with objs := upd w.objs d x }

/-- Reading `n` frames. -/
def CopyWorld.read (w : CopyWorld) (b : Option Nat) (n : Nat) : C (List Int) :=
  match b with
  | none => if n = 0 then .ok [] else .error .null
  | some b =>
    match w.heap b with
    | none => .error .useAfterFree
    | some l => if n ≤ l.length then .ok (l.take n) else .error .oob

/-- `free`. -/
def CopyWorld.free (w : CopyWorld) : Option Nat → C CopyWorld
  | none => .ok w
  | some b =>
    match w.heap b with
    | none => .error .badFree
    | some _ => .ok { w with heap := upd w.heap b none }

/-- Frames that are a copy are freed, BKData.c 176–178; with `malloc` this is `realloc`, BKData.c 349–354. -/
def CopyWorld.drop (w : CopyWorld) (d : Nat) : C CopyWorld :=
  if (w.objs d).copied then w.free (w.objs d).frames else .ok w

/-- `BKDataSetFrames` with `copy`, BKData.c 333–383, on an object without users: code and world.  `realloc` of `NULL`
is `malloc`. -/
def CopyWorld.setFrames (w : CopyWorld) (d : Nat) (src : Option Nat) (numFrames numChannels : Nat) (mem : Bool) :
    C (CopyRet × CopyWorld) :=
  if numFrames < 2 then .ok (.invalidNumFrames, w)
  else if numChannels < 1 ∨ numChannels > 8 then .ok (.invalidNumChannels, w)
  else if mem = false then .ok (.noMemory, w)
  else do
    let w' ← w.drop d
    let l ← w'.read src (numFrames * numChannels)
    return (.ok, { w' with heap := upd w'.heap w'.next (some l), next := w'.next + 1 }.put d
      { w.objs d with copied := true, frames := some w'.next, numFrames := numFrames, numChannels := numChannels
                      numBits := 16 })

/-- `BKDataInitCopy`, BKData.c 189–206.  Line 195 keeps only the flag `BK_DATA_FLAG_COPY`. -/
def CopyWorld.initCopy (w : CopyWorld) (c o : Nat) (mem : Bool) : C (CopyRet × CopyWorld) :=
  let x := { w.objs o with init := false, alloc := false, users := [], frames := none }
  let w1 := w.put c x
  match (w.objs o).frames with
  | none => .ok (.ok, w1)
  | some b => w1.setFrames c (some b) x.numFrames x.numChannels mem

/-- `BKDispose`, BKObject.c 149–180, with `BKDataDisposeObject`, BKData.c 172–179: users are detached, frames that
are a copy are freed, the object is cleared. -/
def CopyWorld.dispose (w : CopyWorld) (d : Nat) : C CopyWorld :=
  if (w.objs d).init then do
    let w ← w.drop d
    return w.put d {}
  else .ok w

/-- The caller changes a block. -/
def CopyWorld.write (w : CopyWorld) (b : Nat) (l : List Int) : CopyWorld := { w with heap := upd w.heap b (some l) }

/-- `struct BKInstrument`, BKInstrument.h 61–67: is it initialised, has it the class of instruments, and its list of
states (the first one) and sequences. -/
structure IObj where
  init : Bool := false
  isa : Bool := false
  numSequences : Nat := 0
  stateList : Option Nat := none
  sequences : Nat → Option Nat := fun _ => none

/-- Loop body of `BKInstrumentInitCopy`, BKInstrument.c 125–134. -/
def IObj.copySlot (o : IObj) (s : IObj × SeqBlocks) (i : Nat) : C (IObj × SeqBlocks) :=
  match o.sequences i with
  | none => .ok s
  | some q => do
    let (h, q') ← s.2.copy q
    return ({ s.1 with sequences := upd s.1.sequences i (some q') }, h)

/-- `BKInstrumentInitCopy`, BKInstrument.c 115–138, into an object with the content `g`.  Line 120 clears only
`sizeof (sizeof (BKInstrument))` = 8 bytes, which are the flags and padding before the class pointer; line 122 sets the
flags to none. -/
def IObj.initCopy (o g : IObj) (h : SeqBlocks) : C (IObj × SeqBlocks) :=
  (List.range o.numSequences).foldlM o.copySlot ({ g with init := false, numSequences := o.numSequences }, h)

/-- Loop body of `BKInstrumentDisposeObject`, BKInstrument.c 103–108. -/
def IObj.disposeSlot (o : IObj) (h : SeqBlocks) (i : Nat) : C SeqBlocks :=
  match o.sequences i with
  | none => .ok h
  | some q => h.dispose q

/-- `BKDispose`, BKObject.c 149–180, with `BKInstrumentDisposeObject`, BKInstrument.c 97–109; the class pointer must be
that of instruments if the object is initialised. -/
def IObj.dispose (o : IObj) (h : SeqBlocks) : C (IObj × SeqBlocks) :=
  if o.init then
    if o.isa then do
      let h ← [0, 1, 2, 3].foldlM o.disposeSlot h
      return ({}, h)
    else .error .oob
  else .ok (o, h)

end BK
