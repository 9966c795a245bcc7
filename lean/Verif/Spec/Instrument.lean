import Verif.Model.Instrument
import Verif.Spec.Sequence
/-!
Legal arguments for instruments, and what a track hears from its instrument.
-/
namespace BK

/-- Arguments that creation accepts without wrapping its sizes. -/
def NewSeq.Short : NewSeq → Prop
  | .nothing => True
  | .values vals so sl => vals.length < 536870912 ∧ InI32 so ∧ InI32 sl
  | .points ps so sl => ps.length < 268435456 ∧ InI32 so ∧ InI32 sl ∧ ∀ p ∈ ps, InU32 p.steps

/-- Arguments of usual size. -/
def NewSeq.Usual : NewSeq → Prop
  | .points ps so sl => UsualEnv ps so sl
  | _ => True

/-- Does the value fit the scale of the sequence? -/
def Sequence.Fits (v : Int) : Sequence → Prop
  | .simple _ => True
  | .env q => (SeqOp.setValue v).Fits q

/-- The duty cycle fits the scale of the duty-cycle envelope of instrument `i`. -/
def IWorld.DutyFits (w : IWorld) (i : Nat) (duty : Int) : Prop :=
  ∀ id q, (w.instrs i).sequences 3 = some id → w.heap id = some q → q.Fits duty

/-- Arguments of a call that are legal in any case. -/
def InstrOp.Short : InstrOp → Prop
  | .setSequence _ _ new => new.Short
  | _ => True

/-- Arguments of a call that cannot lead to overflow. -/
def InstrOp.Usual (w : IWorld) : InstrOp → Prop
  | .setSequence _ _ new => new.Usual
  | .setInstrument _ (some i) _ duty => w.DutyFits i duty
  | .attack x duty => ∀ i, w.links.owner x = some i → w.DutyFits i duty
  | _ => True

/-- The same for all calls when it is their turn. -/
def IWorld.UsualRun (fuel : Nat) : IWorld → List InstrOp → Prop
  | _, [] => True
  | w, op :: ops => op.Usual w ∧ ∀ w', w.exec fuel op = .ok w' → UsualRun fuel w' ops

/-- Calls of a sequence on its own, collecting the return values. -/
def Sequence.play (q : Sequence) (st : SeqState) (p : SeqPhase) (ds : List Bool) :
    C (List SeqRet × SeqState) := do
  let r ← q.setPhase st p
  let t ← steps q r.2 ds
  return (r.1 :: t.1, t.2)
where
  steps (q : Sequence) (st : SeqState) : List Bool → C (List SeqRet × SeqState)
    | [] => .ok ([], st)
    | d :: ds => do
      let r ← q.step st d
      let t ← steps q r.2 ds
      return (r.1 :: t.1, t.2)

/-- Situations that legal calls can lead to, starting without any instrument. -/
def IWorld.Reach (fuel : Nat) (w : IWorld) : Prop :=
  ∃ ops, (∀ op ∈ ops, InstrOp.Short op) ∧ ops.length ≤ fuel ∧ IWorld.run fuel {} ops = .ok w

/-- The return values of sequence `k` of the instrument, if it were played alone by track `x`:
phase `p`, then the ticks `ds`.  A note sets the value of the duty-cycle sequence (number 3)
first. -/
def IWorld.Alone (w : IWorld) (i x : Nat) (p : SeqPhase) (ds : List Bool) (k : Nat)
    (rets : List SeqRet) : Prop :=
  ∃ id q st', (w.instrs i).sequences k = some id ∧ w.heap id = some q ∧
    q.play ((w.states x).slots k).st p ds = .ok (rets, st')

/-- The same for a new note. -/
def IWorld.AloneNote (w : IWorld) (i x : Nat) (duty : Int) (ds : List Bool) (k : Nat)
    (rets : List SeqRet) : Prop :=
  ∃ id q st st', (w.instrs i).sequences k = some id ∧ w.heap id = some q ∧
    (if k = 3 then q.setValue ((w.states x).slots k).st duty else .ok ((w.states x).slots k).st) = .ok st ∧
    q.play st .attack ds = .ok (rets, st')

/-- Played alone, every sequence of the instrument has come to its end by now. -/
def IWorld.AllEnd (w : IWorld) (i x : Nat) (p : SeqPhase) (ds : List Bool) : Prop :=
  ∀ k id, (w.instrs i).sequences k = some id → ∃ rets, w.Alone i x p ds k rets ∧ .finish ∈ rets

def IWorld.AllEndNote (w : IWorld) (i x : Nat) (duty : Int) (ds : List Bool) : Prop :=
  ∀ k id, (w.instrs i).sequences k = some id → ∃ rets, w.AloneNote i x duty ds k rets ∧ .finish ∈ rets

/-- The ticks of a track. -/
def ticksOf (x : Nat) (ds : List Bool) : List InstrOp := ds.map (.tick x ·)

/-- What track `y` has been told. -/
def IWorld.told (w : IWorld) (y : Nat) : List InstrEvent := (w.log.filter (·.1 = y)).map (·.2)

/-- Envelopes that creation refuses: the part repeated while the note is held exists but takes no
time (its steps add up to a multiple of 2^32). -/
def NewSeq.Timeless : NewSeq → Prop
  | .points ps so sl => sustainBegin ps.length so < ps.length ∧
      (((ps.drop (sustainBegin ps.length so)).take (sustainSize ps.length so sl)).map (·.steps)).sum
        % 4294967296 = 0
  | _ => False

/-- Does the call concern track `x` (it is made on the track or on the instrument it uses)? -/
def InstrOp.Concerns (w : IWorld) (x : Nat) : InstrOp → Prop
  | .setSequence i _ _ => w.links.owner x = some i
  | .detach i => w.links.owner x = some i
  | .dispose i => w.links.owner x = some i
  | .setInstrument y _ _ _ => y = x
  | .attack y _ => y = x
  | .release y => y = x
  | .mute y => y = x
  | .tick y _ => y = x

/-- Nothing about track `x` has changed: its instrument with all its sequences, its position in
them, and what it was told. -/
structure IWorld.SameFor (x : Nat) (w w' : IWorld) : Prop where
  owner : w'.links.owner x = w.links.owner x
  state : w'.states x = w.states x
  told : w'.told x = w.told x
  seqs : ∀ i, w.links.owner x = some i → (w'.instrs i) = w.instrs i ∧
    ∀ k id, (w.instrs i).sequences k = some id → w'.heap id = w.heap id

end BK
