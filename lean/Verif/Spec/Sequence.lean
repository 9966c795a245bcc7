import Verif.Model.Sequence
/-!
What sequences are meant to do, stated on the written values alone.
-/
namespace BK

/-- The sustain range meant by the arguments for a sequence with `len` entries: begin and
length, cut off at the end.  Negative arguments count as huge. -/
def sustainBegin (len : Nat) (so : Int) : Nat := if so < 0 then len else min so.toNat len
def sustainSize (len : Nat) (so sl : Int) : Nat :=
  if sl < 0 then len - sustainBegin len so else min sl.toNat (len - sustainBegin len so)

/-- Index of the value heard in the `k`-th tick (from 0) while the note is held, if the sustain
range begins at `so` and has `L` entries. -/
def heldIndex (so L k : Nat) : Nat := if k < so then k else so + (k - so) % L

/-- Entry that is known to exist. -/
def entry (vals : List Int) (i : Nat) : Int := vals.getD i 0

/-- Calls whose values fit the scale of the envelope: the value that may be set is limited by
2^30 divided by the precision factor chosen at creation. -/
def SeqOp.Fits (q : EnvSeq) : SeqOp → Prop
  | .setValue v => -1073741824 ≤ v * 2 ^ q.fracShift ∧ v * 2 ^ q.fracShift ≤ 1073741824
  | _ => True

/-- States that an envelope can be in after any calls. -/
def EnvSeq.Reach (q : EnvSeq) (st : SeqState) : Prop :=
  ∃ ops out, (∀ op ∈ ops, op.Fits q) ∧ q.run {} ops = .ok (st, out)

/-- An envelope as passed by the user: numbers of steps are below 2^31, values below 2^30. -/
structure UsualEnv (ps : List EnvPoint) (so sl : Int) : Prop where
  short : ps.length < 268435456
  hso : InI32 so
  hsl : InI32 sl
  steps : ∀ p ∈ ps, 0 ≤ p.steps ∧ p.steps < 2147483648
  vals : ∀ p ∈ ps, -1073741824 < p.value ∧ p.value < 1073741824

/-- `n` ticks. -/
def ticks (n : Nat) : List SeqOp := List.replicate n (.step true)

end BK
