import Verif.Model.SeqPlay
import Verif.Spec.Instrument
import Verif.Spec.Links
/-!
Legal use of sequences by a caller who plays them itself.
-/
namespace BK

/-- A legal call: only existing sequences are used, a sequence is given back when no state plays it any
more, and a state is not cleared while it plays. -/
def SeqCall.Legal (w : SeqPlay) : SeqCall → Prop
  | .create new => new.Short
  | .dispose id => w.heap id ≠ none ∧ ∀ x, w.links.owner x ≠ some id
  | .clear x => w.links.owner x = none
  | .bind _ (some id) => w.heap id ≠ none
  | _ => True

/-- All calls are legal when it is their turn. -/
def SeqPlay.LegalRun : SeqPlay → List SeqCall → Prop
  | _, [] => True
  | w, op :: ops => op.Legal w ∧ ∀ r w', w.exec op = .ok (r, w') → LegalRun w' ops

/-- A call whose numbers are of usual size.  In particular only a state that has just been cleared gets a new
envelope. -/
def SeqCall.Usual (w : SeqPlay) : SeqCall → Prop
  | .create new => new.Usual
  | .bind x (some id) => ∀ e, w.heap id = some (.env e) → w.links.owner x = some id ∨ w.st x = {}
  | .value x v => ∀ id q, w.links.owner x = some id → w.heap id = some q → q.Fits v
  | _ => True

/-- All calls are usual when it is their turn. -/
def SeqPlay.UsualRun : SeqPlay → List SeqCall → Prop
  | _, [] => True
  | w, op :: ops => op.Usual w ∧ ∀ r w', w.exec op = .ok (r, w') → UsualRun w' ops

/-- The state list of every sequence that exists holds exactly the states that play it, each once. -/
def SeqPlay.ListsExact (w : SeqPlay) : Prop :=
  ∀ id, w.heap id ≠ none → ∃ l, w.links.Visits id l ∧ l.Nodup ∧ ∀ x, x ∈ l ↔ w.links.owner x = some id

/-- The calls that matter for state `x`: those on it, and creating and disposing of sequences. -/
def seqCallsFor (x : Nat) (ops : List SeqCall) : List SeqCall :=
  ops.filter fun op => op.on = none ∨ op.on = some x

end BK
