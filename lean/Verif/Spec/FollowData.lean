import Verif.Model.TrackData
import Verif.Spec.TrackSafe
import Verif.Spec.Current
/-!
What it means that a track plays the contents of its data object.
-/
namespace BK

/-- What the unit reads is the data: a custom waveform has its first frames, up to 64; a sample has the frames from the lower
end of its range on. -/
def UCore.reads (c : UCore) (d : SampleData) : Prop :=
  match c.waveform with
  | .custom => c.frames = d.frames ∧ c.count = min d.numFrames 64
  | .sample => c.numChannels = d.numChannels ∧ c.frames = d.frames.drop (min c.offset c.stop * d.numChannels).toNat
  | _ => True

/-- A track that plays data plays the present contents of the object that it reports. -/
def AWorld.Follows (s : AWorld) : Prop :=
  ∀ x t, s.tw.tracks x = some t → t.unit.waveform = .custom ∨ t.unit.waveform = .sample →
    ∃ d, t.getSample = some d ∧ t.unit.toUCore.reads (s.datas d).data

/-- Calls with usual arguments.  Data is set by `play`; a waveform is not removed as a sample or the other way round; while the
frames of an object change or go, the tracks that play it are attached, and the number of channels fits those that play it as
a sample. -/
def AOp.Legal (N : Nat) (s : AWorld) : AOp → Prop
  | .call op => op.Legal N s.tw ∧ ∀ x type d, op ≠ .track x (.data type d)
  | .play x type d => (WOp.track x (.data type (d.map s.arg))).Legal N s.tw ∧
      (d = none → ∀ t, s.tw.tracks x = some t → (type = .sample → t.unit.waveform ≠ .custom) ∧
        (type = .waveform → t.unit.waveform ≠ .sample))
  | .setFrames d new => (2 ≤ new.numFrames → 1 ≤ new.numChannels → new.numChannels ≤ 8 → new.Wf ∧ new.numFrames ≤ 1073741824) ∧
      ∀ x t, s.tw.tracks x = some t → t.dataId = some d → t.ctx ≠ none ∧
        (t.unit.waveform = .sample → new.numChannels = 1 ∨ new.numChannels = N)
  | .setPitch _ _ => True
  | .detachData d => ∀ x t, s.tw.tracks x = some t → t.dataId = some d → t.ctx ≠ none
  | .disposeData d => ∀ x t, s.tw.tracks x = some t → t.dataId = some d → t.ctx ≠ none

/-- Every call has usual arguments when its turn comes. -/
def AWorld.LegalRun (N fuel : Nat) (s : AWorld) : List AOp → Prop
  | [] => True
  | op :: ops => op.Legal N s ∧ ∀ s', s.exec fuel op = .ok s' → AWorld.LegalRun N fuel s' ops

/-- Is a part possibly out of date after a call, as in C82?  Changing data does not make it so. -/
def AOp.stale (x : Nat) (p : Part) (b : Bool) : AOp → Bool
  | .call op => op.stale x p b
  | _ => b

/-- Is it possibly out of date after some calls? -/
def aStale (x : Nat) (p : Part) (ops : List AOp) : Bool := ops.foldl (AOp.stale x p) false

/-- The call clears or resets track `x`. -/
def AOp.clears (x : Nat) (op : AOp) : Prop := op = .call (.track x .clear) ∨ op = .call (.track x .reset)

end BK
