import Verif.Spec.Held
import Verif.Spec.Unit
/-!
A sample as a tape with a playhead, independent of units: the head moves by its speed at every output frame; at the ends of the tape it
stops, goes round or turns back; while a sustain range is held it stays in there.
-/
namespace BK

/-- `2^20` is the length of one frame; `mode` is 0 for playing once, 1 for going round, 2 for back and forth; `hold` is the sustain range in effect. -/
structure Tape where
  len : Int
  mode : Int
  hold : Option (Int × Int)

/-- Position on the tape and movement per output frame, negative for backwards. -/
structure Head where
  pos : Int
  speed : Int
deriving DecidableEq

/-- The frame under the head. -/
def Head.frame (h : Head) : Int := h.pos / U20

/-- A head that may have left the tape. -/
def Tape.turn (T : Tape) (h : Head) : Option Head :=
  if 0 ≤ h.pos ∧ h.pos < T.len * U20 then some h
  else if T.mode = 1 then some { h with pos := h.pos % (T.len * U20) }
  else if T.mode = 2 then
    -- the frame is mirrored, the fraction stays; frame 0 is not played twice, the last frame is
    some ⟨(if 0 ≤ h.pos then T.len - 1 - h.frame % T.len else T.len - h.frame % T.len) * U20 + h.pos % U20, -h.speed⟩
  else none

/-- A head that may have left the sustain range. -/
def Tape.keep (T : Tape) (h : Head) : Head :=
  match T.hold with
  | none => h
  | some (lo, hi) =>
    if 0 < h.speed ∧ hi * U20 ≤ h.pos then { h with pos := lo * U20 + h.pos % U20 }
    else if h.speed < 0 ∧ h.pos < lo * U20 then { h with pos := (hi - 1) * U20 + h.pos % U20 }
    else h

def Tape.next (T : Tape) (h : Head) : Option Head := (T.turn { h with pos := h.pos + h.speed }).map T.keep

/-- The head after `k` output frames, if it has not stopped. -/
def Tape.at (T : Tape) (h : Head) : Nat → Option Head
  | 0 => some h
  | k + 1 => (T.next h).bind fun h' => T.at h' k

/-- A sample that plays. -/
def UCore.head (c : UCore) : Head := ⟨c.pos, c.samplePeriod⟩

def UCore.tape (c : UCore) : Tape :=
  ⟨c.length, if c.callback then 0 else c.repeatMode, if c.sustainRange && !c.release then some (c.sustainOffset, c.sustainEnd) else none⟩

/-- What is heard on channel `i` of frames with `nc` channels when the head is at `h`. -/
def frameAt (frames : List Int) (nc : Int) (i : Nat) (h : Head) : Int :=
  frames.getD (h.frame * nc + (if nc = 1 then 0 else (i : Int))).toNat 0

/-- Held for the times `ds`, the track plays the tape: at every output frame and on every channel there is one step, from the frame under the head
before to the one under it now, scaled by the volume that is set; the step is delayed by the fraction of the position.  When the head has
stopped, there is nothing.  The head starts where it was and moves at the speed that belongs to the pitch that is set. -/
def Track.HeldTape (N : Nat) (x : Nat) (w : IWorld) (t : Track) (note : Int) (ds : List Int) : Prop :=
    ∃ r, ∃ h0 : Head, t.hold x w 0 ds = .ok r ∧ r.1.VolNow x w ∧ h0.pos = t.unit.pos ∧
      log2PeriodLookup (t.pitchSet x w note + t.samplePitch) = .ok (if t.unit.samplePeriod < 0 then -h0.speed else h0.speed) ∧
      ∀ i < N, ∀ k : Nat,
        let lev := fun h => level (frameAt t.unit.frames t.unit.numChannels i h) (r.1.unit.volume i)
        (onChan i r.2)[k]? = if t.unit.time + k * U20 < ds.sum then
          (t.unit.tape.at h0 k).map fun h => ⟨i, t.unit.time + k * U20 + h.pos % U20, wrapI16 (lev h -
            (match k with
              | 0 => t.unit.lastPulse i
              | j + 1 => ((t.unit.tape.at h0 j).map lev).getD 0))⟩
          else none

end BK
