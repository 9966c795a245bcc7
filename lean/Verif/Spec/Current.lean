import Verif.Model.Track
/-!
Calls after which a track may play something else than what is set.
-/
namespace BK

/-- What a track computes for its unit: volumes of the channels, period, duty cycle. -/
inductive Part where
  | vol | note | duty
  deriving DecidableEq

/-- Calls after which this may be out of date: setting the volume of a single channel or a period
(which a track passes on to its unit), setting a pitch, attaching. -/
def TOp.upsets : Part → TOp → Bool
  | .vol, .attr (.unit (.volumeOf _)) _ => true
  | .note, .attr .pitch _ => true
  | .note, .attr .samplePitch _ => true
  | .note, .attr (.unit .period) _ => true
  | .note, .attr (.unit .samplePeriod) _ => true
  | .note, .attach _ _ _ => true
  | _, _ => false

/-- Calls after which it is up to date again. -/
def TOp.renews : Part → TOp → Bool
  | .vol, .attr .volume _ => true
  | .vol, .attr .masterVolume _ => true
  | .vol, .attr .panning _ => true
  | .vol, .effect .volumeSlide _ => true
  | .vol, .effect .panningSlide _ => true
  | .vol, .effect .tremolo _ => true
  | .note, .attr .note _ => true
  | .note, .arpeggio _ => true
  | .note, .effect .portamento _ => true
  | .note, .effect .vibrato _ => true
  | .duty, .attr .dutyCycle _ => true
  | _, .instrument _ => true
  | _, .clear => true
  | _, .reset => true
  | _, _ => false

/-- Is it possibly out of date after a call? -/
def WOp.stale (x : Nat) (p : Part) (b : Bool) : WOp → Bool
  | .track y op => if y = x then if op.renews p then false else b || op.upsets p else b
  | _ => b

/-- Is it possibly out of date after some calls? -/
def stale (x : Nat) (p : Part) (ops : List WOp) : Bool := ops.foldl (WOp.stale x p) false

/-- An effect changes volume or pitch with time. -/
def Track.effectsOff (t : Track) : Prop :=
  t.volumeSlide = false ∧ t.panningSlide = false ∧ t.tremoloOn = false ∧ t.portamento = false ∧ t.vibratoOn = false

end BK
