import Verif.Spec.Sound
import Verif.Spec.Tone
import Verif.Lemmas.Current
/-!
A track that plays on.
-/
namespace BK

/-- A track is rendered for the times in the list, one after another, without calls in between; the first
number is the time at the beginning.  The steps have times counted from there. -/
def Track.hold (x : Nat) (w : IWorld) : Int → List Int → Track → C (Track × List Pulse)
  | _, [], t => .ok (t, [])
  | T, d :: ds, t => do
    let r ← t.run x w d
    let q ← Track.hold x w (T + d) ds { r.1 with unit := { r.1.unit with time := r.1.unit.time - d } }
    return (q.1, r.2.map (Pulse.later T) ++ q.2)

/-- The pitch that is set: note, arpeggio, instrument and pitch together. -/
def Track.pitchSet (x : Nat) (w : IWorld) (t : Track) (note : Int) : Int :=
  note + (if t.arpeggioOn then t.arp.delta else 0) + (if w.on x then w.value x 2 else 0) + t.pitch

/-- Held for the times `ds`, the track makes on every channel that is not silent steps at equal distances `q`, and no other.  One cycle of
`cnt` steps takes the period of the pitch that is set, up to rounding; the steps lead from one value of the
waveform to the next, scaled by the volume that is set; the duty cycle is the one that is set. -/
def Track.HeldTrain (N : Nat) (x : Nat) (w : IWorld) (t : Track) (rate : Int) (cnt : Nat) (note : Int) (ds : List Int) : Prop :=
    ∃ r duty φ, ∃ q : Int, t.hold x w 0 ds = .ok r ∧ r.1.VolNow x w ∧
      (duty : Nat) = max 1 (min 15 (if w.on x ∧ w.value x 3 ≠ 0 then w.value x 3 else t.dutyCycle)) ∧ φ < cnt ∧ 1 ≤ q ∧
      cnt * q ≤ exactPeriod (t.pitchSet x w note) rate ∧ exactPeriod (t.pitchSet x w note) rate < cnt * q + cnt ∧
      ∀ i < N, r.1.unit.volume i ≠ 0 →
        (∀ k : Nat, t.unit.time + k * q < ds.sum → (onChan i r.2)[k]? = some ⟨i, t.unit.time + k * q,
          wrapI16 (level (t.unit.waveform.value duty ((φ + k) % cnt)) (r.1.unit.volume i) -
            (if k = 0 then t.unit.lastPulse i else
              level (t.unit.waveform.value duty ((φ + (k - 1)) % cnt)) (r.1.unit.volume i)))⟩) ∧
        (∀ k : Nat, ¬ t.unit.time + k * q < ds.sum → (onChan i r.2)[k]? = none)

/-- The same with any values: held for the times `ds`, the track makes on every channel that is not silent steps at equal distances
`q`, and no other; `cnt` steps take the period of the pitch that is set, up to rounding; the steps lead from one of the values `val` to the
next, scaled by the volume that is set. -/
def Track.HeldSteps (N : Nat) (x : Nat) (w : IWorld) (t : Track) (rate : Int) (cnt : Nat) (note : Int) (ds : List Int) (val : Nat → Int) : Prop :=
    ∃ r, ∃ q : Int, t.hold x w 0 ds = .ok r ∧ r.1.VolNow x w ∧ 1 ≤ q ∧
      cnt * q ≤ exactPeriod (t.pitchSet x w note) rate ∧ exactPeriod (t.pitchSet x w note) rate < cnt * q + cnt ∧
      ∀ i < N, r.1.unit.volume i ≠ 0 →
        (∀ k : Nat, t.unit.time + k * q < ds.sum → (onChan i r.2)[k]? = some ⟨i, t.unit.time + k * q,
          wrapI16 (level (val k) (r.1.unit.volume i) -
            (if k = 0 then t.unit.lastPulse i else level (val (k - 1)) (r.1.unit.volume i)))⟩) ∧
        (∀ k : Nat, ¬ t.unit.time + k * q < ds.sum → (onChan i r.2)[k]? = none)

end BK
