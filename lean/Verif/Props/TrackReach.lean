import Verif.Props.TrackMix
import Verif.Props.TrackClear
import Verif.Lemmas.TrackPan
/-!
C55, C56 and C58 for tracks after any calls, without further conditions on their state.
-/
namespace BK

/-- The master volume is in its range after any calls with any arguments. -/
theorem C55_master {fuel : Nat} {ops : List WOp} {s : TWorld}
    (h : ({} : TWorld).run fuel ops = .ok s) {x : Nat} {t : Track} (ht : s.tracks x = some t) :
    ∃ v, t.getAttr .masterVolume = .ok (some v) ∧ 0 ≤ v ∧ v ≤ 32767 :=
  ⟨_, rfl, (TWorld.run_arp h x t ht).rng.1⟩

/-- After any calls, the channel volumes given to the unit are in range, not louder than the master
volume, and zero if a factor is. -/
theorem C55_reached_partial {fuel : Nat} {ops : List WOp} {s : TWorld}
    (h : ({} : TWorld).run fuel ops = .ok s) {x : Nat} {t t' : Track} (ht : s.tracks x = some t)
    (hu : t.updateVolume x s.iw = .ok t') (i : Nat) (hi : i < 2) :
    (0 ≤ t'.unit.volume i ∧ t'.unit.volume i ≤ 32767 ∧ t'.unit.volume i ≤ t.masterVolume) ∧
    (t.volume.get = .ok 0 ∨ t.masterVolume = 0 ∨ (s.iw.on x = true ∧ s.iw.value x 0 = 0) ∨
      (t.tremoloOn = true ∧ t.ignores = false ∧
        (t.tremolo.get = .ok 32767 ∨ t.tremolo.get = .ok (-32767))) → t'.unit.volume i = 0) := by
  have hM := (TWorld.run_arp h x t ht).rng.1
  exact ⟨C55_range_partial x s.iw t t' hM hu i hi, fun hz => C55_zero_partial x s.iw t t' hM hz hu i hi⟩

/-- After any calls, in a stereo context: at centre both channels are as loud as without panning, to one side only the
channel of the other side is lowered, and at the end it is silent. -/
theorem C56_reached {fuel : Nat} {ops : List WOp} {s : TWorld}
    (h : ({} : TWorld).run fuel ops = .ok s) {x : Nat} {t t' : Track} {p : Int}
    (ht : s.tracks x = some t) {rate : Int} (hc : t.ctx = some (rate, 2)) (hp : t.position x s.iw = .ok p)
    (hu : t.updateVolume x s.iw = .ok t') :
    ∃ f, ({ t with panningOn := false } : Track).updateVolume x s.iw = .ok f ∧
      f.unit.volume 0 = f.unit.volume 1 ∧
      (p ≤ 0 → t'.unit.volume 0 = f.unit.volume 0) ∧
      (0 ≤ p → t'.unit.volume 1 = f.unit.volume 1) ∧
      (0 ≤ p → t'.unit.volume 0 ≤ f.unit.volume 0) ∧
      (p ≤ 0 → t'.unit.volume 1 ≤ f.unit.volume 1) ∧
      (32767 ≤ p → t'.unit.volume 0 = 0) ∧
      (p ≤ -32767 → t'.unit.volume 1 = 0) :=
  C56_sides x s.iw t t' p (TWorld.run_arp h x t ht).rng.1 ((TWorld.run_sided h x t ht).2 ⟨rate, hc⟩) hp hu

/-- After any calls, in a context with one channel or more than two, all channels have the volume
that they would have with panning at centre. -/
theorem C56_not_stereo {fuel : Nat} {ops : List WOp} {s : TWorld}
    (h : ({} : TWorld).run fuel ops = .ok s) {x : Nat} {t t' : Track} (ht : s.tracks x = some t)
    (hc : ∀ rate, t.ctx ≠ some (rate, 2)) (hu : t.updateVolume x s.iw = .ok t') :
    ∃ v, ∀ i, t'.unit.volume i = v := by
  have hp : t.panningOn = false := by
    cases e : t.panningOn with
    | false => rfl
    | true =>
      obtain ⟨q, hq⟩ := (TWorld.run_sided h x t ht).1 e
      exact absurd hq (hc q)
  unfold Track.updateVolume at hu
  obtain ⟨m, -, hu⟩ := bind_ok_iff.1 hu
  rw [hp] at hu
  rw [if_neg (by simp)] at hu
  obtain ⟨r, hr, rfl⟩ := Track.setUnit_eq hu
  cases hr
  exact ⟨_, fun _ => rfl⟩

/-- A track is panned in stereo, then moved to a mono context. -/
example : ((({} : TWorld).run 1 (usedOps ++ [.track 0 (.attach 44100 2 0), .track 0 (.attr .panning 20000),
      .track 0 .tick, .track 0 .detach, .track 0 (.attach 44100 1 0)])).map fun s =>
    (s.tracks 0).map fun t => (t.ctx, ((t.updateVolume 0 s.iw).map (fun t' => t'.unit.volume 0)).toOption.isSome)) =
    .ok (some (some (44100, 1), true)) := by decide +kernel

/-- After any calls, clearing a track restores all of `Track.profile` and keeps the master volume;
resetting also restores the duty cycle. -/
theorem C58_reached_partial {fuel : Nat} {ops : List WOp} {s : TWorld}
    (h : ({} : TWorld).run fuel ops = .ok s) {x y : Nat} {w : IWorld} {t : Track} {wf : Int}
    {f : IWorld × Track} (ht : s.tracks x = some t) (hf : Track.init y w wf = .ok f) :
    (∀ r, t.clear x s.iw = .ok r →
      r.2.profile = f.2.profile ∧ r.2.pitch = f.2.pitch ∧ r.2.effects = f.2.effects ∧
      r.2.arpeggioOn = f.2.arpeggioOn ∧ r.1.on x = false ∧
      r.2.getAttr .masterVolume = t.getAttr .masterVolume) ∧
    (∀ r, t.reset x s.iw = .ok r →
      r.2.profile = f.2.profile ∧ r.2.pitch = f.2.pitch ∧ r.2.effects = f.2.effects ∧
      r.2.arpeggioOn = f.2.arpeggioOn ∧ r.1.on x = false ∧
      r.2.getAttr .masterVolume = t.getAttr .masterVolume ∧ r.2.dutyCycle = f.2.dutyCycle) := by
  have hM := (TWorld.run_arp h x t ht).rng.1
  constructor
  · intro r hr
    obtain ⟨h1, h2, h3, h4, -, h5, h6⟩ := C58_clear_partial hM hr hf
    exact ⟨h1, h2, h3, h4, h5, h6⟩
  · intro r hr
    obtain ⟨h1, h2, h3, h4, -, h5, h6, h7⟩ := C58_reset_partial hM hr hf
    exact ⟨h1, h2, h3, h4, h5, h6, h7⟩

/-- A used track in a stereo context to which the theorems apply. -/
example : ((({} : TWorld).run 1 (usedOps ++ [.track 0 (.attr .volume 30000),
      .track 0 (.attach 44100 2 0)])).map fun s =>
    (s.tracks 0).map fun t =>
      ((t.updateVolume 0 s.iw).map (fun t' => [t'.unit.volume 0, t'.unit.volume 1])).toOption) =
    .ok (some (some [2742, 2737])) := by decide +kernel

example : ((({} : TWorld).run 1 (usedOps ++ [.track 0 (.attr .volume 30000),
      .track 0 (.attach 44100 2 0)])).map fun s =>
    (s.tracks 0).map fun t => ((t.clear 0 s.iw).map (fun r => (t.panningOn, r.2.masterVolume))).toOption) =
    .ok (some (some (true, 3000))) := by decide +kernel

end BK
