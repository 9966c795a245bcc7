import Verif.Lemmas.Current5
import Verif.Props.TrackSafe
/-!
C82: what is heard is what is set.
-/
namespace BK

/-- The track renders up to `e` after it computes everything afresh: setting the instrument which it
already has changes no attribute, but makes the track update its unit. -/
def Track.runAfresh (x : Nat) (w : IWorld) (t : Track) (e : Int) : C (Track × List Pulse) := do
  let r ← t.setInstrument x w (w.links.owner x)
  r.2.run x r.1 e

/-- Setting the same instrument again changes nothing that is set. -/
theorem C82_same_instrument (x : Nat) (w : IWorld) (t : Track) :
    t.setInstrument x w (w.links.owner x) = .ok (w, t.flagAll) := by
  unfold Track.setInstrument
  rw [if_neg (fun h => h rfl)]
  rfl

/-- C82: no change gets lost.  After any calls on tracks and instruments, a track without a running
effect renders exactly what it would render if it computed volumes, period and duty cycle afresh,
unless its last calls are among those listed in `TOp.upsets`. -/
theorem C82_nothing_lost_partial {N fuel : Nat} {ops : List WOp} {s : TWorld} {x : Nat} {t : Track}
    (hf : ops.length ≤ fuel) (hl : ({} : TWorld).LegalRun N fuel ops) (h : ({} : TWorld).run fuel ops = .ok s)
    (ht : s.tracks x = some t) (hc : t.ctx ≠ none) (he : t.effectsOff) (hs : ∀ p, stale x p ops = false) (e : Int) :
    t.run x s.iw e = t.runAfresh x s.iw e := by
  have k : ∀ p, t.Ok x s.iw p := fun p =>
    TWorld.run_ok ops (TWorld.Inv.init N) (by omega) hl (fun _ t h => by cases h) h (hs p) t ht
  unfold Track.runAfresh
  rw [C82_same_instrument, ok_bind]
  unfold Track.run
  rw [Track.updateUnit_flagAll k hc he.1 he.2.1 he.2.2.1 he.2.2.2.1 he.2.2.2.2]

/-- C82: what is heard is what is set.  Rendering uses the volumes that follow from volume, master
volume, tremolo, panning and instrument, the period that follows from note, pitch, arpeggio and
instrument, and the duty cycle that is set. -/
theorem C82_heard_is_set_partial {N fuel : Nat} {ops : List WOp} {s : TWorld} {x : Nat} {t : Track}
    (hf : ops.length ≤ fuel) (hl : ({} : TWorld).LegalRun N fuel ops) (h : ({} : TWorld).run fuel ops = .ok s)
    (ht : s.tracks x = some t) (hc : t.ctx ≠ none) (he : t.effectsOff) (hs : ∀ p, stale x p ops = false)
    {e : Int} {r : Track × List Pulse} (hr : t.run x s.iw e = .ok r) :
    r.1.VolNow x s.iw ∧ r.1.NoteNow x s.iw ∧ r.1.DutyNow x s.iw := by
  have k : ∀ p, t.Ok x s.iw p := fun p =>
    TWorld.run_ok ops (TWorld.Inv.init N) (by omega) hl (fun _ t h => by cases h) h (hs p) t ht
  have hp : s.iw.Pointed x := by
    have := (TWorld.Inv.init N).run ops (by omega) hl
    rw [h] at this
    exact this.good.pointed x
  have k' : ∀ p, r.1.Ok x s.iw p := fun p =>
    Track.Ok.exec (op := .run e) (r := (s.iw, r.1)) hp (Or.inr ⟨k p, by cases p <;> rfl⟩) (by
      unfold Track.exec; dsimp only; rw [hr]; rfl)
  obtain ⟨c1, c2, sb⟩ := Track.run_clean hr
  obtain ⟨h1, h2, h3, h4, h5⟩ := he
  exact ⟨k' .vol (by rw [sb.ctx]; exact hc) c1 (by rw [sb.volumeSlide]; exact h1) (by rw [sb.panningSlide]; exact h2)
      (by rw [sb.tremoloOn]; exact h3),
    k' .note c2.1 (by rw [sb.portamento]; exact h4) (by rw [sb.vibratoOn]; exact h5), k' .duty c2.2⟩

/-- Pulses that track 0 adds up to `e` after some calls. -/
def heardAfter (ops : List WOp) (e : Int) : Option (List Pulse) := do
  let s ← (({} : TWorld).run 32 ops).toOption
  let t ← s.tracks 0
  let r ← (t.run 0 s.iw e).toOption
  return r.2

/-- Pulses that it adds when it computes everything afresh. -/
def heardAfresh (ops : List WOp) (e : Int) : Option (List Pulse) := do
  let s ← (({} : TWorld).run 32 ops).toOption
  let t ← s.tracks 0
  let r ← (t.runAfresh 0 s.iw e).toOption
  return r.2

/-- Not all changes are heard.  In each case the track renders something else than what is set:
another pitch of a playing note; another sample pitch; a context with another rate; another waveform
set while detached; the volume of a single channel, which is lost again with the next update. -/
theorem C82_refuted :
    ([squareTrack ++ [.track 0 .tick, .track 0 (.attr .pitch 12582912)],
      sampleTrack 4 1 ++ [.track 0 .tick, .track 0 (.attr .samplePitch 12582912)],
      squareTrack ++ [.track 0 .tick, .track 0 .detach, .track 0 (.attach 22050 2 0)],
      squareTrack ++ [.track 0 .tick, .track 0 .detach, .track 0 (.attr .waveform 16386), .track 0 (.attach 44100 2 0)],
      squareTrack ++ [.track 0 .tick, .track 0 (.attr (.unit (.volumeOf 0)) 1000)]].map fun ops =>
        (heardAfter ops 104857600).isSome && heardAfter ops 104857600 != heardAfresh ops 104857600) =
      List.replicate 5 true := by decide +kernel

/-- A track with an instrument plays; pitch, volume and a sequence change meanwhile. -/
def tune : List WOp := [
  .init 0 16385, .track 0 (.attach 44100 2 0), .track 0 (.attr .masterVolume 6554),
  .setSequence 3 0 (.values [32767, 20000, 0] 1 1), .track 0 (.instrument (some 3)),
  .track 0 (.attr .note 50331648), .track 0 .tick, .track 0 (.attr .pitch 1048576), .track 0 (.attr .volume 20000),
  .setSequence 3 2 (.values [0, 524288] 0 1), .track 0 (.attr .note 54525952), .track 0 .tick,
  .track 0 (.attr .panning 16384), .track 0 (.arpeggio [2, 0, 4194304]), .track 0 .tick, .track 0 (.attr .dutyCycle 4)]

theorem tune_legal (fuel : Nat) : ({} : TWorld).LegalRun 2 fuel tune := by
  refine TWorld.LegalRun.of_all _ _ ?_
  intro op hop s
  unfold tune at hop
  have hp : ∀ v : Int, -2147483647 ≤ v → v ≤ 2147483647 → Plain v := fun v => Plain.of
  simp only [List.mem_cons, List.not_mem_nil, or_false] at hop
  rcases hop with rfl | rfl | rfl | rfl | rfl | rfl | rfl | rfl | rfl | rfl | rfl | rfl | rfl | rfl | rfl | rfl
  · exact hp _ (by decide) (by decide)
  · exact fun t _ => ⟨by decide, by decide, by decide⟩
  · exact fun t _ => ⟨hp _ (by decide) (by decide), trivial⟩
  · refine ⟨?_, ?_, ?_⟩ <;> simp [NewSeq.Short, NewSeq.Usual, NewSeq.Modest, seqLimit, InI32]
  · exact fun t _ => trivial
  · exact fun t _ => ⟨hp _ (by decide) (by decide), trivial⟩
  · exact fun t _ => trivial
  · exact fun t _ => ⟨hp _ (by decide) (by decide), trivial⟩
  · exact fun t _ => ⟨hp _ (by decide) (by decide), trivial⟩
  · refine ⟨?_, ?_, ?_⟩ <;> simp [NewSeq.Short, NewSeq.Usual, NewSeq.Modest, seqLimit, InI32]
  · exact fun t _ => ⟨hp _ (by decide) (by decide), trivial⟩
  · exact fun t _ => trivial
  · exact fun t _ => ⟨hp _ (by decide) (by decide), trivial⟩
  · refine fun t _ => ⟨by decide, by decide, ?_⟩
    simp [Notes]
  · exact fun t _ => trivial
  · exact fun t _ => ⟨hp _ (by decide) (by decide), trivial⟩

example : (∀ p, stale 0 p tune = false) ∧ ({} : TWorld).LegalRun 2 16 tune ∧
    ((({} : TWorld).run 16 tune).toOption.bind fun s => s.tracks 0).map (fun t => (t.ctx, t.volumeSlide, t.panningSlide,
      t.tremoloOn, t.portamento, t.vibratoOn)) = some (some (44100, 2), false, false, false, false, false) :=
  ⟨by intro p; cases p <;> decide, tune_legal 16, by decide +kernel⟩

/-- It renders pulses. -/
example : ((heardAfter tune 104857600).map fun l => decide (0 < l.length)) = some true := by decide +kernel

end BK
