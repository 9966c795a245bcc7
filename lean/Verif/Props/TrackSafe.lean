import Verif.Lemmas.TrackSafe4
/-!
C80: calls on tracks and instruments with usual arguments never fault.
C81: what a track reports is in range at any time.
-/
namespace BK

/-- C80: no sequence of calls with usual arguments overflows, divides by zero, leaves an array, uses
a null pointer or memory that is freed, or fails to end: the run has a result. -/
theorem C80_never_faults_partial (N fuel : Nat) (ops : List WOp) (hf : ops.length ≤ fuel)
    (hl : ({} : TWorld).LegalRun N fuel ops) : ∃ s, ({} : TWorld).run fuel ops = .ok s := by
  obtain ⟨s, e, -⟩ := ((TWorld.Inv.init N).run ops (by omega) hl).get trivial
  exact ⟨s, e⟩

/-- A call that is usual in every state. -/
theorem TWorld.LegalRun.of_all {N fuel : Nat} : ∀ (ops : List WOp) (s : TWorld),
    (∀ op ∈ ops, ∀ s, op.Legal N s) → s.LegalRun N fuel ops
  | [], _, _ => trivial
  | op :: ops, s, h => ⟨h op (List.mem_cons_self ..) s, fun s' _ =>
      TWorld.LegalRun.of_all ops s' fun o ho => h o (List.mem_cons_of_mem _ ho)⟩

theorem TWorld.LegalRun.append {N fuel : Nat} : ∀ (ops ops' : List WOp) (s : TWorld), s.LegalRun N fuel ops →
    (∀ s', s.run fuel ops = .ok s' → s'.LegalRun N fuel ops') → s.LegalRun N fuel (ops ++ ops')
  | [], _, s, _, h => h s rfl
  | op :: ops, ops', s, h1, h2 => ⟨h1.1, fun s' e => TWorld.LegalRun.append ops ops' s' (h1.2 s' e) fun s'' e' =>
      h2 s'' (by unfold TWorld.run; rw [e]; exact e')⟩

/-- A track with an instrument, an arpeggio, vibrato and a slide plays a note. -/
def busy : List WOp := [
  .init 0 16385, .init 1 16387, .track 0 (.attach 44100 2 0), .track 0 (.attr .masterVolume 6554),
  .setSequence 3 0 (.values [32767, 20000, 0] 1 1), .setSequence 3 2 (.points [⟨4, 1048576⟩, ⟨4, -1048576⟩] 1 0),
  .track 0 (.instrument (some 3)), .track 1 (.instrument (some 3)),
  .track 0 (.effect .vibrato [8, 1048576, 4]), .track 0 (.effect .volumeSlide [100]),
  .track 0 (.arpeggio [3, 0, 4194304, 7340032]), .track 0 (.attr .note 50331648), .track 0 .tick, .track 0 .tick,
  .track 1 .reset, .disposeInstr 3]

theorem busy_legal (fuel : Nat) : ({} : TWorld).LegalRun 2 fuel busy := by
  refine TWorld.LegalRun.of_all _ _ ?_
  intro op hop s
  unfold busy at hop
  have hp : ∀ v : Int, -2147483647 ≤ v → v ≤ 2147483647 → Plain v := fun v => Plain.of
  simp only [List.mem_cons, List.not_mem_nil, or_false] at hop
  rcases hop with rfl | rfl | rfl | rfl | rfl | rfl | rfl | rfl | rfl | rfl | rfl | rfl | rfl | rfl | rfl | rfl
  · exact hp _ (by decide) (by decide)
  · exact hp _ (by decide) (by decide)
  · exact fun t _ => ⟨by decide, by decide, by decide⟩
  · exact fun t _ => ⟨hp _ (by decide) (by decide), trivial⟩
  · refine ⟨?_, ?_, ?_⟩ <;> simp [NewSeq.Short, NewSeq.Usual, NewSeq.Modest, seqLimit, InI32]
  · refine ⟨?_, ⟨?_, ?_, ?_, ?_, ?_⟩, ?_⟩ <;>
      simp [NewSeq.Short, NewSeq.Modest, seqLimit, InI32, InU32]
  · exact fun t _ => trivial
  · exact fun t _ => trivial
  · exact fun t _ => ⟨by decide, by decide⟩
  · exact fun t _ => trivial
  · refine fun t _ => ⟨by decide, by decide, ?_⟩
    simp [Notes]
  · exact fun t _ => ⟨hp _ (by decide) (by decide), trivial⟩
  · exact fun t _ => trivial
  · exact fun t _ => trivial
  · exact fun t _ => trivial
  · trivial

/-- The calls above, then a frame is rendered. -/
example : ∃ s, ({} : TWorld).run 17 (busy ++ [.track 0 (.run 1048576)]) = .ok s := by
  refine C80_never_faults_partial 2 17 _ (by decide) ?_
  refine TWorld.LegalRun.append _ _ _ (busy_legal 17) fun s hs => ⟨?_, fun _ _ => trivial⟩
  intro t ht
  refine ⟨?_, by decide, by decide⟩
  have h : ((({} : TWorld).run 17 busy).toOption.bind fun s => s.tracks 0).map (fun t => t.ctx.isSome) = some true := by
    decide +kernel
  rw [hs] at h
  change (s.tracks 0).map (fun t => t.ctx.isSome) = some true at h
  rw [ht] at h
  intro e
  simp [e] at h

/-- The fault of a run. -/
def faultOf {α} : C α → Option Fault
  | .ok _ => none
  | .error e => some e

/-- A track playing a square wave and a track playing a sample of `n` frames and `c` channels. -/
def squareTrack : List WOp := [.init 0 16385, .track 0 (.attach 44100 2 0), .track 0 (.attr .masterVolume 6554),
  .track 0 (.attr .note 50331648)]

def sampleTrack (n c : Nat) : List WOp := [.init 0 16385, .track 0 (.attach 44100 2 0),
  .track 0 (.data .sample (some ⟨0, ⟨n, c, List.replicate (n * c) 1000⟩, 0⟩)), .track 0 (.attr .masterVolume 6554),
  .track 0 (.attr .note 50331648)]

/-- The limits on arguments are needed.  These calls are accepted and fault:
a stereo sample that moves to a context with eight channels;
another waveform while a sustain range with immediate release is set;
a short sample played back and forth;
a sustain range up to the end of the sample with immediate release;
a negative number of arpeggio notes; a large arpeggio note; a large vibrato depth;
a negative divider; the smallest number as period; a volume sequence above 65538. -/
theorem C80_refuted :
    ([sampleTrack 4 2 ++ [.track 0 .detach, .track 0 (.attach 44100 8 0), .track 0 .tick, .track 0 (.run 8388608)],
      sampleTrack 80 1 ++ [.track 0 (.sustain (some (5, 70))), .track 0 (.attr (.unit .immedRelease) 1),
        .track 0 (.attr .waveform 16385), .track 0 .tick, .track 0 (.attr .note (-1)), .track 0 (.run 8388608)],
      sampleTrack 4 1 ++ [.track 0 (.attr (.unit .sampleRepeat) 2), .track 0 (.attr .pitch 50331648),
        .track 0 (.attr .note 100663296), .track 0 .tick, .track 0 (.run 8388608), .track 0 (.run 16777216)],
      sampleTrack 4 1 ++ [.track 0 (.sustain (some (0, 4))), .track 0 (.attr (.unit .immedRelease) 1), .track 0 .tick,
        .track 0 (.run 1048576), .track 0 (.attr .note (-1)), .track 0 (.run 8388608)],
      squareTrack ++ [.track 0 (.arpeggio [-1])],
      squareTrack ++ [.track 0 (.arpeggio [2, 0, 2147483647])] ++ List.replicate 6 (.track 0 .tick),
      squareTrack ++ [.track 0 (.effect .vibrato [1, 2147483647])] ++ List.replicate 6 (.track 0 .tick),
      squareTrack ++ [.track 0 (.attr .arpeggioDivider (-2147483647)), .track 0 (.arpeggio [2, 0, 1048576]),
        .track 0 .tick, .track 0 .tick, .track 0 .tick],
      squareTrack ++ [.track 0 (.attr (.unit .period) (-2147483648))],
      squareTrack ++ [.setSequence 0 0 (.values [65539] 0 1), .track 0 (.instrument (some 0)), .track 0 .tick]]
      : List (List WOp)).map (fun ops => faultOf (({} : TWorld).run 20 ops)) =
    [some .oob, some .oob, some .oob, some .oob, some .oob, some .overflow, some .overflow, some .overflow,
     some .overflow, some .overflow] := by
  decide +kernel

/-- C81: after any calls with usual arguments, a track reports volumes of 0 to 32767, a panning of
-32767 to 32767, a note of 0 to 96 semitones or -1, a sample pitch within 48 semitones, a duty cycle of
1 to 15, dividers of at least 1 and slides of 0 to 65536 steps. -/
theorem C81_reported_in_range_partial (N fuel : Nat) (ops : List WOp) (hf : ops.length ≤ fuel)
    (hl : ({} : TWorld).LegalRun N fuel ops) (s : TWorld) (h : ({} : TWorld).run fuel ops = .ok s) (x : Nat) (t : Track)
    (ht : s.tracks x = some t) (a : TAttr) (v : Int) (hv : t.getAttr a = .ok (some v)) :
    a.Reported v := by
  obtain ⟨s', e, hi⟩ := ((TWorld.Inv.init N).run ops (by omega) hl).get trivial
  rw [h] at e
  cases e
  have i := hi.tracks x t ht
  have near : ∀ {k : Nat} {lo hi : Int} {q : Slide}, q.Near k lo hi →
      lo ≤ q.endValue / 2 ^ q.valueShift ∧ q.endValue / 2 ^ q.valueShift ≤ hi := by
    intro k lo hi q hq
    obtain ⟨T, h1, h2, e⟩ := hq.inv.target
    rw [e, mul_pow_ediv]
    exact ⟨h1, h2⟩
  unfold Track.getAttr at hv
  cases a with
  | masterVolume => cases hv; exact i.masterVolume
  | volume => cases hv; exact near i.volume
  | panning => cases hv; exact near i.panning
  | note => cases hv; exact i.curNote
  | samplePitch => cases hv; exact i.samplePitch
  | dutyCycle =>
    cases hv
    have := i.unit.inv.duty
    unfold TAttr.Reported wrapI32
    dsimp only
    omega
  | waveform =>
    cases hv
    show t.unit.waveform.code = 0 ∨ (16385 ≤ t.unit.waveform.code ∧ t.unit.waveform.code ≤ 16391)
    cases t.unit.waveform <;> decide
  | arpeggioDivider => cases hv; exact i.arpDiv.divider.1
  | effectDivider => cases hv; exact i.effectDiv.divider.1
  | instrDivider => cases hv; exact i.instrDiv.divider.1
  | triangleIgnores =>
    cases hv
    show (if t.triangleIgnores then 1 else 0 : Int) = 0 ∨ (if t.triangleIgnores then 1 else 0 : Int) = 1
    split
    · exact .inr rfl
    · exact .inl rfl
  | slide e =>
    cases e with
    | volumeSlide => cases hv; exact ⟨i.volume.inv.steps.1, i.volume.steps⟩
    | panningSlide => cases hv; exact ⟨i.panning.inv.steps.1, i.panning.steps⟩
    | portamento => cases hv; exact ⟨i.note.inv.steps.1, i.note.steps⟩
    | tremolo => cases hv
    | vibrato => cases hv
  | pitch => cases hv
  | unit a =>
    cases a with
    | volumeOf j =>
      cases hv
      exact i.unit.inv.volume j
    | samplePeriod =>
      obtain ⟨q, e, h1, h2, -⟩ := cabs_period i.unit.spre.speed
      unfold UCore.getAttr FAttr.attr at hv
      dsimp only at hv
      rw [e] at hv
      cases hv
      exact ⟨h1, h2⟩
    | _ => trivial

/-- What track 0 reports after the calls above. -/
example : ((({} : TWorld).run 17 busy).map fun s => (s.tracks 0).map fun t =>
    [TAttr.masterVolume, .volume, .panning, .note, .dutyCycle, .waveform, .slide .volumeSlide].map
      fun a => match t.getAttr a with | .ok (some v) => v | _ => -99) =
    .ok (some [6554, 32767, 0, 50331648, 4, 16385, 100]) := by decide +kernel

example (s : TWorld) (h : ({} : TWorld).run 17 busy = .ok s) (x : Nat) (t : Track) (ht : s.tracks x = some t)
    (a : TAttr) (v : Int) (hv : t.getAttr a = .ok (some v)) : a.Reported v :=
  C81_reported_in_range_partial 2 17 busy (by decide) (busy_legal 17) s h x t ht a v hv

end BK
