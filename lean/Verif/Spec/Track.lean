import Verif.Model.Track
/-!
What is expected of tracks, apart from the model of their code.
-/
namespace BK

/-- `f` applied `n` times. -/
def times {α : Type} (f : α → C α) : Nat → α → C α
  | 0, a => .ok a
  | n + 1, a => do
    let a ← times f n a
    f a

/-- `n` ticks of a divider: which of them fired. -/
def DivState.fires (d : DivState) : Nat → C (List Bool × DivState)
  | 0 => .ok ([], d)
  | n + 1 => do
    let r ← d.fires n
    let s ← r.2.tick
    return (r.1 ++ [s.1], s.2)

/-- `n` ticks of track `x` in succession. -/
def Track.ticks (x : Nat) (n : Nat) (s : IWorld × Track) : C (IWorld × Track) :=
  times (fun s => s.2.tick x s.1) n s

/-- How many of `n` ticks fire if `c` ticks have to pass before the first one that fires and then
every `d`-th one fires. -/
def firings (d c n : Nat) : Nat := (n + (d - 1) - c) / d

/-- `n` steps, of which those numbered `c`, `c + d`, `c + 2 d`, … are special (`c < d`). -/
def timesEvery {α : Type} (f : Bool → α → C α) (d c : Nat) : Nat → α → C α
  | 0, a => .ok a
  | n + 1, a => do
    let a ← timesEvery f d c n a
    f (decide (n % d = c)) a

/-- The note that is the `k`-th selected, counted from 0, if the arpeggio consists of the notes
`ns` and starts with the one numbered `o`. -/
def arpNote (ns : List Int) (o k : Nat) : Int := ns.getD ((o + k) % ns.length) 0

/-- Where a track is placed: its panning and that of its instrument. -/
def Track.position (x : Nat) (w : IWorld) (t : Track) : C Int := do
  let p ← t.panning.get
  return p + if w.on x then w.value x 1 else 0

/-- What can be read back from a track: attributes, effects and arpeggio, except for master volume,
waveform, duty cycle, whether the triangle wave ignores the volume, and what depends on these. -/
def Track.profile (t : Track) : List (C (Option Int)) × List (List Int) :=
  ([TAttr.volume, .panning, .note, .samplePitch, .arpeggioDivider, .effectDivider, .instrDivider,
    .slide .volumeSlide, .slide .panningSlide, .slide .portamento, .unit .mute, .unit .phaseWrap,
    .unit .sampleRepeat, .unit .samplePeriod, .unit .immedRelease, .unit .flagRelease].map t.getAttr,
   [t.getEffect .volumeSlide, t.getEffect .panningSlide, t.getEffect .portamento,
    t.getEffect .tremolo, t.getEffect .vibrato, t.getArpeggio])

/-- The slides and oscillators of a track. -/
structure Fx where
  volume : Slide
  panning : Slide
  tremolo : Osc × Slide × Slide
  vibrato : Osc × Slide × Slide

/-- One step of those that are on. -/
def Fx.step (vs ps tr vi : Bool) (f : Fx) : C Fx := do
  let a ← f.volume.tickIf vs
  let b ← f.panning.tickIf ps
  let c ← tickOsc tr f.tremolo.1 f.tremolo.2.1 f.tremolo.2.2
  let d ← tickOsc vi f.vibrato.1 f.vibrato.2.1 f.vibrato.2.2
  return ⟨a, b, c, d⟩

/-- Those of a track. -/
def Track.fx (t : Track) : Fx :=
  ⟨t.volume, t.panning, (t.tremolo, t.tremoloDelta, t.tremoloSteps),
   (t.vibrato, t.vibratoDelta, t.vibratoSteps)⟩

end BK
