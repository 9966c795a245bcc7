import Verif.Model.Instrument
import Verif.Model.Interp
import Verif.Model.Tone
import Verif.Model.Unit
/-!
Tracks, `/repo/src/BKTrack.c` and `BKTrack.h`.

A track is its unit (`Model/Unit.lean`) with note, volume, effects, arpeggio and instrument state.
The instrument state of track `x` is state `x` of the instrument world (`Model/Instrument.lean`).
Differences to the code:

* `BKInstrumentFlag` is not a field: it is set exactly while an instrument is attached (BKTrack.c
  653, 666), i.e. while `links.owner x` is not `none`.
* What the instrument world tells a track is in its log; the callback (BKTrack.c 44–62) is called
  for it after the call on the instrument world has finished.  The callback does not change the
  instrument world beyond what is already modelled there.
* The context is represented by its sample rate and its number of channels.  The divider of the
  track is in `Model/World.lean`.
* Values passed by pointer are lists of `BKInt`; the size is that of the list.
-/
namespace BK

/-- `struct BKDividerState`, BKTrack.h 59–63. -/
structure DivState where
  divider : Int := 0
  counter : Int := 0
  deriving DecidableEq, Repr

/-- `BKDividerStateTick`, BKTrack.c 69–81. -/
def DivState.tick (d : DivState) : C (Bool × DivState) := do
  let c ← i32 ((if d.counter = 0 then d.divider else d.counter) - 1)
  return (decide (d.counter = 0), { d with counter := c })

/-- `struct BKArpeggioState`, BKTrack.h 65–71. -/
structure Arp where
  offset : Int := 0
  delta : Int := 0
  count : Int := 0
  notes : List Int := List.replicate 8 0
  deriving DecidableEq, Repr

/-- `BKTrackArpeggioTick` without the flag, BKTrack.c 224–228. -/
def Arp.tick (a : Arp) : C Arp := do
  let d ← rd a.notes a.offset
  let o ← i32 (a.offset + 1)
  return { a with delta := d, offset := if o ≥ a.count then 0 else o }

/-- `BKTrackArpeggioSetNotes` without the flags, BKTrack.c 204–214, and the choice of the number
of notes, 1028–1035.  `ws` is the array passed; it is empty for NULL or size 0.  A negative count
makes `memcpy` run far beyond both arrays. -/
def Arp.set (a : Arp) (ws : List Int) : C Arp :=
  match ws with
  | [] => .ok { a with count := 0, offset := if a.offset ≥ 0 then 0 else a.offset }
  | c :: ns =>
    let count := cmin c 8
    if count < 0 ∨ (ns.length : Int) < count then .error .oob
    else .ok { a with
      count := count, offset := if a.offset ≥ count then 0 else a.offset
      notes := ns.take count.toNat ++ a.notes.drop count.toNat }

/-- `struct BKTrack`, BKTrack.h 73–99, with the flags of BKTrack.h 37–57 as fields. -/
structure Track where
  unit : BUnit := {}
  ctx : Option (Int × Int) := none      -- sample rate and number of channels
  dataId : Option Nat := none           -- `unit.sample.dataState.data`
  volumeSlide : Bool := false
  panningSlide : Bool := false
  portamento : Bool := false
  tremoloOn : Bool := false
  vibratoOn : Bool := false
  arpeggioOn : Bool := false
  panningOn : Bool := false             -- `BKPanningEnabledFlag`
  triangleIgnores : Bool := false
  ignores : Bool := false               -- `BKIgnoreVolumeFlag`
  updVolume : Bool := false
  updNote : Bool := false
  updDuty : Bool := false
  arpDiv : DivState := {}
  instrDiv : DivState := {}
  effectDiv : DivState := {}
  waveform : Int := 0
  dutyCycle : Int := 0
  samplePitch : Int := 0
  masterVolume : Int := 0
  volume : Slide := {}
  panning : Slide := {}
  curNote : Int := 0
  note : Slide := {}
  pitch : Int := 0
  tremolo : Osc := {}
  tremoloDelta : Slide := {}
  tremoloSteps : Slide := {}
  vibrato : Osc := {}
  vibratoDelta : Slide := {}
  vibratoSteps : Slide := {}
  arp : Arp := {}

/-- Current value of sequence `k` of track `x`: 0 volume, 1 panning, 2 pitch, 3 duty cycle
(BKInstrument.h 36–42). -/
def IWorld.value (w : IWorld) (x k : Nat) : Int := ((w.states x).slots k).st.value

/-- Is sequence `k` present? -/
def IWorld.hasSeq (w : IWorld) (x k : Nat) : Bool := ((w.states x).slots k).seq.isSome

/-- `BKInstrumentFlag`. -/
def IWorld.on (w : IWorld) (x : Nat) : Bool := (w.links.owner x).isSome

/-- Setting an attribute of the unit, ignoring the result. -/
def Track.setUnit (t : Track) (a : UAttr) (v : Int) : C Track := do
  let r ← t.unit.toUCore.setAttr a v
  return { t with unit := { t.unit with toUCore := r.2 } }

/-- `(a * b) >> BK_VOLUME_SHIFT` if `b` applies. -/
def scaleIf (b : Bool) (v f : Int) : C Int := do
  if b then
    let p ← i32 (v * f)
    return p / 32768
  else return v

/-- `a + b` if `b` applies. -/
def addIf (b : Bool) (v d : Int) : C Int := if b then i32 (v + d) else .ok v

/-- Volume without instrument, BKTrack.c 90–94. -/
def Track.ownVolume (t : Track) : C Int := do
  let v ← t.volume.get
  return if t.ignores ∧ v ≠ 0 then 32767 else v

/-- BKTrack.c 109–111. -/
def Track.tremoloFactor (t : Track) : C Int := do
  let x ← t.tremolo.get
  let a ← cabs x
  i32 (32767 - a)

/-- BKTrack.c 107–114. -/
def Track.tremoloVolume (t : Track) (v : Int) : C Int :=
  if t.tremoloOn ∧ t.ignores = false then do
    let f ← t.tremoloFactor
    scaleIf true v f
  else .ok v

/-- Volume and panning before they are given to the unit, BKTrack.c 90–117. -/
def Track.mix (x : Nat) (w : IWorld) (t : Track) : C (Int × Int) := do
  let v ← t.ownVolume
  let p ← t.panning.get
  let v ← scaleIf (w.on x && (!t.ignores || w.value x 0 == 0)) v (w.value x 0)
  let p ← addIf (w.on x) p (w.value x 1)
  let v ← t.tremoloVolume v
  let v ← scaleIf true (cclamp v 0 32767) t.masterVolume
  return (v, p)

/-- Distribution to two channels, BKTrack.c 120–122. -/
def pan (v p : Int) : C (Int × Int) := do
  let p := cclamp p (-32767) 32767
  let v0 ← scaleIf (decide (p > 0)) v (32767 - p)
  let v1 ← scaleIf (decide (p < 0)) v (32767 + p)
  return (v0, v1)

/-- `BKTrackUpdateUnitVolume`, BKTrack.c 83–130. -/
def Track.updateVolume (x : Nat) (w : IWorld) (t : Track) : C Track := do
  let m ← t.mix x w
  if m.2 ≠ 0 ∧ t.panningOn then
    let c ← pan m.1 m.2
    let t ← t.setUnit (.volumeOf 0) c.1
    t.setUnit (.volumeOf 1) c.2
  else t.setUnit .volume m.1

/-- Sum of note and effects, BKTrack.c 140–151. -/
def Track.noteSum (x : Nat) (w : IWorld) (t : Track) : C Int := do
  let n ← t.note.get
  let n ← addIf t.arpeggioOn n t.arp.delta
  let n ← vib n
  let n ← addIf (w.on x) n (w.value x 2)
  i32 (n + t.pitch)
where
  /-- BKTrack.c 145–146. -/
  vib (n : Int) : C Int :=
    if t.vibratoOn then do
      let d ← t.vibrato.get
      i32 (n + d)
    else .ok n

/-- Division of an unsigned number. -/
def udiv (a b : Int) : C Int := if b = 0 then .error .divZero else .ok (a / b)

/-- `BKTrackUpdateUnitNote`, BKTrack.c 132–163.  The tone period is stored in a `BKInt`; the
division is unsigned, because the number of phases is. -/
def Track.updateNote (x : Nat) (w : IWorld) (t : Track) : C Track :=
  match t.ctx with
  | none => .ok t
  | some (rate, _) => do
    let n ← t.noteSum x w
    if t.waveform ≠ 16391 then
      let p ← tonePeriodLookup n rate
      let p ← udiv (wrapU32 (wrapI32 p)) (cmin t.unit.count 64)
      t.setUnit .period (wrapI32 p)
    else
      let n ← i32 (n + t.samplePitch)
      let p ← log2PeriodLookup n
      t.setUnit .samplePeriod (wrapI32 p)

/-- `BKTrackUpdateUnitDutyCycle`, BKTrack.c 165–175. -/
def Track.updateDuty (x : Nat) (w : IWorld) (t : Track) : C Track :=
  t.setUnit .dutyCycle (if w.on x ∧ w.value x 3 ≠ 0 then w.value x 3 else t.dutyCycle)

/-- BKTrack.c 179–182. -/
def Track.flushVolume (x : Nat) (w : IWorld) (t : Track) : C Track :=
  if t.updVolume then do
    let t ← t.updateVolume x w
    return { t with updVolume := false }
  else .ok t

/-- BKTrack.c 184–187. -/
def Track.flushNote (x : Nat) (w : IWorld) (t : Track) : C Track :=
  if t.updNote then do
    let t ← t.updateNote x w
    return { t with updNote := false }
  else .ok t

/-- BKTrack.c 189–192. -/
def Track.flushDuty (x : Nat) (w : IWorld) (t : Track) : C Track :=
  if t.updDuty then do
    let t ← t.updateDuty x w
    return { t with updDuty := false }
  else .ok t

/-- `BKTrackUpdateUnit`, BKTrack.c 177–193. -/
def Track.updateUnit (x : Nat) (w : IWorld) (t : Track) : C Track := do
  let t ← t.flushVolume x w
  let t ← t.flushNote x w
  t.flushDuty x w

/-- `BKTrackUpdateIgnoreVolume`, BKTrack.c 195–202. -/
def Track.updateIgnore (t : Track) : Track :=
  { t with updVolume := true, ignores := decide (t.waveform = 16386) && t.triangleIgnores }

/-- `BKTrackInstrumentUpdateFlags` with `all`, BKTrack.c 243–246. -/
def Track.flagAll (t : Track) : Track := { t with updVolume := true, updNote := true, updDuty := true }

/-- `BKTrackInstrumentUpdateFlags` without `all`, BKTrack.c 247–263. -/
def Track.flagSeqs (x : Nat) (w : IWorld) (t : Track) : Track :=
  { t with updVolume := t.updVolume || w.hasSeq x 0 || w.hasSeq x 1
           updNote := t.updNote || w.hasSeq x 2
           updDuty := t.updDuty || w.hasSeq x 3 }

/-- Beginning of the mute branch of `BKTrackSetNote`, BKTrack.c 632–635. -/
def Track.stopNote (t : Track) : Track := { t with curNote := -1, note := t.note.halt true }

/-- End of the mute branch of `BKTrackSetNote`, BKTrack.c 640–644. -/
def Track.silence (t : Track) : C Track := do
  let t ← t.setUnit .mute 1
  let t ← t.setUnit .flagRelease 0
  return { t with updNote := true }

/-- The callback of the instrument state, BKTrack.c 44–62, without its effect on the instrument
state.  On `mute`, the mute note is set (631–644) with an instrument attached.  On `dispose`, no
instrument is set (647–673), which sets the mute note if no note is playing. -/
def Track.told (x : Nat) (w : IWorld) (t : Track) : InstrEvent → C Track
  | .mute => (t.stopNote.flagSeqs x w).silence
  | .reset => t.flagAll.updateUnit x w
  | .dispose => do
    let t ← if t.curNote = -1 then t.stopNote.silence else .ok t
    return t.flagAll

/-- What the instrument world told track `x` between `w` and `w'`. -/
def IWorld.news (w w' : IWorld) (x : Nat) : List InstrEvent :=
  ((w'.log.drop w.log.length).filter (·.1 = x)).map (·.2)

/-- The callback called for all of it. -/
def Track.hear (x : Nat) (w w' : IWorld) (t : Track) : C Track :=
  (w.news w' x).foldlM (fun t e => t.told x w' e) t

/-- `BKTrackInstrumentAttack`, BKTrack.c 565–573. -/
def Track.instrAttack (x : Nat) (w : IWorld) (t : Track) : C (IWorld × Track) := do
  let w' ← w.attack x t.dutyCycle
  let t ← { t with instrDiv := { t.instrDiv with counter := 0 } }.hear x w w'
  return (w', t.flagSeqs x w')

/-- `BKTrackInstrumentRelease`, BKTrack.c 575–579, and `BKTrackInstrumentMute`, 581–585. -/
def Track.instrPhase (x : Nat) (w : IWorld) (t : Track) (p : SeqPhase) : C (IWorld × Track) := do
  let w' ← w.setPhase x p
  let t ← t.hear x w w'
  return (w', t.flagSeqs x w')

/-- A new note after silence, BKTrack.c 594–602. -/
def Track.startNote (x : Nat) (w : IWorld) (t : Track) : C (IWorld × Track) := do
  if t.curNote = -1 then
    let t := { t with note := t.note.halt true }
    let r ← if w.on x then t.instrAttack x w else .ok (w, t)
    return (r.1, { r.2 with arp := { r.2.arp with offset := 0 } })
  else return (w, t)

/-- BKTrack.c 604–608. -/
def Track.startSample (t : Track) : C Track :=
  if t.waveform = 16391 ∧ t.curNote = -1 then t.setUnit .phase (-1) else .ok t

/-- `BKTrackSetNote` with a note, BKTrack.c 589–614.  (An attack does not set `curNote`.) -/
def Track.playNote (x : Nat) (w : IWorld) (t : Track) (note : Int) : C (IWorld × Track) := do
  let note := cclamp note 0 (96 * U20)
  let s ← t.note.setValue note
  let r ← { t with note := s }.startNote x w
  let t ← r.2.startSample
  let t ← { t with curNote := note }.setUnit .mute 0
  let t ← t.setUnit .flagRelease 0
  return (r.1, t)

/-- `BKTrackSetNote` with `BK_NOTE_RELEASE`, BKTrack.c 615–630. -/
def Track.releaseNote (x : Nat) (w : IWorld) (t : Track) : C (IWorld × Track) := do
  let t := { t with curNote := -1 }
  if w.on x then
    let r ← t.instrPhase x w .release
    let t ← r.2.setUnit .flagRelease 1
    return (r.1, t)
  else if t.unit.sustainRange then
    let t ← t.setUnit .flagRelease 1
    return (w, t)
  else
    let t ← { t with note := t.note.halt false }.setUnit .mute 1
    return (w, t)

/-- `BKTrackSetNote` with `BK_NOTE_MUTE`, BKTrack.c 631–642. -/
def Track.muteNote (x : Nat) (w : IWorld) (t : Track) : C (IWorld × Track) := do
  let t := t.stopNote
  let r ← if w.on x then t.instrPhase x w .mute else .ok (w, t)
  let t ← r.2.silence
  return (r.1, t)

/-- The three cases, BKTrack.c 589, 615, 631. -/
def Track.noteCase (x : Nat) (w : IWorld) (t : Track) (note : Int) : C (IWorld × Track) :=
  if note ≥ 0 then t.playNote x w note
  else if note = -1 then t.releaseNote x w
  else if note = -2 then t.muteNote x w
  else .ok (w, t)

/-- `BKTrackSetNote`, BKTrack.c 587–645. -/
def Track.setNote (x : Nat) (w : IWorld) (t : Track) (note : Int) : C (IWorld × Track) := do
  let r ← t.noteCase x w note
  return (r.1, { r.2 with updNote := true })

/-- `BKTrackSetInstrument` with another instrument, BKTrack.c 650–671. -/
def Track.changeInstrument (x : Nat) (w : IWorld) (t : Track) : Option Nat → C (IWorld × Track)
  | some i => do
    let w ← w.setInstrument x (some i)
    let t := { t with instrDiv := { t.instrDiv with counter := 0 } }
    let w ← w.initValues x t.dutyCycle
    if t.curNote = -1 then t.instrPhase x w .mute else t.instrAttack x w
  | none => do
    let w ← w.setInstrument x none
    if t.curNote = -1 then t.setNote x w (-2) else return (w, t)

/-- `BKTrackSetInstrument`, BKTrack.c 647–674. -/
def Track.setInstrument (x : Nat) (w : IWorld) (t : Track) (i : Option Nat) : C (IWorld × Track) := do
  let r ← if i ≠ w.links.owner x then t.changeInstrument x w i else .ok (w, t)
  return (r.1, r.2.flagAll)

/-- Effects, BKBase.h 306–311. -/
inductive Effect where
  | volumeSlide | panningSlide | portamento | tremolo | vibrato
  deriving DecidableEq, Repr

/-- `BKTrackSetEffect`, BKTrack.c 844–930; `vals` are the values passed, missing ones are 0. -/
def Track.setEffect (t : Track) (e : Effect) (vals : List Int) : C Track :=
  let v0 := vals.getD 0 0
  let steps := cclamp v0 0 65536
  let slide := cclamp (vals.getD 2 0) 0 65536
  let on := decide (v0 ≠ 0)
  match e with
  | .volumeSlide => do
    let s ← t.volume.setSteps steps
    return { t with volume := s, updVolume := true, volumeSlide := on }
  | .portamento => do
    let s ← t.note.setSteps steps
    return { t with note := s, updNote := true, portamento := on }
  | .panningSlide => do
    let s ← t.panning.setSteps steps
    return { t with panning := s, updVolume := true, panningSlide := on }
  | .tremolo => do
    let delta := cclamp (vals.getD 1 0) 0 32767
    let d ← t.tremoloDelta.setValueAndSteps delta slide
    let n ← t.tremoloSteps.setValueAndSteps steps slide
    let o ← if slide = 0 then t.tremolo.setDeltaAndSteps delta steps else .ok t.tremolo
    return { t with tremoloDelta := d, tremoloSteps := n, tremolo := o, updVolume := true
                    tremoloOn := on }
  | .vibrato => do
    let delta := vals.getD 1 0
    let d ← t.vibratoDelta.setValueAndSteps delta slide
    let n ← t.vibratoSteps.setValueAndSteps steps slide
    let o ← if slide = 0 then t.vibrato.setDeltaAndSteps delta steps else .ok t.vibrato
    return { t with vibratoDelta := d, vibratoSteps := n, vibrato := o, updNote := true
                    vibratoOn := on }

/-- Attributes that a track passes on to its unit. -/
inductive FAttr where
  | phase | phaseWrap | period | volumeOf (i : Fin 8) | mute | sampleRepeat | samplePeriod
  | immedRelease | flagRelease | numPhases | other
  deriving DecidableEq, Repr

/-- The attribute of the unit. -/
def FAttr.attr : FAttr → UAttr
  | .phase => .phase | .phaseWrap => .phaseWrap | .period => .period | .volumeOf i => .volumeOf i
  | .mute => .mute | .sampleRepeat => .sampleRepeat | .samplePeriod => .samplePeriod
  | .immedRelease => .immedRelease | .flagRelease => .flagRelease | .numPhases => .numPhases
  | .other => .other

/-- Attributes of a track, BKTrack.c 681–764. -/
inductive TAttr where
  | masterVolume | volume | panning | waveform | dutyCycle | note | pitch | samplePitch
  | arpeggioDivider | effectDivider | instrDivider | triangleIgnores
  | slide (e : Effect)   -- `BK_EFFECT_VOLUME_SLIDE`, `_PANNING_SLIDE`, `_PORTAMENTO`
  | unit (a : FAttr)
  deriving DecidableEq, Repr

/-- `BK_WAVEFORM`, BKTrack.c 696–707. -/
def Track.setWaveform (x : Nat) (w : IWorld) (t : Track) (value : Int) : C (Ret × Track) := do
  let r ← t.unit.toUCore.setAttr .waveform value
  let t := { t with unit := { t.unit with toUCore := r.2 } }
  if r.1 = .ok then
    let t := { t with dataId := none, waveform := t.unit.waveform.code }
    let t ← t.updateIgnore.updateNote x w
    return (.ok, t)
  else return (r.1, t)

/-- `BK_DUTY_CYCLE`, BKTrack.c 708–717. -/
def Track.setDuty (t : Track) (value : Int) : C (Ret × Track) := do
  let r ← t.unit.toUCore.setAttr .dutyCycle value
  return (r.1, { t with unit := { t.unit with toUCore := r.2 }
                        dutyCycle := if r.1 = .ok then wrapI32 r.2.dutyCycle else t.dutyCycle
                        updDuty := true })

/-- `BKTrackSetAttrInt`, BKTrack.c 676–767.  Tremolo and vibrato are not in the list of attributes
and passed on to the unit, which refuses them. -/
def Track.setAttr (x : Nat) (w : IWorld) (t : Track) (a : TAttr) (value : Int) :
    C (Ret × IWorld × Track) :=
  match a with
  | .masterVolume => .ok (.ok, w, { t with masterVolume := cclamp value 0 32767, updVolume := true })
  | .volume => do
    let s ← t.volume.setValue (cclamp value 0 32767)
    return (.ok, w, { t with volume := s, updVolume := true })
  | .panning => do
    let s ← t.panning.setValue (cclamp value (-32767) 32767)
    return (.ok, w, { t with panning := s, updVolume := true })
  | .waveform => do
    let r ← t.setWaveform x w value
    return (r.1, w, r.2)
  | .dutyCycle => do
    let r ← t.setDuty value
    return (r.1, w, r.2)
  | .note => do
    let r ← t.setNote x w value
    return (.ok, r)
  | .pitch => .ok (.ok, w, { t with pitch := cclamp value (-48 * U20) (48 * U20) })
  | .samplePitch => .ok (.ok, w, { t with samplePitch := cclamp value (-48 * U20) (48 * U20) })
  | .arpeggioDivider => .ok (.ok, w, { t with arpDiv := ⟨value, 0⟩ })
  | .effectDivider => .ok (.ok, w, { t with effectDiv := ⟨value, 0⟩ })
  | .instrDivider => .ok (.ok, w, { t with instrDiv := ⟨value, 0⟩ })
  | .triangleIgnores =>
    .ok (.ok, w, { t with triangleIgnores := decide (value ≠ 0) }.updateIgnore)
  | .slide e =>
    if e = .tremolo ∨ e = .vibrato then .ok (.invalidAttribute, w, t)
    else do
      let t ← t.setEffect e [value, 0]
      return (.ok, w, t)
  | .unit a => do
    let r ← t.unit.toUCore.setAttr a.attr value
    return (r.1, w, { t with unit := { t.unit with toUCore := r.2 } })

/-- `BKTrackGetAttrInt`, BKTrack.c 774–837; `none` is an error.  There is no case for `BK_PITCH`,
which the unit does not know. -/
def Track.getAttr (t : Track) : TAttr → C (Option Int)
  | .masterVolume => .ok (some t.masterVolume)
  | .volume => .ok (some (t.volume.endValue / 2 ^ t.volume.valueShift))
  | .panning => .ok (some (t.panning.endValue / 2 ^ t.panning.valueShift))
  | .note => .ok (some t.curNote)
  | .samplePitch => .ok (some t.samplePitch)
  | .arpeggioDivider => .ok (some t.arpDiv.divider)
  | .effectDivider => .ok (some t.effectDiv.divider)
  | .instrDivider => .ok (some t.instrDiv.divider)
  | .triangleIgnores => .ok (some (if t.triangleIgnores then 1 else 0))
  | .slide .volumeSlide => .ok (some t.volume.steps)
  | .slide .panningSlide => .ok (some t.panning.steps)
  | .slide .portamento => .ok (some t.note.steps)
  | .slide _ => .ok none
  | .pitch => .ok none
  | .waveform => t.unit.toUCore.getAttr .waveform
  | .dutyCycle => t.unit.toUCore.getAttr .dutyCycle
  | .unit a => t.unit.toUCore.getAttr a.attr

/-- `BKTrackGetEffect`, BKTrack.c 932–977: the three values. -/
def Track.getEffect (t : Track) : Effect → List Int
  | .volumeSlide => [t.volume.steps, 0, 0]
  | .portamento => [t.note.steps, 0, 0]
  | .panningSlide => [t.panning.steps, 0, 0]
  | .tremolo => [t.tremoloSteps.endValue, t.tremoloDelta.endValue, t.tremoloDelta.steps]
  | .vibrato => [t.vibratoSteps.endValue, t.vibratoDelta.endValue, t.vibratoDelta.steps]

/-- `BKTrackSetPtrObj` with `BK_ARPEGGIO`, BKTrack.c 1028–1038 and 204–218. -/
def Track.setArpeggio (t : Track) (ws : List Int) : C Track := do
  let a ← t.arp.set ws
  return { t with arp := a, arpeggioOn := decide (a.count > 0), updNote := true }

/-- `BKTrackGetPtrObj` with `BK_ARPEGGIO`, BKTrack.c 1077–1084: the array written. -/
def Track.getArpeggio (t : Track) : List Int := t.arp.count :: t.arp.notes.take t.arp.count.toNat

/-- A data object passed to a track: its identity, what the unit sees, its pitch. -/
structure DataArg where
  id : Nat
  data : SampleData
  pitch : Int
  deriving DecidableEq, Repr

/-- Setting the data of the unit unless it is there already, BKTrack.c 993–1007.  `BK_WAVEFORM` is
never equal to a waveform number. -/
def Track.setUnitData (t : Track) (type : DataAttr) (d : Option DataArg) : C (Ret × Track) := do
  if type = .sample ∧ t.unit.waveform = .sample ∧ d.map (·.id) = t.dataId then return (.ok, t)
  else
    let r ← t.unit.toUCore.setData (t.ctx.map (·.2)) type (d.map (·.data))
    return (r.1, { t with unit := { t.unit with toUCore := r.2 }
                          dataId := if r.1 = .ok then d.map (·.id) else t.dataId })

/-- `BKTrackSetPtrObj` with `BK_WAVEFORM` or `BK_SAMPLE`, BKTrack.c 991–1023. -/
def Track.setData (x : Nat) (w : IWorld) (t : Track) (type : DataAttr) (d : Option DataArg) :
    C (Ret × Track) := do
  let r ← t.setUnitData type d
  if r.1 = .ok then
    let t := r.2
    let t := { t with waveform := t.unit.waveform.code }.updateIgnore
    let t := { t with samplePitch := match d with | some d => d.pitch | none => 0 }
    let t ← t.updateNote x w
    return (.ok, t)
  else return r

/-- `BKTrackEffectUpdateFlags`, BKTrack.c 311–332. -/
def Track.flagEffects (t : Track) : Track :=
  { t with updNote := t.updNote || t.portamento || t.vibratoOn
           updVolume := t.updVolume || t.volumeSlide || t.panningSlide || t.tremoloOn }

/-- Tick of a slide if its effect is on, BKTrack.c 268–278. -/
def Slide.tickIf (s : Slide) (b : Bool) : C Slide := if b then s.tick else .ok s

/-- Tick of an oscillator whose parameters may slide, BKTrack.c 280–293 and 295–308. -/
def tickOsc (on : Bool) (o : Osc) (d n : Slide) : C (Osc × Slide × Slide) :=
  if on then
    if d.steps ≠ 0 then do
      let d ← d.tick
      let n ← n.tick
      let dv ← d.get
      let nv ← n.get
      let o ← o.setDeltaAndSteps dv nv
      let o ← o.tick
      return (o, d, n)
    else do
      let o ← o.tick
      return (o, d, n)
  else .ok (o, d, n)

/-- `BKTrackEffectTick`, BKTrack.c 266–309. -/
def Track.effectTick (t : Track) : C Track := do
  let note ← t.note.tickIf t.portamento
  let volume ← t.volume.tickIf t.volumeSlide
  let panning ← t.panning.tickIf t.panningSlide
  let a ← tickOsc t.tremoloOn t.tremolo t.tremoloDelta t.tremoloSteps
  let b ← tickOsc t.vibratoOn t.vibrato t.vibratoDelta t.vibratoSteps
  return { t with note := note, volume := volume, panning := panning
                  tremolo := a.1, tremoloDelta := a.2.1, tremoloSteps := a.2.2
                  vibrato := b.1, vibratoDelta := b.2.1, vibratoSteps := b.2.2 }

/-- Is any effect on (`BKEffectMask`)? -/
def Track.effects (t : Track) : Bool :=
  t.portamento || t.volumeSlide || t.panningSlide || t.tremoloOn || t.vibratoOn

/-- Arpeggio part of `BKTrackTick`, BKTrack.c 344–348 and 220–231. -/
def Track.arpeggioTick (t : Track) : C Track :=
  if t.arpeggioOn then do
    let r ← t.arpDiv.tick
    let t := { t with arpDiv := r.2 }
    if r.1 then
      let a ← t.arp.tick
      return { t with arp := a, updNote := true }
    else return t
  else .ok t

/-- Instrument part of `BKTrackTick`, BKTrack.c 350–353 and 233–237. -/
def Track.instrTick (x : Nat) (w : IWorld) (t : Track) : C (IWorld × Track) :=
  if w.on x then do
    let r ← t.instrDiv.tick
    let w' ← w.tick x r.1
    let t ← { t with instrDiv := r.2 }.hear x w w'
    return (w', t.flagSeqs x w')
  else .ok (w, t)

/-- Effect part of `BKTrackTick`, BKTrack.c 361–364. -/
def Track.effectsTick (t : Track) : C Track :=
  if t.effects then do
    let r ← t.effectDiv.tick
    let t := { t with effectDiv := r.2 }
    if r.1 then t.effectTick else return t
  else .ok t

/-- `BKTrackTick`, BKTrack.c 334–367. -/
def Track.tick (x : Nat) (w : IWorld) (t : Track) : C (IWorld × Track) := do
  let t ← t.flagEffects.arpeggioTick
  let r ← t.instrTick x w
  let t ← r.2.updateUnit x r.1
  let t ← t.effectsTick
  return (r.1, t)

/-- Fields kept by the `memset` and the mask in `BKTrackClear`, BKTrack.c 470–473, the callback
being installed again (479–480), and the initial states of the slides (482–492). -/
def Track.wiped (t : Track) : Track :=
  { unit := t.unit, ctx := t.ctx, dataId := t.dataId
    triangleIgnores := t.triangleIgnores, ignores := t.ignores, panningOn := t.panningOn
    arpDiv := ⟨4, 0⟩, effectDiv := ⟨1, 0⟩, instrDiv := ⟨4, 0⟩
    volume := Slide.init 32767, panning := Slide.init 32767, note := Slide.init 0
    tremolo := Osc.init 32767, tremoloDelta := Slide.init 32767, tremoloSteps := Slide.init 65536
    vibrato := Osc.init 0, vibratoDelta := Slide.init 0, vibratoSteps := Slide.init 65536 }

/-- The instrument state is cleared by the same `memset`. -/
def IWorld.wipe (w : IWorld) (x : Nat) : IWorld := { w with states := upd w.states x {} }

/-- `BKTrackClear`, BKTrack.c 460–500.  `BKUnitClear` removes the data if it can. -/
def Track.clear (x : Nat) (w : IWorld) (t : Track) : C (IWorld × Track) := do
  let u ← t.unit.toUCore.clear (t.ctx.map (·.2))
  let t1 := { t with unit := { t.unit with toUCore := u }
                     dataId := if u.data = none then none else t.dataId }
  let r ← t1.setInstrument x w none
  let w := r.1.wipe x
  let r ← r.2.wiped.setAttr x w .volume 32767
  let r ← r.2.2.setAttr x w .masterVolume t.masterVolume
  let r ← r.2.2.setAttr x w .waveform t.waveform
  let r ← r.2.2.setAttr x w .dutyCycle t.dutyCycle
  let r ← r.2.2.setAttr x w .note (-2)
  let r ← r.2.2.setAttr x r.2.1 (.unit .mute) 1
  return r.2

/-- `BKTrackReset`, BKTrack.c 453–458. -/
def Track.reset (x : Nat) (w : IWorld) (t : Track) : C (IWorld × Track) := do
  let u ← t.unit.reset (t.ctx.map (·.2))
  let t := { t with unit := u, dataId := if u.data = none then none else t.dataId }
  let r ← t.setAttr x w .dutyCycle 4
  r.2.2.clear x r.2.1

/-- `BKTrackInitGeneric`, BKTrack.c 381–411. -/
def Track.init (x : Nat) (w : IWorld) (waveform : Int) : C (IWorld × Track) := do
  let u ← UCore.init waveform
  let t : Track := { unit := { toUCore := u, time := 0 }, triangleIgnores := true }
  let r ← t.setAttr x w .waveform waveform
  r.2.2.reset x r.2.1

/-- `BKTrackAttach`, BKTrack.c 510–529, and `BKUnitAttach`, BKUnit.c 260–283, for a context with
the given rate, channels and time.  Links and dividers are in `Model/World.lean`. -/
def Track.attach (x : Nat) (w : IWorld) (t : Track) (rate chans delta : Int) : C (Ret × Track) :=
  match t.ctx with
  | some _ => .ok (.invalidState, t)
  | none => do
    let t := { t with ctx := some (rate, chans), unit := { t.unit with time := delta } }
    let t := { t with panningOn := t.panningOn || decide (chans = 2), updVolume := true }
    let t ← t.updateUnit x w
    return (.ok, t)

/-- `BKTrackDetach`, BKTrack.c 531–537, and `BKUnitDetach`, BKUnit.c 285–308. -/
def Track.detach (t : Track) : Track :=
  { t with ctx := none, panningOn := false
           unit := if t.ctx = none then t.unit else { t.unit with time := 0 } }

/-- `BKTrackRun`, BKTrack.c 446–451, without the buffers. -/
def Track.run (x : Nat) (w : IWorld) (t : Track) (endTime : Int) : C (Track × List Pulse) := do
  let t ← t.updateUnit x w
  let n := (match t.ctx with | some c => c.2 | none => 0).toNat
  let r ← t.unit.toUCore.render t.unit.time endTime n
  return ({ t with unit := { toUCore := r.2.1, time := r.1 } }, r.2.2)

/-- Calls on a track. -/
inductive TOp where
  | attr (a : TAttr) (v : Int)
  | effect (e : Effect) (vals : List Int)
  | arpeggio (ws : List Int)
  | instrument (i : Option Nat)
  | data (type : DataAttr) (d : Option DataArg)
  | range (r : Option (Int × Int))
  | sustain (r : Option (Int × Int))
  | callback (on : Bool)
  | clear
  | reset
  | attach (rate chans delta : Int)
  | detach
  | tick
  | run (endTime : Int)
  | endAt (time : Int)

/-- One call on track `x`. -/
def Track.exec (x : Nat) (w : IWorld) (t : Track) : TOp → C (IWorld × Track)
  | .attr a v => do let r ← t.setAttr x w a v; return r.2
  | .effect e vals => do let t ← t.setEffect e vals; return (w, t)
  | .arpeggio ws => do let t ← t.setArpeggio ws; return (w, t)
  | .instrument i => t.setInstrument x w i
  | .data type d => do let r ← t.setData x w type d; return (w, r.2)
  | .range v => do
    let r ← t.unit.toUCore.setRange v
    return (w, { t with unit := { t.unit with toUCore := r.2 } })
  | .sustain v => do
    let r ← t.unit.toUCore.setSustainRange v
    return (w, { t with unit := { t.unit with toUCore := r.2 } })
  | .callback b => .ok (w, { t with unit := { t.unit with callback := b } })
  | .clear => t.clear x w
  | .reset => t.reset x w
  | .attach rate chans delta => do let r ← t.attach x w rate chans delta; return (w, r.2)
  | .detach => .ok (w, t.detach)
  | .tick => t.tick x w
  | .run e => do let r ← t.run x w e; return (w, r.1)
  | .endAt e => .ok (w, { t with unit := t.unit.endAt e })

/-- Tracks and instruments. -/
structure TWorld where
  iw : IWorld := {}
  tracks : Nat → Option Track := fun _ => none

/-- Calls. -/
inductive WOp where
  /-- `BKTrackInit` on a track that is not initialised -/
  | init (x : Nat) (waveform : Int)
  /-- a call on a track -/
  | track (x : Nat) (op : TOp)
  /-- `BKInstrumentSetSequence` and the like -/
  | setSequence (i slot : Nat) (new : NewSeq)
  /-- `BKInstrumentDetach` -/
  | detachInstr (i : Nat)
  /-- `BKDispose` on an instrument -/
  | disposeInstr (i : Nat)

/-- Telling one track. -/
def TWorld.tell (iw : IWorld) (ts : Nat → Option Track) (e : Nat × InstrEvent) :
    C (Nat → Option Track) :=
  match ts e.1 with
  | none => .ok ts
  | some t => do
    let t ← t.told e.1 iw e.2
    return upd ts e.1 (some t)

/-- Telling all tracks what happened to their instruments. -/
def TWorld.hear (s : TWorld) (iw : IWorld) : C TWorld := do
  let ts ← (iw.log.drop s.iw.log.length).foldlM (TWorld.tell iw) s.tracks
  return { iw := iw, tracks := ts }

/-- One call. -/
def TWorld.exec (fuel : Nat) (s : TWorld) : WOp → C TWorld
  | .init x wf =>
    match s.tracks x with
    | some _ => .ok s
    | none => do
      let r ← Track.init x s.iw wf
      return { iw := r.1, tracks := upd s.tracks x (some r.2) }
  | .track x op =>
    match s.tracks x with
    | none => .ok s
    | some t => do
      let r ← t.exec x s.iw op
      return { iw := r.1, tracks := upd s.tracks x (some r.2) }
  | .setSequence i slot new => do
    let r ← s.iw.setSequence fuel i slot new
    s.hear r.2
  | .detachInstr i => do
    let w ← s.iw.detach fuel i
    s.hear w
  | .disposeInstr i => do
    let w ← s.iw.dispose fuel i
    s.hear w

/-- Calls in sequence. -/
def TWorld.run (fuel : Nat) (s : TWorld) : List WOp → C TWorld
  | [] => .ok s
  | op :: ops => do
    let s ← s.exec fuel op
    s.run fuel ops

end BK
