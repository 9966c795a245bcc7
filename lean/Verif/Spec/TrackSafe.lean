import Verif.Model.Track
import Verif.Spec.Instrument
import Verif.Spec.Unit
/-!
Calls on tracks and instruments with usual arguments.
-/
namespace BK

/-- Largest absolute value of a volume or panning sequence (0, 1) and of a pitch sequence (2). -/
def seqLimit (slot : Nat) : Int := if slot = 2 then 536870911 else 32767

/-- Values within the limit of the slot.  A duty-cycle envelope must have a value of at least 8 (the
library scales envelopes by their largest value, and the duty cycle of the track, up to 15, has to fit
the scale). -/
def NewSeq.Modest (slot : Nat) : NewSeq → Prop
  | .nothing => True
  | .values vals _ _ => slot < 3 → ∀ v ∈ vals, -seqLimit slot ≤ v ∧ v ≤ seqLimit slot
  | .points ps _ _ => (slot < 3 → ∀ p ∈ ps, -seqLimit slot ≤ p.value ∧ p.value ≤ seqLimit slot) ∧
      (slot = 3 → ps ≠ [] → ∃ p ∈ ps, p.value ≤ -8 ∨ 8 ≤ p.value)

/-- A 32-bit number that has an absolute value. -/
def Plain (v : Int) : Prop := InI32 v ∧ v ≠ -2147483648


/-- Setting attribute `a` of a unit to `v`: no other waveform while a sustain range with immediate
release is set; playing back and forth only with 257 frames; immediate release only with a sustain
range that ends before the last frame. -/
def UCore.AttrOk (c : UCore) (a : UAttr) (v : Int) : Prop :=
  match a with
  | .waveform => c.sustainRange = true → c.sustainJump = true → False
  | .sampleRepeat => v = 2 → c.waveform = .sample → 257 ≤ c.length
  | .immedRelease => v = 0 ∨ c.sustainRange = false ∨ (c.waveform = .sample ∧ c.sustainEnd < c.length)
  | _ => True

/-- Setting data: well-formed, samples of at most 2^30 frames, and as above. -/
def UCore.DataOk (c : UCore) (t : DataAttr) (d : Option SampleData) : Prop :=
  (∀ x, d = some x → x.Wf ∧ (t = .sample → x.numFrames ≤ 1073741824)) ∧
  (c.sustainRange = true → c.sustainJump = true → False)

/-- Both numbers are `BKInt`. -/
def PairOk (v : Option (Int × Int)) : Prop := ∀ p, v = some p → InI32 p.1 ∧ InI32 p.2

/-- A number of up to 512 semitones. -/
def Notes (v : Int) : Prop := -536870912 ≤ v ∧ v ≤ 536870912

/-- Usual arguments of a call on track `t`.  All contexts have `N` channels. -/
def TOp.Legal (N : Nat) (t : Track) : TOp → Prop
  | .attr a v => Plain v ∧ match a with
    | .waveform => t.unit.toUCore.AttrOk .waveform v
    | .arpeggioDivider => 1 ≤ v
    | .effectDivider => 1 ≤ v
    | .instrDivider => 1 ≤ v
    | .unit a => t.unit.toUCore.AttrOk a.attr v
    | _ => True
  | .effect .vibrato vals => Notes (vals.getD 1 0)
  | .effect _ _ => True
  | .arpeggio [] => True
  | .arpeggio (c :: ns) => 0 ≤ c ∧ cmin c 8 ≤ (ns.length : Int) ∧ ∀ n ∈ ns, Notes n
  | .data type d => t.unit.toUCore.DataOk type (d.map (·.data)) ∧
      ∀ x, d = some x → -48 * U20 ≤ x.pitch ∧ x.pitch ≤ 48 * U20
  | .range v => PairOk v ∧ ∀ r, t.unit.toUCore.setRange v = .ok r →
      r.2.waveform = .sample → r.2.repeatMode = 2 → 257 ≤ r.2.length
  | .sustain v => PairOk v ∧ ∀ r, t.unit.toUCore.setSustainRange v = .ok r →
      r.2.waveform = .sample → r.2.sustainRange = true →
      r.2.sustainEnd ≤ r.2.length ∧ (r.2.sustainJump = true → r.2.sustainEnd < r.2.length)
  | .attach rate chans _ => 16000 ≤ rate ∧ rate ≤ 96000 ∧ chans = N
  | .run e => t.ctx ≠ none ∧ 0 ≤ e ∧ e ≤ 2145386496
  | _ => True

/-- Usual arguments of a call. -/
def WOp.Legal (N : Nat) (s : TWorld) : WOp → Prop
  | .track x op => ∀ t, s.tracks x = some t → op.Legal N t
  | .setSequence _ slot new => new.Short ∧ new.Usual ∧ new.Modest slot
  | .init _ waveform => Plain waveform
  | _ => True

/-- Every call has usual arguments when its turn comes. -/
def TWorld.LegalRun (N fuel : Nat) (s : TWorld) : List WOp → Prop
  | [] => True
  | op :: ops => op.Legal N s ∧ ∀ s', s.exec fuel op = .ok s' → TWorld.LegalRun N fuel s' ops

/-- Values that a track may report for an attribute. -/
def TAttr.Reported (v : Int) : TAttr → Prop
  | .masterVolume => 0 ≤ v ∧ v ≤ 32767
  | .volume => 0 ≤ v ∧ v ≤ 32767
  | .panning => -32767 ≤ v ∧ v ≤ 32767
  | .note => v = -1 ∨ (0 ≤ v ∧ v ≤ 96 * 1048576)
  | .samplePitch => -48 * 1048576 ≤ v ∧ v ≤ 48 * 1048576
  | .dutyCycle => 1 ≤ v ∧ v ≤ 15
  | .waveform => v = 0 ∨ (16385 ≤ v ∧ v ≤ 16391)
  | .arpeggioDivider => 1 ≤ v
  | .effectDivider => 1 ≤ v
  | .instrDivider => 1 ≤ v
  | .triangleIgnores => v = 0 ∨ v = 1
  | .slide _ => 0 ≤ v ∧ v ≤ 65536
  | .pitch => False
  | .unit (.volumeOf _) => 0 ≤ v ∧ v ≤ 32767
  | .unit .samplePeriod => 4096 ≤ v ∧ v ≤ 268435456
  | .unit _ => True

end BK
