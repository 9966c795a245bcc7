import Verif.Model.Unit
/-!
What is expected of units, apart from the model of their code.
-/
namespace BK

/-- Data that a `BKData` object can hold: at least one channel, 16-bit values, as many as
frames times channels. -/
structure SampleData.Wf (d : SampleData) : Prop where
  chans : 1 ≤ d.numChannels ∧ d.numChannels ≤ 8
  count : 0 ≤ d.numFrames ∧ d.numFrames * d.numChannels ≤ 2147483647
  frames : (d.frames.length : Int) = d.numFrames * d.numChannels
  range : ∀ v ∈ d.frames, InI16 v

/-- Number of phases of a waveform with a fixed table. -/
def Wave.phases : Wave → Option Nat
  | .square => some 16
  | .triangle => some 32
  | .sawtooth => some 7
  | .sine => some 32
  | _ => Option.none

/-- The ideal table value at position `k` of a waveform with duty cycle `d`. -/
def Wave.value (w : Wave) (d : Nat) (k : Nat) : Int :=
  match w with
  | .square => ((squarePhases.getD d []).getD k 0)
  | .triangle => trianglePhases.getD k 0
  | .sawtooth => sawtoothPhases.getD k 0
  | .sine => (sinePhases.getD k 0).tdiv 2
  | _ => 0

/-- Level of a table value at a volume. -/
def level (v vol : Int) : Int := v * vol / 32768

/-- Differences of successive levels, starting from `last`. -/
def diffs (last : Int) : List Int → List Int
  | [] => []
  | l :: ls => (l - last) :: diffs l ls

/-- Number of pulses of period `p` from `t` on before `e`. -/
def pulseCount (t e p : Int) : Nat := if t < e then ((e - t + p - 1) / p).toNat else 0

/-- The pulses sent to channel `i`. -/
def onChan (i : Nat) (ps : List Pulse) : List Pulse := ps.filter fun p => p.chan == i

/-- Sum of the pulses sent to channel `i`. -/
def sumChan (i : Nat) (ps : List Pulse) : Int := ((onChan i ps).map (·.amp)).sum

/-- Position in the sample in 2^-20 frames. -/
def UCore.pos (c : UCore) : Int := c.phase * U20 + c.timeFrac

/-- Number of steps before the end of the sample. -/
def UCore.framesLeft (c : UCore) : Nat := pulseCount c.pos (c.length * U20) c.samplePeriod

/-- Level on channel `i` at step `k`. -/
def UCore.heard (c : UCore) (i k : Nat) : Int :=
  level (c.frames.getD ((c.pos + k * c.samplePeriod) / U20 * c.numChannels +
    (if c.numChannels = 1 then 0 else (i : Int))).toNat 0) (c.volume i)

/-- What a program can do with a unit attached to a context with `n` channels. -/
inductive UOp where
  | attr (a : UAttr) (value : Int)
  | data (type : DataAttr) (d : Option SampleData)
  | range (r : Option (Int × Int))
  | sustain (r : Option (Int × Int))
  | callback (on : Bool)
  | clear
  | reset
  | run (endTime : Int)
  | endAt (time : Int)

/-- One call; the pulses sent by it. -/
def BUnit.step (n : Nat) (u : BUnit) : UOp → C (BUnit × List Pulse)
  | .attr a v => do let r ← u.toUCore.setAttr a v; return ({ u with toUCore := r.2 }, [])
  | .data t d => do let r ← u.toUCore.setData (some n) t d; return ({ u with toUCore := r.2 }, [])
  | .range r => do let r ← u.toUCore.setRange r; return ({ u with toUCore := r.2 }, [])
  | .sustain r => do let r ← u.toUCore.setSustainRange r; return ({ u with toUCore := r.2 }, [])
  | .callback b => .ok ({ u with callback := b }, [])
  | .clear => do let c ← u.toUCore.clear (some n); return ({ u with toUCore := c }, [])
  | .reset => do let u ← u.reset (some n); return (u, [])
  | .run e => do
    let r ← u.toUCore.render u.time e n
    return ({ toUCore := r.2.1, time := r.1 }, r.2.2)
  | .endAt t => .ok (u.endAt t, [])

/-- Arguments of a call that the caller owns: data objects hold 16-bit values, time is rendered up to
2046 frames ahead (a context does at most 1024). -/
def UOp.Legal : UOp → Prop
  | .data _ (some d) => d.Wf
  | .attr _ v => InI32 v
  | .run e => 0 ≤ e ∧ e ≤ 2145386496
  | _ => True

/-- The unit `u` can be reached from a new unit by calls that satisfy `P`; `ps` are all pulses sent
on the way. -/
inductive Reach (n : Nat) (P : BUnit → UOp → Prop) : BUnit → List Pulse → Prop
  | init {w : Int} {c : UCore} : UCore.init w = .ok c → Reach n P { toUCore := c, time := 0 } []
  | step {u u' : BUnit} {op : UOp} {ps qs : List Pulse} : Reach n P u ps → op.Legal → P u op →
      u.step n op = .ok (u', qs) → Reach n P u' (ps ++ qs)

/-- A list of calls. -/
def BUnit.runs (n : Nat) : BUnit → List UOp → C (BUnit × List Pulse)
  | u, [] => .ok (u, [])
  | u, op :: ops => do
    let r ← u.step n op
    let s ← BUnit.runs n r.1 ops
    return (s.1, r.2 ++ s.2)

/-- A release with immediate jump happens only to a playing sample. -/
def NoStrayRelease (u : BUnit) (op : UOp) : Prop :=
  ∀ v, op = .attr .flagRelease v → v = 0 ∨ u.waveform = .sample ∨ u.sustainJump = false

/-- Conditions under which a sample plays within its frames. -/
structure UCore.Moderate (c : UCore) : Prop where
  /-- not more than 2^30 frames -/
  short : c.length ≤ 1073741824
  /-- the sustain range is in the sample range; with immediate release it ends before its last frame -/
  sustain : c.sustainRange = true → c.sustainEnd ≤ c.length ∧ (c.sustainJump = true → c.sustainEnd < c.length)
  /-- played back and forth, a step is shorter than the sample -/
  turn : c.repeatMode = 2 → c.samplePeriod ≤ (c.length - 1) * U20 ∧ -c.samplePeriod ≤ (c.length - 1) * U20

/-- The call leaves a sample within the limits of `Moderate`. -/
def SampleGentle (n : Nat) (u : BUnit) (op : UOp) : Prop :=
  NoStrayRelease u op ∧ ∀ r, u.step n op = .ok r → r.1.waveform = .sample → r.1.toUCore.Moderate

end BK
