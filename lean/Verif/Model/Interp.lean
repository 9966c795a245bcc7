import Verif.Model.C
/-!
Model of `/repo/src/BKInterpolation.c` and `/repo/src/BKInterpolation.h`.

Struct fields keep their names.  `valueShift` is a `Nat` (it is at most 30 by
construction).  `x >> valueShift` is `x / 2 ^ valueShift` (floor), `x << valueShift` is
multiplication and must fit.
-/
namespace BK

/-- `BK_STATE_MAX_STEPS`, BKInterpolation.h 29–30: `1 << 23`. -/
notation "STATE_MAX_STEPS" => (8388608 : Int)

/-- The loop of `BKGetMaxValueShift`, BKInterpolation.c 8–9.  `fuel` is the number of
iterations left before `shift` reaches 30. -/
def shiftLoop (maxValue : Int) : Nat → Nat → Nat
  | 0, shift => shift
  | fuel + 1, shift =>
    if (2 : Int) ^ shift < maxValue then shiftLoop maxValue fuel (shift + 1) else shift

/-- `BKGetMaxValueShift`, BKInterpolation.c 3–15. -/
def maxValueShift (maxValue : Int) : Nat :=
  if maxValue ≠ 0 then 30 - shiftLoop maxValue 30 0 else 0

/-- `struct BKSlideState`, BKInterpolation.h 35–44. -/
structure Slide where
  endValue : Int := 0
  steps : Int := 0
  value : Int := 0
  stepDelta : Int := 0
  roundBias : Int := 0
  valueShift : Nat := 0
  step : Int := 0
  deriving DecidableEq, Repr

/-- `BKSlideStateInit`, BKInterpolation.c 17–22. -/
def Slide.init (maxValue : Int) : Slide := { valueShift := maxValueShift maxValue }

/-- Rounding bias, BKInterpolation.c 38–41 and 100–103 (the same text in both setters).
The divisor is tested for zero there. -/
def roundBiasOf (delta steps stepDelta : Int) (valueShift : Nat) : C Int := do
  if delta / 2 ^ valueShift ≠ 0 then
    let a ← i32 (steps * 256)
    i32 ((a.tdiv (delta / 2 ^ valueShift)).tdiv 2 * (stepDelta / 256))
  else
    return 0

/-- `BKSlideStateSetValueAndSteps`, BKInterpolation.c 24–56. -/
def Slide.setValueAndSteps (s : Slide) (endValue steps : Int) : C Slide := do
  let steps := cclamp steps 0 STATE_MAX_STEPS
  if steps ≠ 0 then
    let endValue ← i32 (endValue * 2 ^ s.valueShift)
    let deltaValue ← i32 (endValue - s.value)
    let stepDelta := deltaValue.tdiv steps
    let roundBias ← roundBiasOf deltaValue steps stepDelta s.valueShift
    return { s with endValue := endValue, stepDelta := stepDelta, steps := steps, step := steps,
                    roundBias := roundBias }
  else
    let v ← i32 (endValue * 2 ^ s.valueShift)
    return { s with value := v, endValue := v, steps := 0, stepDelta := 0, step := 0 }

/-- `BKSlideStateSetValue`, BKInterpolation.h 214–217. -/
def Slide.setValue (s : Slide) (endValue : Int) : C Slide := s.setValueAndSteps endValue s.steps

/-- `BKSlideStateSetSteps`, BKInterpolation.h 219–222. -/
def Slide.setSteps (s : Slide) (steps : Int) : C Slide :=
  s.setValueAndSteps (s.endValue / 2 ^ s.valueShift) steps

/-- `BKSlideStateHalt`, BKInterpolation.h 224–231. -/
def Slide.halt (s : Slide) (setEndValue : Bool) : Slide :=
  if setEndValue then { s with step := 0, value := s.endValue } else { s with step := 0 }

/-- `BKSlideStateStep`, BKInterpolation.h 233–243. -/
def Slide.tick (s : Slide) : C Slide := do
  if s.step > 0 then
    let value ← i32 (s.value + s.stepDelta)
    let step := s.step - 1
    if step ≤ 0 then
      return { s with value := s.endValue, step := step }
    else
      return { s with value := value, step := step }
  else
    return s

/-- `BKSlideStateGetValue`, BKInterpolation.h 245–260. -/
def Slide.get (s : Slide) : C Int := do
  let value ← i32 (s.value + s.roundBias)
  return value / 2 ^ s.valueShift

/-- `n` calls of `BKSlideStateStep`. -/
def Slide.ticks (s : Slide) : Nat → C Slide
  | 0 => .ok s
  | n + 1 => do let s ← s.tick; s.ticks n

/-- Calls on a slide. -/
inductive SlideOp where
  | set (endValue steps : Int)
  | setValue (endValue : Int)
  | setSteps (steps : Int)
  | halt (setEndValue : Bool)
  | tick
  | get
  deriving DecidableEq, Repr

/-- One call. -/
def Slide.step1 (s : Slide) : SlideOp → C Slide
  | .set v n => s.setValueAndSteps v n
  | .setValue v => s.setValue v
  | .setSteps n => s.setSteps n
  | .halt b => .ok (s.halt b)
  | .tick => s.tick
  | .get => do let _ ← s.get; return s

/-- A sequence of calls. -/
def Slide.run (s : Slide) : List SlideOp → C Slide
  | [] => .ok s
  | op :: ops => do let s ← s.step1 op; s.run ops

/-- `struct BKIntervalState`, BKInterpolation.h 46–56. -/
structure Osc where
  delta : Int := 0
  steps : Int := 0
  value : Int := 0
  stepDelta : Int := 0
  roundBias : Int := 0
  valueShift : Nat := 0
  phase : Nat := 0
  step : Int := 0
  deriving DecidableEq, Repr

/-- `BKIntervalStateInit`, BKInterpolation.c 58–71.  `BKClamp (valueShift - 1, 0, 30)` is the
truncated subtraction of `Nat` since the shift is at most 30. -/
def Osc.init (maxValue : Int) : Osc := { valueShift := maxValueShift maxValue - 1 }

/-- Recalculated position in the phase, BKInterpolation.c 87–96. -/
def Osc.rescale (s : Osc) (steps : Int) : C Int := do
  if s.steps ≠ 0 then
    let step ← i32 (s.step * 256)
    let step ← i32 (step + 128)
    let stepFrac := step.tdiv s.steps
    let p ← i32 (stepFrac * steps)
    return p / 256
  else
    return 0

/-- `BKIntervalStateSetDeltaAndSteps`, BKInterpolation.c 73–147. -/
def Osc.setDeltaAndSteps (s : Osc) (delta steps : Int) : C Osc := do
  let steps := cclamp steps 0 STATE_MAX_STEPS
  if steps ≠ 0 then
    let delta ← i32 (delta * 2 ^ s.valueShift)
    if steps ≠ s.steps ∨ delta ≠ s.delta then
      let step ← s.rescale steps
      let stepDelta := delta.tdiv steps
      let roundBias ← roundBiasOf delta steps stepDelta s.valueShift
      let (value, stepDelta) ←
        match s.phase with
        | 0 => do
          let v ← i32 (stepDelta * step)
          pure (v, stepDelta)
        | 1 => do
          let d ← i32 (steps - step)
          let v ← i32 (stepDelta * d)
          let n ← i32 (-stepDelta)
          pure (v, n)
        | 2 => do
          let n ← i32 (-stepDelta)
          let v ← i32 (n * step)
          pure (v, n)
        | 3 => do
          let n ← i32 (-stepDelta)
          let d ← i32 (steps - step)
          let v ← i32 (n * d)
          pure (v, stepDelta)
        | _ => pure ((0 : Int), stepDelta)
      return { s with delta := delta, steps := steps, value := value, stepDelta := stepDelta,
                      roundBias := roundBias, step := step }
    else
      return s
  else
    return { s with delta := 0, steps := 0, value := 0, stepDelta := 0, phase := 0, step := 0 }

/-- `BKIntervalStateSetDelta`, BKInterpolation.h 262–265. -/
def Osc.setDelta (s : Osc) (delta : Int) : C Osc := s.setDeltaAndSteps delta s.steps

/-- `BKIntervalStateSetSteps`, BKInterpolation.h 267–270. -/
def Osc.setSteps (s : Osc) (steps : Int) : C Osc :=
  s.setDeltaAndSteps (s.delta / 2 ^ s.valueShift) steps

/-- `BKIntervalStateStep`, BKInterpolation.c 149–195. -/
def Osc.tick (s : Osc) : C Osc := do
  if s.steps ≠ 0 then
    if s.step < s.steps - 1 then
      let value ← i32 (s.value + s.stepDelta)
      return { s with value := value, step := s.step + 1 }
    else
      let phase := (s.phase + 1) % 4
      match phase with
      | 0 => return { s with phase := phase, value := 0, step := 0 }
      | 1 =>
        let n ← i32 (-s.stepDelta)
        return { s with phase := phase, value := s.delta, stepDelta := n, step := 0 }
      | 2 => return { s with phase := phase, value := 0, step := 0 }
      | _ =>
        let v ← i32 (-s.delta)
        let n ← i32 (-s.stepDelta)
        return { s with phase := phase, value := v, stepDelta := n, step := 0 }
  else
    return s

/-- `BKIntervalStateGetValue`, BKInterpolation.h 272–287. -/
def Osc.get (s : Osc) : C Int := do
  let value ← i32 (s.value + s.roundBias)
  return value / 2 ^ s.valueShift

/-- `n` calls of `BKIntervalStateStep`. -/
def Osc.ticks (s : Osc) : Nat → C Osc
  | 0 => .ok s
  | n + 1 => do let s ← s.tick; s.ticks n

/-- Calls on an oscillator. -/
inductive OscOp where
  | set (delta steps : Int)
  | setDelta (delta : Int)
  | setSteps (steps : Int)
  | tick
  | get
  deriving DecidableEq, Repr

/-- One call. -/
def Osc.step1 (s : Osc) : OscOp → C Osc
  | .set d n => s.setDeltaAndSteps d n
  | .setDelta d => s.setDelta d
  | .setSteps n => s.setSteps n
  | .tick => s.tick
  | .get => do let _ ← s.get; return s

/-- A sequence of calls. -/
def Osc.run (s : Osc) : List OscOp → C Osc
  | [] => .ok s
  | op :: ops => do let s ← s.step1 op; s.run ops

end BK
