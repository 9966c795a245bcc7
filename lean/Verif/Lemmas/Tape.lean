import Verif.Spec.Tape
import Verif.Lemmas.SampleOnce
import Verif.Lemmas.Train
/-!
A unit that plays a sample moves its head along the tape.
-/
namespace BK

variable {N : Nat}

theorem emod_frames {p f len : Int} (h0 : 0 < len) (hf : 0 ≤ f ∧ f < 1048576) : (p * U20 + f) % (len * U20) = p % len * U20 + f := by
  have h1 := Int.emod_nonneg p (show len ≠ 0 by omega)
  have h2 := Int.emod_lt_of_pos p h0
  have e : p * U20 + f = p % len * U20 + f + len * U20 * (p / len) := by
    have := Int.mul_ediv_add_emod p len
    have e2 : len * U20 * (p / len) = len * (p / len) * U20 := by ring
    rw [e2]
    omega
  rw [e, Int.add_mul_emod_self_left, Int.emod_eq_of_lt (by omega) (by omega)]

theorem UCore.head_eq {c : UCore} {h : Head} (h1 : c.phase * U20 + c.timeFrac = h.pos) (h2 : c.samplePeriod = h.speed) : c.head = h := by
  unfold UCore.head UCore.pos
  cases h
  cases h1
  cases h2
  rfl

theorem UCore.sustain_tape {n : Nat} {c d : UCore} (hp : Playing n c) (hw : c.waveform = .sample) (hs : SameSample c d)
    (hph : 0 ≤ d.phase ∧ d.phase < d.length) (hf : 0 ≤ d.timeFrac ∧ d.timeFrac < 1048576) :
    ∃ e, d.checkSustain (c.sustainRange && !c.release) = .ok e ∧ e.mute = d.mute ∧ e.lastPulse = d.lastPulse ∧ e.head = c.tape.keep d.head := by
  have hso := hp.pre.sample hw
  have hshort := hp.mod.short
  have hl := hs.length
  unfold UCore.checkSustain Tape.keep UCore.tape
  dsimp only
  by_cases hcb : (c.sustainRange && !c.release) = true
  · rw [hcb, if_pos rfl, if_pos rfl]
    dsimp only
    have hsr : c.sustainRange = true := by
      rw [Bool.and_eq_true] at hcb
      exact hcb.1
    have h1 := hso.sustain hsr
    have h2 := (hp.mod.sustain hsr).1
    have hsp : d.samplePeriod ≠ 0 := by
      have := hp.pre.speed
      rcases hs.speed with h | h <;> rw [h] <;> unfold PeriodOk at this <;> omega
    have e1 := hs.sustainOffset
    have e2 := hs.sustainEnd
    have w1 : wrapI32 d.phase = d.phase := by unfold wrapI32; omega
    have w2 : wrapI32 d.sustainEnd = d.sustainEnd := by unfold wrapI32; omega
    have w3 : wrapI32 d.sustainOffset = d.sustainOffset := by unfold wrapI32; omega
    have w4 : wrapU32 (d.sustainEnd - 1) = d.sustainEnd - 1 := by unfold wrapU32; omega
    unfold UCore.sustain
    rw [w1, w2, w3, w4]
    have hpos : d.head.pos = d.phase * U20 + d.timeFrac := rfl
    have hspd : d.head.speed = d.samplePeriod := rfl
    by_cases hgt : d.samplePeriod > 0
    · rw [if_pos hgt]
      by_cases hge : d.phase ≥ d.sustainEnd
      · rw [if_pos hge]
        refine ⟨_, rfl, rfl, rfl, ?_⟩
        rw [if_pos ⟨hgt, by rw [hpos]; omega⟩]
        refine UCore.head_eq ?_ rfl
        dsimp only
        rw [hpos]
        omega
      · rw [if_neg hge, if_neg (by rw [hpos]; omega), if_neg (by rw [hspd]; omega)]
        exact ⟨_, rfl, rfl, rfl, rfl⟩
    · rw [if_neg hgt]
      by_cases hlt : d.phase < d.sustainOffset
      · rw [if_pos hlt]
        refine ⟨_, rfl, rfl, rfl, ?_⟩
        rw [if_neg (by rw [hspd]; omega), if_pos ⟨by rw [hspd]; omega, by rw [hpos]; omega⟩]
        refine UCore.head_eq ?_ rfl
        dsimp only
        rw [hpos]
        omega
      · rw [if_neg hlt, if_neg (by rw [hspd]; omega), if_neg (by rw [hpos]; omega)]
        exact ⟨_, rfl, rfl, rfl, rfl⟩
  · rw [if_neg hcb, if_neg hcb]
    exact ⟨_, rfl, rfl, rfl, rfl⟩

/-- One output frame. -/
theorem UCore.sampleStep_tape {n : Nat} {c : UCore} (hp : Playing n c) (hw : c.waveform = .sample) {t : Int} (ht : InI32 (t + c.timeFrac)) :
    ∃ b d, c.sampleStep (c.sustainRange && !c.release) t n = .ok (b, d, c.framePulses t n) ∧ SameSample c d ∧ Playing n d ∧
      (c.tape.next c.head = none → b = true ∧ d.mute = 1) ∧
      (∀ h, c.tape.next c.head = some h → b = false ∧ d.mute = c.mute ∧ d.head = h ∧ ∀ i < n, d.lastPulse i = c.frameLevel i) := by
  obtain ⟨b, d, ps, k1, k2, k3⟩ := UCore.sampleStep_ok hp hw ht (cb := c.sustainRange && !c.release) (by simp +contextual)
  have hs := hp.pre.speed
  have hf := hp.pre.frac
  have hph := hp.frame.phase
  have hm := hp.mod
  have h2 := hp.two
  have hshort := hm.short
  unfold PeriodOk at hs
  rw [k1]
  unfold UCore.sampleStep at k1
  rw [UCore.frame_fold hp.frame ht n (Nat.le_refl n), ok_bind] at k1
  dsimp only at k1
  rw [UCore.advance_eq hp.pre.speed hp.pre.frac, ok_bind] at k1
  obtain ⟨b', e, c1, c2, c3, c4, c5⟩ := UCore.checkRange_ok hp (d := c.stepped n) rfl
  rw [c1, ok_bind] at k1
  have hst : (c.stepped n).timeFrac = (c.timeFrac + c.samplePeriod) % U20 := rfl
  have hdp : wrapI32 (c.stepped n).phase = c.phase + (c.timeFrac + c.samplePeriod) / 1048576 := by
    show wrapI32 (wrapU32 _) = _
    unfold wrapI32 wrapU32
    omega
  have hdl : wrapI32 (c.stepped n).length = c.length := by
    show wrapI32 c.length = c.length
    unfold wrapI32; omega
  have hlp : ∀ i < n, (c.stepped n).lastPulse i = c.frameLevel i := by
    intro i hi
    show (if i < n then _ else _) = _
    rw [if_pos hi]
  -- the ends of the tape
  have hturn : (c.tape.turn { c.head with pos := c.head.pos + c.head.speed } = none → b' = true ∧ e.mute = 1) ∧
      (∀ h, c.tape.turn { c.head with pos := c.head.pos + c.head.speed } = some h → b' = false ∧ e.mute = c.mute ∧ e.head = h) := by
    have hpos : c.head.pos + c.head.speed = (c.phase + (c.timeFrac + c.samplePeriod) / 1048576) * U20 + (c.timeFrac + c.samplePeriod) % U20 := by
      show c.phase * U20 + c.timeFrac + c.samplePeriod = _
      omega
    have hfr : 0 ≤ (c.timeFrac + c.samplePeriod) % 1048576 ∧ (c.timeFrac + c.samplePeriod) % 1048576 < 1048576 := by omega
    have hdir : (c.phase + (c.timeFrac + c.samplePeriod) / 1048576 < 0 → c.samplePeriod < 0) ∧
        (c.length ≤ c.phase + (c.timeFrac + c.samplePeriod) / 1048576 → 0 < c.samplePeriod) := by omega
    have hspd : c.head.speed = c.samplePeriod := rfl
    have hq : ∀ q, cabs c.samplePeriod = .ok q → q = if c.samplePeriod < 0 then -c.samplePeriod else c.samplePeriod := by
      intro q hq
      unfold cabs at hq
      split at hq
      · rename_i hlt
        rw [if_pos hlt]
        exact (i32_eq_ok_iff.1 hq).2
      · rename_i hlt
        rw [if_neg hlt]
        cases hq
        rfl
    unfold Tape.turn
    rw [hpos, hspd]
    unfold UCore.checkRange at c1
    rw [hdp, hdl] at c1
    generalize hP : c.phase + (c.timeFrac + c.samplePeriod) / 1048576 = P at *
    have hlen : c.tape.len = c.length := rfl
    have hmode : c.tape.mode = (c.stepped n).effRepeat := rfl
    dsimp only
    rw [hlen, hmode]
    by_cases hin : 0 ≤ P ∧ P < c.length
    · rw [if_pos (by omega)]
      rw [if_neg (by omega)] at c1
      cases c1
      refine ⟨(fun h => by cases h), fun h hh => ?_⟩
      cases hh
      refine ⟨rfl, rfl, UCore.head_eq ?_ rfl⟩
      dsimp only
      rw [hst]
      have : (c.stepped n).phase = wrapU32 P := by rw [← hP]; rfl
      rw [this]
      unfold wrapU32
      omega
    · rw [if_neg (by omega)]
      rw [if_pos (by omega)] at c1
      unfold UCore.resetSample at c1
      rw [hdp, hdl] at c1
      have hmod := Int.emod_nonneg P (show c.length ≠ 0 by omega)
      have hmod2 := Int.emod_lt_of_pos P (show 0 < c.length by omega)
      have hwr : wrapSamplePhase P c.length = .ok (if 0 ≤ P then 1 else -1, P % c.length) := by
        unfold wrapSamplePhase
        by_cases h0 : 0 ≤ P
        · rw [if_pos (by omega), if_neg (by omega), if_pos h0]
        · rw [if_neg (by omega), if_pos (by omega), if_neg (by omega), if_neg h0]
      rw [hwr, ok_bind] at c1
      dsimp only at c1
      have hsl : (c.stepped n).length = c.length := rfl
      have hsp : (c.stepped n).samplePeriod = c.samplePeriod := rfl
      by_cases hm1 : (c.stepped n).effRepeat = 1
      · rw [if_pos hm1]
        have ht : (c.stepped n).turnMode (if 0 ≤ P then 1 else -1) = if 0 ≤ P then 1 else -1 := by
          unfold UCore.turnMode
          rw [if_pos hm1]
        have htp : (c.stepped n).turnPhase (if 0 ≤ P then 1 else -1) (P % c.length) = P % c.length := by
          unfold UCore.turnPhase
          rw [if_neg (by rw [hm1]; decide)]
        rw [ht, htp, if_neg (by split <;> decide)] at c1
        obtain ⟨q, q1, c1⟩ := bind_ok_iff.1 c1
        have q2 := hq q q1
        cases c1
        refine ⟨(fun h => by cases h), fun h hh => ?_⟩
        cases hh
        refine ⟨rfl, rfl, UCore.head_eq ?_ ?_⟩
        · dsimp only
          rw [emod_frames (by omega) hfr]
          rfl
        · dsimp only
          rw [q2]
          by_cases h0 : 0 ≤ P
          · rw [if_pos h0, if_neg (by decide), if_neg (by omega)]
          · rw [if_neg h0, if_pos rfl, if_pos (by omega)]
            omega
      · rw [if_neg hm1]
        by_cases hm2 : (c.stepped n).effRepeat = 2
        · rw [if_pos hm2]
          have hdiv : (⟨P * U20 + (c.timeFrac + c.samplePeriod) % U20, c.head.speed⟩ : Head).frame = P := by
            unfold Head.frame
            dsimp only
            omega
          have ht : (c.stepped n).turnMode (if 0 ≤ P then 1 else -1) = if 0 ≤ P then -1 else 1 := by
            unfold UCore.turnMode
            rw [if_neg hm1, if_pos hm2]
            split <;> rfl
          rw [ht, if_neg (by split <;> decide)] at c1
          obtain ⟨q, q1, c1⟩ := bind_ok_iff.1 c1
          have q2 := hq q q1
          have htp : (c.stepped n).turnPhase (if 0 ≤ P then 1 else -1) (P % c.length) = if 0 ≤ P then c.length - 1 - P % c.length else c.length - P % c.length := by
            unfold UCore.turnPhase
            rw [if_pos hm2, hsl]
            by_cases h0 : 0 ≤ P
            · rw [if_pos h0, if_pos h0, if_pos rfl]
              unfold wrapU32
              omega
            · rw [if_neg h0, if_neg h0, if_neg (by decide), if_pos rfl]
              unfold wrapU32
              omega
          rw [htp] at c1
          cases c1
          refine ⟨(fun h => by cases h), fun h hh => ?_⟩
          cases hh
          refine ⟨rfl, rfl, UCore.head_eq ?_ ?_⟩
          · dsimp only
            rw [hdiv, hst]
            by_cases h0 : 0 ≤ P
            · rw [if_pos h0, if_pos (by omega)]
              omega
            · rw [if_neg h0, if_neg (by omega)]
              omega
          · dsimp only
            rw [q2]
            by_cases h0 : 0 ≤ P
            · rw [if_pos h0, if_pos rfl, if_neg (by omega)]
            · rw [if_neg h0, if_neg (by decide), if_pos (by omega)]
        · rw [if_neg hm2]
          have ht : (c.stepped n).turnMode (if 0 ≤ P then 1 else -1) = 0 := by
            unfold UCore.turnMode
            rw [if_neg hm1, if_neg hm2]
          rw [ht, if_pos rfl] at c1
          cases c1
          exact ⟨fun _ => ⟨rfl, rfl⟩, fun h hh => by cases hh⟩
  obtain ⟨t1, t2⟩ := hturn
  unfold Tape.next
  cases hT : c.tape.turn { c.head with pos := c.head.pos + c.head.speed } with
  | none =>
    obtain ⟨rfl, hmu⟩ := t1 hT
    dsimp only at k1
    rw [if_pos rfl] at k1
    cases k1
    exact ⟨_, _, rfl, k2, k3, fun _ => ⟨rfl, hmu⟩, fun h hh => by cases hh⟩
  | some h' =>
    obtain ⟨rfl, hmu, hh'⟩ := t2 _ hT
    dsimp only at k1
    rw [if_neg (by decide)] at k1
    obtain ⟨v, v1, v2, v3, v4⟩ := UCore.sustain_tape hp hw c2 c3 (by rw [c4, hst]; omega)
    rw [v1, ok_bind] at k1
    cases k1
    refine ⟨_, _, rfl, k2, k3, (fun h => by cases h), fun h hh => ?_⟩
    cases hh
    refine ⟨rfl, v2.trans hmu, by rw [v4, hh'], fun i hi => ?_⟩
    rw [v3, c5]
    exact hlp i hi

theorem Tape.at_zero (T : Tape) (h : Head) : T.at h 0 = some h := rfl

theorem Tape.at_succ {T : Tape} {h h' : Head} (e : T.next h = some h') (k : Nat) : T.at h (k + 1) = T.at h' k := by
  show (T.next h).bind _ = _
  rw [e]
  rfl

theorem Tape.at_add (T : Tape) : ∀ (m k : Nat) (h : Head), T.at h (m + k) = (T.at h m).bind fun h' => T.at h' k
  | 0, k, h => by rw [Nat.zero_add]; rfl
  | m + 1, k, h => by
    rw [show m + 1 + k = (m + k) + 1 by omega]
    show (T.next h).bind _ = ((T.next h).bind _).bind _
    cases T.next h with
    | none => rfl
    | some h' => exact Tape.at_add T m k h'

/-- What was heard last before step `k`. -/
def Tape.before (T : Tape) (h0 : Head) (lev : Head → Int) (last : Int) : Nat → Int
  | 0 => last
  | j + 1 => ((T.at h0 j).map lev).getD 0

/-- Step `k` on channel `i`. -/
def Tape.step (T : Tape) (h0 : Head) (lev : Head → Int) (last : Int) (i : Nat) (t : Int) (k : Nat) : Option Pulse :=
  (T.at h0 k).map fun h => ⟨i, t + k * U20 + h.pos % U20, wrapI16 (lev h - T.before h0 lev last k)⟩

theorem Tape.before_shift {T : Tape} {h0 h : Head} {lev : Head → Int} {last last' : Int} {m : Nat} (e : T.at h0 m = some h)
    (hl : last' = T.before h0 lev last m) (k : Nat) : T.before h lev last' k = T.before h0 lev last (m + k) := by
  cases k with
  | zero => exact hl
  | succ j =>
    show ((T.at h j).map lev).getD 0 = ((T.at h0 (m + j)).map lev).getD 0
    rw [Tape.at_add, e]
    rfl

theorem Tape.step_shift {T : Tape} {h0 h : Head} {lev : Head → Int} {last last' : Int} {m : Nat} (e : T.at h0 m = some h)
    (hl : last' = T.before h0 lev last m) (i : Nat) (t : Int) (k : Nat) :
    T.step h lev last' i (t + m * U20) k = T.step h0 lev last i t (m + k) := by
  unfold Tape.step
  rw [Tape.at_add, e, Tape.before_shift e hl]
  show Option.map _ (T.at h k) = Option.map _ (T.at h k)
  congr 1
  funext h'
  congr 1
  push_cast
  omega

/-- The level on channel `i` when the head of a unit is at `h`. -/
def UCore.levAt (c : UCore) (i : Nat) (h : Head) : Int := level (frameAt c.frames c.numChannels i h) (c.volume i)

theorem UCore.frameLevel_lev {c : UCore} (hf : 0 ≤ c.timeFrac ∧ c.timeFrac < 1048576) (i : Nat) : c.frameLevel i = c.levAt i c.head := by
  unfold UCore.frameLevel UCore.levAt frameAt
  have : c.head.frame = c.phase := by
    show (c.phase * U20 + c.timeFrac) / U20 = _
    omega
  rw [this]

theorem SameSample.tape {c d : UCore} (h : SameSample c d) : d.tape = c.tape := by
  unfold UCore.tape
  rw [h.length, h.callback, h.repeatMode, h.sustainRange, h.release, h.sustainOffset, h.sustainEnd]

theorem SameSample.lev {c d : UCore} (h : SameSample c d) : d.levAt = c.levAt := by
  funext i x
  unfold UCore.levAt
  rw [h.setup.frames, h.setup.volume, h.numChannels]

/-- What is heard and left after playing for some time. -/
structure UCore.Spun (n : Nat) (c c' : UCore) (ps : List Pulse) (t t' e : Int) (m : Nat) : Prop where
  same : SameSample c c'
  playing : Playing n c'
  len : ∀ i < n, (onChan i ps).length = m
  steps : ∀ i < n, ∀ j < m, (onChan i ps)[j]? = c.tape.step c.head (c.levAt i) (c.lastPulse i) i t j
  early : ∀ j < m, t + j * U20 < e ∧ (c.tape.at c.head j).isSome
  going : c'.mute = 0 → t' = t + m * U20 ∧ e ≤ t' ∧ c.tape.at c.head m = some c'.head ∧
    ∀ i < n, c'.lastPulse i = c.tape.before c.head (c.levAt i) (c.lastPulse i) m
  ended : c'.mute ≠ 0 → c.tape.at c.head m = none

theorem UCore.sampleLoop_tape {n : Nat} {e : Int} (he : e ≤ 2145386496) :
    ∀ (k : Nat) {t : Int} {c : UCore}, Playing n c → c.waveform = .sample → c.mute = 0 → 0 ≤ t → InI32 t → Adequate e t k →
    ∃ t' c' ps m, UCore.sampleLoop (c.sustainRange && !c.release) e n k t c = .ok (t', c', ps) ∧ c.Spun n c' ps t t' e m := by
  have stop : ∀ {t : Int} {c : UCore}, Playing n c → c.mute = 0 → ¬ t < e → c.Spun n c [] t t e 0 := by
    intro t c hp hm ht
    exact { same := .refl c, playing := hp, len := fun _ _ => rfl, steps := fun _ _ j hj => absurd hj (by omega),
            early := fun j hj => absurd hj (by omega),
            going := fun _ => ⟨by simp, by omega, rfl, fun _ _ => rfl⟩, ended := fun h => absurd hm h }
  intro k
  induction k with
  | zero =>
    intro t c hp hw hm h0 ht ha
    have hz := ha.zero ht
    refine ⟨t, c, [], 0, rfl, stop hp hm ?_⟩
    unfold InI32 at ht
    unfold wrapU32 at hz
    omega
  | succ k ih =>
    intro t c hp hw hm h0 ht ha
    unfold InI32 at ht
    have hf := hp.pre.frac
    by_cases hlt : t < e
    · have hwt : wrapU32 t < e := by unfold wrapU32; omega
      have hti : InI32 (t + c.timeFrac) := by unfold InI32; omega
      obtain ⟨b, d, k1, k2, k3, k4, k5⟩ := UCore.sampleStep_tape hp hw hti
      have hone : ∀ i < n, onChan i (c.framePulses t n) = [⟨i, t + c.head.pos % U20, wrapI16 (c.levAt i c.head - c.lastPulse i)⟩] := by
        intro i hi
        rw [onChan_framePulses c t n hi, UCore.frameLevel_lev hf]
        have e1 : c.head.pos % U20 = c.timeFrac := by
          show (c.phase * U20 + c.timeFrac) % U20 = _
          omega
        rw [e1]
        congr 2
        unfold wrapU32
        omega
      have hzero : ∀ i, c.tape.step c.head (c.levAt i) (c.lastPulse i) i t 0 =
          some ⟨i, t + c.head.pos % U20, wrapI16 (c.levAt i c.head - c.lastPulse i)⟩ := by
        intro i
        unfold Tape.step
        rw [Tape.at_zero, Option.map_some]
        congr 2
        push_cast
        omega
      cases hT : c.tape.next c.head with
      | none =>
        obtain ⟨rfl, hmu⟩ := k4 hT
        refine ⟨t, d, c.framePulses t n, 1, ?_, ?_⟩
        · show (if wrapU32 t < e then _ else _) = _
          rw [if_pos hwt, k1, ok_bind]
          rfl
        · exact { same := k2, playing := k3, len := fun i hi => by rw [hone i hi]; rfl
                  steps := fun i hi j hj => by
                    obtain rfl : j = 0 := by omega
                    rw [hone i hi, hzero i]
                    rfl
                  early := fun j hj => by
                    obtain rfl : j = 0 := by omega
                    exact ⟨by push_cast; omega, rfl⟩
                  going := fun h => by rw [hmu] at h; exact absurd h (by decide)
                  ended := fun _ => by
                    show (c.tape.next c.head).bind _ = none
                    rw [hT]
                    rfl }
      | some h =>
        obtain ⟨rfl, hmu, hh, hl⟩ := k5 _ hT
        have hcb : (d.sustainRange && !d.release) = (c.sustainRange && !c.release) := by rw [k2.sustainRange, k2.release]
        obtain ⟨t', c', ps, m, r1, r2⟩ := ih (t := t + U20) k3 (k2.setup.waveform.trans hw) (hmu.trans hm) (by omega)
          (by unfold InI32; omega) (ha.next (by unfold InI32; omega) hwt)
        rw [hcb] at r1
        have h1 : c.tape.at c.head 1 = some d.head := by rw [Tape.at_succ hT, hh]; rfl
        have hl' : ∀ i < n, d.lastPulse i = c.tape.before c.head (c.levAt i) (c.lastPulse i) 1 := by
          intro i hi
          rw [hl i hi, UCore.frameLevel_lev hf]
          rfl
        have ht1 : t + U20 = t + (1 : Nat) * U20 := by push_cast; omega
        refine ⟨t', c', c.framePulses t n ++ ps, m + 1, ?_, ?_⟩
        · show (if wrapU32 t < e then _ else _) = _
          rw [if_pos hwt, k1, ok_bind]
          dsimp only
          rw [if_neg (by decide), i32_ok (by omega) (by omega), ok_bind, r1]
          rfl
        · exact { same := k2.trans r2.same, playing := r2.playing
                  len := fun i hi => by rw [onChan_append, hone i hi, List.length_append, r2.len i hi, List.length_singleton]; omega
                  steps := fun i hi j hj => by
                    rw [onChan_append, hone i hi]
                    cases j with
                    | zero => rw [hzero i]; rfl
                    | succ j =>
                      rw [List.singleton_append, List.getElem?_cons_succ, r2.steps i hi j (by omega), k2.tape, k2.lev, ht1,
                        Tape.step_shift h1 (hl' i hi), Nat.add_comm 1 j]
                  early := fun j hj => by
                    cases j with
                    | zero => exact ⟨by push_cast; omega, rfl⟩
                    | succ j =>
                      obtain ⟨a1, a2⟩ := r2.early j (by omega)
                      rw [k2.tape] at a2
                      refine ⟨by push_cast; omega, ?_⟩
                      rw [Nat.add_comm j 1, Tape.at_add, h1]
                      exact a2
                  going := fun hg => by
                    obtain ⟨a1, a2, a3, a4⟩ := r2.going hg
                    rw [k2.tape] at a3
                    refine ⟨by rw [a1]; push_cast; omega, a2, ?_, fun i hi => ?_⟩
                    · rw [Nat.add_comm m 1, Tape.at_add, h1]
                      exact a3
                    · rw [a4 i hi, k2.tape, k2.lev, Tape.before_shift h1 (hl' i hi), Nat.add_comm 1 m]
                  ended := fun hg => by
                    have a := r2.ended hg
                    rw [k2.tape] at a
                    rw [Nat.add_comm m 1, Tape.at_add, h1]
                    exact a }
    · refine ⟨t, c, [], 0, UCore.sampleLoop_done ?_ _ _, stop hp hm hlt⟩
      unfold wrapU32
      omega

end BK
