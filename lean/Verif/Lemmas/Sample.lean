import Verif.Lemmas.UnitWave
import Verif.Lemmas.Links
/-!
Playing samples.
-/
namespace BK

/-- Level of the current frame on channel `i`. -/
def UCore.frameLevel (c : UCore) (i : Nat) : Int :=
  level (c.frames.getD (c.phase * c.numChannels + (if c.numChannels = 1 then 0 else (i : Int))).toNat 0)
    (c.volume i)

/-- Pulses of the current frame. -/
def UCore.framePulses (c : UCore) (t : Int) (n : Nat) : List Pulse :=
  (List.range n).map fun i => ⟨i, wrapU32 (t + c.timeFrac), wrapI16 (c.frameLevel i - c.lastPulse i)⟩

/-- The unit after the current frame was output. -/
def UCore.afterFrame (c : UCore) (n : Nat) : UCore :=
  { c with lastPulse := fun i => if i < n then c.frameLevel i else c.lastPulse i }

theorem UCore.afterFrame_zero (c : UCore) : c.afterFrame 0 = c := by
  show ({ c with lastPulse := fun i => if i < 0 then c.frameLevel i else c.lastPulse i } : UCore) = c
  simp

/-- The frame of the current phase exists on all channels. -/
structure UCore.FrameOk (c : UCore) (n : Nat) : Prop where
  chans : (c.numChannels = 1 ∨ c.numChannels = n) ∧ 1 ≤ c.numChannels ∧ c.numChannels ≤ 8
  frames : c.length * c.numChannels ≤ c.frames.length ∧ c.length * c.numChannels ≤ 2147483647
  phase : 0 ≤ c.phase ∧ c.phase < c.length
  range : ∀ v ∈ c.frames, InI16 v
  volume : ∀ i, 0 ≤ c.volume i ∧ c.volume i ≤ 32767
  last : ∀ i, InI16 (c.lastPulse i)

theorem UCore.FrameOk.index {c : UCore} {n : Nat} (h : c.FrameOk n) :
    0 ≤ c.phase * c.numChannels ∧ c.phase * c.numChannels + c.numChannels ≤ c.frames.length ∧
      c.phase * c.numChannels + c.numChannels ≤ 2147483647 := by
  have h1 := Int.mul_nonneg h.phase.1 (show 0 ≤ c.numChannels by have := h.chans.2; omega)
  have h2 := Int.mul_le_mul_of_nonneg_right (show c.phase + 1 ≤ c.length by have := h.phase; omega)
    (show 0 ≤ c.numChannels by have := h.chans.2; omega)
  rw [Int.add_mul, Int.one_mul] at h2
  have := h.frames
  omega

theorem UCore.frameLevel_in {c : UCore} (hr : ∀ v ∈ c.frames, InI16 v)
    (hv : ∀ i, 0 ≤ c.volume i ∧ c.volume i ≤ 32767) (i : Nat) : InI16 (c.frameLevel i) := by
  unfold UCore.frameLevel
  rw [List.getD_eq_getElem?_getD]
  have key : ∀ v : Int, InI16 v → InI16 (level v (c.volume i)) := by
    intro v h
    have := level_bound (v := v) (vol := c.volume i) h (hv i)
    have := hv i
    unfold InI16 at *; omega
  cases hx : c.frames[(c.phase * c.numChannels + (if c.numChannels = 1 then 0 else (i : Int))).toNat]? with
  | none => exact key 0 (by decide)
  | some v => exact key v (hr v (List.mem_of_getElem? hx))

theorem UCore.frame_fold {c : UCore} {n : Nat} (h : c.FrameOk n) {t : Int}
    (ht : InI32 (t + c.timeFrac)) : ∀ k : Nat, k ≤ n →
    (List.range k).foldlM (UCore.sampleChan t (wrapU32 (c.phase * c.numChannels))) (c, []) =
      .ok (c.afterFrame k, c.framePulses t k)
  | 0, _ => by
    rw [UCore.afterFrame_zero]; rfl
  | k + 1, hk => by
    rw [List.range_succ, List.foldlM_append, UCore.frame_fold h ht k (by omega)]
    rw [ok_bind]
    simp only [List.foldlM_cons, List.foldlM_nil]
    have hi := h.index
    have hnc := h.chans.2
    have e1 : wrapU32 (c.phase * c.numChannels) = c.phase * c.numChannels := by
      unfold wrapU32; omega
    have hlt : (if c.numChannels = 1 then (0 : Int) else (k : Int)) < c.numChannels ∧
        0 ≤ (if c.numChannels = 1 then (0 : Int) else (k : Int)) := by
      have := h.chans
      split <;> omega
    have hrd : rd c.frames (c.phase * c.numChannels + (if c.numChannels = 1 then 0 else (k : Int))) =
        .ok (c.frames.getD (c.phase * c.numChannels + (if c.numChannels = 1 then 0 else (k : Int))).toNat 0) :=
      rd_getD_int _ (by omega) (by omega)
    generalize hv : c.frames.getD (c.phase * c.numChannels + (if c.numChannels = 1 then 0 else (k : Int))).toNat 0 = v at hrd
    have hvr : InI16 v := h.range v (rd_mem_of_ok hrd).2.2
    have hvol := h.volume k
    have hb := level_bound (v := v) (vol := c.volume k) hvr hvol
    have hfl : c.frameLevel k = level v (c.volume k) := by
      unfold UCore.frameLevel; rw [hv]
    have hp1 : InI32 (v * c.volume k) := by
      unfold level at hb
      unfold InI32
      omega
    have hlast := h.last k
    have hd : InI32 (level v (c.volume k) - c.lastPulse k) := by
      unfold InI16 at hlast
      unfold InI32
      omega
    have el : (c.afterFrame k).lastPulse k = c.lastPulse k := by
      show (if k < k then _ else c.lastPulse k) = _
      rw [if_neg (by omega)]
    unfold UCore.sampleChan
    dsimp only
    rw [show (c.afterFrame k).frames = c.frames from rfl, show (c.afterFrame k).numChannels = c.numChannels from rfl,
      show (c.afterFrame k).volume = c.volume from rfl, show (c.afterFrame k).timeFrac = c.timeFrac from rfl,
      el, e1, hrd, ok_bind]
    unfold InI32 at hp1 hd ht
    rw [i32_ok hp1.1 hp1.2, ok_bind, show v * c.volume k / 32768 = level v (c.volume k) from rfl,
      i32_ok hd.1 hd.2, ok_bind, i32_ok ht.1 ht.2, ok_bind]
    show Except.ok (({ c.afterFrame k with lastPulse := upd (c.afterFrame k).lastPulse k (level v (c.volume k)) } : UCore), _) = _
    congr 2
    · show ({ c with lastPulse := _ } : UCore) = { c with lastPulse := _ }
      congr 1
      funext j
      unfold upd
      show (if j = k then level v (c.volume k) else if j < k then _ else _) = _
      rw [← hfl]
      by_cases hj : j = k
      · subst hj; simp
      · rw [if_neg hj]
        by_cases hjk : j < k
        · rw [if_pos hjk, if_pos (by omega)]
        · rw [if_neg hjk, if_neg (by omega)]
    · unfold UCore.framePulses
      rw [List.range_succ, List.map_append, hfl.symm]
      rfl

/-- What playback of a sample leaves alone. -/
structure SameSample (c c' : UCore) : Prop where
  setup : SameSetup c c'
  numChannels : c'.numChannels = c.numChannels
  length : c'.length = c.length
  offset : c'.offset = c.offset
  stop : c'.stop = c.stop
  repeatMode : c'.repeatMode = c.repeatMode
  sustainOffset : c'.sustainOffset = c.sustainOffset
  sustainEnd : c'.sustainEnd = c.sustainEnd
  sustainRange : c'.sustainRange = c.sustainRange
  sustainJump : c'.sustainJump = c.sustainJump
  release : c'.release = c.release
  callback : c'.callback = c.callback
  count : c'.count = c.count
  speed : c'.samplePeriod = c.samplePeriod ∨ c'.samplePeriod = -c.samplePeriod

theorem SameSample.refl (c : UCore) : SameSample c c :=
  ⟨SameSetup.refl c, rfl, rfl, rfl, rfl, rfl, rfl, rfl, rfl, rfl, rfl, rfl, rfl, .inl rfl⟩

theorem SameSample.trans {a b c : UCore} (h : SameSample a b) (h' : SameSample b c) : SameSample a c :=
  ⟨h.1.trans h'.1, h'.2.trans h.2, h'.3.trans h.3, h'.4.trans h.4, h'.5.trans h.5, h'.6.trans h.6,
    h'.7.trans h.7, h'.8.trans h.8, h'.9.trans h.9, h'.10.trans h.10, h'.11.trans h.11, h'.12.trans h.12,
    h'.13.trans h.13, by
      have h1 := h.14
      have h2 := h'.14
      omega⟩

/-- The pitch factor is in range. -/
def PeriodOk (p : Int) : Prop := (4096 ≤ p ∧ p ≤ 268435456) ∨ (-268435456 ≤ p ∧ p ≤ -4096)

/-- A sample is set up. -/
structure UCore.SampleOk (c : UCore) (n : Nat) : Prop where
  chans : (c.numChannels = 1 ∨ c.numChannels = n) ∧ 1 ≤ c.numChannels ∧ c.numChannels ≤ 8
  span : 0 ≤ c.offset ∧ c.offset ≤ 2147483647 ∧ 0 ≤ c.stop ∧ c.stop ≤ 2147483647
  len : (c.length = c.stop - c.offset ∧ c.offset ≤ c.stop) ∨ (c.length = c.offset - c.stop ∧ c.stop < c.offset)
  frames : c.length * c.numChannels ≤ c.frames.length ∧ c.length * c.numChannels ≤ 2147483647
  phase : 1 ≤ c.length → 0 ≤ c.phase ∧ c.phase < c.length
  sustain : c.sustainRange = true → 0 ≤ c.sustainOffset ∧ c.sustainOffset < c.sustainEnd ∧ c.sustainEnd ≤ 2147483647
  data : ∀ d, c.data = some d → d.numChannels = c.numChannels

/-- Invariant of the sample part of a unit. -/
structure UCore.SPre (c : UCore) (n : Nat) : Prop where
  speed : PeriodOk c.samplePeriod
  frac : 0 ≤ c.timeFrac ∧ c.timeFrac < 1048576
  sample : c.waveform = .sample → c.SampleOk n

theorem cabs_period {p : Int} (h : PeriodOk p) : ∃ q, cabs p = .ok q ∧ 4096 ≤ q ∧ q ≤ 268435456 ∧ (q = p ∨ q = -p) := by
  unfold cabs
  rcases h with h | h
  · exact ⟨p, by rw [if_neg (by omega)], by omega, by omega, .inl rfl⟩
  · exact ⟨-p, by rw [if_pos (by omega), i32_ok (by omega) (by omega)], by omega, by omega, .inr rfl⟩

/-- Position and fraction after one step. -/
def UCore.stepped (c : UCore) (n : Nat) : UCore :=
  { c.afterFrame n with
    phase := wrapU32 (c.phase + (c.timeFrac + c.samplePeriod) / U20)
    timeFrac := (c.timeFrac + c.samplePeriod) % U20 }

theorem UCore.advance_eq {c : UCore} {n : Nat} (hs : PeriodOk c.samplePeriod)
    (hf : 0 ≤ c.timeFrac ∧ c.timeFrac < 1048576) : (c.afterFrame n).advance = .ok (c.stepped n) := by
  unfold UCore.advance
  rw [show (c.afterFrame n).timeFrac = c.timeFrac from rfl,
    show (c.afterFrame n).samplePeriod = c.samplePeriod from rfl,
    show (c.afterFrame n).phase = c.phase from rfl]
  unfold PeriodOk at hs
  rw [i32_ok (by omega) (by omega), ok_bind]
  have e : c.timeFrac / U20 = 0 := by omega
  rw [e, i32_ok (by omega) (by omega), ok_bind]
  have e2 : (c.timeFrac + c.samplePeriod) / U20 - 0 = (c.timeFrac + c.samplePeriod) / U20 := by omega
  rw [e2]
  rfl

/-- A playing sample is kept in range. -/
structure Playing (n : Nat) (c : UCore) : Prop where
  frame : c.FrameOk n
  pre : c.SPre n
  mod : c.Moderate
  two : 2 ≤ c.length

theorem UCore.checkRange_ok {c d : UCore} {n : Nat} (hp : Playing n c) (hd : d = c.stepped n) :
    ∃ b e, d.checkRange = .ok (b, e) ∧ SameSample c e ∧
      (0 ≤ e.phase ∧ e.phase < e.length) ∧ e.timeFrac = d.timeFrac ∧ e.lastPulse = d.lastPulse := by
  have hs := hp.pre.speed
  have hf := hp.pre.frac
  have hph := hp.frame.phase
  have hm := hp.mod
  have h2 := hp.two
  have hshort := hm.short
  have hsame : SameSample c d := by
    subst hd
    exact ⟨⟨rfl, rfl, rfl, rfl, rfl, rfl, rfl, rfl⟩, rfl, rfl, rfl, rfl, rfl, rfl, rfl, rfl, rfl, rfl, rfl, rfl, .inl rfl⟩
  have hdl := hsame.length
  have hdp : wrapI32 d.phase = c.phase + (c.timeFrac + c.samplePeriod) / 1048576 := by
    subst hd
    show wrapI32 (wrapU32 _) = _
    unfold PeriodOk at hs
    unfold wrapI32 wrapU32
    omega
  have hdl' : wrapI32 d.length = c.length := by rw [hdl]; unfold wrapI32; omega
  unfold UCore.checkRange
  rw [hdp, hdl']
  by_cases hout : c.phase + (c.timeFrac + c.samplePeriod) / 1048576 < 0 ∨
      c.phase + (c.timeFrac + c.samplePeriod) / 1048576 ≥ c.length
  · rw [if_pos hout]
    unfold UCore.resetSample
    rw [hdp, hdl']
    have hmod := Int.emod_nonneg (c.phase + (c.timeFrac + c.samplePeriod) / 1048576) (show c.length ≠ 0 by omega)
    have hmod2 := Int.emod_lt_of_pos (c.phase + (c.timeFrac + c.samplePeriod) / 1048576) (show 0 < c.length by omega)
    have hw : ∃ dir, wrapSamplePhase (c.phase + (c.timeFrac + c.samplePeriod) / 1048576) c.length =
          .ok (dir, (c.phase + (c.timeFrac + c.samplePeriod) / 1048576) % c.length) ∧
        (dir = 1 ∨ dir = -1 ∧ c.phase + (c.timeFrac + c.samplePeriod) / 1048576 < 0) := by
      unfold wrapSamplePhase
      by_cases hge : c.phase + (c.timeFrac + c.samplePeriod) / 1048576 ≥ c.length
      · exact ⟨1, by rw [if_pos hge, if_neg (by omega)], .inl rfl⟩
      · exact ⟨-1, by rw [if_neg hge, if_pos (by omega), if_neg (by omega)], .inr ⟨rfl, by omega⟩⟩
    obtain ⟨dir, hw, hdir⟩ := hw
    rw [hw, ok_bind]
    dsimp only
    have hturn : 0 ≤ d.turnPhase dir ((c.phase + (c.timeFrac + c.samplePeriod) / 1048576) % c.length) ∧
        d.turnPhase dir ((c.phase + (c.timeFrac + c.samplePeriod) / 1048576) % c.length) < c.length := by
      unfold UCore.turnPhase
      rw [hdl]
      by_cases hr : d.effRepeat = 2
      · rw [if_pos hr]
        rcases hdir with rfl | ⟨rfl, hneg⟩
        · rw [if_pos rfl]
          unfold wrapU32; omega
        · rw [if_neg (by decide), if_pos rfl]
          have hrm : c.repeatMode = 2 := by
            unfold UCore.effRepeat at hr
            rw [hsame.repeatMode] at hr
            split at hr
            · cases hr
            · exact hr
          have ht := (hm.turn hrm).2
          have hpos : (c.phase + (c.timeFrac + c.samplePeriod) / 1048576) % c.length ≠ 0 := by
            intro hz
            obtain ⟨q, hq⟩ := Int.dvd_of_emod_eq_zero hz
            have hlow : c.phase + (c.timeFrac + c.samplePeriod) / 1048576 ≥ -(c.length - 1) := by omega
            have hq1 : q < 0 := by
              by_contra hc
              have := Int.mul_nonneg (show 0 ≤ c.length by omega) (show 0 ≤ q by omega)
              omega
            have := Int.mul_le_mul_of_nonneg_left (show q ≤ -1 by omega) (show 0 ≤ c.length by omega)
            omega
          unfold wrapU32; omega
      · rw [if_neg hr]; omega
    by_cases hz : d.turnMode dir = 0
    · rw [if_pos hz]
      refine ⟨true, _, rfl, hsame.trans ⟨⟨rfl, rfl, rfl, rfl, rfl, rfl, rfl, rfl⟩, rfl, rfl, rfl, rfl, rfl, rfl, rfl, rfl, rfl, rfl, rfl, rfl, .inl rfl⟩, ?_, rfl, rfl⟩
      dsimp only
      rw [hdl]; exact hturn
    · rw [if_neg hz]
      obtain ⟨q, hq, -, -, hq'⟩ := cabs_period (p := d.samplePeriod) (by
        rcases hsame.speed with h | h <;> rw [h] <;> unfold PeriodOk at hs ⊢ <;> omega)
      rw [hq, ok_bind]
      refine ⟨false, _, rfl, hsame.trans ⟨⟨rfl, rfl, rfl, rfl, rfl, rfl, rfl, rfl⟩, rfl, rfl, rfl, rfl, rfl, rfl, rfl, rfl, rfl, rfl, rfl, rfl, ?_⟩, ?_, rfl, rfl⟩
      · dsimp only
        split <;> omega
      · dsimp only
        rw [hdl]; exact hturn
  · rw [if_neg hout]
    refine ⟨false, d, rfl, hsame, ?_, rfl, rfl⟩
    have : d.phase = c.phase + (c.timeFrac + c.samplePeriod) / 1048576 := by
      have h1 : d.phase = wrapU32 (c.phase + (c.timeFrac + c.samplePeriod) / U20) := by rw [hd]; rfl
      rw [h1]
      unfold wrapU32
      omega
    rw [hdl]
    omega

theorem Playing.next {n : Nat} {c e : UCore} (hp : Playing n c) (hs : SameSample c e)
    (hph : 0 ≤ e.phase ∧ e.phase < e.length) (hf : 0 ≤ e.timeFrac ∧ e.timeFrac < 1048576)
    (hl : ∀ i, InI16 (e.lastPulse i)) : Playing n e := by
  have hsp : PeriodOk e.samplePeriod := by
    have := hp.pre.speed
    rcases hs.speed with h | h <;> rw [h] <;> unfold PeriodOk at this ⊢ <;> omega
  have hw := hs.setup.waveform
  refine ⟨⟨?_, ?_, hph, ?_, ?_, hl⟩, ⟨hsp, hf, ?_⟩, ⟨?_, ?_, ?_⟩, ?_⟩
  · rw [hs.numChannels]; exact hp.frame.chans
  · rw [hs.numChannels, hs.length, hs.setup.frames]; exact hp.frame.frames
  · rw [hs.setup.frames]; exact hp.frame.range
  · rw [hs.setup.volume]; exact hp.frame.volume
  · intro h
    rw [hw] at h
    have := hp.pre.sample h
    refine ⟨?_, ?_, ?_, ?_, fun _ => hph, ?_, ?_⟩
    · rw [hs.numChannels]; exact this.chans
    · rw [hs.offset, hs.stop]; exact this.span
    · rw [hs.length, hs.offset, hs.stop]; exact this.len
    · rw [hs.numChannels, hs.length, hs.setup.frames]; exact this.frames
    · rw [hs.sustainRange, hs.sustainOffset, hs.sustainEnd]; exact this.sustain
    · rw [hs.setup.data, hs.numChannels]; exact this.data
  · rw [hs.length]; exact hp.mod.short
  · rw [hs.sustainRange, hs.sustainEnd, hs.length, hs.sustainJump]; exact hp.mod.sustain
  · rw [hs.repeatMode, hs.length]
    intro h
    have := hp.mod.turn h
    rcases hs.speed with h | h <;> rw [h] <;> omega
  · rw [hs.length]; exact hp.two

theorem UCore.sampleStep_ok {n : Nat} {c : UCore} (hp : Playing n c) (hw : c.waveform = .sample) {t : Int}
    (ht : InI32 (t + c.timeFrac)) {cb : Bool} (hcb : cb = true → c.sustainRange = true) :
    ∃ b e ps, c.sampleStep cb t n = .ok (b, e, ps) ∧ SameSample c e ∧ Playing n e := by
  unfold UCore.sampleStep
  rw [UCore.frame_fold hp.frame ht n (Nat.le_refl n), ok_bind]
  dsimp only
  rw [UCore.advance_eq hp.pre.speed hp.pre.frac, ok_bind]
  obtain ⟨b, e, h1, h2, h3, h4, h5⟩ := UCore.checkRange_ok hp rfl
  rw [h1, ok_bind]
  dsimp only
  have hf : 0 ≤ e.timeFrac ∧ e.timeFrac < 1048576 := by
    rw [h4]
    show 0 ≤ (c.timeFrac + c.samplePeriod) % U20 ∧ (c.timeFrac + c.samplePeriod) % U20 < 1048576
    omega
  have hl : ∀ i, InI16 (e.lastPulse i) := by
    intro i
    rw [h5]
    show InI16 (if i < n then c.frameLevel i else c.lastPulse i)
    split
    · exact UCore.frameLevel_in hp.frame.range hp.frame.volume i
    · exact hp.frame.last i
  have hn := hp.next h2 h3 hf hl
  cases b with
  | true =>
    exact ⟨true, e, _, rfl, h2, hn⟩
  | false =>
    rw [if_neg (by decide)]
    have hsok := hn.pre.sample (h2.setup.waveform.trans hw)
    unfold UCore.checkSustain
    cases cb with
    | false =>
      exact ⟨false, e, _, rfl, h2, hn⟩
    | true =>
      have hsr : e.sustainRange = true := h2.sustainRange.trans (hcb rfl)
      have hso := hsok.sustain hsr
      have hse := (hn.mod.sustain hsr).1
      rw [if_pos rfl]
      unfold UCore.sustain
      have key : ∀ p : Int, 0 ≤ p → p < e.length → SameSample c { e with phase := p } ∧ Playing n { e with phase := p } := by
        intro p h0 h1
        have hs' : SameSample e { e with phase := p } :=
          ⟨⟨rfl, rfl, rfl, rfl, rfl, rfl, rfl, rfl⟩, rfl, rfl, rfl, rfl, rfl, rfl, rfl, rfl, rfl, rfl, rfl, rfl, .inl rfl⟩
        exact ⟨h2.trans hs', hn.next hs' ⟨h0, h1⟩ hf hl⟩
      by_cases h1 : e.samplePeriod > 0
      · rw [if_pos h1]
        by_cases h2' : wrapI32 e.phase ≥ wrapI32 e.sustainEnd
        · rw [if_pos h2']
          exact ⟨false, _, _, rfl, key _ (by omega) (by omega)⟩
        · rw [if_neg h2']
          exact ⟨false, e, _, rfl, h2, hn⟩
      · rw [if_neg h1]
        by_cases h2' : wrapI32 e.phase < wrapI32 e.sustainOffset
        · rw [if_pos h2']
          have : wrapU32 (e.sustainEnd - 1) = e.sustainEnd - 1 := by unfold wrapU32; omega
          rw [this]
          exact ⟨false, _, _, rfl, key _ (by omega) (by omega)⟩
        · rw [if_neg h2']
          exact ⟨false, e, _, rfl, h2, hn⟩

theorem UCore.sampleLoop_ok {n : Nat} {e : Int} (he : e ≤ 2145386496) {cb : Bool} :
    ∀ (k : Nat) {t : Int} {c : UCore}, Playing n c → c.waveform = .sample →
    (cb = true → c.sustainRange = true) → InI32 t →
    ∃ t' c' ps, UCore.sampleLoop cb e n k t c = .ok (t', c', ps) ∧ SameSample c c' ∧ Playing n c'
  | 0, t, c, hp, _, _, _ => ⟨t, c, [], rfl, SameSample.refl c, hp⟩
  | k + 1, t, c, hp, hw, hcb, ht => by
    unfold UCore.sampleLoop
    unfold InI32 at ht
    by_cases hlt : wrapU32 t < e
    · rw [if_pos hlt]
      have hf := hp.pre.frac
      have htr : 0 ≤ t ∧ t < e := by unfold wrapU32 at hlt; omega
      obtain ⟨b, c1, ps, h1, h2, h3⟩ := UCore.sampleStep_ok hp hw (t := t) (by unfold InI32; omega) hcb
      rw [h1, ok_bind]
      dsimp only
      cases b with
      | true => exact ⟨t, c1, ps, rfl, h2, h3⟩
      | false =>
        rw [if_neg (by decide), i32_ok (by omega) (by omega), ok_bind]
        obtain ⟨t', c', qs, h4, h5, h6⟩ := UCore.sampleLoop_ok he k (t := t + U20) h3
          (h2.setup.waveform.trans hw) (fun h => h2.sustainRange.trans (hcb h)) (by unfold InI32; omega)
        rw [h4, ok_bind]
        exact ⟨t', c', _, rfl, h2.trans h5, h6⟩
    · rw [if_neg hlt]
      exact ⟨t, c, [], rfl, SameSample.refl c, hp⟩

end BK
