import Verif.Lemmas.Sample
/-!
Reachable states of units that play samples.
-/
namespace BK

theorem rangeArg_ok {len x y : Int} (hl : 0 ≤ len) (h : rangeArg len x = .ok y) : 0 ≤ y ∧ y ≤ len := by
  unfold rangeArg at h
  split at h
  · obtain ⟨a, -, h⟩ := bind_ok_iff.1 h
    obtain ⟨b, -, h⟩ := bind_ok_iff.1 h
    cases h
    exact cclamp_in hl
  · cases h
    exact cclamp_in hl

/-- Invariant with the limits of `Moderate`. -/
def UCore.SInv (c : UCore) (n : Nat) : Prop := c.SPre n ∧ (c.waveform = .sample → c.Moderate)

theorem UCore.SPre.of_not {c : UCore} {n : Nat} (h1 : PeriodOk c.samplePeriod)
    (h2 : 0 ≤ c.timeFrac ∧ c.timeFrac < 1048576) (h3 : c.waveform ≠ .sample) : c.SPre n :=
  ⟨h1, h2, fun h => absurd h h3⟩

theorem SampleOk.with_phase {c : UCore} {n : Nat} (h : c.SampleOk n) {p : Int}
    (hp : 1 ≤ c.length → 0 ≤ p ∧ p < c.length) : ({ c with phase := p } : UCore).SampleOk n :=
  ⟨h.chans, h.span, h.len, h.frames, hp, h.sustain, h.data⟩

theorem UCore.setAttr_spre {c : UCore} {n : Nat} {a : UAttr} {v : Int} {r : Ret × UCore}
    (hc : c.SInv n) (hv : InI32 v) (h : c.setAttr a v = .ok r) : r.2.SPre n := by
  obtain ⟨hc, hm⟩ := hc
  unfold UCore.setAttr at h
  cases a <;> dsimp only at h
  case waveform =>
    split at h
    · rename_i w k hw
      cases h
      have hne : w ≠ .sample := by
        rintro rfl
        have := waveOfAttr_some hw
        simp at this
      dsimp only
      refine UCore.SPre.of_not ?_ ?_ ?_
      · split <;> exact hc.speed
      · split <;> exact hc.frac
      · split
        · exact hne
        · rename_i hx
          dsimp only
          rw [not_not.1 hx]; exact hne
    · cases h; exact hc
  case flagRelease =>
    split at h
    · rename_i hsr
      split at h
      · rename_i hj
        split at h
        · cases h
          refine ⟨hc.speed, hc.frac, fun hw => ?_⟩
          have hs := hc.sample hw
          have := (hm hw).sustain hsr
          have h1 := hs.sustain hsr
          have h2 := this.2 hj.2.1
          refine ⟨hs.chans, hs.span, hs.len, hs.frames, fun _ => ?_, hs.sustain, hs.data⟩
          dsimp only
          omega
        · obtain ⟨x, hx, h⟩ := bind_ok_iff.1 h
          cases h
          refine ⟨hc.speed, hc.frac, fun hw => ?_⟩
          have hs := hc.sample hw
          have := (hm hw).sustain hsr
          have h1 := hs.sustain hsr
          refine ⟨hs.chans, hs.span, hs.len, hs.frames, fun _ => ?_, hs.sustain, hs.data⟩
          dsimp only
          rw [(i32_eq_ok_iff.1 hx).2]
          unfold cmax wrapI32
          split <;> omega
      · cases h
        exact ⟨hc.speed, hc.frac, fun hw => by
          have hs := hc.sample hw
          exact ⟨hs.chans, hs.span, hs.len, hs.frames, hs.phase, hs.sustain, hs.data⟩⟩
    · cases h; exact hc
  case dutyCycle =>
    split at h
    · cases h
      refine ⟨hc.speed, hc.frac, fun hw => ?_⟩
      have hs := hc.sample hw
      refine ⟨hs.chans, hs.span, hs.len, hs.frames, ?_, hs.sustain, hs.data⟩
      dsimp only at hw ⊢
      rw [hw]
      simpa using hs.phase
    · cases h; exact hc
  case phase =>
    cases h
    refine ⟨hc.speed, hc.frac, fun hw => ?_⟩
    have hs := hc.sample hw
    refine ⟨hs.chans, hs.span, hs.len, hs.frames, ?_, hs.sustain, hs.data⟩
    dsimp only at hw ⊢
    intro hl
    unfold UCore.phaseValue
    rw [if_neg (by simp [hw])]
    have h1 := hs.span
    have h2 := hs.len
    have e : wrapU32 (c.length - 1) = c.length - 1 := by unfold wrapU32; omega
    dsimp only
    rw [e]
    have := cclamp_in (x := if v < 0 then (if c.stop > c.offset then 0 else wrapI32 (c.length - 1)) else v)
      (lo := 0) (hi := c.length - 1) (by omega)
    omega
  case phaseWrap =>
    cases h
    refine ⟨hc.speed, hc.frac, fun hw => ?_⟩
    have hs := hc.sample hw
    exact ⟨hs.chans, hs.span, hs.len, hs.frames, fun h => ⟨by dsimp only; omega, by dsimp only at h ⊢; omega⟩, hs.sustain, hs.data⟩
  case period =>
    obtain ⟨x, hx, h⟩ := bind_ok_iff.1 h
    cases h
    exact ⟨hc.speed, hc.frac, fun hw => by
      have hs := hc.sample hw
      exact ⟨hs.chans, hs.span, hs.len, hs.frames, hs.phase, hs.sustain, hs.data⟩⟩
  case samplePeriod =>
    obtain ⟨x, hx, h⟩ := bind_ok_iff.1 h
    cases h
    refine ⟨?_, hc.frac, fun hw => by
      have hs := hc.sample hw
      exact ⟨hs.chans, hs.span, hs.len, hs.frames, hs.phase, hs.sustain, hs.data⟩⟩
    have := cclamp_in (x := x) (lo := 4096) (hi := 268435456) (by decide)
    dsimp only
    unfold PeriodOk
    split <;> omega
  all_goals
    cases h
    exact ⟨hc.speed, hc.frac, fun hw => by
      have hs := hc.sample hw
      exact ⟨hs.chans, hs.span, hs.len, hs.frames, hs.phase, hs.sustain, hs.data⟩⟩

theorem UCore.setData_spre {c : UCore} {n : Nat} {t : DataAttr} {d : Option SampleData}
    {r : Ret × UCore} (hc : c.SPre n) (hd : ∀ x, d = some x → x.Wf)
    (h : c.setData (some n) t d = .ok r) : r.2.SPre n := by
  unfold UCore.setData UCore.trySetData at h
  obtain ⟨x, hx, h⟩ := bind_ok_iff.1 h
  dsimp only at hx
  cases t with
  | waveform =>
    dsimp only at hx
    cases hx
    cases d with
    | some d =>
      by_cases h2 : d.numFrames ≥ 2
      · have e : c.trySetWave (some d) = (.ok, { c with
            waveform := .custom, count := cmin d.numFrames 64, phase := 0, offset := 0,
            stop := d.numFrames, frames := d.frames, repeatCount := 0 }) := by
          unfold UCore.trySetWave; dsimp only; rw [if_pos h2]
        rw [e, if_pos rfl] at h
        cases h
        exact UCore.SPre.of_not hc.speed hc.frac (by simp)
      · have e : c.trySetWave (some d) = (.invalidNumFrames, c) := by
          unfold UCore.trySetWave; dsimp only; rw [if_neg h2]
        rw [e, if_neg (by simp)] at h
        dsimp only at h
        split at h
        · cases h
          exact UCore.SPre.of_not hc.speed hc.frac (by simp)
        · cases h; exact hc
    | none =>
      by_cases h2 : c.waveform = .custom
      · have e : c.trySetWave none = (.failed, { c with waveform := .none, offset := 0, stop := 0, frames := [] }) := by
          unfold UCore.trySetWave; dsimp only; rw [if_pos h2]
        rw [e, if_neg (by simp)] at h
        dsimp only at h
        rw [if_neg (by simp)] at h
        cases h
        exact UCore.SPre.of_not hc.speed hc.frac (by simp)
      · have e : c.trySetWave none = (.ok, c) := by
          unfold UCore.trySetWave; dsimp only; rw [if_neg h2]
        rw [e, if_pos rfl] at h
        cases h
        exact ⟨hc.speed, hc.frac, fun hw => by
          have hs := hc.sample hw
          exact ⟨hs.chans, hs.span, hs.len, hs.frames, hs.phase, hs.sustain, by simp⟩⟩
  | sample =>
    dsimp only at hx
    cases d with
    | some d =>
      have hw := hd d rfl
      unfold UCore.trySetSample at hx
      dsimp only at hx
      have bad : ∀ ret : Ret, ret ≠ .ok → x = (ret, c) → r.2.SPre n := by
        rintro ret hr rfl
        rw [if_neg hr] at h
        dsimp only at h
        split at h
        · cases h
          exact UCore.SPre.of_not hc.speed hc.frac (by simp)
        · cases h; exact hc
      split at hx
      · cases hx; exact bad _ (by decide) rfl
      · rename_i hch
        split at hx
        · cases hx; exact bad _ (by decide) rfl
        · rename_i hnf
          obtain ⟨q, hq, hx⟩ := bind_ok_iff.1 hx
          obtain ⟨q', hq', hqq⟩ := cabs_period hc.speed
          rw [hq] at hq'
          cases hq'
          cases hx
          rw [if_pos rfl] at h
          cases h
          have hcnt := hw.count
          have hle := Int.mul_le_mul_of_nonneg_left hw.chans.1 hcnt.1
          refine ⟨.inl ⟨by dsimp only; omega, by dsimp only; omega⟩, hc.frac, fun _ => ?_⟩
          refine ⟨⟨?_, hw.chans⟩, ⟨by dsimp only; omega, by dsimp only; omega, by dsimp only; omega, by dsimp only; omega⟩,
            .inl ⟨by dsimp only; omega, by dsimp only; omega⟩, ⟨?_, hcnt.2⟩, fun h => ⟨by dsimp only; omega, by dsimp only at h ⊢; omega⟩,
            by simp, ?_⟩
          · dsimp only; omega
          · dsimp only
            rw [hw.frames]
          · intro e he
            cases he; rfl
    | none =>
      unfold UCore.trySetSample at hx
      dsimp only at hx
      split at hx
      · cases hx
        rw [if_pos rfl] at h
        cases h
        exact UCore.SPre.of_not hc.speed hc.frac (by simp)
      · rename_i hne
        cases hx
        rw [if_pos rfl] at h
        cases h
        exact UCore.SPre.of_not hc.speed hc.frac hne

theorem UCore.setData_none_wave {c : UCore} {n : Nat} {r : Ret × UCore}
    (h : c.setData (some n) .sample none = .ok r) : r.2.waveform ≠ .sample := by
  unfold UCore.setData UCore.trySetData UCore.trySetSample at h
  obtain ⟨x, hx, h⟩ := bind_ok_iff.1 h
  dsimp only at hx
  split at hx
  · cases hx
    rw [if_pos rfl] at h
    cases h; simp
  · rename_i hne
    cases hx
    rw [if_pos rfl] at h
    cases h; exact hne

theorem UCore.clear_spre {c c' : UCore} {n : Nat} (h : c.clear (some n) = .ok c') :
    c'.SPre n ∧ c'.waveform ≠ .sample := by
  unfold UCore.clear at h
  obtain ⟨x, hx, h⟩ := bind_ok_iff.1 h
  obtain ⟨y, hy, h⟩ := bind_ok_iff.1 h
  have := UCore.setData_none_wave hy
  cases h
  exact ⟨UCore.SPre.of_not (.inl (by constructor <;> (dsimp only; omega))) (by constructor <;> (dsimp only; omega)) this, this⟩

theorem UCore.updateSampleRange_spre {c c' : UCore} {n : Nat} {a b : Int} (hi : c.Inv) (hc : c.SPre n)
    (hw : c.waveform = .sample) (h : c.updateSampleRange a b = .ok c') :
    c'.SPre n ∧ c'.data = c.data := by
  have hs := hc.sample hw
  unfold UCore.updateSampleRange at h
  split at h
  · cases h; exact ⟨hc, rfl⟩
  · rename_i d hd
    have hwf := hi.data d hd
    have hcnt := hwf.count
    have hle := Int.mul_le_mul_of_nonneg_left hwf.chans.1 hcnt.1
    have hnc := hs.data d hd
    obtain ⟨off, h1, h⟩ := bind_ok_iff.1 h
    obtain ⟨stop, h2, h⟩ := bind_ok_iff.1 h
    obtain ⟨diff, h3, h⟩ := bind_ok_iff.1 h
    obtain ⟨len, h4, h⟩ := bind_ok_iff.1 h
    obtain ⟨back, -, h⟩ := bind_ok_iff.1 h
    obtain ⟨q, h6, h⟩ := bind_ok_iff.1 h
    obtain ⟨q', hq', hqq⟩ := cabs_period hc.speed
    rw [h6] at hq'
    cases hq'
    have r1 := rangeArg_ok hcnt.1 h1
    have r2 := rangeArg_ok hcnt.1 h2
    have hdi := i32_eq_ok_iff.1 h3
    have hl := cabs_ok (hdi.2 ▸ hdi.1) h4
    have hdi := hdi.2
    have hsum : cmin off stop + len ≤ d.numFrames := by unfold cmin; split <;> omega
    have hmin : 0 ≤ cmin off stop := by unfold cmin; split <;> omega
    have hprod := Int.mul_le_mul_of_nonneg_right hsum (show 0 ≤ c.numChannels by have := hs.chans; omega)
    have hprod2 := Int.mul_nonneg hmin (show 0 ≤ c.numChannels by have := hs.chans; omega)
    have hprod3 := Int.mul_nonneg hl.1 (show 0 ≤ c.numChannels by have := hs.chans; omega)
    rw [Int.add_mul] at hprod
    have hfr := hwf.frames
    have hnf : d.numFrames ≤ 2147483647 := by omega
    rw [hnc] at hfr hcnt
    have hwrap : wrapU32 (cmin off stop * c.numChannels) = cmin off stop * c.numChannels := by
      unfold wrapU32; omega
    cases h
    refine ⟨⟨?_, hc.frac, fun _ => ⟨hs.chans, ⟨by dsimp only; omega, by dsimp only; omega,
      by dsimp only; omega, by dsimp only; omega⟩, ?_, ⟨?_, ?_⟩, ?_, hs.sustain, hs.data⟩⟩, rfl⟩
    · dsimp only
      unfold PeriodOk
      split <;> omega
    · dsimp only; omega
    · dsimp only
      rw [hwrap, List.length_drop]
      omega
    · dsimp only; omega
    · dsimp only
      intro hlen
      unfold UCore.rangePhase
      dsimp only
      have e1 : wrapU32 (len - 1) = len - 1 := by unfold wrapU32; omega
      rw [e1]
      repeat' split
      all_goals omega

theorem UCore.updateSustainRange_spre {c c' : UCore} {n : Nat} {a b : Int} (hi : ∀ d, c.data = some d → d.Wf)
    (hc : c.SPre n) (h : c.updateSustainRange a b = .ok c') : c'.SPre n := by
  unfold UCore.updateSustainRange at h
  split at h
  · cases h; exact hc
  · rename_i d hd
    have hwf := hi d hd
    have hcnt := hwf.count
    have hle := Int.mul_le_mul_of_nonneg_left hwf.chans.1 hcnt.1
    obtain ⟨off, h1, h⟩ := bind_ok_iff.1 h
    obtain ⟨stop, h2, h⟩ := bind_ok_iff.1 h
    have r1 := rangeArg_ok hcnt.1 h1
    have r2 := rangeArg_ok hcnt.1 h2
    cases h
    refine ⟨hc.speed, hc.frac, fun hw => ?_⟩
    have hs := hc.sample hw
    refine ⟨hs.chans, hs.span, hs.len, hs.frames, hs.phase, ?_, hs.data⟩
    intro hsr
    have hsr := of_decide_eq_true hsr
    dsimp only at hsr ⊢
    by_cases hlt : stop < off
    · simp only [if_pos hlt] at hsr ⊢; omega
    · simp only [if_neg hlt] at hsr ⊢; omega

theorem UCore.setRange_spre {c : UCore} {n : Nat} {a : Option (Int × Int)} {r : Ret × UCore}
    (hi : c.Inv) (hc : c.SPre n) (h : c.setRange a = .ok r) : r.2.SPre n := by
  unfold UCore.setRange at h
  split at h
  · cases h; exact hc
  · rename_i hw
    have hw := not_not.1 hw
    obtain ⟨x, hx, h⟩ := bind_ok_iff.1 h
    obtain ⟨y, hy, h⟩ := bind_ok_iff.1 h
    cases h
    have h1 := UCore.updateSampleRange_spre hi hc hw hx
    exact UCore.updateSustainRange_spre (by rw [h1.2]; exact hi.data) h1.1 hy

theorem UCore.setSustainRange_spre {c : UCore} {n : Nat} {a : Option (Int × Int)} {r : Ret × UCore}
    (hi : c.Inv) (hc : c.SPre n) (h : c.setSustainRange a = .ok r) : r.2.SPre n := by
  unfold UCore.setSustainRange at h
  split at h
  · cases h; exact hc
  · rename_i hw
    obtain ⟨y, hy, h⟩ := bind_ok_iff.1 h
    cases h
    exact UCore.updateSustainRange_spre hi.data hc hy

theorem Playing.of {c : UCore} {n : Nat} (hi : c.Inv) (hc : c.SInv n) (hw : c.waveform = .sample)
    (h2 : 2 ≤ c.length) : Playing n c := by
  have hs := hc.1.sample hw
  exact ⟨⟨hs.chans, hs.frames, hs.phase (by omega), hi.frames, hi.volume, hi.last⟩, hc.1, hc.2 hw, h2⟩

/-- A sample renders without fault. -/
theorem UCore.render_sample_ok {c : UCore} {n : Nat} (hi : c.Inv) (hc : c.SInv n)
    (hw : c.waveform = .sample) (t0 : Int) {e : Int} (he : e ≤ 2145386496) :
    ∃ t c' ps, c.render t0 e n = .ok (t, c', ps) ∧ c'.SInv n := by
  have hs := hc.1.sample hw
  have hspan := hs.span
  have hlen := hs.len
  unfold UCore.render UCore.runAny
  by_cases hp : c.period = 0
  · rw [if_pos hp]; exact ⟨_, c, [], rfl, hc⟩
  · rw [if_neg hp, hw]
    dsimp only
    unfold UCore.runSample
    by_cases hm : c.mute ≠ 0
    · rw [if_pos hm]; exact ⟨_, c, [], rfl, hc⟩
    · rw [if_neg hm]
      have e1 : wrapI32 c.stop = c.stop := by unfold wrapI32; omega
      have e2 : wrapI32 c.offset = c.offset := by unfold wrapI32; omega
      have e3 : cabs (c.stop - c.offset) = .ok c.length := by
        unfold cabs
        split
        · rw [i32_ok (by omega) (by omega)]
          congr 1
          omega
        · congr 1
          omega
      rw [e1, e2, i32_ok (by omega) (by omega), ok_bind, e3, ok_bind]
      by_cases h2 : c.length < 2
      · rw [if_pos h2]; exact ⟨_, c, [], rfl, hc⟩
      · rw [if_neg h2]
        obtain ⟨t', c', ps, h1, h3, h4⟩ := UCore.sampleLoop_ok (n := n) he (cb := c.sustainRange && !c.release) 4097
          (t := wrapI32 t0) (Playing.of hi hc hw (by omega)) hw (by simp +contextual) (wrapI32_in _)
        rw [h1, ok_bind]
        exact ⟨_, c', ps, rfl, h4.pre, fun _ => h4.mod⟩

theorem UCore.runWaveform_keeps {c : UCore} {t0 e : Int} {n : Nat} {r : Int × UCore × List Pulse}
    (h : c.runWaveform t0 e n = .ok r) : r.2.1.samplePeriod = c.samplePeriod ∧
      r.2.1.timeFrac = c.timeFrac ∧ r.2.1.waveform = c.waveform := by
  unfold UCore.runWaveform at h
  split at h
  · cases h; exact ⟨rfl, rfl, rfl⟩
  · refine foldlM_inv (P := fun st : Int × UCore × List Pulse => st.2.1.samplePeriod = c.samplePeriod ∧
      st.2.1.timeFrac = c.timeFrac ∧ st.2.1.waveform = c.waveform) ?_ _ ⟨rfl, rfl, rfl⟩ h
    intro st i st' hst hs
    unfold UCore.waveChan at hs
    split at hs
    · cases hs; exact hst
    · obtain ⟨x, -, hs⟩ := bind_ok_iff.1 hs
      cases hs
      exact hst

theorem BUnit.step_spre {n : Nat} {u u' : BUnit} {op : UOp} {qs : List Pulse} (hi : u.toUCore.Inv)
    (hu : u.toUCore.SInv n) (hl : op.Legal) (h : u.step n op = .ok (u', qs)) : u'.toUCore.SPre n := by
  cases op <;> unfold BUnit.step at h <;> dsimp only at h
  case attr a v =>
    obtain ⟨x, hx, h⟩ := bind_ok_iff.1 h
    cases h
    exact UCore.setAttr_spre hu hl hx
  case data t d =>
    obtain ⟨x, hx, h⟩ := bind_ok_iff.1 h
    cases h
    exact UCore.setData_spre hu.1 (fun y hy => by subst hy; exact hl) hx
  case range =>
    obtain ⟨x, hx, h⟩ := bind_ok_iff.1 h; cases h; exact UCore.setRange_spre hi hu.1 hx
  case sustain =>
    obtain ⟨x, hx, h⟩ := bind_ok_iff.1 h; cases h; exact UCore.setSustainRange_spre hi hu.1 hx
  case callback =>
    cases h
    exact ⟨hu.1.speed, hu.1.frac, fun hw => by
      have hs := hu.1.sample hw
      exact ⟨hs.chans, hs.span, hs.len, hs.frames, hs.phase, hs.sustain, hs.data⟩⟩
  case clear =>
    obtain ⟨x, hx, h⟩ := bind_ok_iff.1 h; cases h; exact (UCore.clear_spre hx).1
  case reset =>
    obtain ⟨x, hx, h⟩ := bind_ok_iff.1 h
    cases h
    unfold BUnit.reset at hx
    obtain ⟨y, hy, hx⟩ := bind_ok_iff.1 hx
    cases hx
    have := (UCore.clear_spre hy).1
    exact UCore.SPre.of_not this.speed this.frac (by simp)
  case run e =>
    obtain ⟨x, hx, h⟩ := bind_ok_iff.1 h
    cases h
    dsimp only
    by_cases hw : u.waveform = .sample
    · obtain ⟨t, c', ps, h1, h2⟩ := UCore.render_sample_ok hi hu hw u.time hl.2
      rw [hx] at h1
      cases h1
      exact h2.1
    · by_cases hn : u.waveform = .none
      · have : x.2.1 = u.toUCore := by
          unfold UCore.render UCore.runAny at hx
          rw [hn] at hx
          split at hx <;> (cases hx; rfl)
        rw [this]; exact hu.1
      · unfold UCore.render UCore.runAny at hx
        obtain ⟨y, hy, hx⟩ := bind_ok_iff.1 hx
        cases hx
        dsimp only
        split at hy
        · cases hy; exact hu.1
        · split at hy
          · contradiction
          · contradiction
          · obtain ⟨h1, h2, h3⟩ := UCore.runWaveform_keeps hy
            exact UCore.SPre.of_not (h1 ▸ hu.1.speed) (h2 ▸ hu.1.frac) (h3 ▸ hw)
  case endAt => cases h; exact hu.1

theorem UCore.init_sinv {w : Int} {c : UCore} {n : Nat} (h : UCore.init w = .ok c) : c.SInv n := by
  unfold UCore.init at h
  obtain ⟨x1, h1, h⟩ := bind_ok_iff.1 h
  obtain ⟨x2, h2, h⟩ := bind_ok_iff.1 h
  cases h
  cases h1
  have hw : x2.2.waveform ≠ .sample := by
    unfold UCore.setAttr at h2
    dsimp only at h2
    split at h2
    · rename_i w k hw
      have hne : w ≠ .sample := by
        rintro rfl
        have := waveOfAttr_some hw
        simp at this
      cases h2
      dsimp only
      split
      · exact hne
      · rename_i hx
        dsimp only
        rw [not_not.1 hx]; exact hne
    · cases h2; simp
  exact ⟨UCore.SPre.of_not (.inl (by constructor <;> (dsimp only; omega))) (by constructor <;> (dsimp only; omega)) hw,
    fun h => absurd h hw⟩

theorem Reach.sinv {n : Nat} {u : BUnit} {ps : List Pulse} (h : Reach n (SampleGentle n) u ps) :
    u.toUCore.SInv n := by
  induction h with
  | init h => exact UCore.init_sinv h
  | step hr hl hp hs ih =>
    exact ⟨BUnit.step_spre (hr.inv fun _ _ h => h.1) ih hl hs, hp.2 _ hs⟩

end BK
