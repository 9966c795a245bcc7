import Verif.Lemmas.SampleRun
/-!
Playing a sample forwards without repetition.
-/
namespace BK

theorem UCore.pos_stepped {c : UCore} {n : Nat} (h : 0 ≤ c.phase + (c.timeFrac + c.samplePeriod) / 1048576 ∧
    c.phase + (c.timeFrac + c.samplePeriod) / 1048576 ≤ 2147483647) :
    (c.stepped n).pos = c.pos + c.samplePeriod := by
  show wrapU32 (c.phase + (c.timeFrac + c.samplePeriod) / U20) * U20 + (c.timeFrac + c.samplePeriod) % U20 = _
  unfold UCore.pos wrapU32
  omega

theorem UCore.heard_zero {c : UCore} (hf : 0 ≤ c.timeFrac ∧ c.timeFrac < 1048576) (i : Nat) :
    c.heard i 0 = c.frameLevel i := by
  unfold UCore.heard UCore.frameLevel UCore.pos
  have : (c.phase * U20 + c.timeFrac + ((0 : Nat) : Int) * c.samplePeriod) / U20 = c.phase := by
    push_cast
    rw [Int.zero_mul]
    omega
  rw [this]

theorem UCore.heard_stepped {c : UCore} {n : Nat} (h : (c.stepped n).pos = c.pos + c.samplePeriod)
    (i k : Nat) : (c.stepped n).heard i k = c.heard i (k + 1) := by
  unfold UCore.heard
  rw [h]
  show level (c.frames.getD ((c.pos + c.samplePeriod + k * c.samplePeriod) / U20 * c.numChannels + _).toNat 0)
    (c.volume i) = _
  have : c.pos + c.samplePeriod + k * c.samplePeriod = c.pos + ((k + 1 : Nat) : Int) * c.samplePeriod := by
    push_cast; ring
  rw [this]
  rfl

theorem onChan_framePulses (c : UCore) (t : Int) (n : Nat) {i : Nat} (hi : i < n) :
    onChan i (c.framePulses t n) =
      [⟨i, wrapU32 (t + c.timeFrac), wrapI16 (c.frameLevel i - c.lastPulse i)⟩] := by
  unfold onChan UCore.framePulses
  rw [List.filter_map]
  have : ∀ n : Nat, i < n → (List.range n).filter ((fun p : Pulse => p.chan == i) ∘ fun j =>
      (⟨j, wrapU32 (t + c.timeFrac), wrapI16 (c.frameLevel j - c.lastPulse j)⟩ : Pulse)) = [i] := by
    have h0 : ∀ m : Nat, m ≤ i → (List.range m).filter ((fun p : Pulse => p.chan == i) ∘ fun j =>
      (⟨j, wrapU32 (t + c.timeFrac), wrapI16 (c.frameLevel j - c.lastPulse j)⟩ : Pulse)) = [] := by
      intro m hm
      rw [List.filter_eq_nil_iff]
      intro a ha
      have := List.mem_range.1 ha
      simp only [Function.comp, beq_iff_eq]
      omega
    intro n
    induction n with
    | zero => intro h; omega
    | succ n ih =>
      intro h
      rw [List.range_succ, List.filter_append]
      by_cases hn : i = n
      · subst hn
        rw [h0 i (Nat.le_refl i)]
        simp
      · rw [ih (by omega)]
        have : (n == i) = false := by rw [beq_eq_false_iff_ne]; omega
        simp [this]
  rw [this n hi]
  rfl

/-- The unit after its last frame. -/
def UCore.ended (c : UCore) (n : Nat) : UCore :=
  { c.stepped n with
    phase := (c.phase + (c.timeFrac + c.samplePeriod) / U20) % c.length
    repeatCount := wrapU32 (c.repeatCount + 1)
    mute := 1 }

theorem UCore.sampleStep_once {n : Nat} {c : UCore} (hp : Playing n c) {t : Int}
    (ht : InI32 (t + c.timeFrac)) (hsp : 0 < c.samplePeriod) (hr : c.callback = true ∨ c.repeatMode = 0) :
    c.sampleStep false t n = if c.phase + (c.timeFrac + c.samplePeriod) / 1048576 < c.length then
      .ok (false, c.stepped n, c.framePulses t n) else .ok (true, c.ended n, c.framePulses t n) := by
  have hs := hp.pre.speed
  have hf := hp.pre.frac
  have hph := hp.frame.phase
  have hm := hp.mod
  have h2 := hp.two
  have hshort := hm.short
  unfold PeriodOk at hs
  unfold UCore.sampleStep
  rw [UCore.frame_fold hp.frame ht n (Nat.le_refl n), ok_bind]
  dsimp only
  rw [UCore.advance_eq hp.pre.speed hp.pre.frac, ok_bind]
  have hdp : wrapI32 (c.stepped n).phase = c.phase + (c.timeFrac + c.samplePeriod) / 1048576 := by
    show wrapI32 (wrapU32 _) = _
    unfold wrapI32 wrapU32
    omega
  have hdl : wrapI32 (c.stepped n).length = c.length := by
    show wrapI32 c.length = c.length
    unfold wrapI32; omega
  unfold UCore.checkRange
  rw [hdp, hdl]
  have heff : (c.stepped n).effRepeat = 0 := by
    unfold UCore.effRepeat
    show (if c.callback = true then 0 else c.repeatMode) = 0
    rcases hr with h | h
    · rw [if_pos h]
    · split
      · rfl
      · exact h
  by_cases hlt : c.phase + (c.timeFrac + c.samplePeriod) / 1048576 < c.length
  · rw [if_neg (by omega), if_pos hlt]
    rfl
  · rw [if_pos (by omega), if_neg hlt]
    unfold UCore.resetSample
    rw [hdp, hdl]
    unfold wrapSamplePhase
    rw [if_pos (by omega), if_neg (by omega), ok_bind]
    have h1 : (c.stepped n).turnMode 1 = 0 := by
      unfold UCore.turnMode
      rw [heff]
      decide
    have h2 : (c.stepped n).turnPhase 1 ((c.phase + (c.timeFrac + c.samplePeriod) / 1048576) % c.length) =
        (c.phase + (c.timeFrac + c.samplePeriod) / 1048576) % c.length := by
      unfold UCore.turnPhase
      rw [heff, if_neg (by decide)]
    dsimp only
    rw [if_pos h1, h2]
    rfl

theorem getLastD_cons' (a d : Int) (l : List Int) : (a :: l).getLastD d = l.getLastD a := by
  cases l <;> rfl

/-- What is heard and left after a run without repetition. -/
structure Once (c c' : UCore) (ps : List Pulse) (n : Nat) (t : Int) (m total : Nat) : Prop where
  amps : ∀ i, i < n → (onChan i ps).map (·.amp) =
    (diffs (c.lastPulse i) ((List.range (min m total)).map (c.heard i))).map wrapI16
  times : ∀ i, i < n → (onChan i ps).map (·.time) =
    (List.range (min m total)).map fun (k : Nat) => wrapU32 (t + k * U20 + (c.pos + k * c.samplePeriod) % U20)
  last : ∀ i, i < n → c'.lastPulse i = ((List.range (min m total)).map (c.heard i)).getLastD (c.lastPulse i)
  mute : c'.mute = if total ≤ m then 1 else 0
  pos : m < total → c'.pos = c.pos + m * c.samplePeriod ∧ c'.samplePeriod = c.samplePeriod

theorem UCore.sampleLoop_once {n : Nat} {e : Int} (he : e ≤ 2145386496) :
    ∀ (k : Nat) {t : Int} {c : UCore}, Playing n c → c.waveform = .sample → 0 < c.samplePeriod →
    (c.callback = true ∨ c.repeatMode = 0) → c.mute = 0 → 0 ≤ t → InI32 t → Adequate e t k →
    ∃ t' c' ps, UCore.sampleLoop false e n k t c = .ok (t', c', ps) ∧
      Once c c' ps n t (pulseCount t e U20) c.framesLeft
  | 0, t, c, hp, hw, hsp, hr, hm, h0, ht, ha => by
    have hz := ha.zero ht
    have hz' : ¬ t < e := by unfold InI32 at ht; unfold wrapU32 at hz; omega
    refine ⟨t, c, [], rfl, ?_⟩
    have hph := hp.frame.phase
    have hf := hp.pre.frac
    have hfl : 0 < c.framesLeft := by
      unfold UCore.framesLeft
      rw [pulseCount_succ (by omega) (by unfold UCore.pos; omega)]
      omega
    rw [pulseCount_zero hz']
    refine ⟨fun i _ => ?_, fun i _ => ?_, fun i _ => ?_, ?_, fun _ => ⟨by simp, rfl⟩⟩
    · simp [onChan, diffs]
    · simp [onChan]
    · simp
    · rw [if_neg (by omega)]; exact hm
  | k + 1, t, c, hp, hw, hsp, hr, hm, h0, ht, ha => by
    have hph := hp.frame.phase
    have hf := hp.pre.frac
    have hs := hp.pre.speed
    have hshort := hp.mod.short
    unfold PeriodOk at hs
    unfold InI32 at ht
    have hlt0 : c.pos < c.length * U20 := by unfold UCore.pos; omega
    have hfl : c.framesLeft = pulseCount (c.pos + c.samplePeriod) (c.length * U20) c.samplePeriod + 1 := by
      unfold UCore.framesLeft
      rw [pulseCount_succ (by omega) hlt0]
    by_cases hlt : t < e
    · have hwt : wrapU32 t < e := by unfold wrapU32; omega
      have hti : InI32 (t + c.timeFrac) := by unfold InI32; omega
      have hstep := UCore.sampleStep_once hp hti hsp hr
      show ∃ t' c' ps, (if wrapU32 t < e then _ else _) = _ ∧ _
      rw [if_pos hwt, hstep, pulseCount_succ (by omega) hlt, hfl]
      have hz : ∀ i, c.frameLevel i = c.heard i 0 := fun i => (UCore.heard_zero hf i).symm
      have htf : c.pos % U20 = c.timeFrac := by unfold UCore.pos; omega
      by_cases hin : c.phase + (c.timeFrac + c.samplePeriod) / 1048576 < c.length
      · rw [if_pos hin, ok_bind]
        dsimp only
        rw [if_neg (by decide), i32_ok (by omega) (by omega), ok_bind]
        obtain ⟨b, x, ps, h1, h2, h3⟩ := UCore.sampleStep_ok hp hw hti (cb := false) (by simp)
        rw [hstep, if_pos hin] at h1
        cases h1
        have hpos := UCore.pos_stepped (c := c) (n := n) (by omega)
        obtain ⟨t', c', qs, r1, r2⟩ := UCore.sampleLoop_once he k (t := t + U20) h3
          (h2.setup.waveform.trans hw) hsp (by rw [h2.callback, h2.repeatMode]; exact hr) hm (by omega)
          (by unfold InI32; omega) (ha.next (by unfold InI32; omega) hwt)
        rw [r1, ok_bind]
        refine ⟨t', c', c.framePulses t n ++ qs, rfl, ?_⟩
        have hfl2 : (c.stepped n).framesLeft = pulseCount (c.pos + c.samplePeriod) (c.length * U20) c.samplePeriod := by
          unfold UCore.framesLeft
          rw [hpos]
          rfl
        rw [hfl2] at r2
        have hmin : min (pulseCount (t + U20) e U20 + 1)
            (pulseCount (c.pos + c.samplePeriod) (c.length * U20) c.samplePeriod + 1) =
            min (pulseCount (t + U20) e U20)
              (pulseCount (c.pos + c.samplePeriod) (c.length * U20) c.samplePeriod) + 1 := by omega
        have hfun : ∀ i, (c.heard i ∘ Nat.succ) = (c.stepped n).heard i := by
          intro i
          funext j
          rw [UCore.heard_stepped hpos]
          rfl
        have hlast : ∀ i, i < n → (c.stepped n).lastPulse i = c.frameLevel i := by
          intro i hi
          show (if i < n then _ else _) = _
          rw [if_pos hi]
        refine ⟨fun i hi => ?_, fun i hi => ?_, fun i hi => ?_, ?_, fun hml => ?_⟩
        · rw [hmin, List.range_succ_eq_map, List.map_cons, List.map_map, hfun]
          unfold onChan
          rw [List.filter_append, List.map_append]
          have := r2.amps i hi
          unfold onChan at this
          rw [this, hlast i hi]
          have h4 := onChan_framePulses c t n hi
          unfold onChan at h4
          rw [h4, ← hz i]
          rfl
        · rw [hmin, List.range_succ_eq_map, List.map_cons, List.map_map]
          unfold onChan
          rw [List.filter_append, List.map_append]
          have := r2.times i hi
          unfold onChan at this
          rw [this]
          have h4 := onChan_framePulses c t n hi
          unfold onChan at h4
          rw [h4]
          show wrapU32 (t + c.timeFrac) :: _ = _ :: _
          congr 1
          · have e0 : ((0 : Nat) : Int) = 0 := rfl
            rw [e0, Int.zero_mul, Int.zero_mul, Int.add_zero, Int.add_zero, htf]
          · refine List.map_congr_left fun j _ => ?_
            show wrapU32 (t + U20 + j * U20 + ((c.stepped n).pos + j * c.samplePeriod) % U20) = wrapU32
              (t + ((j + 1 : Nat) : Int) * U20 + (c.pos + ((j + 1 : Nat) : Int) * c.samplePeriod) % U20)
            rw [hpos]
            have e1 : c.pos + c.samplePeriod + j * c.samplePeriod = c.pos + ((j + 1 : Nat) : Int) * c.samplePeriod := by
              push_cast; ring
            rw [e1]
            congr 2
            push_cast
            ring
        · rw [hmin, List.range_succ_eq_map, List.map_cons, List.map_map, hfun, getLastD_cons', r2.last i hi,
            hlast i hi, hz i]
        · rw [r2.mute]
          by_cases hle : pulseCount (c.pos + c.samplePeriod) (c.length * U20) c.samplePeriod ≤ pulseCount (t + U20) e U20
          · rw [if_pos hle, if_pos (by omega)]
          · rw [if_neg hle, if_neg (by omega)]
        · obtain ⟨q1, q2⟩ := r2.pos (by omega)
          refine ⟨?_, q2⟩
          rw [q1, hpos]
          show c.pos + c.samplePeriod + _ * c.samplePeriod = _
          push_cast
          ring
      · rw [if_neg hin, ok_bind]
        dsimp only
        rw [if_pos rfl]
        refine ⟨t, c.ended n, c.framePulses t n, rfl, ?_⟩
        have hzero : pulseCount (c.pos + c.samplePeriod) (c.length * U20) c.samplePeriod = 0 := by
          apply pulseCount_zero
          unfold UCore.pos
          omega
        rw [hzero]
        have hmin : min (pulseCount (t + U20) e U20 + 1) (0 + 1) = 1 := by omega
        refine ⟨fun i hi => ?_, fun i hi => ?_, fun i hi => ?_, ?_, fun hml => by omega⟩ <;> (try rw [hmin])
        · rw [onChan_framePulses c t n hi, hz i]; rfl
        · rw [onChan_framePulses c t n hi]
          show [wrapU32 (t + c.timeFrac)] = [wrapU32 (t + ((0 : Nat) : Int) * U20 + (c.pos + ((0 : Nat) : Int) * c.samplePeriod) % U20)]
          have e0 : ((0 : Nat) : Int) = 0 := rfl
          rw [e0, Int.zero_mul, Int.zero_mul, Int.add_zero, Int.add_zero, htf]
        · show (if i < n then c.frameLevel i else c.lastPulse i) = c.heard i 0
          rw [if_pos hi, hz i]
        · rw [if_pos (by omega)]; rfl
    · have hwt : wrapU32 t ≥ e := by unfold wrapU32; omega
      rw [UCore.sampleLoop_done hwt]
      refine ⟨t, c, [], rfl, ?_⟩
      rw [pulseCount_zero hlt]
      refine ⟨fun i _ => ?_, fun i _ => ?_, fun i _ => ?_, ?_, fun _ => ⟨by simp, rfl⟩⟩
      · simp [onChan, diffs]
      · simp [onChan]
      · simp
      · rw [if_neg (by omega)]; exact hm

end BK
