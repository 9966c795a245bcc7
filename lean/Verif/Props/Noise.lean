import Verif.Lemmas.Noise
/-!
C48, C49: the noise waveform.
-/
namespace BK

/-- What one rendering of noise sends to channel `i`: the values `vs`, each ±16383, scaled to the
volume; `c` is the unit afterwards. -/
def NoiseOut (u : BUnit) (e : Int) (n i : Nat) (vs : List Int) (c : UCore) : Prop :=
  ∃ t qs, u.toUCore.render u.time e n = .ok (t, c, qs) ∧
    (onChan i qs).map (·.amp) = (diffs (u.lastPulse i) (vs.map (level · (u.volume i)))).map wrapI16 ∧
    ∀ v ∈ vs, v = 16383 ∨ v = -16383

theorem noiseOut {n : Nat} {u : BUnit} {ps : List Pulse} (h : Reach n NoStrayRelease u ps)
    (hw : u.waveform = .noise) (hm : u.mute = 0) (hp : u.period ≠ 0) {e : Int} (h0 : 0 ≤ e)
    (he : e ≤ 2147483648) {i : Nat} (hi : i < n) (hv : u.volume i ≠ 0) :
    ∃ c, NoiseOut u e n i ((List.range (pulseCount u.time e u.period)).map
        (u.noiseVal u.startPhase (wrapU32 u.wrapCount))) c ∧ 1 ≤ c.phase ∧ c.phase ≤ 65535 ∧
      WrapOk u.wrap (wrapU32 u.wrapCount) ∧ 1 ≤ u.startPhase ∧ u.startPhase ≤ 65535 := by
  have hinv := h.inv (fun _ _ h => h)
  have ht : u.waveform.tabled := by rw [hw]; exact ⟨by simp, by simp⟩
  have hp1 := hinv.period
  have hph := hinv.waveOk.phase
  have hvals := UCore.waveVals_noise hw (pulseCount u.time e u.period) u.startPhase (wrapU32 u.wrapCount)
  have hren := UCore.render_eq ht hinv.waveOk (by omega) (by omega) hm h0 hvals n
  have hst : 1 ≤ u.startPhase ∧ u.startPhase ≤ 65535 := by
    have := hph.2
    rw [hw] at this
    exact this
  have hon : u.on n = true := by
    unfold UCore.on
    rw [List.any_eq_true]
    exact ⟨i, by simpa using hi, by simpa using hv⟩
  have hok := UCore.noiseAt_ok (c := u.toUCore) (pulseCount u.time e u.period) hinv.wrap hst
  refine ⟨_, ⟨_, _, hren, ?_, ?_⟩, ?_, ?_, hinv.wrap, hst⟩
  · rw [UCore.flat_chan, if_pos hi]
    unfold UCore.chanPulses
    rw [if_neg hv, List.map_map]
    show List.map (·.2) (stamp u.time u.period _) = _
    rw [stamp_amps]
    rfl
  · intro v hv
    obtain ⟨k, -, rfl⟩ := List.mem_map.1 hv
    unfold UCore.noiseVal noiseLevel
    dsimp only
    split <;> simp
  · unfold UCore.afterWave
    simp only [hon, if_true]
    exact hok.2.1
  · unfold UCore.afterWave
    simp only [hon, if_true]
    exact hok.2.2

/-- **C48**, partial: after any history, with any start phase, the noise register is a non-zero
16-bit number after rendering, and noise does not become constant: without phase wrap among any 17
successive values, with a phase wrap of at least 3 among any 20, both values occur.  Missing: a phase
wrap of 2, see `C48_refuted`. -/
theorem C48_noise_alive_partial {n : Nat} {u : BUnit} {ps : List Pulse} (h : Reach n NoStrayRelease u ps)
    (hw : u.waveform = .noise) (hm : u.mute = 0) (hp : u.period ≠ 0) {e : Int} (h0 : 0 ≤ e)
    (he : e ≤ 2147483648) {i : Nat} (hi : i < n) (hv : u.volume i ≠ 0) :
    ∃ vs c, NoiseOut u e n i vs c ∧ (vs.length : Int) = pulseCount u.time e u.period ∧
      1 ≤ c.phase ∧ c.phase ≤ 65535 ∧
      (u.wrap = 0 → ∀ k, k + 17 ≤ vs.length →
        (∃ j < 17, vs[k + j]? = some 16383) ∧ ∃ j < 17, vs[k + j]? = some (-16383)) ∧
      (3 ≤ u.wrap → ∀ k, k + 20 ≤ vs.length →
        (∃ j < 20, vs[k + j]? = some 16383) ∧ ∃ j < 20, vs[k + j]? = some (-16383)) := by
  obtain ⟨c, hout, hc1, hc2, hwr, hst⟩ := noiseOut h hw hm hp h0 he hi hv
  refine ⟨_, c, hout, by simp, hc1, hc2, ?_, ?_⟩
  · intro hz k hk
    simp only [List.length_map, List.length_range] at hk
    have hok := UCore.noiseAt_ok (c := u.toUCore) k hwr hst
    have get : ∀ j < 17, ((List.range (pulseCount u.time e u.period)).map
        (u.noiseVal u.startPhase (wrapU32 u.wrapCount)))[k + j]? =
        some (noiseLevel (noiseBit (u.noiseAt u.startPhase (wrapU32 u.wrapCount) k).1 j)) := by
      intro j hj
      rw [List.getElem?_map, List.getElem?_range (by omega), Option.map_some, UCore.noiseVal_add,
        UCore.noiseVal_plain hok.1 (fun h => absurd hz h)]
    obtain ⟨j, hj, e1⟩ := noise_has_one hok.2
    obtain ⟨j', hj', e2⟩ := noise_has_zero hok.2
    exact ⟨⟨j, by omega, by rw [get j (by omega), e1]; rfl⟩, ⟨j', hj', by rw [get j' hj', e2]; rfl⟩⟩
  · intro hw3 k hk
    simp only [List.length_map, List.length_range] at hk
    have hne : u.wrap ≠ 0 := by omega
    have hok := UCore.noiseAt_ok (c := u.toUCore) k hwr hst
    generalize hs : u.noiseAt u.startPhase (wrapU32 u.wrapCount) k = s at hok
    have get : ∀ j < 20, ((List.range (pulseCount u.time e u.period)).map
        (u.noiseVal u.startPhase (wrapU32 u.wrapCount)))[k + j]? = some (u.noiseVal s.1 s.2 j) := by
      intro j hj
      rw [List.getElem?_map, List.getElem?_range (by omega), Option.map_some, UCore.noiseVal_add, hs]
    have hs2 := hok.1.2.2 hne
    by_cases hfar : 18 < s.2
    · have get' : ∀ j < 17, u.noiseVal s.1 s.2 j = noiseLevel (noiseBit s.1 j) := fun j hj =>
        UCore.noiseVal_plain hok.1 (fun _ => by omega)
      obtain ⟨j, hj, e1⟩ := noise_has_one hok.2
      obtain ⟨j', hj', e2⟩ := noise_has_zero hok.2
      exact ⟨⟨j, by omega, by rw [get j (by omega), get' j (by omega), e1]; rfl⟩,
        ⟨j', by omega, by rw [get j' (by omega), get' j' hj', e2]; rfl⟩⟩
    · -- the register restarts at pulse `s.2 - 1`
      have hone := UCore.noiseAt_one (c := u.toUCore) (phase := s.1) hok.1 hne
      have hlen : (s.2 - 1).toNat ≤ 17 := by omega
      have val : ∀ j, u.noiseVal s.1 s.2 ((s.2 - 1).toNat + j) = u.noiseVal 19009 1 j := by
        intro j
        rw [UCore.noiseVal_add, hone]
        exact UCore.noiseVal_forget hne _ _ j
      have v0 : u.noiseVal 19009 1 0 = 16383 := by
        unfold UCore.noiseVal UCore.noiseAt
        dsimp only
        rw [wrapStep_one hne]
        show noiseLevel (noiseStep 19009).1 = 16383
        decide
      have v2 : u.noiseVal 19009 1 2 = -16383 := by
        rw [UCore.noiseVal_succ, wrapStep_one hne, UCore.noiseVal_plain
          ⟨hok.1.1, by unfold InU32; have := hok.1.1; omega, fun _ => by omega⟩ (fun _ => by push_cast; omega)]
        show noiseLevel (noiseBit (noiseStep 19009).2 1) = -16383
        decide
      exact ⟨⟨(s.2 - 1).toNat + 0, by omega, by rw [get _ (by omega), val, v0]⟩,
        ⟨(s.2 - 1).toNat + 2, by omega, by rw [get _ (by omega), val, v2]⟩⟩

/-- **C48** as stated is false: with a phase wrap of 2, the smallest that can be set, noise sends one
pulse and then stays constant. -/
theorem C48_refuted : ∃ u ps, Reach 1 NoStrayRelease u ps ∧ u.waveform = .noise ∧
    u.getAttr .phaseWrap = .ok (some 2) ∧ u.volume 0 = 32767 ∧
    (u.toUCore.render u.time 50000 1).map (fun r => r.2.2.map (·.amp)) =
      .ok (16382 :: List.replicate 49 0) := by
  have h0 : Reach 1 NoStrayRelease _ _ := Reach.init (w := 16387) rfl
  have h1 := Reach.step h0 (op := .attr .volume 32767) (by show InI32 _; decide)
    (by intro v h; cases h) rfl
  have h2 := Reach.step h1 (op := .attr .period 1000) (by show InI32 _; decide)
    (by intro v h; cases h) rfl
  have h3 := Reach.step h2 (op := .attr .phaseWrap 2) (by show InI32 _; decide)
    (by intro v h; cases h) rfl
  exact ⟨_, _, h3, rfl, rfl, rfl, by decide +kernel⟩

/-- Noise without phase wrap: the first values. -/
example : ((do
    let c ← UCore.init 16387
    let r ← BUnit.runs 1 { toUCore := c, time := 0 }
      [.attr .volume 32767, .attr .period 1000, .run 20000]
    return (r.2.map (·.amp), r.1.phase)) : C (List Int × Int)) =
    .ok ([16382, 0, -32765, 32765, -32765, 0, 32765, 0, 0, 0, -32765, 32765, -32765, 32765, -32765,
      32765, -32765, 32765, 0, 0], 60092) := by decide +kernel

/-! ### C49 -/

/-- **C49**, partial: with a phase wrap of `w` the values repeat after `w` pulses, from pulse `w - 1`
on at the latest, in any reachable state.  Missing: the first block, which is one pulse shorter, see
`C49_refuted`. -/
theorem C49_noise_period_partial {n : Nat} {u : BUnit} {ps : List Pulse} (h : Reach n NoStrayRelease u ps)
    (hw : u.waveform = .noise) (hm : u.mute = 0) (hp : u.period ≠ 0) {e : Int} (h0 : 0 ≤ e)
    (he : e ≤ 2147483648) {i : Nat} (hi : i < n) (hv : u.volume i ≠ 0) {w : Nat} (hww : u.wrap = w)
    (hw0 : w ≠ 0) :
    ∃ vs c, NoiseOut u e n i vs c ∧ (vs.length : Int) = pulseCount u.time e u.period ∧
      ∀ k, w ≤ k + 1 → k + w < vs.length → vs[k + w]? = vs[k]? := by
  obtain ⟨c, hout, hc1, hc2, hwr, hst⟩ := noiseOut h hw hm hp h0 he hi hv
  refine ⟨_, c, hout, by simp, ?_⟩
  intro k hk hk2
  simp only [List.length_map, List.length_range] at hk2
  rw [List.getElem?_map, List.getElem?_range (by omega), List.getElem?_map,
    List.getElem?_range (by omega)]
  simp only [Option.map_some]
  have hne : u.wrap ≠ 0 := by omega
  have hr := hwr.2.2 hne
  have hone := UCore.noiseAt_one (c := u.toUCore) (phase := u.startPhase) hwr hne
  obtain ⟨j, hj⟩ : ∃ j, k = (wrapU32 u.wrapCount - 1).toNat + j := ⟨k - (wrapU32 u.wrapCount - 1).toNat, by omega⟩
  rw [hj, Nat.add_assoc, Nat.add_comm j w, UCore.noiseVal_add (a := (wrapU32 u.wrapCount - 1).toNat) (b := w + j),
    UCore.noiseVal_add (a := (wrapU32 u.wrapCount - 1).toNat) (b := j), hone,
    UCore.noiseVal_add (a := w) (b := j)]
  have hag := UCore.noiseAt_again (c := u.toUCore)
    (phase := (u.noiseAt u.startPhase (wrapU32 u.wrapCount) (wrapU32 u.wrapCount - 1).toNat).1) hne hwr.1
  rw [show u.wrap.toNat = w by omega] at hag
  rw [hag]
  congr 1
  exact UCore.noiseVal_forget hne _ _ j

/-- **C49** as stated is false: with a phase wrap of 4 the values (here as pulses) are
1 1 0 | 1 1 0 1 | 1 1 0 1 | …: the first block has three. -/
theorem C49_refuted : ∃ u ps, Reach 1 NoStrayRelease u ps ∧ u.waveform = .noise ∧
    u.getAttr .phaseWrap = .ok (some 4) ∧ u.volume 0 = 32767 ∧
    NoiseOut u 11000 1 0 ([1, 1, 0, 1, 1, 0, 1, 1, 1, 0, 1].map noiseLevel)
      (match u.toUCore.render u.time 11000 1 with | .ok r => r.2.1 | .error _ => u.toUCore) := by
  have h0 : Reach 1 NoStrayRelease _ _ := Reach.init (w := 16387) rfl
  have h1 := Reach.step h0 (op := .attr .volume 32767) (by show InI32 _; decide)
    (by intro v h; cases h) rfl
  have h2 := Reach.step h1 (op := .attr .period 1000) (by show InI32 _; decide)
    (by intro v h; cases h) rfl
  have h3 := Reach.step h2 (op := .attr .phaseWrap 4) (by show InI32 _; decide)
    (by intro v h; cases h) rfl
  refine ⟨_, _, h3, rfl, rfl, rfl, _, _, rfl, by decide +kernel, by decide⟩

end BK
