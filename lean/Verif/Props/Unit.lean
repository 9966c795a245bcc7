import Verif.Lemmas.UnitWave
/-!
C44 – C47: pulses of units, their times, their levels and the safety of the waveform tables.
-/
namespace BK

/-! ### C44 -/

/-- **C44**, up to multiples of 65536: whatever is set and rendered (without a reset), the pulses a
unit has sent to a channel add up to the level it last output there. -/
theorem C44_pulses_add_up_mod {n : Nat} {u : BUnit} {ps : List Pulse}
    (h : Reach n (fun _ op => op ≠ .reset) u ps) (i : Nat) :
    (sumChan i ps - u.lastPulse i) % 65536 = 0 := by
  induction h with
  | init h => rw [UCore.init_last h]; rfl
  | step _ hl hp hs ih =>
    rename_i u u' op ps qs _
    rw [sumChan_append]
    by_cases hr : ∃ e, op = .run e
    · obtain ⟨e, rfl⟩ := hr
      obtain ⟨x, hx, hs⟩ := bind_ok_iff.1 hs
      cases hs
      have := UCore.render_leads hx i
      show (sumChan i ps + sumChan i x.2.2 - x.2.1.lastPulse i) % 65536 = 0
      omega
    · obtain ⟨e1, rfl⟩ := BUnit.step_last hs hp (fun e he => hr ⟨e, he⟩)
      rw [e1, sumChan_nil]
      simpa using ih

/-- **C44**, partial: exactly, as long as the unit is rendered at no more than half volume or with a
waveform of half height (triangle, noise, sine).  Missing: jumps of more than 32767, which are
truncated to 16 bits, see `C44_refuted`. -/
theorem C44_pulses_add_up_partial {n : Nat} {u : BUnit} {ps : List Pulse}
    (h : Reach n (fun u op => op ≠ .reset ∧ NoStrayRelease u op ∧
      ∀ e, op = .run e → Gentle u.toUCore) u ps) (i : Nat) :
    sumChan i ps = u.lastPulse i := by
  suffices hh : u.toUCore.Inv ∧ (∀ i, -16383 ≤ u.lastPulse i ∧ u.lastPulse i ≤ 16383) ∧
      ∀ i, sumChan i ps = u.lastPulse i from hh.2.2 i
  induction h with
  | init h =>
    refine ⟨UCore.init_inv h, ?_, ?_⟩ <;> rw [UCore.init_last h]
    · intro i; simp
    · intro i; rfl
  | step _ hl hp hs ih =>
    rename_i u u' op ps qs _
    obtain ⟨i1, i2, i3⟩ := ih
    refine ⟨BUnit.step_inv i1 hl hp.2.1 hs, ?_⟩
    by_cases hr : ∃ e, op = .run e
    · obtain ⟨e, rfl⟩ := hr
      obtain ⟨x, hx, hs⟩ := bind_ok_iff.1 hs
      cases hs
      have := UCore.render_exactly i1 (hp.2.2 e rfl) hl.1 (by have := hl.2; omega) i2 hx
      refine ⟨this.2, fun i => ?_⟩
      rw [sumChan_append, this.1 i, i3 i]
      show u.lastPulse i + (x.2.1.lastPulse i - u.lastPulse i) = x.2.1.lastPulse i
      omega
    · obtain ⟨e1, rfl⟩ := BUnit.step_last hs hp.1 (fun e he => hr ⟨e, he⟩)
      rw [e1, List.append_nil]
      exact ⟨i2, i3⟩

/-- A square wave at full volume whose duty cycle goes from 8 to 15 at its top. -/
def dutyJump : List UOp :=
  [.attr .volume 32767, .attr .period 1048576, .attr .dutyCycle 8, .attr .phase 9, .run 1048576,
   .attr .dutyCycle 15, .run 2097152]

/-- **C44** as stated is false: the step from 32767 to -32767 is sent as a pulse of 2. -/
theorem C44_refuted : ∃ u ps, Reach 1 (fun _ op => op ≠ .reset) u ps ∧ sumChan 0 ps ≠ u.lastPulse 0 := by
  have h0 : Reach 1 (fun _ op => op ≠ UOp.reset) _ _ := Reach.init (w := 16385) rfl
  have h1 := Reach.step h0 (op := .attr .volume 32767) (by show InI32 _; decide) (by simp) rfl
  have h2 := Reach.step h1 (op := .attr .period 1048576) (by show InI32 _; decide) (by simp) rfl
  have h3 := Reach.step h2 (op := .attr .dutyCycle 8) (by show InI32 _; decide) (by simp) rfl
  have h4 := Reach.step h3 (op := .attr .phase 9) (by show InI32 _; decide) (by simp) rfl
  have h5 := Reach.step h4 (op := .run 1048576) (by show _ ∧ _; decide) (by simp) rfl
  have h6 := Reach.step h5 (op := .attr .dutyCycle 15) (by show InI32 _; decide) (by simp) rfl
  have h7 := Reach.step h6 (op := .run 2097152) (by show _ ∧ _; decide) (by simp) rfl
  exact ⟨_, _, h7, by decide +kernel⟩

/-- What the calls of `C44_refuted` send. -/
example : ((do
    let c ← UCore.init 16385
    let r ← BUnit.runs 1 { toUCore := c, time := 0 } dutyJump
    return (r.2, r.1.lastPulse 0)) : C (List Pulse × Int)) =
    .ok ([⟨0, 0, 32766⟩, ⟨0, 1048576, 3⟩], -32767) := by decide +kernel

/-- A history within `C44_pulses_add_up_partial`: a triangle at full volume. -/
example : ((do
    let c ← UCore.init 16386
    let r ← BUnit.runs 1 { toUCore := c, time := 0 }
      [.attr .volume 32767, .attr .period 1048576, .run 9000000, .attr .volume 100, .run 12000000]
    return (r.2.map (·.amp), r.1.lastPulse 0)) : C (List Int × Int)) =
    .ok ([0, 2046, 2048, 2048, 2048, 2048, 2048, 2048, 0, -14297, -6, -7], 24) := by decide +kernel

/-! ### C45 -/

/-- **C45**: a built-in waveform with a table sends one pulse every `period` time units from its
time on, the `k`-th with the level of the `k`-th next table entry, and the next rendering continues
at the entry after the last one. -/
theorem C45_pulse_train {n : Nat} {u : BUnit} {ps : List Pulse} (h : Reach n NoStrayRelease u ps)
    {cnt : Nat} (hw : u.waveform.phases = some cnt) (hm : u.mute = 0) (hp : u.period ≠ 0)
    {e : Int} (h0 : 0 ≤ e) (he : e ≤ 2147483648) {i : Nat} (hi : i < n) (hv : u.volume i ≠ 0) :
    ∃ t' c' qs, u.toUCore.render u.time e n = .ok (t', c', qs) ∧
      (∀ k : Nat, u.time + k * u.period < e → (onChan i qs)[k]? = some ⟨i, u.time + k * u.period,
        wrapI16 (level (u.waveform.value u.dutyCycle.toNat ((u.phase.toNat + k) % cnt)) (u.volume i) -
          (if k = 0 then u.lastPulse i else
            level (u.waveform.value u.dutyCycle.toNat ((u.phase.toNat + (k - 1)) % cnt)) (u.volume i)))⟩) ∧
      (∀ k : Nat, ¬ u.time + k * u.period < e → (onChan i qs)[k]? = none) ∧
      t' = u.time + (onChan i qs).length * u.period ∧
      c'.phase = (u.phase + (onChan i qs).length) % cnt := by
  have hinv := h.inv (fun _ _ h => h)
  have hp1 : 1 ≤ u.period := by have := hinv.period; omega
  have hc := hinv.phase
  have hph : 0 ≤ u.phase ∧ u.phase < cnt := by
    unfold PhaseInv at hc
    unfold Wave.phases at hw
    cases hwv : u.waveform <;> rw [hwv] at hw hc <;> dsimp only at hw hc <;> cases hw <;>
      exact hc.1
  have ht : u.waveform.tabled := by
    unfold Wave.phases at hw
    constructor <;> intro h <;> rw [h] at hw <;> cases hw
  have hst : u.startPhase = u.phase := by
    unfold UCore.startPhase
    rw [if_neg]
    rintro ⟨h, -⟩
    unfold Wave.phases at hw
    rw [h] at hw
    cases hw
  have hvals := UCore.waveVals_table hw hinv.duty (pulseCount u.time e u.period)
    (wc := wrapU32 u.wrapCount) hph
  rw [← hst] at hvals
  have hr := UCore.render_eq ht hinv.waveOk hp1 (by have := hinv.period; omega) hm h0 hvals n
  have hon : u.on n = true := by
    unfold UCore.on
    rw [List.any_eq_true]
    exact ⟨i, by simpa using hi, by simpa using hv⟩
  have hlen : (onChan i ((List.range n).flatMap (u.chanPulses u.time ((List.range
      (pulseCount u.time e u.period)).map fun k =>
      u.waveform.value u.dutyCycle.toNat ((u.startPhase.toNat + k) % cnt))))).length =
      pulseCount u.time e u.period := by
    rw [UCore.flat_chan, if_pos hi, UCore.chanPulses_length hv]; simp
  refine ⟨_, _, _, hr, ?_, ?_, ?_, ?_⟩
  · intro k hk
    have hk' := (pulseCount_iff hp1 e k u.time).2 hk
    rw [UCore.flat_chan, if_pos hi, UCore.chanPulses_get hv (by simpa using hk')]
    have e1 : ∀ j, j < pulseCount u.time e u.period → ((List.range
      (pulseCount u.time e u.period)).map fun k =>
      u.waveform.value u.dutyCycle.toNat ((u.startPhase.toNat + k) % cnt)).getD j 0 =
      u.waveform.value u.dutyCycle.toNat ((u.phase.toNat + j) % cnt) := by
      intro j hj
      rw [getD_get _ (by simpa using hj)]
      simp [hst]
    rw [e1 k hk']
    by_cases h0 : k = 0
    · simp [h0]
    · rw [if_neg h0, if_neg h0, e1 (k - 1) (by omega)]
  · intro k hk
    have hk' := mt (pulseCount_iff hp1 e k u.time).1 hk
    rw [List.getElem?_eq_none]
    rw [hlen]; omega
  · rw [hlen, hon, if_pos rfl]
  · rw [hlen, ← hst]
    unfold UCore.afterWave
    simp [hon]

/-- **C45**: how rendering is divided does not matter: rendering a waveform up to `e1` and then up to
`e2` sends the same pulses to every channel and leaves the same unit as rendering up to `e2`. -/
theorem C45_division {n : Nat} {u : BUnit} {ps : List Pulse} (h : Reach n NoStrayRelease u ps)
    (hw : u.waveform ≠ .none ∧ u.waveform ≠ .sample) {e1 e2 : Int} (h0 : 0 ≤ e1) (he : e1 ≤ e2)
    (he2 : e2 ≤ 2147483648) :
    ∃ u1 u2 p1 p2 p, u.step n (.run e1) = .ok (u1, p1) ∧ u1.step n (.run e2) = .ok (u2, p2) ∧
      u.step n (.run e2) = .ok (u2, p) ∧ ∀ i, onChan i p = onChan i p1 ++ onChan i p2 := by
  have hinv := h.inv (fun _ _ h => h)
  obtain ⟨t1, c1, p1, t2, c2, p2, p, r1, -, r2, -, r3, -, -, hc⟩ :=
    UCore.wave_split (n := n) (t0 := u.time) hw hinv.waveOk he
      (by have := hinv.period; omega) h0
  refine ⟨⟨c1, t1⟩, ⟨c2, t2⟩, p1, p2, p, ?_, ?_, ?_, hc⟩
  · show (do let r ← u.toUCore.render u.time e1 n; _) = _
    rw [r1]; rfl
  · show (do let r ← c1.render t1 e2 n; _) = _
    rw [r2]; rfl
  · show (do let r ← u.toUCore.render u.time e2 n; _) = _
    rw [r3]; rfl

/-- A sawtooth rendered in one and in three parts. -/
example : ((do
    let c ← UCore.init 16388
    let r ← BUnit.runs 1 { toUCore := c, time := 0 }
      [.attr .volume 20000, .attr .period 1500000, .run 9000000]
    let s ← BUnit.runs 1 { toUCore := c, time := 0 }
      [.attr .volume 20000, .attr .period 1500000, .run 100, .run 4000000, .run 9000000]
    return (r.2 == s.2, r.2.map (·.time), r.1.phase)) : C (Bool × List Int × Int)) =
    .ok (true, [0, 1500000, 3000000, 4500000, 6000000, 7500000], 6) := by decide +kernel

/-! ### C46 -/

/-- **C46**, partial: whatever is set in whatever order, rendering a waveform never fails (all
table accesses are in range, no overflow).  Missing: a release with immediate jump while a waveform
plays on a unit that still has the sustain range of an earlier sample, see `C46_refuted`. -/
theorem C46_in_range_partial {n : Nat} {u : BUnit} {ps : List Pulse} (h : Reach n NoStrayRelease u ps)
    (hw : u.waveform ≠ .sample) {e : Int} (h0 : 0 ≤ e) (he : e ≤ 2147483648) :
    ∃ r, u.toUCore.render u.time e n = .ok r := by
  have hinv := h.inv (fun _ _ h => h)
  by_cases hn : u.waveform = .none
  · unfold UCore.render UCore.runAny
    rw [hn]
    split <;> exact ⟨_, rfl⟩
  · obtain ⟨t, c, p, e, -⟩ := UCore.render_wave_ok hinv ⟨hn, hw⟩ u.time h0 he n
    exact ⟨_, e⟩

/-- A sample of twenty frames. -/
def twenty : SampleData := { numFrames := 20, numChannels := 1, frames := List.replicate 20 5 }

theorem twenty_wf : twenty.Wf := ⟨by decide, by decide, rfl, by decide⟩

/-- **C46** as stated is false: after playing a sample with a sustain range and immediate release, a
square wave that is released starts at phase 20 of 16. -/
theorem C46_refuted : ∃ u ps, Reach 1 (fun _ _ => True) u ps ∧ u.waveform = .square ∧
    (match u.toUCore.render u.time 1048576 1 with
      | .error f => f = .oob
      | .ok _ => False) := by
  have h0 : Reach 1 (fun _ _ => True) _ _ := Reach.init (w := 0) rfl
  have h1 := Reach.step h0 (op := .data .sample (some twenty)) twenty_wf trivial rfl
  have h2 := Reach.step h1 (op := .sustain (some (4, 20))) trivial trivial rfl
  have h3 := Reach.step h2 (op := .attr .immedRelease 1) (by show InI32 _; decide) trivial rfl
  have h4 := Reach.step h3 (op := .attr .waveform 16385) (by show InI32 _; decide) trivial rfl
  have h5 := Reach.step h4 (op := .attr .volume 32767) (by show InI32 _; decide) trivial rfl
  have h6 := Reach.step h5 (op := .attr .period 1048576) (by show InI32 _; decide) trivial rfl
  have h7 := Reach.step h6 (op := .attr .flagRelease 1) (by show InI32 _; decide) trivial rfl
  exact ⟨_, _, h7, rfl, rfl⟩

/-- A history within `C46_in_range_partial`: changes of waveform, duty cycle and phase. -/
example : ((do
    let c ← UCore.init 16385
    let r ← BUnit.runs 1 { toUCore := c, time := 0 }
      [.attr .volume 32767, .attr .period 500000, .attr .phase 15, .run 700000, .attr .waveform 16388,
       .attr .phase 99, .run 3000000, .data .waveform (some twenty), .attr .phaseWrap 3, .run 6000000,
       .attr .waveform 16387, .attr .dutyCycle 40, .run 8000000]
    return (r.2.length, r.1.dutyCycle)) : C (Nat × Int)) = .ok (16, 15) := by decide +kernel

/-! ### C47 -/

/-- **C47**: the levels a waveform takes on a channel lie within its volume. -/
theorem C47_within_volume {n : Nat} {u : BUnit} {ps : List Pulse} (h : Reach n NoStrayRelease u ps)
    (hw : u.waveform ≠ .none ∧ u.waveform ≠ .sample) {e : Int} (h0 : 0 ≤ e) (he : e ≤ 2147483648)
    (i : Nat) :
    ∃ t' c' qs ls, u.toUCore.render u.time e n = .ok (t', c', qs) ∧
      (onChan i qs).map (·.amp) = (diffs (u.lastPulse i) ls).map wrapI16 ∧
      c'.lastPulse i = ls.getLastD (u.lastPulse i) ∧
      ∀ l ∈ ls, -u.volume i ≤ l ∧ l ≤ u.volume i := by
  have hinv := h.inv (fun _ _ h => h)
  by_cases hp : u.period = 0
  · refine ⟨if u.time < e then e else u.time, u.toUCore, [], [], ?_, rfl, rfl, by simp⟩
    unfold UCore.render UCore.runAny
    rw [if_pos hp]; rfl
  by_cases hm : u.mute = 0
  · have hp1 := hinv.period
    obtain ⟨vs, p, w, hv, hok, hl, hr⟩ :=
      UCore.waveVals_ok (pulseCount u.time e u.period) hinv.waveOk.phase
    have hren := UCore.render_eq hw hinv.waveOk (by omega) (by omega) hm h0 hv n
    by_cases hi : i < n ∧ u.volume i ≠ 0
    · refine ⟨_, _, _, vs.map (level · (u.volume i)), hren, ?_, ?_, ?_⟩
      · rw [UCore.flat_chan, if_pos hi.1]
        unfold UCore.chanPulses
        rw [if_neg hi.2, List.map_map]
        show List.map (·.2) (stamp u.time u.period _) = _
        rw [stamp_amps]
        rfl
      · unfold UCore.afterWave
        dsimp only
        rw [if_pos hi]
        rfl
      · intro l hl
        obtain ⟨v, hv, rfl⟩ := List.mem_map.1 hl
        have := level_bound (hr v hv) (hinv.volume i)
        omega
    · refine ⟨_, _, _, [], hren, ?_, ?_, by simp⟩
      · rw [UCore.flat_chan]
        by_cases h1 : i < n
        · rw [if_pos h1]
          unfold UCore.chanPulses
          rw [if_pos (by by_contra h2; exact hi ⟨h1, h2⟩)]
          rfl
        · rw [if_neg h1]; rfl
      · unfold UCore.afterWave
        dsimp only
        rw [if_neg hi]
        rfl
  · refine ⟨e, u.toUCore, [], [], ?_, rfl, rfl, by simp⟩
    rw [UCore.render_wave hw hp]
    unfold UCore.runWaveform
    rw [if_pos hm]
    simp only [ok_bind, pure_eq_ok]
    congr 2
    split <;> omega

/-- **C47**: a muted unit sends nothing, and a waveform sends nothing to a channel of volume 0. -/
theorem C47_silence {u : BUnit} {e : Int} {n : Nat} {r : Int × UCore × List Pulse}
    (h : u.toUCore.render u.time e n = .ok r) (i : Nat)
    (hs : u.mute ≠ 0 ∨ (u.volume i = 0 ∧ u.waveform ≠ .sample)) : onChan i r.2.2 = [] := by
  unfold UCore.render at h
  obtain ⟨x, hx, h⟩ := bind_ok_iff.1 h
  cases h
  dsimp only
  unfold UCore.runAny at hx
  split at hx
  · cases hx; rfl
  · split at hx
    · cases hx; rfl
    · rename_i hsm
      have hm : u.mute ≠ 0 := by
        rcases hs with h | h
        · exact h
        · exact absurd hsm h.2
      unfold UCore.runSample at hx
      rw [if_pos hm] at hx
      cases hx; rfl
    · unfold UCore.runWaveform at hx
      split at hx
      · cases hx; rfl
      · rename_i hm
        have hv : u.volume i = 0 := by
          rcases hs with h | h
          · exact absurd h hm
          · exact h.1
        have : ∀ (l : List Nat) (st st' : Int × UCore × List Pulse), onChan i st.2.2 = [] →
            l.foldlM (u.toUCore.waveChan u.time e) st = .ok st' → onChan i st'.2.2 = [] := by
          intro l st st' h0 h1
          refine foldlM_inv (P := fun st : Int × UCore × List Pulse => onChan i st.2.2 = []) ?_ l h0 h1
          intro st j st' hst hj
          unfold UCore.waveChan at hj
          split at hj
          · cases hj; exact hst
          · rename_i hj0
            obtain ⟨z, -, hj⟩ := bind_ok_iff.1 hj
            cases hj
            rw [onChan_append, hst, List.nil_append]
            unfold onChan
            rw [List.filter_eq_nil_iff]
            intro a ha
            obtain ⟨y, -, rfl⟩ := List.mem_map.1 ha
            have : j ≠ i := fun e => hj0 (e ▸ hv)
            simpa using this
        exact this _ _ _ rfl hx

/-- **C47**: a sample at volume 0 on a channel at level 0 stays silent there. -/
theorem C47_silent_sample {u : BUnit} {e : Int} {n : Nat} {r : Int × UCore × List Pulse}
    (h : u.toUCore.render u.time e n = .ok r) (hw : u.waveform = .sample) {i : Nat}
    (hv : u.volume i = 0) (hl : u.lastPulse i = 0) :
    (∀ p ∈ onChan i r.2.2, p.amp = 0) ∧ r.2.1.lastPulse i = 0 := by
  unfold UCore.render at h
  obtain ⟨x, hx, h⟩ := bind_ok_iff.1 h
  cases h
  dsimp only
  unfold UCore.runAny at hx
  split at hx
  · cases hx; exact ⟨by simp [onChan], hl⟩
  · rw [hw] at hx
    dsimp only at hx
    unfold UCore.runSample at hx
    split at hx
    · cases hx; exact ⟨by simp [onChan], hl⟩
    · obtain ⟨d, -, hx⟩ := bind_ok_iff.1 hx
      obtain ⟨d', -, hx⟩ := bind_ok_iff.1 hx
      split at hx
      · cases hx; exact ⟨by simp [onChan], hl⟩
      · obtain ⟨y, hy, hx⟩ := bind_ok_iff.1 hx
        cases hx
        have := UCore.sampleLoop_silent _ ⟨hv, hl⟩ hy
        exact ⟨this.1, this.2.2⟩

/-- **C47**: two channels with equal volume and equal last level get the same audio. -/
theorem C47_equal_channels {n : Nat} {u : BUnit} {ps : List Pulse} (h : Reach n NoStrayRelease u ps)
    (hw : u.waveform ≠ .none ∧ u.waveform ≠ .sample) {e : Int} (h0 : 0 ≤ e) (he : e ≤ 2147483648)
    {i j : Nat} (hi : i < n) (hj : j < n) (hv : u.volume i = u.volume j)
    (hl : u.lastPulse i = u.lastPulse j) :
    ∃ t' c' qs, u.toUCore.render u.time e n = .ok (t', c', qs) ∧
      (onChan i qs).map (fun p => (p.time, p.amp)) = (onChan j qs).map (fun p => (p.time, p.amp)) ∧
      c'.lastPulse i = c'.lastPulse j := by
  have hinv := h.inv (fun _ _ h => h)
  by_cases hp : u.period = 0
  · refine ⟨if u.time < e then e else u.time, u.toUCore, [], ?_, rfl, hl⟩
    unfold UCore.render UCore.runAny
    rw [if_pos hp]; rfl
  by_cases hm : u.mute = 0
  · have hp1 := hinv.period
    obtain ⟨vs, p, w, hvs, hok, hlen, hr⟩ :=
      UCore.waveVals_ok (pulseCount u.time e u.period) hinv.waveOk.phase
    have hren := UCore.render_eq hw hinv.waveOk (by omega) (by omega) hm h0 hvs n
    refine ⟨_, _, _, hren, ?_, ?_⟩
    · rw [UCore.flat_chan, UCore.flat_chan, if_pos hi, if_pos hj]
      unfold UCore.chanPulses
      rw [hv, hl]
      split
      · rfl
      · rw [List.map_map, List.map_map]; rfl
    · unfold UCore.afterWave
      dsimp only
      rw [hv, hl]
      simp [hi, hj]
  · refine ⟨e, u.toUCore, [], ?_, rfl, hl⟩
    rw [UCore.render_wave hw hp]
    unfold UCore.runWaveform
    rw [if_pos hm]
    simp only [ok_bind, pure_eq_ok]
    congr 2
    split <;> omega

/-- Two channels, one of them silent, a square wave. -/
example : ((do
    let c ← UCore.init 16385
    let r ← BUnit.runs 3 { toUCore := c, time := 0 }
      [.attr .volume 10000, .attr (.volumeOf 1) 0, .attr .period 500000, .run 2000000]
    return r.2) : C (List Pulse)) =
    .ok [⟨0, 0, 0⟩, ⟨0, 500000, 0⟩, ⟨0, 1000000, 9999⟩, ⟨0, 1500000, 0⟩,
         ⟨2, 0, 0⟩, ⟨2, 500000, 0⟩, ⟨2, 1000000, 9999⟩, ⟨2, 1500000, 0⟩] := by decide +kernel

end BK
