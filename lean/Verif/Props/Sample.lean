import Verif.Lemmas.SampleOnce
/-!
C51 and C52: playing samples.
-/
namespace BK

/-- **C51**, partial: a sample renders without fault, in particular only existing frames are read,
after any calls that leave it within the limits of `Moderate`: at most 2^30 frames; the sustain range
lies within the sample range, and before its last frame if releases jump; played back and forth, a
step is shorter than the sample.  Missing: the rest, where it is false, see `C51_refuted_*`. -/
theorem C51_in_bounds_partial {n : Nat} {u : BUnit} {ps : List Pulse} (h : Reach n (SampleGentle n) u ps)
    (hw : u.waveform = .sample) {e : Int} (he : e ≤ 2145386496) :
    ∃ r, u.toUCore.render u.time e n = .ok r := by
  obtain ⟨t, c, p, h1, -⟩ := UCore.render_sample_ok (h.inv fun _ _ h => h.1) h.sinv hw u.time he
  exact ⟨_, h1⟩

/-- Two frames. -/
def twoFrames : SampleData := { numFrames := 2, numChannels := 1, frames := [100, 200] }

theorem twoFrames_wf : twoFrames.Wf := ⟨by decide, by decide, rfl, by decide⟩

/-- Eight frames. -/
def eightFrames : SampleData := { numFrames := 8, numChannels := 1, frames := [1, 2, 3, 4, 5, 6, 7, 8] }

theorem eightFrames_wf : eightFrames.Wf := ⟨by decide, by decide, rfl, by decide⟩

/-- **C51** as stated is false: a sample of two frames played back and forth at four times its speed
reads the frame after the last. -/
theorem C51_refuted_turn : ∃ u ps, Reach 1 (fun _ _ => True) u ps ∧ u.waveform = .sample ∧
    (match u.toUCore.render u.time 8388608 1 with
      | .error f => f = .oob
      | .ok _ => False) := by
  have h0 : Reach 1 (fun _ _ => True) _ _ := Reach.init (w := 0) rfl
  have h1 := Reach.step h0 (op := .data .sample (some twoFrames)) twoFrames_wf trivial rfl
  have h2 := Reach.step h1 (op := .attr .sampleRepeat 2) (by show InI32 _; decide) trivial rfl
  have h3 := Reach.step h2 (op := .attr .samplePeriod 4194304) (by show InI32 _; decide) trivial rfl
  have h4 := Reach.step h3 (op := .attr .period 1048576) (by show InI32 _; decide) trivial rfl
  exact ⟨_, _, h4, rfl, rfl⟩

/-- **C51** as stated is false: releasing a sample whose sustain range ends with the sample, with
immediate jump, reads the frame after the last. -/
theorem C51_refuted_release : ∃ u ps, Reach 1 (fun _ _ => True) u ps ∧ u.waveform = .sample ∧
    (match u.toUCore.render u.time 1048576 1 with
      | .error f => f = .oob
      | .ok _ => False) := by
  have h0 : Reach 1 (fun _ _ => True) _ _ := Reach.init (w := 0) rfl
  have h1 := Reach.step h0 (op := .data .sample (some eightFrames)) eightFrames_wf trivial rfl
  have h2 := Reach.step h1 (op := .sustain (some (2, -1))) trivial trivial rfl
  have h3 := Reach.step h2 (op := .attr .immedRelease 1) (by show InI32 _; decide) trivial rfl
  have h4 := Reach.step h3 (op := .attr .period 1048576) (by show InI32 _; decide) trivial rfl
  have h5 := Reach.step h4 (op := .attr .flagRelease 1) (by show InI32 _; decide) trivial rfl
  exact ⟨_, _, h5, rfl, rfl⟩

/-- **C51** as stated is false: a sustain range is taken relative to the data, but applied relative to
the sample range. -/
theorem C51_refuted_sustain : ∃ u ps, Reach 1 (fun _ _ => True) u ps ∧ u.waveform = .sample ∧
    (match u.toUCore.render u.time 8388608 1 with
      | .error f => f = .oob
      | .ok _ => False) := by
  have h0 : Reach 1 (fun _ _ => True) _ _ := Reach.init (w := 0) rfl
  have h1 := Reach.step h0 (op := .data .sample (some eightFrames)) eightFrames_wf trivial rfl
  have h2 := Reach.step h1 (op := .range (some (8, 4))) trivial trivial rfl
  have h3 := Reach.step h2 (op := .sustain (some (5, 8))) trivial trivial rfl
  have h4 := Reach.step h3 (op := .attr .period 1048576) (by show InI32 _; decide) trivial rfl
  exact ⟨_, _, h4, rfl, rfl⟩

/-- A history within `C51_in_bounds_partial`: a range played backwards and forwards, with a sustain
range and a release; the phase and the number of pulses. -/
example : ((do
    let c ← UCore.init 0
    let r ← BUnit.runs 1 { toUCore := c, time := 0 }
      [.data .sample (some eightFrames), .range (some (7, 1)), .sustain (some (2, 4)), .attr .sampleRepeat 2,
       .attr .period 1048576, .attr .samplePeriod 2621440, .attr .volume 32767, .run 10485760,
       .attr .flagRelease 1, .run 31457280]
    return (r.2.length, r.1.phase)) : C (Nat × Int)) = .ok (30, 5) := by decide +kernel

/-- A unit as in the hypotheses of `C51_in_bounds_partial` and `C52_plays_once`. -/
example : ∃ u ps, Reach 1 (SampleGentle 1) u ps ∧ u.waveform = .sample ∧ 2 ≤ u.length ∧
    0 < u.samplePeriod ∧ u.repeatMode = 0 ∧ u.sustainRange = false ∧ u.mute = 0 ∧ u.period ≠ 0 ∧
    u.time = 0 ∧ u.framesLeft = 8 := by
  have h0 : Reach 1 (SampleGentle 1) _ _ := Reach.init (w := 0) rfl
  have h1 := Reach.step h0 (op := .data .sample (some eightFrames)) eightFrames_wf
    ⟨(by intro v h; cases h), by
      intro r h _
      cases h
      exact ⟨by decide, (by intro h; cases h), (by intro h; cases h)⟩⟩ rfl
  have h2 := Reach.step h1 (op := .attr .period 1048576) (by show InI32 _; decide)
    ⟨(by intro v h; cases h), by
      intro r h _
      cases h
      exact ⟨by decide, (by intro h; cases h), (by intro h; cases h)⟩⟩ rfl
  exact ⟨_, _, h2, rfl, by decide, by decide, rfl, rfl, rfl, by decide, rfl, rfl⟩

/-! ### C52 -/

/-- **C52**: played forwards without repetition, the levels heard on a channel are, in order, those of
the frames at the positions `pos + k * period`, one per output frame; when the end of the sample is
reached the unit is muted, otherwise the position has advanced by the number of frames output. -/
theorem C52_plays_once {n : Nat} {u : BUnit} {ps : List Pulse} (h : Reach n (SampleGentle n) u ps)
    (hw : u.waveform = .sample) (hlen : 2 ≤ u.length) (hfwd : 0 < u.samplePeriod)
    (hrep : u.callback = true ∨ u.repeatMode = 0) (hsus : u.sustainRange = false ∨ u.release = true)
    (hm : u.mute = 0) (hper : u.period ≠ 0) (ht : 0 ≤ u.time ∧ u.time ≤ 2147483647)
    {e : Int} (he : e ≤ 2145386496) :
    ∃ t' c' qs, u.toUCore.render u.time e n = .ok (t', c', qs) ∧
      (∀ i, i < n → (onChan i qs).map (·.amp) = (diffs (u.lastPulse i) ((List.range
        (min (pulseCount u.time e 1048576) u.framesLeft)).map (u.heard i))).map wrapI16) ∧
      (∀ i, i < n → (onChan i qs).map (·.time) = (List.range
        (min (pulseCount u.time e 1048576) u.framesLeft)).map fun (k : Nat) =>
          wrapU32 (u.time + k * 1048576 + (u.pos + k * u.samplePeriod) % 1048576)) ∧
      (u.framesLeft ≤ pulseCount u.time e 1048576 → c'.mute = 1) ∧
      (pulseCount u.time e 1048576 < u.framesLeft → c'.mute = 0 ∧
        c'.pos = u.pos + pulseCount u.time e 1048576 * u.samplePeriod) := by
  have hi := h.inv fun _ _ h => h.1
  have hs := (h.sinv.1.sample hw)
  have hspan := hs.span
  have hl := hs.len
  have hwt : wrapI32 u.time = u.time := by unfold wrapI32; omega
  obtain ⟨t', c', qs, r1, r2⟩ := UCore.sampleLoop_once (n := n) he 4097 (t := u.time)
    (Playing.of hi h.sinv hw hlen) hw hfwd hrep hm ht.1 (by unfold InI32; omega)
    (adequate_4097 (by omega) (by unfold InI32; omega))
  have hcb : (u.sustainRange && !u.release) = false := by
    rcases hsus with h | h <;> simp [h]
  refine ⟨if wrapU32 t' < e then e else wrapU32 t', c', qs, ?_, r2.amps, r2.times, fun h => ?_, fun h => ?_⟩
  · unfold UCore.render UCore.runAny
    rw [if_neg hper, hw]
    dsimp only
    unfold UCore.runSample
    have e1 : wrapI32 u.stop = u.stop := by unfold wrapI32; omega
    have e2 : wrapI32 u.offset = u.offset := by unfold wrapI32; omega
    have e3 : cabs (u.stop - u.offset) = .ok u.length := by
      unfold cabs
      split
      · rw [i32_ok (by omega) (by omega)]
        congr 1
        omega
      · congr 1
        omega
    rw [if_neg (by omega), e1, e2, i32_ok (by omega) (by omega), ok_bind, e3, ok_bind, if_neg (by omega), hcb,
      hwt, r1]
    rfl
  · rw [r2.mute, if_pos h]
  · exact ⟨by rw [r2.mute, if_neg (by omega)], (r2.pos h).1⟩

/-- **C52**: the position is in the sample exactly during the steps counted by `framesLeft`. -/
theorem C52_frames_left {c : UCore} (hp : 0 < c.samplePeriod) (k : Nat) :
    k < c.framesLeft ↔ c.pos + k * c.samplePeriod < c.length * 1048576 :=
  pulseCount_iff (by omega) _ k _

/-- **C52**: a sample just set starts with its first frame. -/
theorem C52_starts_at_first {n : Nat} {u : BUnit} {ps : List Pulse} (h : Reach n (SampleGentle n) u ps)
    {d : SampleData} {r : Ret × UCore} (hr : u.toUCore.setData (some n) .sample (some d) = .ok r)
    (hok : r.1 = .ok) : r.2.waveform = .sample ∧ r.2.length = d.numFrames ∧ 0 < r.2.samplePeriod ∧
      r.2.repeatMode = 0 ∧ r.2.sustainRange = false ∧ r.2.pos = u.timeFrac ∧
      (0 ≤ u.timeFrac ∧ u.timeFrac < 1048576) ∧
      ∀ i k, r.2.heard i k = level (d.frames.getD ((u.timeFrac + k * r.2.samplePeriod) / 1048576 *
        d.numChannels + (if d.numChannels = 1 then 0 else (i : Int))).toNat 0) (u.volume i) := by
  have hsp := h.sinv.1.speed
  have hfr := h.sinv.1.frac
  unfold UCore.setData UCore.trySetData UCore.trySetSample at hr
  obtain ⟨x, hx, hr⟩ := bind_ok_iff.1 hr
  dsimp only at hx
  split at hx
  · cases hx
    rw [if_neg (by simp)] at hr
    split at hr
    · cases hr; cases hok
    · cases hr; cases hok
  · split at hx
    · cases hx
      rw [if_neg (by simp)] at hr
      split at hr
      · cases hr; cases hok
      · cases hr; cases hok
    · obtain ⟨q, hq, hx⟩ := bind_ok_iff.1 hx
      obtain ⟨q', hq', h1, h2, h3⟩ := cabs_period hsp
      rw [hq] at hq'
      cases hq'
      cases hx
      rw [if_pos rfl] at hr
      cases hr
      have hpos : (0 : Int) * U20 + u.timeFrac = u.timeFrac := by omega
      refine ⟨rfl, rfl, by dsimp only; omega, rfl, rfl, hpos, hfr, fun i k => ?_⟩
      show level (d.frames.getD ((0 * U20 + u.timeFrac + k * q) / U20 * d.numChannels + _).toNat 0) _ = _
      rw [hpos]

/-- **C52**, all divisions of the time: rendering to `e1` and then to `e2` is rendering to `e2`. -/
theorem C52_division {n : Nat} {u : BUnit} {ps : List Pulse} (h : Reach n (SampleGentle n) u ps)
    (hw : u.waveform = .sample) (ht : InU32 u.time) {e1 e2 : Int} (h0 : 0 ≤ e1) (he : e1 ≤ e2)
    (he2 : e2 ≤ 2145386496) :
    ∃ u1 u2 p1 p2, u.step n (.run e1) = .ok (u1, p1) ∧ u1.step n (.run e2) = .ok (u2, p2) ∧
      u.step n (.run e2) = .ok (u2, p1 ++ p2) := by
  obtain ⟨t1, c1, p1, t2, c2, p2, r1, r2, r3, -⟩ :=
    UCore.sample_split (h.inv fun _ _ h => h.1) h.sinv hw u.time ht h0 he he2
  refine ⟨⟨c1, t1⟩, ⟨c2, t2⟩, p1, p2, ?_, ?_, ?_⟩
  · show (do let r ← u.toUCore.render u.time e1 n; _) = _
    rw [r1]; rfl
  · show (do let r ← c1.render t1 e2 n; _) = _
    rw [r2]; rfl
  · show (do let r ← u.toUCore.render u.time e2 n; _) = _
    rw [r3]; rfl

/-- Eight frames at one and a half times the speed: frames 1, 2, 4, 5, 7, 8 and mute. -/
example : ((do
    let c ← UCore.init 0
    let r ← BUnit.runs 1 { toUCore := c, time := 0 }
      [.data .sample (some { eightFrames with frames := [1000, 2000, 3000, 4000, 5000, 6000, 7000, 8000] }),
       .attr .period 1048576, .attr .samplePeriod 1572864, .attr .volume 32767, .run 3145728, .run 20971520]
    return (r.2.map (·.amp), r.1.mute)) : C (List Int × Int)) =
    .ok ([999, 1000, 2000, 1000, 2000, 1000], 1) := by decide +kernel

end BK
