import Verif.Spec.Unit
import Verif.Lemmas.BufferRead
import Verif.Lemmas.Interp
/-!
Waveform loops: legal states, results, no faults.
-/
namespace BK

/-- Counter of the phase wrap. -/
def WrapOk (wrap wc : Int) : Prop :=
  (0 ≤ wrap ∧ wrap ≤ 2147483647) ∧ InU32 wc ∧ (wrap ≠ 0 → 1 ≤ wc ∧ wc ≤ wrap)

/-- A running phase fits the waveform. -/
def UCore.PhaseOk (c : UCore) (phase wc : Int) : Prop :=
  WrapOk c.wrap wc ∧
  match c.waveform with
  | .square => (0 ≤ phase ∧ phase < 16) ∧ 1 ≤ c.dutyCycle ∧ c.dutyCycle ≤ 15
  | .triangle => 0 ≤ phase ∧ phase < 32
  | .noise => 1 ≤ phase ∧ phase ≤ 65535
  | .sawtooth => 0 ≤ phase ∧ phase < 7
  | .sine => 0 ≤ phase ∧ phase < 32
  | .custom => (0 ≤ phase ∧ phase < c.count) ∧ c.count ≤ c.frames.length ∧ ∀ v ∈ c.frames, InI16 v
  | _ => True

theorem square_range : ∀ row ∈ squarePhases, row.length = 16 ∧ ∀ v ∈ row, -32767 ≤ v ∧ v ≤ 32767 := by
  decide +kernel
theorem triangle_range : ∀ v ∈ trianglePhases, -32767 ≤ v ∧ v ≤ 32767 := by decide +kernel
theorem sawtooth_range : ∀ v ∈ sawtoothPhases, -32767 ≤ v ∧ v ≤ 32767 := by decide +kernel
theorem sine_range : ∀ v ∈ sinePhases, -32767 ≤ v ∧ v ≤ 32767 := by decide +kernel

theorem rd_mem {α} {a : List α} {i : Int} (h0 : 0 ≤ i) (h1 : i < a.length) :
    ∃ v ∈ a, rd a i = .ok v := by
  have h : i.toNat < a.length := by omega
  exact ⟨a[i.toNat], List.getElem_mem h, rd_ok h0 h⟩

theorem wrapStep_ok {wrap wc phase restart : Int} (h : WrapOk wrap wc) :
    WrapOk wrap (wrapStep wrap wc phase restart).1 ∧
    ((wrapStep wrap wc phase restart).2 = phase ∨ (wrapStep wrap wc phase restart).2 = restart) := by
  obtain ⟨h1, h2, h3⟩ := h
  unfold wrapStep
  by_cases hw : wrap ≠ 0
  · rw [if_pos hw]
    have := h3 hw
    have e : wrapU32 (wc - 1) = wc - 1 := by unfold wrapU32; omega
    dsimp only
    rw [e]
    split
    · refine ⟨⟨h1, ?_, ?_⟩, .inr rfl⟩
      · unfold InU32; dsimp only; omega
      · intro _; dsimp only; omega
    · refine ⟨⟨h1, ?_, ?_⟩, .inl rfl⟩
      · unfold InU32; dsimp only; omega
      · intro _; dsimp only; omega
  · rw [if_neg hw]; exact ⟨⟨h1, h2, h3⟩, .inl rfl⟩

theorem noiseStep_ok {phase : Int} (h : 1 ≤ phase ∧ phase ≤ 65535) :
    1 ≤ (noiseStep phase).2 ∧ (noiseStep phase).2 ≤ 65535 ∧
    ((noiseStep phase).1 = 0 ∨ (noiseStep phase).1 = 1) ∧
    (noiseStep phase).2 = phase / 2 + (noiseStep phase).1 * 32768 := by
  unfold noiseStep
  dsimp only
  have hb : (phase + phase / 4 + phase / 8 + phase / 32) % 2 = 0 ∨
      (phase + phase / 4 + phase / 8 + phase / 32) % 2 = 1 := by omega
  rw [if_neg (by omega)]
  refine ⟨?_, by omega, hb, rfl⟩
  by_cases h1 : phase = 1
  · subst h1; decide
  · omega

/-- A waveform function never reads outside its table. -/
theorem UCore.waveNext_ok {c : UCore} {phase wc : Int} (h : c.PhaseOk phase wc) :
    ∃ v p w, c.waveNext phase wc = .ok (v, p, w) ∧ c.PhaseOk p w ∧ -32768 ≤ v ∧ v ≤ 32767 := by
  obtain ⟨hw, h⟩ := h
  unfold UCore.waveNext UCore.PhaseOk
  cases hwv : c.waveform with
  | none => exact ⟨_, _, _, rfl, ⟨hw, trivial⟩, by decide, by decide⟩
  | sample => exact ⟨_, _, _, rfl, ⟨hw, trivial⟩, by decide, by decide⟩
  | square =>
    rw [hwv] at h
    obtain ⟨h1, h2⟩ := h
    obtain ⟨row, hr, e⟩ := rd_mem (a := squarePhases) (i := c.dutyCycle) (by omega)
      (by show c.dutyCycle < 17; omega)
    obtain ⟨hl, hv⟩ := square_range row hr
    obtain ⟨v, hm, e2⟩ := rd_mem (a := row) (i := phase) (by omega) (by omega)
    have := hv v hm
    refine ⟨v, (phase + 1) % 16, wc, ?_, ⟨hw, ⟨by omega, h2⟩⟩, by omega, by omega⟩
    simp only [e, e2, ok_bind, pure_eq_ok]
  | triangle =>
    rw [hwv] at h
    obtain ⟨v, hm, e2⟩ := rd_mem (a := trianglePhases) (i := phase) (by omega)
      (by show phase < 32; omega)
    have := triangle_range v hm
    refine ⟨v, (phase + 1) % 32, wc, ?_, ⟨hw, by omega⟩, by omega, by omega⟩
    simp only [e2, ok_bind, pure_eq_ok]
  | sine =>
    rw [hwv] at h
    obtain ⟨v, hm, e2⟩ := rd_mem (a := sinePhases) (i := phase) (by omega)
      (by show phase < 32; omega)
    have := sine_range v hm
    refine ⟨v.tdiv 2, (phase + 1) % 32, wc, ?_, ⟨hw, by omega⟩, ?_, ?_⟩
    · simp only [e2, ok_bind, pure_eq_ok]
    all_goals
      rcases Int.le_total 0 v with h0 | h0
      · have := tdiv_nonneg (x := v) (s := 2) (by decide) h0; omega
      · have := tdiv_nonpos (x := v) (s := 2) (by decide) h0; omega
  | sawtooth =>
    rw [hwv] at h
    obtain ⟨v, hm, e2⟩ := rd_mem (a := sawtoothPhases) (i := phase) (by omega)
      (by show phase < 7; omega)
    have := sawtooth_range v hm
    refine ⟨v, (if phase + 1 ≥ 7 then 0 else phase + 1), wc, ?_, ⟨hw, ?_⟩, by omega, by omega⟩
    · simp only [e2, ok_bind, pure_eq_ok]
    · dsimp only; split <;> omega
  | noise =>
    rw [hwv] at h
    obtain ⟨hw', hp⟩ := wrapStep_ok (phase := phase) (restart := 19009) hw
    have hn := noiseStep_ok (phase := (wrapStep c.wrap wc phase 19009).2)
      (by rcases hp with e | e <;> rw [e] <;> omega)
    refine ⟨_, _, _, rfl, ⟨hw', ⟨hn.1, hn.2.1⟩⟩, ?_, ?_⟩ <;> (split <;> decide)
  | custom =>
    rw [hwv] at h
    obtain ⟨h1, h2, h3⟩ := h
    obtain ⟨hw', hp⟩ := wrapStep_ok (phase := phase) (restart := 0) hw
    have hr : 0 ≤ (wrapStep c.wrap wc phase 0).2 ∧ (wrapStep c.wrap wc phase 0).2 < c.count := by
      rcases hp with e | e <;> rw [e] <;> omega
    obtain ⟨v, hm, e2⟩ := rd_mem (a := c.frames) (i := (wrapStep c.wrap wc phase 0).2)
      (by omega) (by omega)
    have := h3 v hm
    unfold InI16 at this
    refine ⟨v, (if (wrapStep c.wrap wc phase 0).2 + 1 ≥ c.count then 0
      else (wrapStep c.wrap wc phase 0).2 + 1), (wrapStep c.wrap wc phase 0).1, ?_,
      ⟨hw', ⟨?_, h2, h3⟩⟩, by omega, by omega⟩
    · simp only [e2, ok_bind, pure_eq_ok]
    · split <;> omega

theorem level_bound {v vol : Int} (hv : -32768 ≤ v ∧ v ≤ 32767) (h : 0 ≤ vol ∧ vol ≤ 32767) :
    -vol ≤ level v vol ∧ level v vol ≤ vol ∧ -1073741824 ≤ v * vol ∧ v * vol ≤ 1073741824 := by
  have h1 : v * vol ≤ 32767 * vol := Int.mul_le_mul_of_nonneg_right hv.2 h.1
  have h2 : -32768 * vol ≤ v * vol := Int.mul_le_mul_of_nonneg_right hv.1 h.1
  unfold level
  generalize v * vol = x at *
  omega

/-- One pass of a waveform loop, written out. -/
theorem UCore.waveStep_ok {c : UCore} {vol : Int} {s : WaveSt} (hp : c.PhaseOk s.phase s.wc)
    (hv : 0 ≤ vol ∧ vol ≤ 32767) (hl : InI16 s.last)
    (ht : s.time + c.period ≤ 4294967295) :
    ∃ v p w, c.waveNext s.phase s.wc = .ok (v, p, w) ∧ c.PhaseOk p w ∧ InI16 (level v vol) ∧
      -vol ≤ level v vol ∧ level v vol ≤ vol ∧
      c.waveStep vol s = .ok ((s.time, wrapI16 (level v vol - s.last)),
        { time := s.time + c.period, phase := p, wc := w, last := level v vol }) := by
  obtain ⟨v, p, w, e, h1, h2, h3⟩ := UCore.waveNext_ok hp
  obtain ⟨b1, b2, b3, b4⟩ := level_bound ⟨h2, h3⟩ hv
  unfold InI16 at hl
  refine ⟨v, p, w, e, h1, by unfold InI16; omega, b1, b2, ?_⟩
  unfold UCore.waveStep
  rw [e, ok_bind]
  dsimp only
  rw [i32_ok (by omega) (by omega), ok_bind]
  rw [show v * vol / 32768 = level v vol from rfl, i32_ok (by omega) (by omega), ok_bind,
    if_neg (by omega)]
  rfl

/-- The next `n` table values of a waveform with the phase and counter after them. -/
def UCore.waveVals (c : UCore) : Nat → Int → Int → C (List Int × Int × Int)
  | 0, phase, wc => .ok ([], phase, wc)
  | n + 1, phase, wc => do
    let r ← c.waveNext phase wc
    let rs ← c.waveVals n r.2.1 r.2.2
    return (r.1 :: rs.1, rs.2)

theorem UCore.waveVals_ok {c : UCore} : ∀ (n : Nat) {phase wc : Int}, c.PhaseOk phase wc →
    ∃ vs p w, c.waveVals n phase wc = .ok (vs, p, w) ∧ c.PhaseOk p w ∧ vs.length = n ∧
      ∀ v ∈ vs, -32768 ≤ v ∧ v ≤ 32767
  | 0, phase, wc, h => ⟨[], phase, wc, rfl, h, rfl, by simp⟩
  | n + 1, phase, wc, h => by
    obtain ⟨v, p, w, e, h1, h2⟩ := UCore.waveNext_ok h
    obtain ⟨vs, p', w', e', h1', h2', h3'⟩ := UCore.waveVals_ok n h1
    refine ⟨v :: vs, p', w', ?_, h1', by simp [h2'], ?_⟩
    · simp only [UCore.waveVals, e, e', ok_bind, pure_eq_ok]
    · intro x hx
      rcases List.mem_cons.1 hx with rfl | hx
      · exact h2
      · exact h3' x hx

theorem UCore.waveVals_add {c : UCore} {b : Nat} : ∀ (a : Nat) {phase wc p w p' w' : Int}
    {vs vs' : List Int}, c.waveVals a phase wc = .ok (vs, p, w) → c.waveVals b p w = .ok (vs', p', w') →
    c.waveVals (a + b) phase wc = .ok (vs ++ vs', p', w')
  | 0, phase, wc, p, w, p', w', vs, vs', h, h' => by
    cases h
    simpa using h'
  | a + 1, phase, wc, p, w, p', w', vs, vs', h, h' => by
    unfold UCore.waveVals at h
    obtain ⟨r, hr, h⟩ := bind_ok_iff.1 h
    obtain ⟨⟨rs, rp, rw'⟩, hrs, h⟩ := bind_ok_iff.1 h
    cases h
    have := UCore.waveVals_add a hrs h'
    rw [show a + 1 + b = (a + b) + 1 by omega]
    simp only [UCore.waveVals, hr, this, ok_bind, pure_eq_ok, List.cons_append]

/-- The values depend on few fields only. -/
theorem UCore.waveVals_congr {c c' : UCore} (h1 : c.waveform = c'.waveform)
    (h2 : c.dutyCycle = c'.dutyCycle) (h3 : c.wrap = c'.wrap) (h4 : c.count = c'.count)
    (h5 : c.frames = c'.frames) : ∀ (n : Nat) (phase wc : Int),
    c.waveVals n phase wc = c'.waveVals n phase wc
  | 0, _, _ => rfl
  | n + 1, phase, wc => by
    have e : c.waveNext phase wc = c'.waveNext phase wc := by
      unfold UCore.waveNext
      rw [h1, h2, h3, h4, h5]
    simp only [UCore.waveVals, e, UCore.waveVals_congr h1 h2 h3 h4 h5 n]

/-- Amplitudes with their times, one every `p`. -/
def stamp (t p : Int) : List Int → List (Int × Int)
  | [] => []
  | a :: as => (t, a) :: stamp (t + p) p as

theorem stamp_length (p : Int) : ∀ (t : Int) (as : List Int), (stamp t p as).length = as.length
  | _, [] => rfl
  | t, a :: as => by simp [stamp, stamp_length p (t + p) as]

theorem stamp_append (p : Int) : ∀ (t : Int) (as bs : List Int),
    stamp t p (as ++ bs) = stamp t p as ++ stamp (t + as.length * p) p bs
  | t, [], bs => by simp [stamp]
  | t, a :: as, bs => by
    simp only [List.cons_append, stamp, stamp_append p (t + p) as bs, List.length_cons]
    rw [show t + p + (as.length : Int) * p = t + ((as.length + 1 : Nat) : Int) * p by push_cast; ring]

theorem stamp_get (p : Int) : ∀ (t : Int) (as : List Int) (k : Nat) (h : k < as.length),
    (stamp t p as)[k]? = some (t + k * p, as[k])
  | t, a :: as, 0, _ => by simp [stamp]
  | t, a :: as, k + 1, h => by
    simp only [stamp, List.getElem?_cons_succ, List.getElem_cons_succ]
    rw [stamp_get p (t + p) as k (by simpa using h)]
    simp only [Option.some.injEq, Prod.mk.injEq, and_true]
    push_cast; ring

theorem diffs_length : ∀ (l : Int) (ls : List Int), (diffs l ls).length = ls.length
  | _, [] => rfl
  | l, a :: as => by simp [diffs, diffs_length a as]

theorem diffs_append : ∀ (l : Int) (as bs : List Int),
    diffs l (as ++ bs) = diffs l as ++ diffs (as.getLastD l) bs
  | l, [], bs => by simp [diffs]
  | l, a :: as, bs => by
    simp only [List.cons_append, diffs, diffs_append a as bs, List.getLastD_cons]

theorem pulseCount_zero {t e p : Int} (h : ¬ t < e) : pulseCount t e p = 0 := by
  unfold pulseCount; rw [if_neg h]

theorem pulseCount_succ {t e p : Int} (hp : 1 ≤ p) (h : t < e) :
    pulseCount t e p = pulseCount (t + p) e p + 1 := by
  unfold pulseCount
  rw [if_pos h]
  have e1 : (e - t + p - 1) / p = (e - t - 1) / p + 1 := by
    rw [show e - t + p - 1 = (e - t - 1) + 1 * p by ring, Int.add_mul_ediv_right _ _ (by omega)]
  have h0 : 0 ≤ (e - t - 1) / p := Int.ediv_nonneg (by omega) (by omega)
  split
  · rw [show e - (t + p) + p - 1 = e - t - 1 by ring, e1]; omega
  · have : (e - t - 1) / p = 0 := Int.ediv_eq_zero_of_lt (by omega) (by omega)
    rw [e1, this]; rfl

theorem pulseCount_le {e p : Int} (hp : 1 ≤ p) : ∀ (n : Nat) (t : Int), (e - t).toNat ≤ n →
    pulseCount t e p ≤ n
  | 0, t, h => by rw [pulseCount_zero (by omega)]
  | n + 1, t, h => by
    by_cases ht : t < e
    · rw [pulseCount_succ hp ht]
      have := pulseCount_le (e := e) hp n (t + p) (by omega)
      omega
    · rw [pulseCount_zero ht]; omega

/-- The time after the last pulse is not before the end, and less than a period after it. -/
theorem pulseCount_end {e p : Int} (hp : 1 ≤ p) : ∀ (n : Nat) (t : Int), (e - t).toNat ≤ n →
    e ≤ t + pulseCount t e p * p ∧ (t < e → t + pulseCount t e p * p < e + p)
  | 0, t, h => by rw [pulseCount_zero (by omega)]; constructor <;> intros <;> omega
  | n + 1, t, h => by
    by_cases ht : t < e
    · rw [pulseCount_succ hp ht]
      have := pulseCount_end (e := e) hp n (t + p) (by omega)
      have e1 : t + ((pulseCount (t + p) e p + 1 : Nat) : Int) * p =
          t + p + pulseCount (t + p) e p * p := by push_cast; ring
      rw [e1]
      refine ⟨this.1, fun _ => ?_⟩
      by_cases ht' : t + p < e
      · exact this.2 ht'
      · rw [pulseCount_zero ht']; simp; omega
    · rw [pulseCount_zero ht]; constructor <;> intros <;> simp at * <;> omega

theorem pulseCount_add {e1 e2 p : Int} (hp : 1 ≤ p) (he : e1 ≤ e2) : ∀ (n : Nat) (t : Int),
    (e1 - t).toNat ≤ n →
    pulseCount t e1 p + pulseCount (t + pulseCount t e1 p * p) e2 p = pulseCount t e2 p
  | 0, t, h => by rw [pulseCount_zero (t := t) (e := e1) (by omega)]; simp
  | n + 1, t, h => by
    by_cases ht : t < e1
    · rw [pulseCount_succ hp ht, pulseCount_succ (t := t) (e := e2) hp (by omega)]
      have := pulseCount_add hp he n (t + p) (by omega)
      rw [show t + ((pulseCount (t + p) e1 p + 1 : Nat) : Int) * p =
          t + p + pulseCount (t + p) e1 p * p by push_cast; ring]
      omega
    · rw [pulseCount_zero ht]; simp

/-- Amplitudes sent for table values `vs` at volume `vol` after level `last`. -/
def amps (last vol : Int) (vs : List Int) : List Int :=
  (diffs last (vs.map (level · vol))).map wrapI16

/-- The level after them. -/
def lastLevel (last vol : Int) (vs : List Int) : Int := (vs.map (level · vol)).getLastD last

theorem lastLevel_append (last vol : Int) (as bs : List Int) :
    lastLevel last vol (as ++ bs) = lastLevel (lastLevel last vol as) vol bs := by
  unfold lastLevel
  rw [List.map_append]
  cases bs with
  | nil => simp
  | cons b bs => simp [List.getLastD_eq_getLast?]

theorem amps_append (last vol : Int) (as bs : List Int) :
    amps last vol (as ++ bs) = amps last vol as ++ amps (lastLevel last vol as) vol bs := by
  unfold amps lastLevel
  rw [List.map_append, diffs_append, List.map_append]

theorem lastLevel_in {last vol : Int} (hl : InI16 last) (hv : 0 ≤ vol ∧ vol ≤ 32767) :
    ∀ (vs : List Int), (∀ v ∈ vs, -32768 ≤ v ∧ v ≤ 32767) → InI16 (lastLevel last vol vs)
  | [], _ => hl
  | v :: vs, h => by
    have hb := level_bound (h v (by simp)) hv
    have := lastLevel_in (last := level v vol) (by unfold InI16; omega) hv vs
      fun x hx => h x (by simp [hx])
    unfold lastLevel at this ⊢
    rwa [List.map_cons, List.getLastD_cons]

theorem UCore.waveLoop_eq {c : UCore} {vol e : Int} (hv : 0 ≤ vol ∧ vol ≤ 32767)
    (hp : 1 ≤ c.period) (he : e + c.period ≤ 4294967295) :
    ∀ (n : Nat) (s : WaveSt), (e - s.time).toNat ≤ n → c.PhaseOk s.phase s.wc → InI16 s.last →
    ∀ vs p w, c.waveVals (pulseCount s.time e c.period) s.phase s.wc = .ok (vs, p, w) →
    c.waveLoop vol e n s = .ok (stamp s.time c.period (amps s.last vol vs),
      { time := s.time + pulseCount s.time e c.period * c.period, phase := p, wc := w,
        last := lastLevel s.last vol vs })
  | 0, s, hn, hph, hl, vs, p, w, h => by
    rw [pulseCount_zero (by omega)] at h ⊢
    cases h
    simp [UCore.waveLoop, stamp, amps, diffs, lastLevel]
  | n + 1, s, hn, hph, hl, vs, p, w, h => by
    by_cases ht : s.time < e
    · obtain ⟨v, p1, w1, e1, h1, h2, -, -, e2⟩ :=
        UCore.waveStep_ok (vol := vol) (s := s) hph hv hl (by omega)
      rw [pulseCount_succ hp ht] at h ⊢
      simp only [UCore.waveVals, e1, ok_bind] at h
      obtain ⟨⟨rs, rp, rw'⟩, hrs, h⟩ := bind_ok_iff.1 h
      cases h
      have ih := UCore.waveLoop_eq hv hp he n
        { time := s.time + c.period, phase := p1, wc := w1, last := level v vol }
        (by show (e - (s.time + c.period)).toNat ≤ n; omega) h1 h2 _ _ _ hrs
      unfold UCore.waveLoop
      rw [if_pos ht, e2, ok_bind, ih, ok_bind]
      dsimp only
      rw [pure_eq_ok]
      simp only [stamp, amps, List.map_cons, diffs, lastLevel, List.getLastD_cons]
      rw [show s.time + c.period + (pulseCount (s.time + c.period) e c.period : Int) * c.period =
        s.time + ((pulseCount (s.time + c.period) e c.period + 1 : Nat) : Int) * c.period by
          push_cast; ring]
    · rw [pulseCount_zero ht] at h ⊢
      cases h
      unfold UCore.waveLoop
      rw [if_neg ht]
      simp [stamp, amps, diffs, lastLevel]

/-- A unit whose waveform can be rendered. -/
structure UCore.WaveOk (c : UCore) : Prop where
  period : 0 ≤ c.period ∧ c.period ≤ 2147483647
  volume : ∀ i, 0 ≤ c.volume i ∧ c.volume i ≤ 32767
  last : ∀ i, InI16 (c.lastPulse i)
  phase : c.PhaseOk c.startPhase (wrapU32 c.wrapCount)

/-- The pulses of channel `i` for the table values `vs`. -/
def UCore.chanPulses (c : UCore) (t0 : Int) (vs : List Int) (i : Nat) : List Pulse :=
  if c.volume i = 0 then []
  else (stamp t0 c.period (amps (c.lastPulse i) (c.volume i) vs)).map fun p => ⟨i, p.1, p.2⟩

/-- Some channel below `n` is audible. -/
def UCore.on (c : UCore) (n : Nat) : Bool := (List.range n).any fun i => decide (c.volume i ≠ 0)

/-- The unit after sending `vs` to `n` channels. -/
def UCore.afterWave (c : UCore) (vs : List Int) (p w : Int) (n : Nat) : UCore :=
  { c with
    phase := if c.on n then p else c.phase
    wrapCount := if c.on n then wrapI32 w else c.wrapCount
    lastPulse := fun i => if i < n ∧ c.volume i ≠ 0 then
      lastLevel (c.lastPulse i) (c.volume i) vs else c.lastPulse i }

theorem UCore.on_succ (c : UCore) (n : Nat) : c.on (n + 1) = (c.on n || decide (c.volume n ≠ 0)) := by
  unfold UCore.on
  rw [List.range_succ, List.any_append]
  simp

theorem UCore.waveFold_eq {c : UCore} {t0 e : Int} (h : c.WaveOk) (hp : 1 ≤ c.period)
    (he : e + c.period ≤ 4294967295) {vs : List Int} {p w : Int}
    (hv : c.waveVals (pulseCount t0 e c.period) c.startPhase (wrapU32 c.wrapCount) = .ok (vs, p, w)) :
    ∀ n : Nat, (List.range n).foldlM (c.waveChan t0 e) (0, c, []) =
      .ok (if c.on n then t0 + pulseCount t0 e c.period * c.period else 0,
        c.afterWave vs p w n, (List.range n).flatMap (c.chanPulses t0 vs))
  | 0 => by
    simp [UCore.afterWave, UCore.on]
  | n + 1 => by
    rw [List.range_succ, List.foldlM_append, UCore.waveFold_eq h hp he hv n, ok_bind]
    simp only [List.foldlM_cons, List.foldlM_nil]
    unfold UCore.waveChan
    by_cases hz : c.volume n = 0
    · rw [if_pos hz, ok_bind, pure_eq_ok, List.flatMap_append]
      have e1 : c.on (n + 1) = c.on n := by rw [UCore.on_succ]; simp [hz]
      have e2 : c.afterWave vs p w (n + 1) = c.afterWave vs p w n := by
        unfold UCore.afterWave
        rw [e1]
        congr 1
        funext i
        by_cases hi : i = n
        · subst hi; simp [hz]
        · have hlt : i < n + 1 ↔ i < n := by omega
          simp only [hlt]
      rw [e1, e2]
      simp [UCore.chanPulses, hz]
    · rw [if_neg hz, UCore.waveLoop_eq (h.volume n) hp he _
        { time := t0, phase := c.startPhase, wc := wrapU32 c.wrapCount, last := c.lastPulse n }
        (Nat.le_refl _) h.phase (h.last n) vs p w hv]
      simp only [ok_bind, pure_eq_ok]
      have e1 : c.on (n + 1) = true := by rw [UCore.on_succ]; simp [hz]
      rw [List.flatMap_append, e1]
      refine congrArg Except.ok (Prod.ext ?_ (Prod.ext ?_ ?_))
      · simp
      · show _ = c.afterWave vs p w (n + 1)
        unfold UCore.afterWave
        rw [e1]
        simp only [if_true]
        congr 1
        funext i
        unfold upd
        by_cases hi : i = n
        · subst hi; simp [hz]
        · have hlt : i < n + 1 ↔ i < n := by omega
          rw [if_neg hi]
          simp only [hlt]
      · simp [UCore.chanPulses, hz]

/-- A waveform run, written out. -/
theorem UCore.runWaveform_eq {c : UCore} {t0 e : Int} (h : c.WaveOk) (hp : 1 ≤ c.period)
    (he : e + c.period ≤ 4294967295) (hm : c.mute = 0) {vs : List Int} {p w : Int}
    (hv : c.waveVals (pulseCount t0 e c.period) c.startPhase (wrapU32 c.wrapCount) = .ok (vs, p, w))
    (n : Nat) : c.runWaveform t0 e n =
      .ok (if c.on n then t0 + pulseCount t0 e c.period * c.period else 0,
        c.afterWave vs p w n, (List.range n).flatMap (c.chanPulses t0 vs)) := by
  unfold UCore.runWaveform
  rw [if_neg (by simp [hm]), UCore.waveFold_eq h hp he hv n]

theorem wrapU32_wrapI32 {x : Int} (h : InU32 x) : wrapU32 (wrapI32 x) = x := by
  unfold InU32 at h; unfold wrapU32 wrapI32; omega

theorem UCore.PhaseOk.congr {c c' : UCore} {ph wc : Int} (h : c.PhaseOk ph wc)
    (h1 : c.waveform = c'.waveform)
    (h2 : c.dutyCycle = c'.dutyCycle) (h3 : c.wrap = c'.wrap) (h4 : c.count = c'.count)
    (h5 : c.frames = c'.frames) : c'.PhaseOk ph wc := by
  unfold UCore.PhaseOk at h ⊢
  rwa [h1, h2, h3, h4, h5] at h

theorem UCore.PhaseOk.noise {c : UCore} {ph wc : Int} (h : c.PhaseOk ph wc) (hw : c.waveform = .noise) :
    ph ≠ 0 := by
  unfold UCore.PhaseOk at h
  rw [hw] at h
  dsimp only at h
  omega

theorem UCore.afterWave_ok {c : UCore} (h : c.WaveOk) {vs : List Int} {p w : Int}
    (hp : c.PhaseOk p w) (hv : ∀ v ∈ vs, -32768 ≤ v ∧ v ≤ 32767) (n : Nat) :
    (c.afterWave vs p w n).WaveOk := by
  refine ⟨h.period, h.volume, ?_, ?_⟩
  · intro i
    unfold UCore.afterWave
    dsimp only
    split
    · exact lastLevel_in (h.last i) (h.volume i) vs hv
    · exact h.last i
  · by_cases hon : c.on n
    · have e1 : (c.afterWave vs p w n).startPhase = p := by
        unfold UCore.startPhase UCore.afterWave
        simp only [hon, if_true]
        split
        · rename_i hc; exact absurd hc.2 (hp.noise hc.1)
        · rfl
      have e2 : wrapU32 (c.afterWave vs p w n).wrapCount = w := by
        unfold UCore.afterWave
        simp only [hon, if_true]
        exact wrapU32_wrapI32 hp.1.2.1
      rw [e1, e2]
      exact hp.congr rfl rfl rfl rfl rfl
    · have e1 : (c.afterWave vs p w n).startPhase = c.startPhase := by
        unfold UCore.startPhase UCore.afterWave
        simp [hon]
      have e2 : (c.afterWave vs p w n).wrapCount = c.wrapCount := by
        unfold UCore.afterWave
        simp [hon]
      rw [e1, e2]
      exact h.phase.congr rfl rfl rfl rfl rfl

theorem onChan_append (i : Nat) (a b : List Pulse) : onChan i (a ++ b) = onChan i a ++ onChan i b := by
  simp [onChan]

theorem UCore.chanPulses_chan (c : UCore) (t0 : Int) (vs : List Int) (i j : Nat) :
    onChan i (c.chanPulses t0 vs j) = if j = i then c.chanPulses t0 vs i else [] := by
  by_cases h : j = i
  · subst h
    rw [if_pos rfl]
    unfold onChan UCore.chanPulses
    split
    · rfl
    · rw [List.filter_eq_self]
      intro a ha
      obtain ⟨x, -, rfl⟩ := List.mem_map.1 ha
      simp
  · rw [if_neg h]
    unfold onChan UCore.chanPulses
    split
    · rfl
    · rw [List.filter_eq_nil_iff]
      intro a ha
      obtain ⟨x, -, rfl⟩ := List.mem_map.1 ha
      simp [h]

theorem UCore.flat_chan (c : UCore) (t0 : Int) (vs : List Int) (i : Nat) : ∀ n : Nat,
    onChan i ((List.range n).flatMap (c.chanPulses t0 vs)) =
      if i < n then c.chanPulses t0 vs i else []
  | 0 => by simp [onChan]
  | n + 1 => by
    rw [List.range_succ, List.flatMap_append, onChan_append, UCore.flat_chan c t0 vs i n]
    simp only [List.flatMap_cons, List.flatMap_nil, List.append_nil]
    rw [UCore.chanPulses_chan]
    by_cases h : n = i
    · subst h; simp
    · have hlt : i < n + 1 ↔ i < n := by omega
      simp [h, hlt]

theorem UCore.off_volume {c : UCore} {n : Nat} (h : c.on n = false) {i : Nat} (hi : i < n) :
    c.volume i = 0 := by
  unfold UCore.on at h
  rw [List.any_eq_false] at h
  have := h i (by simpa using hi)
  simpa using this

theorem UCore.off_flat {c : UCore} {n : Nat} (h : c.on n = false) (t0 : Int) (vs : List Int) :
    (List.range n).flatMap (c.chanPulses t0 vs) = [] := by
  rw [List.flatMap_eq_nil_iff]
  intro i hi
  unfold UCore.chanPulses
  rw [if_pos (UCore.off_volume h (by simpa using hi))]

theorem UCore.off_after {c : UCore} {n : Nat} (h : c.on n = false) (vs : List Int) (p w : Int) :
    c.afterWave vs p w n = c := by
  unfold UCore.afterWave
  simp only [h, Bool.false_eq_true, if_false]
  have : (fun i => if i < n ∧ c.volume i ≠ 0 then
      lastLevel (c.lastPulse i) (c.volume i) vs else c.lastPulse i) = c.lastPulse := by
    funext i
    by_cases hi : i < n
    · simp [UCore.off_volume h hi]
    · simp [hi]
  rw [this]

theorem UCore.afterWave_start {c : UCore} {n : Nat} {vs : List Int} {p w : Int} (h : c.on n = true)
    (hp : c.PhaseOk p w) : (c.afterWave vs p w n).startPhase = p ∧
      wrapU32 (c.afterWave vs p w n).wrapCount = w := by
  constructor
  · unfold UCore.startPhase UCore.afterWave
    simp only [h, if_true]
    split
    · rename_i hc; exact absurd hc.2 (hp.noise hc.1)
    · rfl
  · unfold UCore.afterWave
    simp only [h, if_true]
    exact wrapU32_wrapI32 hp.1.2.1

theorem UCore.afterWave_after {c : UCore} {n : Nat} {vs vs' : List Int} {p w p' w' : Int}
    (h : c.on n = true) :
    (c.afterWave vs p w n).afterWave vs' p' w' n = c.afterWave (vs ++ vs') p' w' n := by
  have e1 : (fun i => if i < n ∧ c.volume i ≠ 0 then
        lastLevel (if i < n ∧ c.volume i ≠ 0 then lastLevel (c.lastPulse i) (c.volume i) vs
          else c.lastPulse i) (c.volume i) vs'
        else (if i < n ∧ c.volume i ≠ 0 then lastLevel (c.lastPulse i) (c.volume i) vs
          else c.lastPulse i)) =
      fun i => if i < n ∧ c.volume i ≠ 0 then lastLevel (c.lastPulse i) (c.volume i) (vs ++ vs')
        else c.lastPulse i := by
    funext i
    by_cases hi : i < n ∧ c.volume i ≠ 0
    · simp only [if_pos hi, lastLevel_append]
    · simp only [if_neg hi]
  show ({ c with
      phase := if c.on n then p' else (if c.on n then p else c.phase)
      wrapCount := if c.on n then wrapI32 w' else (if c.on n then wrapI32 w else c.wrapCount)
      lastPulse := _ } : UCore) =
    { c with
      phase := if c.on n then p' else c.phase
      wrapCount := if c.on n then wrapI32 w' else c.wrapCount
      lastPulse := _ }
  rw [← e1]
  simp only [h, if_true]
  rfl

theorem UCore.chanPulses_append {c : UCore} {n : Nat} {vs vs' : List Int} {p w t0 : Int} {i : Nat}
    (hi : i < n) :
    c.chanPulses t0 (vs ++ vs') i = c.chanPulses t0 vs i ++
      (c.afterWave vs p w n).chanPulses (t0 + vs.length * c.period) vs' i := by
  have e1 : (c.afterWave vs p w n).volume i = c.volume i := rfl
  have e2 : (c.afterWave vs p w n).period = c.period := rfl
  by_cases hz : c.volume i = 0
  · simp [UCore.chanPulses, hz, e1]
  · have e3 : (c.afterWave vs p w n).lastPulse i = lastLevel (c.lastPulse i) (c.volume i) vs := by
      unfold UCore.afterWave; simp [hi, hz]
    unfold UCore.chanPulses
    rw [e1, if_neg hz, if_neg hz, if_neg hz, e2, e3, amps_append, stamp_append, List.map_append]
    congr 4
    simp [amps, diffs_length]

/-- Six of the eight waveforms are rendered by tables. -/
def Wave.tabled (w : Wave) : Prop := w ≠ .none ∧ w ≠ .sample

theorem UCore.render_wave {c : UCore} {t0 e : Int} {n : Nat} (hw : c.waveform.tabled)
    (hp : c.period ≠ 0) : c.render t0 e n = (do
      let r ← c.runWaveform t0 e n
      return (if r.1 < e then e else r.1, r.2)) := by
  unfold UCore.render UCore.runAny
  rw [if_neg hp]
  obtain ⟨h1, h2⟩ := hw
  cases h : c.waveform <;> first | rfl | (exact absurd h h1) | (exact absurd h h2)

/-- A rendered waveform, written out. -/
theorem UCore.render_eq {c : UCore} {t0 e : Int} (hw : c.waveform.tabled) (h : c.WaveOk)
    (hp : 1 ≤ c.period) (he : e + c.period ≤ 4294967295) (hm : c.mute = 0) (h0 : 0 ≤ e)
    {vs : List Int} {p w : Int}
    (hv : c.waveVals (pulseCount t0 e c.period) c.startPhase (wrapU32 c.wrapCount) = .ok (vs, p, w))
    (n : Nat) : c.render t0 e n =
      .ok (if c.on n then t0 + pulseCount t0 e c.period * c.period else e,
        c.afterWave vs p w n, (List.range n).flatMap (c.chanPulses t0 vs)) := by
  rw [UCore.render_wave hw (by omega), UCore.runWaveform_eq h hp he hm hv n]
  have := (pulseCount_end (e := e) hp _ t0 (Nat.le_refl _)).1
  simp only [ok_bind, pure_eq_ok]
  cases c.on n
  · simp only [Bool.false_eq_true, if_false]
    congr 2
    split <;> omega
  · simp only [if_true]
    rw [if_neg (by omega)]

/-- Rendering in two parts is rendering at once. -/
theorem UCore.wave_split {c : UCore} {t0 e1 e2 : Int} {n : Nat} (hw : c.waveform.tabled)
    (h : c.WaveOk) (he : e1 ≤ e2) (he2 : e2 + c.period ≤ 4294967295) (h0 : 0 ≤ e1) :
    ∃ t1 c1 ps1 t2 c2 ps2 ps, c.render t0 e1 n = .ok (t1, c1, ps1) ∧ c1.WaveOk ∧
      c1.render t1 e2 n = .ok (t2, c2, ps2) ∧ c2.WaveOk ∧ c.render t0 e2 n = .ok (t2, c2, ps) ∧
      e1 ≤ t1 ∧ e2 ≤ t2 ∧
      ∀ i, onChan i ps = onChan i ps1 ++ onChan i ps2 := by
  by_cases hp : c.period = 0
  · refine ⟨if t0 < e1 then e1 else t0, c, [], if (if t0 < e1 then e1 else t0) < e2 then e2 else
      (if t0 < e1 then e1 else t0), c, [], [], ?_, h, ?_, h, ?_, ?_, ?_, fun i => rfl⟩
    · unfold UCore.render UCore.runAny; rw [if_pos hp]; rfl
    · unfold UCore.render UCore.runAny; rw [if_pos hp]; rfl
    · unfold UCore.render UCore.runAny; rw [if_pos hp, ok_bind]
      show Except.ok (_, _) = _
      congr 2
      split <;> split <;> (try split) <;> omega
    · split <;> omega
    · split <;> split <;> (try split) <;> omega
  · have hp1 : 1 ≤ c.period := by have := h.period; omega
    by_cases hm : c.mute = 0
    · obtain ⟨vs, p, w, hv, hok, hl, hr⟩ := UCore.waveVals_ok (pulseCount t0 e1 c.period) h.phase
      have r1 := UCore.render_eq hw h hp1 (by omega) hm h0 hv n
      have hok1 := UCore.afterWave_ok h hok hr n
      cases hon : c.on n
      · rw [hon, UCore.off_flat hon, UCore.off_after hon] at r1
        simp only [Bool.false_eq_true, if_false] at r1
        have key : ∀ t, c.render t e2 n = .ok (e2, c, []) := by
          intro t
          obtain ⟨vs, p, w, hv, -⟩ := UCore.waveVals_ok (pulseCount t e2 c.period) h.phase
          have r1 := UCore.render_eq hw h hp1 (by omega) hm (by omega) hv n
          rw [hon, UCore.off_flat hon, UCore.off_after hon] at r1
          simpa using r1
        exact ⟨_, _, _, _, _, _, _, r1, h, key _, h, key _, Int.le_refl _, Int.le_refl _, fun i => rfl⟩
      · rw [hon, if_pos rfl] at r1
        obtain ⟨s1, s2⟩ := UCore.afterWave_start (vs := vs) hon hok
        obtain ⟨vs', p', w', hv', hok', hl', hr'⟩ := UCore.waveVals_ok
          (pulseCount (t0 + pulseCount t0 e1 c.period * c.period) e2 c.period) hok
        have hv2 : (c.afterWave vs p w n).waveVals
            (pulseCount (t0 + pulseCount t0 e1 c.period * c.period) e2
              (c.afterWave vs p w n).period)
            (c.afterWave vs p w n).startPhase (wrapU32 (c.afterWave vs p w n).wrapCount) =
            .ok (vs', p', w') := by
          rw [s1, s2, UCore.waveVals_congr (c := c.afterWave vs p w n) (c' := c) rfl rfl rfl rfl rfl]
          exact hv'
        have r2 := UCore.render_eq (c := c.afterWave vs p w n)
          (t0 := t0 + pulseCount t0 e1 c.period * c.period) (e := e2) hw hok1 hp1 he2 hm (by omega) hv2 n
        have hon2 : (c.afterWave vs p w n).on n = true := hon
        rw [hon2, if_pos rfl, UCore.afterWave_after hon] at r2
        have hv3 := UCore.waveVals_add _ hv hv'
        have hc := pulseCount_add (e1 := e1) (e2 := e2) hp1 he _ t0 (Nat.le_refl _)
        rw [hc] at hv3
        have r3 := UCore.render_eq hw h hp1 he2 hm (by omega) hv3 n
        rw [hon, if_pos rfl] at r3
        have ht : t0 + (pulseCount t0 e1 c.period : Int) * c.period +
            (pulseCount (t0 + pulseCount t0 e1 c.period * c.period) e2
              (c.afterWave vs p w n).period : Int) * (c.afterWave vs p w n).period =
            t0 + (pulseCount t0 e2 c.period : Int) * c.period := by
          rw [← hc]
          show t0 + (pulseCount t0 e1 c.period : Int) * c.period +
            (pulseCount (t0 + pulseCount t0 e1 c.period * c.period) e2 c.period : Int) * c.period = _
          push_cast; ring
        rw [ht] at r2
        refine ⟨_, _, _, _, _, _, _, r1, hok1, r2, ?_, r3,
          (pulseCount_end (e := e1) hp1 _ t0 (Nat.le_refl _)).1,
          (pulseCount_end (e := e2) hp1 _ t0 (Nat.le_refl _)).1, ?_⟩
        · refine UCore.afterWave_ok h hok' (fun v hv => ?_) n
          rcases List.mem_append.1 hv with hv | hv
          · exact hr v hv
          · exact hr' v hv
        · intro i
          rw [UCore.flat_chan, UCore.flat_chan, UCore.flat_chan]
          by_cases hi : i < n
          · simp only [if_pos hi]
            rw [UCore.chanPulses_append (p := p) (w := w) hi, hl]
          · simp [hi]
    · have key : ∀ t e, 0 ≤ e → c.render t e n = .ok (e, c, []) := by
        intro t e he
        rw [UCore.render_wave hw hp]
        unfold UCore.runWaveform
        rw [if_pos hm]
        simp only [ok_bind, pure_eq_ok]
        congr 2
        split <;> omega
      exact ⟨_, _, _, _, _, _, _, key _ _ h0, h, key _ _ (by omega), h, key _ _ (by omega),
        Int.le_refl _, Int.le_refl _, fun i => rfl⟩

end BK
