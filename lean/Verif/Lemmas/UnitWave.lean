import Verif.Lemmas.UnitOps
/-!
Tables and levels of waveforms.
-/
namespace BK

theorem getD_get {α} {a : List α} {i : Nat} (d : α) (h : i < a.length) : a.getD i d = a[i] := by
  simp [h]

theorem rd_getD_int {α} {a : List α} {i : Int} (d : α) (h0 : 0 ≤ i) (h1 : i < a.length) :
    rd a i = .ok (a.getD i.toNat d) := by
  have h : i.toNat < a.length := by omega
  rw [rd_ok h0 h, getD_get _ h]

/-- The table and its length, one step. -/
theorem UCore.waveNext_table {c : UCore} {phase wc : Int} {cnt : Nat} (hc : c.waveform.phases = some cnt)
    (hd : 1 ≤ c.dutyCycle ∧ c.dutyCycle ≤ 15) (h : 0 ≤ phase ∧ phase < cnt) :
    c.waveNext phase wc = .ok (c.waveform.value c.dutyCycle.toNat phase.toNat, (phase + 1) % cnt, wc) := by
  unfold UCore.waveNext Wave.value
  unfold Wave.phases at hc
  cases hw : c.waveform <;> rw [hw] at hc <;> dsimp only at hc ⊢ <;> cases hc
  · rw [rd_getD_int [] (by omega) (by show c.dutyCycle < 17; omega), ok_bind,
      rd_getD_int 0 (by omega) (by
        have hm : squarePhases.getD c.dutyCycle.toNat [] ∈ squarePhases := by
          have hl : c.dutyCycle.toNat < squarePhases.length := by show _ < 17; omega
          rw [getD_get _ hl]
          exact List.getElem_mem hl
        rw [(square_range _ hm).1]; exact h.2), ok_bind]
    rfl
  · rw [rd_getD_int 0 (by omega) (by exact h.2), ok_bind]; rfl
  · rw [rd_getD_int 0 (by omega) (by exact h.2), ok_bind, pure_eq_ok]
    congr 3
    push_cast at *
    split <;> omega
  · rw [rd_getD_int 0 (by omega) (by exact h.2), ok_bind]; rfl

theorem UCore.waveVals_table {c : UCore} {cnt : Nat} (hc : c.waveform.phases = some cnt)
    (hd : 1 ≤ c.dutyCycle ∧ c.dutyCycle ≤ 15) : ∀ (n : Nat) {phase wc : Int},
    (0 ≤ phase ∧ phase < cnt) →
    c.waveVals n phase wc = .ok ((List.range n).map fun k =>
      c.waveform.value c.dutyCycle.toNat ((phase.toNat + k) % cnt), (phase + n) % cnt, wc)
  | 0, phase, wc, h => by
    simp only [UCore.waveVals, List.range_zero, List.map_nil]
    rw [Int.emod_eq_of_lt (by simpa using h.1) (by simpa using h.2)]
    simp
  | n + 1, phase, wc, h => by
    have hc0 : (0 : Int) < cnt := by omega
    have hb : 0 ≤ (phase + 1) % cnt ∧ (phase + 1) % cnt < cnt :=
      ⟨Int.emod_nonneg _ (by omega), Int.emod_lt_of_pos _ hc0⟩
    simp only [UCore.waveVals, UCore.waveNext_table hc hd h, ok_bind,
      UCore.waveVals_table hc hd n (wc := wc) hb, pure_eq_ok]
    congr 2
    · rw [List.range_succ_eq_map, List.map_cons, List.map_map]
      have e0 : (phase.toNat + 0) % cnt = phase.toNat := Nat.mod_eq_of_lt (by omega)
      rw [e0]
      congr 1
      apply List.map_congr_left
      intro k _
      have e1 : ((phase + 1) % cnt).toNat = (phase.toNat + 1) % cnt := by
        have : (phase + 1) % (cnt : Int) = ((phase.toNat + 1) % cnt : Nat) := by
          push_cast
          rw [Int.toNat_of_nonneg h.1]
        rw [this]; rfl
      show c.waveform.value _ _ = c.waveform.value _ _
      rw [e1, Nat.mod_add_mod]
      congr 2
      simp; omega
    · rw [Int.emod_add_emod]
      push_cast
      congr 2
      ring

/-- Levels one after the other. -/
theorem diffs_get (vol last : Int) : ∀ (vs : List Int) (k : Nat), k < vs.length →
    (diffs last (vs.map (level · vol)))[k]? = some (level (vs.getD k 0) vol -
      (if k = 0 then last else level (vs.getD (k - 1) 0) vol))
  | [], k, h => by simp at h
  | v :: vs, 0, h => by simp [diffs]
  | v :: vs, k + 1, h => by
    simp only [List.map_cons, diffs, List.getElem?_cons_succ]
    rw [diffs_get vol (level v vol) vs k (by simpa using h)]
    cases k with
    | zero => simp
    | succ k => simp

theorem UCore.chanPulses_get {c : UCore} {t0 : Int} {vs : List Int} {i k : Nat} (hz : c.volume i ≠ 0)
    (hk : k < vs.length) : (c.chanPulses t0 vs i)[k]? = some ⟨i, t0 + k * c.period,
      wrapI16 (level (vs.getD k 0) (c.volume i) -
        (if k = 0 then c.lastPulse i else level (vs.getD (k - 1) 0) (c.volume i)))⟩ := by
  unfold UCore.chanPulses
  rw [if_neg hz, List.getElem?_map]
  have hl : k < (amps (c.lastPulse i) (c.volume i) vs).length := by simpa [amps, diffs_length] using hk
  rw [stamp_get _ _ _ _ hl]
  have e : (amps (c.lastPulse i) (c.volume i) vs)[k]? = some (wrapI16 (level (vs.getD k 0) (c.volume i) -
        (if k = 0 then c.lastPulse i else level (vs.getD (k - 1) 0) (c.volume i)))) := by
    unfold amps
    rw [List.getElem?_map, diffs_get _ _ _ _ hk]; rfl
  rw [List.getElem?_eq_getElem hl] at e
  simp only [Option.map_some]
  rw [Option.some.inj e]

theorem UCore.chanPulses_length {c : UCore} {t0 : Int} {vs : List Int} {i : Nat} (hz : c.volume i ≠ 0) :
    (c.chanPulses t0 vs i).length = vs.length := by
  unfold UCore.chanPulses
  rw [if_neg hz]
  simp [stamp_length, amps, diffs_length]

theorem pulseCount_iff {p : Int} (hp : 1 ≤ p) (e : Int) : ∀ (k : Nat) (t : Int),
    k < pulseCount t e p ↔ t + k * p < e
  | 0, t => by
    by_cases h : t < e
    · rw [pulseCount_succ hp h]; simp [h]
    · rw [pulseCount_zero h]; simp; omega
  | k + 1, t => by
    by_cases h : t < e
    · rw [pulseCount_succ hp h]
      have := pulseCount_iff hp e k (t + p)
      rw [show t + ((k + 1 : Nat) : Int) * p = t + p + k * p by push_cast; ring]
      omega
    · rw [pulseCount_zero h]
      have : 0 ≤ ((k + 1 : Nat) : Int) * p := Int.mul_nonneg (by omega) (by omega)
      omega

theorem wrapI16_exact {x : Int} (h : -32768 ≤ x ∧ x ≤ 32767) : wrapI16 x = x := by
  unfold wrapI16; omega

/-- Without truncation the amplitudes add up to the change of the level. -/
theorem amps_sum {vol : Int} : ∀ (vs : List Int) {last : Int}, (-16383 ≤ last ∧ last ≤ 16383) →
    (∀ v ∈ vs, -16383 ≤ level v vol ∧ level v vol ≤ 16383) →
    (amps last vol vs).sum = lastLevel last vol vs - last ∧
      -16383 ≤ lastLevel last vol vs ∧ lastLevel last vol vs ≤ 16383
  | [], last, hl, _ => by simp [amps, diffs, lastLevel]; exact hl
  | v :: vs, last, hl, h => by
    have hv := h v (by simp)
    obtain ⟨ih, ih'⟩ := amps_sum vs (last := level v vol) hv (fun x hx => h x (by simp [hx]))
    unfold amps lastLevel at *
    simp only [List.map_cons, diffs, List.sum_cons, List.getLastD_cons]
    rw [wrapI16_exact (by omega), ih]
    exact ⟨by omega, ih'⟩

/-- The pulses `ps` lead exactly from the levels of `c` to those of `c'`, all of them small. -/
def Exactly (c c' : UCore) (ps : List Pulse) : Prop :=
  (∀ i, sumChan i ps = c'.lastPulse i - c.lastPulse i) ∧
    ∀ i, -16383 ≤ c'.lastPulse i ∧ c'.lastPulse i ≤ 16383

theorem Exactly.trans {a b c : UCore} {ps qs : List Pulse} (h1 : Exactly a b ps) (h2 : Exactly b c qs) :
    Exactly a c (ps ++ qs) := by
  refine ⟨fun i => ?_, h2.2⟩
  have := h1.1 i
  have := h2.1 i
  rw [sumChan_append]
  omega

theorem Exactly.of_eq {a b c : UCore} {ps : List Pulse} (h : Exactly a b ps) (e : c.lastPulse = b.lastPulse) :
    Exactly a c ps := by
  unfold Exactly; rw [e]; exact h

theorem Exactly.refl {c : UCore} (h : ∀ i, -16383 ≤ c.lastPulse i ∧ c.lastPulse i ≤ 16383) :
    Exactly c c [] := ⟨fun i => by simp [sumChan_nil], h⟩

theorem UCore.sampleChan_exactly {t idx : Int} {st st' : UCore × List Pulse} {i : Nat}
    (hf : ∀ v ∈ st.1.frames, InI16 v) (hv : ∀ i, 0 ≤ st.1.volume i ∧ st.1.volume i ≤ 16383)
    (hs : ∀ i, -16383 ≤ st.1.lastPulse i ∧ st.1.lastPulse i ≤ 16383)
    (h : UCore.sampleChan t idx st i = .ok st') :
    ∃ qs, st'.2 = st.2 ++ qs ∧ Exactly st.1 st'.1 qs := by
  unfold UCore.sampleChan at h
  obtain ⟨p, hp, h⟩ := bind_ok_iff.1 h
  obtain ⟨y, hy, h⟩ := bind_ok_iff.1 h
  obtain ⟨z, hz, h⟩ := bind_ok_iff.1 h
  obtain ⟨w, -, h⟩ := bind_ok_iff.1 h
  cases h
  have e1 := (i32_eq_ok_iff.1 hy).2
  have e2 := (i32_eq_ok_iff.1 hz).2
  have hb := level_bound (v := p) (vol := st.1.volume i) (hf p (rd_mem_of_ok hp).2.2)
    ⟨(hv i).1, by have := (hv i).2; omega⟩
  have hvi := hv i
  have hsi := hs i
  unfold level at hb
  rw [← e1] at hb
  refine ⟨_, rfl, fun j => ?_, fun j => ?_⟩
  · have e := sumChan_map j i [(wrapU32 w, wrapI16 z)]
    simp only [List.map_cons, List.map_nil, List.sum_cons, List.sum_nil] at e
    rw [e]
    dsimp only
    unfold upd
    by_cases hj : j = i
    · subst hj
      rw [if_pos rfl, if_pos rfl, wrapI16_exact (by omega)]
      omega
    · rw [if_neg (fun h => hj h.symm), if_neg hj]; simp
  · dsimp only
    unfold upd
    split
    · omega
    · exact hs j

theorem UCore.sampleStep_exactly {c0 c : UCore} (h0 : c0.Inv) (hi : SampleInv c0 c) {cb : Bool} {t : Int} {n : Nat}
    (hv : ∀ i, c0.volume i ≤ 16383) (hs : ∀ i, -16383 ≤ c.lastPulse i ∧ c.lastPulse i ≤ 16383)
    {r : Bool × UCore × List Pulse} (h : c.sampleStep cb t n = .ok r) : Exactly c r.2.1 r.2.2 := by
  unfold UCore.sampleStep at h
  obtain ⟨x, hx, h⟩ := bind_ok_iff.1 h
  obtain ⟨y, hy, h⟩ := bind_ok_iff.1 h
  have h1 : SampleInv c0 x.1 ∧ Exactly c x.1 x.2 :=
    foldlM_inv (P := fun st : UCore × List Pulse => SampleInv c0 st.1 ∧ Exactly c st.1 st.2)
    (fun st i st' hst hs => by
      obtain ⟨qs, e, hq⟩ := UCore.sampleChan_exactly (hst.1.1.frames ▸ h0.frames)
        (fun i => by rw [hst.1.1.volume]; exact ⟨(h0.volume i).1, hv i⟩) hst.2.2 hs
      exact ⟨UCore.sampleChan_inv h0 hst.1 hs, e ▸ hst.2.trans hq⟩) _ ⟨hi, Exactly.refl hs⟩ hx
  have e1 := UCore.advance_last hy
  obtain ⟨z, hz, h⟩ := bind_ok_iff.1 h
  have e2 : z.2.lastPulse = x.1.lastPulse := by
    unfold UCore.checkRange at hz
    split at hz
    · exact (UCore.resetSample_last hz).trans e1
    · cases hz; exact e1
  split at h
  · cases h; exact h1.2.of_eq e2
  · obtain ⟨v, hv, h⟩ := bind_ok_iff.1 h
    cases h
    refine h1.2.of_eq ?_
    unfold UCore.checkSustain at hv
    split at hv
    · exact (UCore.sustain_last hv).trans e2
    · cases hv; exact e2

theorem UCore.sampleLoop_exactly {c0 : UCore} (h0 : c0.Inv) (hv : ∀ i, c0.volume i ≤ 16383) {cb : Bool}
    {e : Int} {n : Nat} : ∀ (k : Nat) {t : Int} {c : UCore} {r : Int × UCore × List Pulse},
    SampleInv c0 c → (∀ i, -16383 ≤ c.lastPulse i ∧ c.lastPulse i ≤ 16383) →
    UCore.sampleLoop cb e n k t c = .ok r → Exactly c r.2.1 r.2.2
  | 0, t, c, r, hi, hs, h => by cases h; exact Exactly.refl hs
  | k + 1, t, c, r, hi, hs, h => by
    unfold UCore.sampleLoop at h
    split at h
    · obtain ⟨x, hx, h⟩ := bind_ok_iff.1 h
      have h1 := UCore.sampleStep_exactly h0 hi hv hs hx
      split at h
      · cases h; exact h1
      · obtain ⟨y, -, h⟩ := bind_ok_iff.1 h
        obtain ⟨z, hz, h⟩ := bind_ok_iff.1 h
        cases h
        exact h1.trans (UCore.sampleLoop_exactly h0 hv k (UCore.sampleStep_inv h0 hi hx) h1.2 hz)
    · cases h; exact Exactly.refl hs

theorem UCore.waveNext_small {c : UCore} {phase wc : Int} {r : Int × Int × Int}
    (hw : c.waveform = .triangle ∨ c.waveform = .noise ∨ c.waveform = .sine)
    (h : c.waveNext phase wc = .ok r) : -16383 ≤ r.1 ∧ r.1 ≤ 16383 := by
  unfold UCore.waveNext at h
  rcases hw with e | e | e <;> rw [e] at h <;> dsimp only at h
  · obtain ⟨x, hx, h⟩ := bind_ok_iff.1 h
    cases h
    have : ∀ v ∈ trianglePhases, -16383 ≤ v ∧ v ≤ 16383 := by decide +kernel
    exact this x (rd_mem_of_ok hx).2.2
  · cases h
    dsimp only
    split <;> decide
  · obtain ⟨x, hx, h⟩ := bind_ok_iff.1 h
    cases h
    have : ∀ v ∈ sinePhases, -16383 ≤ v.tdiv 2 ∧ v.tdiv 2 ≤ 16383 := by decide +kernel
    exact this x (rd_mem_of_ok hx).2.2

theorem UCore.waveVals_small {c : UCore}
    (hw : c.waveform = .triangle ∨ c.waveform = .noise ∨ c.waveform = .sine) : ∀ (n : Nat)
    {phase wc : Int} {r : List Int × Int × Int}, c.waveVals n phase wc = .ok r →
    ∀ v ∈ r.1, -16383 ≤ v ∧ v ≤ 16383
  | 0, phase, wc, r, h => by cases h; simp
  | n + 1, phase, wc, r, h => by
    unfold UCore.waveVals at h
    obtain ⟨x, hx, h⟩ := bind_ok_iff.1 h
    obtain ⟨y, hy, h⟩ := bind_ok_iff.1 h
    cases h
    intro v hv
    rcases List.mem_cons.1 hv with rfl | hv
    · exact UCore.waveNext_small hw hx
    · exact UCore.waveVals_small hw n hy v hv

theorem level_small {v vol : Int} (hv : -16383 ≤ v ∧ v ≤ 16383) (h : 0 ≤ vol ∧ vol ≤ 32767) :
    -16383 ≤ level v vol ∧ level v vol ≤ 16383 := by
  have h1 : v * vol ≤ 16383 * vol := Int.mul_le_mul_of_nonneg_right hv.2 h.1
  have h2 : -16383 * vol ≤ v * vol := Int.mul_le_mul_of_nonneg_right hv.1 h.1
  unfold level
  generalize v * vol = x at *
  omega

/-- The unit cannot jump by more than 32767: half volume, or one of the waveforms at half height. -/
def Gentle (c : UCore) : Prop :=
  (∀ i, c.volume i ≤ 16383) ∨ c.waveform = .triangle ∨ c.waveform = .noise ∨ c.waveform = .sine

theorem stamp_amps (t p : Int) : ∀ as : List Int, (stamp t p as).map (·.2) = as
  | [] => rfl
  | a :: as => by simp [stamp, stamp_amps (t + p) p as]

theorem UCore.render_exactly {c : UCore} (h : c.Inv) (hg : Gentle c) {t0 e : Int} (h0 : 0 ≤ e)
    (he : e ≤ 2147483648) {n : Nat} (hs : ∀ i, -16383 ≤ c.lastPulse i ∧ c.lastPulse i ≤ 16383)
    {r : Int × UCore × List Pulse} (hr : c.render t0 e n = .ok r) : Exactly c r.2.1 r.2.2 := by
  by_cases hp : c.period = 0
  · unfold UCore.render UCore.runAny at hr
    rw [if_pos hp] at hr
    cases hr
    exact Exactly.refl hs
  by_cases hw : c.waveform.tabled
  · by_cases hm : c.mute = 0
    · have hp1 := h.period
      obtain ⟨vs, p, w, hv, hok, hl, hrg⟩ :=
        UCore.waveVals_ok (pulseCount t0 e c.period) h.waveOk.phase
      rw [UCore.render_eq hw h.waveOk (by omega) (by omega) hm h0 hv n] at hr
      cases hr
      have hsm : ∀ i, ∀ v ∈ vs, -16383 ≤ level v (c.volume i) ∧ level v (c.volume i) ≤ 16383 := by
        intro i v hvm
        rcases hg with hg | hg
        · have := level_bound (hrg v hvm) (h.volume i)
          have := hg i
          omega
        · exact level_small (UCore.waveVals_small hg _ hv v hvm) (h.volume i)
      refine ⟨fun i => ?_, fun i => ?_⟩
      · unfold sumChan
        rw [UCore.flat_chan]
        unfold UCore.chanPulses UCore.afterWave
        by_cases hi : i < n ∧ c.volume i ≠ 0
        · rw [if_pos hi.1, if_neg hi.2]
          dsimp only
          rw [if_pos hi, List.map_map]
          show (List.map (·.2) (stamp t0 c.period _)).sum = _
          rw [stamp_amps]
          exact (amps_sum vs (hs i) (hsm i)).1
        · dsimp only
          rw [if_neg hi]
          by_cases h1 : i < n
          · rw [if_pos h1, if_pos (by by_contra h2; exact hi ⟨h1, h2⟩)]; simp
          · rw [if_neg h1]; simp
      · unfold UCore.afterWave
        dsimp only
        split
        · exact (amps_sum vs (hs i) (hsm i)).2
        · exact hs i
    · rw [UCore.render_wave hw hp] at hr
      unfold UCore.runWaveform at hr
      rw [if_pos hm] at hr
      cases hr
      exact Exactly.refl hs
  · unfold UCore.render at hr
    obtain ⟨x, hx, hr⟩ := bind_ok_iff.1 hr
    cases hr
    dsimp only
    unfold UCore.runAny at hx
    rw [if_neg hp] at hx
    split at hx
    · cases hx; exact Exactly.refl hs
    · rename_i hsm
      unfold UCore.runSample at hx
      split at hx
      · cases hx; exact Exactly.refl hs
      · obtain ⟨d, -, hx⟩ := bind_ok_iff.1 hx
        obtain ⟨d', -, hx⟩ := bind_ok_iff.1 hx
        split at hx
        · cases hx; exact Exactly.refl hs
        · obtain ⟨y, hy, hx⟩ := bind_ok_iff.1 hx
          cases hx
          have hv : ∀ i, c.volume i ≤ 16383 := by
            rcases hg with hg | hg
            · exact hg
            · rw [hsm] at hg; simp at hg
          have := UCore.sampleLoop_exactly h hv _ ⟨SameSetup.refl c, h.last⟩ hs hy
          exact this
    · rename_i h1 h2
      exact absurd ⟨h1, h2⟩ hw

/-- Channel `i` of the unit is at level 0 with volume 0. -/
def SilentAt (i : Nat) (c : UCore) : Prop := c.volume i = 0 ∧ c.lastPulse i = 0

theorem UCore.sampleChan_silent {i j : Nat} {t idx : Int} {st st' : UCore × List Pulse}
    (hs : SilentAt i st.1) (hz : ∀ p ∈ onChan i st.2, p.amp = 0)
    (h : UCore.sampleChan t idx st j = .ok st') :
    SilentAt i st'.1 ∧ ∀ p ∈ onChan i st'.2, p.amp = 0 := by
  unfold UCore.sampleChan at h
  obtain ⟨p, hp, h⟩ := bind_ok_iff.1 h
  obtain ⟨y, hy, h⟩ := bind_ok_iff.1 h
  obtain ⟨z, hz', h⟩ := bind_ok_iff.1 h
  obtain ⟨w, -, h⟩ := bind_ok_iff.1 h
  cases h
  have e1 := (i32_eq_ok_iff.1 hy).2
  have e2 := (i32_eq_ok_iff.1 hz').2
  obtain ⟨hv, hl⟩ := hs
  by_cases hj : j = i
  · subst hj
    rw [hv] at e1
    have ey : y = 0 := by omega
    subst ey
    rw [hl] at e2
    subst e2
    refine ⟨⟨hv, by simp [upd]⟩, ?_⟩
    intro q hq
    rw [onChan_append] at hq
    rcases List.mem_append.1 hq with hq | hq
    · exact hz q hq
    · have hq := (List.mem_filter.1 hq).1
      simp only [List.mem_singleton] at hq
      rw [hq]; rfl
  · refine ⟨⟨hv, ?_⟩, ?_⟩
    · show upd st.1.lastPulse j _ i = 0
      unfold upd
      rw [if_neg (fun h => hj h.symm)]
      exact hl
    · intro q hq
      rw [onChan_append] at hq
      rcases List.mem_append.1 hq with hq | hq
      · exact hz q hq
      · have hq' := List.mem_filter.1 hq
        have h1 := hq'.1
        simp only [List.mem_singleton] at h1
        have h2 := hq'.2
        rw [h1] at h2
        exact absurd (by simpa using h2) hj

theorem UCore.sampleStep_silent {i : Nat} {c : UCore} {cb : Bool} {t : Int} {n : Nat}
    {r : Bool × UCore × List Pulse} (hs : SilentAt i c) (h : c.sampleStep cb t n = .ok r) :
    (∀ p ∈ onChan i r.2.2, p.amp = 0) ∧ SilentAt i r.2.1 := by
  unfold UCore.sampleStep at h
  obtain ⟨x, hx, h⟩ := bind_ok_iff.1 h
  obtain ⟨y, hy, h⟩ := bind_ok_iff.1 h
  have h1 : SilentAt i x.1 ∧ ∀ p ∈ onChan i x.2, p.amp = 0 :=
    foldlM_inv (P := fun st : UCore × List Pulse => SilentAt i st.1 ∧ ∀ p ∈ onChan i st.2, p.amp = 0)
      (fun st j st' hst hj => UCore.sampleChan_silent hst.1 hst.2 hj) _ ⟨hs, by simp [onChan]⟩ hx
  have h2 : SilentAt i y := by
    unfold UCore.advance at hy
    obtain ⟨p, -, hy⟩ := bind_ok_iff.1 hy
    obtain ⟨q, -, hy⟩ := bind_ok_iff.1 hy
    cases hy
    exact h1.1
  obtain ⟨z, hz, h⟩ := bind_ok_iff.1 h
  have h3 : SilentAt i z.2 := by
    unfold UCore.checkRange at hz
    split at hz
    · unfold UCore.resetSample at hz
      obtain ⟨w, -, hz⟩ := bind_ok_iff.1 hz
      split at hz
      · cases hz; exact h2
      · obtain ⟨y, -, hz⟩ := bind_ok_iff.1 hz
        cases hz; exact h2
    · cases hz; exact h2
  split at h
  · cases h; exact ⟨h1.2, h3⟩
  · obtain ⟨v, hv, h⟩ := bind_ok_iff.1 h
    cases h
    unfold UCore.checkSustain UCore.sustain at hv
    split at hv
    · split at hv <;> split at hv <;> (cases hv; exact ⟨h1.2, h3⟩)
    · cases hv; exact ⟨h1.2, h3⟩

theorem UCore.sampleLoop_silent {i : Nat} {cb : Bool} {e : Int} {n : Nat} : ∀ (k : Nat) {t : Int}
    {c : UCore} {r : Int × UCore × List Pulse}, SilentAt i c →
    UCore.sampleLoop cb e n k t c = .ok r → (∀ p ∈ onChan i r.2.2, p.amp = 0) ∧ SilentAt i r.2.1
  | 0, t, c, r, hs, h => by cases h; exact ⟨by simp [onChan], hs⟩
  | k + 1, t, c, r, hs, h => by
    unfold UCore.sampleLoop at h
    split at h
    · obtain ⟨x, hx, h⟩ := bind_ok_iff.1 h
      have h1 := UCore.sampleStep_silent hs hx
      split at h
      · cases h; exact h1
      · obtain ⟨y, -, h⟩ := bind_ok_iff.1 h
        obtain ⟨z, hz, h⟩ := bind_ok_iff.1 h
        cases h
        have h2 := UCore.sampleLoop_silent k h1.2 hz
        refine ⟨?_, h2.2⟩
        intro p hp
        rw [onChan_append] at hp
        rcases List.mem_append.1 hp with hp | hp
        · exact h1.1 p hp
        · exact h2.1 p hp
    · cases h; exact ⟨by simp [onChan], hs⟩

end BK
