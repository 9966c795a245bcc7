import Verif.Lemmas.SampleRun
/-!
Rendering a unit: it always succeeds, where its pulses are, moving it in time, and doing it in two
parts.
-/
namespace BK

/-- Earlier by `a`. -/
def Pulse.earlier (a : Int) (p : Pulse) : Pulse := { p with time := p.time - a }

/-- A unit in a state that programs can bring it to. -/
def UCore.Usable (n : Nat) (c : UCore) : Prop := c.Inv ∧ c.SInv n

theorem onChan_earlier (i : Nat) (a : Int) (ps : List Pulse) :
    onChan i (ps.map (Pulse.earlier a)) = (onChan i ps).map (Pulse.earlier a) := by
  unfold onChan
  rw [List.filter_map]
  rfl

theorem sampleFold_pulses {t idx : Int} : ∀ (l : List Nat) {st st' : UCore × List Pulse},
    l.foldlM (UCore.sampleChan t idx) st = .ok st' → st'.1.timeFrac = st.1.timeFrac ∧
      ∃ qs, st'.2 = st.2 ++ qs ∧ ∀ p ∈ qs, p.chan ∈ l ∧ p.time = wrapU32 (t + st.1.timeFrac)
  | [], st, st', h => by cases h; exact ⟨rfl, [], (List.append_nil _).symm, by simp⟩
  | i :: l, st, st', h => by
    rw [List.foldlM_cons] at h
    obtain ⟨s1, h1, h⟩ := bind_ok_iff.1 h
    unfold UCore.sampleChan at h1
    obtain ⟨a1, -, h1⟩ := bind_ok_iff.1 h1
    obtain ⟨a2, -, h1⟩ := bind_ok_iff.1 h1
    obtain ⟨a3, -, h1⟩ := bind_ok_iff.1 h1
    obtain ⟨a4, h4, h1⟩ := bind_ok_iff.1 h1
    cases h1
    obtain ⟨-, rfl⟩ := i32_eq_ok_iff.1 h4
    obtain ⟨g1, qs, g2, g3⟩ := sampleFold_pulses l h
    refine ⟨g1, _ :: qs, by rw [g2, List.append_assoc]; rfl, ?_⟩
    intro p hp
    rcases List.mem_cons.1 hp with rfl | hp
    · exact ⟨by simp, rfl⟩
    · obtain ⟨f1, f2⟩ := g3 p hp
      exact ⟨by simp [f1], f2⟩

theorem sampleFold_earlier {t idx a : Int} (ha : 0 ≤ a) (hat : a ≤ t) : ∀ (l : List Nat) {st st' : UCore × List Pulse},
    0 ≤ st.1.timeFrac → l.foldlM (UCore.sampleChan t idx) st = .ok st' →
    l.foldlM (UCore.sampleChan (t - a) idx) (st.1, st.2.map (Pulse.earlier a)) =
      .ok (st'.1, st'.2.map (Pulse.earlier a))
  | [], st, st', _, h => by cases h; rfl
  | i :: l, st, st', hf, h => by
    rw [List.foldlM_cons] at h ⊢
    obtain ⟨s1, h1, h⟩ := bind_ok_iff.1 h
    unfold UCore.sampleChan at h1
    obtain ⟨a1, e1, h1⟩ := bind_ok_iff.1 h1
    obtain ⟨a2, e2, h1⟩ := bind_ok_iff.1 h1
    obtain ⟨a3, e3, h1⟩ := bind_ok_iff.1 h1
    obtain ⟨a4, h4, h1⟩ := bind_ok_iff.1 h1
    cases h1
    obtain ⟨h5, rfl⟩ := i32_eq_ok_iff.1 h4
    unfold InI32 at h5
    have := sampleFold_earlier ha hat l (by exact hf) h
    have e : UCore.sampleChan (t - a) idx (st.1, st.2.map (Pulse.earlier a)) i =
        .ok ({ st.1 with lastPulse := upd st.1.lastPulse i (a2 / 32768) },
          (st.2 ++ [Pulse.mk i (wrapU32 (t + st.1.timeFrac)) (wrapI16 a3)]).map (Pulse.earlier a)) := by
      unfold UCore.sampleChan
      dsimp only
      rw [e1, ok_bind, e2, ok_bind, e3, ok_bind, i32_ok (by omega) (by omega), ok_bind, List.map_append]
      have : wrapU32 (t - a + st.1.timeFrac) = wrapU32 (t + st.1.timeFrac) - a := by
        unfold wrapU32; omega
      simp only [pure_eq_ok, List.map_cons, List.map_nil, Pulse.earlier, this]
    rw [e, ok_bind]
    exact this

theorem UCore.sampleStep_earlier {c : UCore} {cb : Bool} {t a : Int} {n : Nat} (ha : 0 ≤ a) (hat : a ≤ t)
    (hf : 0 ≤ c.timeFrac) {b : Bool} {c' : UCore} {ps : List Pulse} (h : c.sampleStep cb t n = .ok (b, c', ps)) :
    c.sampleStep cb (t - a) n = .ok (b, c', ps.map (Pulse.earlier a)) ∧
    ∀ p ∈ ps, p.chan < n ∧ p.time = wrapU32 (t + c.timeFrac) := by
  unfold UCore.sampleStep at h ⊢
  obtain ⟨x, hx, h⟩ := bind_ok_iff.1 h
  obtain ⟨y, hy, h⟩ := bind_ok_iff.1 h
  obtain ⟨z, hz, h⟩ := bind_ok_iff.1 h
  have e := sampleFold_earlier ha hat _ (st := (c, [])) hf hx
  obtain ⟨-, qs, g2, g3⟩ := sampleFold_pulses _ hx
  rw [List.nil_append] at g2
  have e' : (List.range n).foldlM (UCore.sampleChan (t - a) (wrapU32 (c.phase * c.numChannels))) (c, []) = _ := e
  rw [e', ok_bind, hy, ok_bind, hz, ok_bind]
  by_cases hb : z.1 = true
  · rw [if_pos hb] at h ⊢
    cases h
    exact ⟨rfl, fun p hp => by
      obtain ⟨h1, h2⟩ := g3 p (g2 ▸ hp); exact ⟨List.mem_range.1 h1, h2⟩⟩
  · rw [if_neg hb] at h ⊢
    obtain ⟨w, hw, h⟩ := bind_ok_iff.1 h
    cases h
    rw [hw, ok_bind]
    exact ⟨rfl, fun p hp => by
      obtain ⟨h1, h2⟩ := g3 p (g2 ▸ hp); exact ⟨List.mem_range.1 h1, h2⟩⟩

/-- Moving a sample loop in time. -/
theorem UCore.sampleLoop_earlier {n : Nat} {e a : Int} (ha : 0 ≤ a) (hae : a ≤ e) (he : e ≤ 2145386496) {cb : Bool} :
    ∀ (k : Nat) {t : Int} {c : UCore} {t' : Int} {c' : UCore} {ps : List Pulse}, Playing n c → c.waveform = .sample →
    (cb = true → c.sustainRange = true) → InI32 t → a ≤ t →
    UCore.sampleLoop cb e n k t c = .ok (t', c', ps) →
    UCore.sampleLoop cb (e - a) n k (t - a) c = .ok (t' - a, c', ps.map (Pulse.earlier a)) ∧
    (∀ p ∈ ps, p.chan < n ∧ t ≤ p.time ∧ p.time < e + U20) ∧ t ≤ t' ∧ (t' < e + U20 ∨ t' = t)
  | 0, t, c, t', c', ps, _, _, _, _, _, h => by
    cases h; exact ⟨rfl, by simp, Int.le_refl _, .inr rfl⟩
  | k + 1, t, c, t', c', ps, hp, hw, hcb, ht, hat, h => by
    unfold UCore.sampleLoop at h ⊢
    unfold InI32 at ht
    have hfr := hp.pre.frac
    by_cases hlt : wrapU32 t < e
    · rw [if_pos hlt] at h
      have htr : 0 ≤ t ∧ t < e := by unfold wrapU32 at hlt; omega
      rw [if_pos (by unfold wrapU32 at *; omega)]
      obtain ⟨⟨b, c1, q⟩, hx, h⟩ := bind_ok_iff.1 h
      obtain ⟨b', c1', q', h1, h2, h3⟩ := UCore.sampleStep_ok hp hw (t := t) (by unfold InI32; omega) hcb
      rw [hx] at h1
      cases h1
      obtain ⟨e1, e2⟩ := UCore.sampleStep_earlier ha hat hfr.1 hx
      have hq : ∀ p ∈ q, p.chan < n ∧ t ≤ p.time ∧ p.time < e + U20 := by
        intro p hpq
        obtain ⟨f1, f2⟩ := e2 p hpq
        refine ⟨f1, ?_⟩
        rw [f2]; unfold wrapU32; omega
      rw [e1, ok_bind]
      dsimp only at h ⊢
      cases b with
      | true =>
        rw [if_pos rfl] at h ⊢
        cases h
        exact ⟨rfl, hq, Int.le_refl _, .inr rfl⟩
      | false =>
        rw [if_neg (by decide)] at h ⊢
        obtain ⟨t1, hi, h⟩ := bind_ok_iff.1 h
        obtain ⟨ht1, rfl⟩ := i32_eq_ok_iff.1 hi
        obtain ⟨⟨a1, a2, a3⟩, hr, h⟩ := bind_ok_iff.1 h
        cases h
        obtain ⟨g1, g2, g3, g4⟩ := UCore.sampleLoop_earlier ha hae he k h3 (h2.setup.waveform.trans hw)
          (by rw [h2.sustainRange]; exact hcb) ht1 (by omega) hr
        unfold InI32 at ht1
        rw [i32_ok (by omega) (by omega), ok_bind, show t - a + U20 = t + U20 - a by omega, g1, ok_bind]
        refine ⟨by rw [List.map_append]; rfl, ?_, by omega, ?_⟩
        · intro p hp
          rcases List.mem_append.1 hp with hp | hp
          · exact hq p hp
          · obtain ⟨f1, f2, f3⟩ := g2 p hp
            exact ⟨f1, by omega, f3⟩
        · left; omega
    · rw [if_neg hlt] at h
      cases h
      rw [if_neg (by unfold wrapU32 at *; omega)]
      exact ⟨rfl, by simp, Int.le_refl _, .inr rfl⟩

theorem UCore.render_sample_eq {c : UCore} {n : Nat} (hs : c.SampleOk n) (hw : c.waveform = .sample) (t e : Int) :
    c.render t e n = if c.period = 0 then .ok (if t < e then e else t, c, []) else
      if c.mute ≠ 0 then .ok (e, c, []) else if c.length < 2 then .ok (e, c, []) else do
        let r ← UCore.sampleLoop (c.sustainRange && !c.release) e n 4097 (wrapI32 t) c
        return (if wrapU32 r.1 < e then e else wrapU32 r.1, r.2) := by
  have hspan := hs.span
  have hlen := hs.len
  unfold UCore.render UCore.runAny
  by_cases hp : c.period = 0
  · rw [if_pos hp, if_pos hp]; rfl
  · rw [if_neg hp, if_neg hp, hw]
    dsimp only
    unfold UCore.runSample
    by_cases hm : c.mute ≠ 0
    · rw [if_pos hm, if_pos hm]
      show Except.ok (if e < e then e else e, c, []) = _
      rw [if_neg (by omega)]
    · rw [if_neg hm, if_neg hm]
      have e1 : wrapI32 c.stop = c.stop := by unfold wrapI32; omega
      have e2 : wrapI32 c.offset = c.offset := by unfold wrapI32; omega
      have e3 : cabs (c.stop - c.offset) = .ok c.length := by
        unfold cabs
        split
        · rw [i32_ok (by omega) (by omega)]
          congr 1
          omega
        · congr 1
          omega
      rw [e1, e2, i32_ok (by omega) (by omega), ok_bind, e3, ok_bind]
      by_cases h2 : c.length < 2
      · rw [if_pos h2, if_pos h2]
        show Except.ok (if e < e then e else e, c, []) = _
        rw [if_neg (by omega)]
      · rw [if_neg h2, if_neg h2, bind_assoc_C]
        refine bind_congr_C fun r => ?_
        rfl

/-- The four ways to render. -/
inductive UCore.Way (n : Nat) (c : UCore) : Prop where
  | idle : (∀ t e, c.render t e n = .ok (if t < e then e else t, c, [])) → Way n c
  | off : (∀ t e, 0 ≤ e → e ≤ 2145386496 → c.render t e n = .ok (e, c, [])) → Way n c
  | wave : c.waveform.tabled → 1 ≤ c.period → c.mute = 0 → c.on n = true → Way n c
  | sample : c.waveform = .sample → c.mute = 0 → c.period ≠ 0 → Playing n c → (∀ t e, c.render t e n = do
        let r ← UCore.sampleLoop (c.sustainRange && !c.release) e n 4097 (wrapI32 t) c
        return (if wrapU32 r.1 < e then e else wrapU32 r.1, r.2)) → Way n c

theorem UCore.Usable.way {n : Nat} {c : UCore} (h : c.Usable n) : c.Way n := by
  obtain ⟨hi, hc⟩ := h
  by_cases hp : c.period = 0
  · refine .idle fun t e => ?_
    unfold UCore.render UCore.runAny; rw [if_pos hp]; rfl
  by_cases hn : c.waveform = .none
  · refine .idle fun t e => ?_
    unfold UCore.render UCore.runAny; rw [if_neg hp, hn]; rfl
  by_cases hs : c.waveform = .sample
  · have hso := hc.1.sample hs
    by_cases hm : c.mute ≠ 0
    · refine .off fun t e _ _ => ?_
      rw [UCore.render_sample_eq hso hs, if_neg hp, if_pos hm]
    by_cases h2 : c.length < 2
    · refine .off fun t e _ _ => ?_
      rw [UCore.render_sample_eq hso hs, if_neg hp, if_neg hm, if_pos h2]
    · refine .sample hs (by omega) hp (Playing.of hi hc hs (by omega)) fun t e => ?_
      rw [UCore.render_sample_eq hso hs, if_neg hp, if_neg hm, if_neg h2]
  · have ht : c.waveform.tabled := ⟨hn, hs⟩
    have hper := hi.period
    by_cases hm : c.mute = 0
    · cases hon : c.on n
      · refine .off fun t e h0 he => ?_
        obtain ⟨vs, p, w, hv, -⟩ := UCore.waveVals_ok (pulseCount t e c.period) hi.waveOk.phase
        have r1 := UCore.render_eq ht hi.waveOk (by omega) (by omega) hm h0 hv n
        rw [hon, UCore.off_flat hon, UCore.off_after hon] at r1
        simpa using r1
      · exact .wave ht (by omega) hm hon
    · refine .off fun t e h0 _ => ?_
      rw [UCore.render_wave ht hp]
      unfold UCore.runWaveform
      rw [if_pos hm]
      simp only [ok_bind, pure_eq_ok]
      congr 2
      split <;> omega

theorem stamp_shift (a p : Int) : ∀ (t : Int) (as : List Int),
    stamp (t - a) p as = (stamp t p as).map fun x => (x.1 - a, x.2)
  | t, [] => rfl
  | t, x :: as => by
    unfold stamp
    have := stamp_shift a p (t + p) as
    rw [show t - a + p = t + p - a by omega, this]
    rfl

theorem pulseCount_shift (t e p a : Int) : pulseCount (t - a) (e - a) p = pulseCount t e p := by
  unfold pulseCount
  have h : t - a < e - a ↔ t < e := by omega
  have h' : e - a - (t - a) = e - t := by omega
  simp only [h, h']

theorem UCore.chanPulses_shift (c : UCore) (t a : Int) (vs : List Int) (i : Nat) :
    c.chanPulses (t - a) vs i = (c.chanPulses t vs i).map (Pulse.earlier a) := by
  unfold UCore.chanPulses
  split
  · rfl
  · rw [stamp_shift, List.map_map, List.map_map]; rfl

theorem UCore.chanPulses_time {c : UCore} {t e : Int} {vs : List Int} {i : Nat} (hp : 1 ≤ c.period)
    (hl : vs.length = pulseCount t e c.period) : ∀ p ∈ c.chanPulses t vs i, p.chan = i ∧ t ≤ p.time ∧ p.time < e := by
  intro q hq
  by_cases hz : c.volume i = 0
  · unfold UCore.chanPulses at hq; rw [if_pos hz] at hq; cases hq
  · obtain ⟨k, hk, rfl⟩ := List.mem_iff_getElem.1 hq
    have hk' : k < vs.length := by rwa [UCore.chanPulses_length hz] at hk
    have h1 := UCore.chanPulses_get (c := c) (t0 := t) hz hk'
    have h2 : (c.chanPulses t vs i)[k]? = some ((c.chanPulses t vs i)[k]) := List.getElem?_eq_getElem hk
    rw [h2] at h1
    have h3 := Option.some.inj h1
    rw [h3]
    have h4 := (pulseCount_iff hp e k t).1 (by omega)
    have h5 : (0 : Int) ≤ k * c.period := Int.mul_nonneg (by omega) (by omega)
    exact ⟨rfl, by dsimp only; omega, h4⟩

/-- Rendering succeeds; the bounds of time and pulses, and the same at an earlier time. -/
theorem UCore.Usable.render {n : Nat} {c : UCore} (h : c.Usable n) {t0 e : Int} (h0 : 0 ≤ t0) (h0' : t0 ≤ 4294967295)
    (he0 : 0 ≤ e) (he : e ≤ 2145386496) :
    ∃ t c' ps, c.render t0 e n = .ok (t, c', ps) ∧ c'.Usable n ∧ e ≤ t ∧ (t ≤ t0 ∨ t ≤ e + 2147483647) ∧
      (∀ p ∈ ps, p.chan < n ∧ t0 ≤ p.time ∧ p.time < e + U20) ∧
      ∀ a, 0 ≤ a → a ≤ t0 → a ≤ e →
        c.render (t0 - a) (e - a) n = .ok (t - a, c', ps.map (Pulse.earlier a)) := by
  obtain ⟨hi, hc⟩ := id h
  rcases h.way with hw | hw | ⟨hw, hp, hm, hon⟩ | ⟨hw, -, -, hp, hr⟩
  · refine ⟨_, c, [], hw _ _, h, by split <;> omega, by split <;> omega, by simp, fun a h1 h2 h3 => ?_⟩
    rw [hw]
    congr 2
    split <;> split <;> omega
  · refine ⟨_, c, [], hw _ _ he0 he, h, Int.le_refl _, .inr (by omega), by simp, fun a h1 h2 h3 => ?_⟩
    rw [hw _ _ (by omega) (by omega)]
    rfl
  · have hper := hi.period
    obtain ⟨vs, p, w, hv, hok, hl, hrg⟩ := UCore.waveVals_ok (pulseCount t0 e c.period) hi.waveOk.phase
    have r1 := UCore.render_eq hw hi.waveOk hp (by omega) hm he0 hv n
    rw [hon, if_pos rfl] at r1
    obtain ⟨b1, b2⟩ := pulseCount_end (e := e) hp _ t0 (Nat.le_refl _)
    refine ⟨_, _, _, r1, ⟨UCore.afterWave_inv hi hok hrg n, ?_, fun hh => absurd hh hw.2⟩, b1, ?_, ?_, ?_⟩
    · exact ⟨hc.1.speed, hc.1.frac, fun hh => absurd hh hw.2⟩
    · by_cases hlt : t0 < e
      · right; have := b2 hlt; omega
      · left; rw [pulseCount_zero hlt]; simp
    · intro q hq
      obtain ⟨i, hir, hq⟩ := List.mem_flatMap.1 hq
      obtain ⟨f1, f2, f3⟩ := UCore.chanPulses_time hp hl q hq
      exact ⟨by rw [f1]; exact List.mem_range.1 hir, f2, by omega⟩
    · intro a h1 h2 h3
      have hv' := hv
      rw [← pulseCount_shift t0 e c.period a] at hv'
      have r2 := UCore.render_eq hw hi.waveOk hp (by omega) hm (by omega) hv' n
      rw [hon, if_pos rfl, pulseCount_shift] at r2
      rw [r2]
      congr 2
      · omega
      · congr 1
        rw [List.map_flatMap]
        congr 1
        funext i
        rw [UCore.chanPulses_shift]
  · by_cases hlt : t0 < e
    · have e1 : wrapI32 t0 = t0 := by unfold wrapI32; omega
      have hi32 : InI32 t0 := by unfold InI32; omega
      obtain ⟨t, c', ps, r1, hs1, hp1⟩ := UCore.sampleLoop_ok (n := n) (e := e) he
        (cb := c.sustainRange && !c.release) 4097 (t := t0) hp hw (by simp +contextual) hi32
      have hz := UCore.sampleLoop_earlier (n := n) (e := e) (a := 0) (by omega) (by omega) he
        (cb := c.sustainRange && !c.release) 4097 hp hw (by simp +contextual) hi32 h0 r1
      obtain ⟨-, g2, g3, g4⟩ := hz
      have hc1 : c'.Inv := by
        have := UCore.sampleLoop_inv hi _ ⟨SameSetup.refl c, hi.last⟩ r1
        exact SampleInv.inv hi hw this
      have ht : wrapU32 t = t := by unfold wrapU32; omega
      refine ⟨if t < e then e else t, c', ps, ?_, ⟨hc1, hp1.pre, fun _ => hp1.mod⟩, by split <;> omega,
        .inr (by split <;> omega), g2, fun a h1 h2 h3 => ?_⟩
      · rw [hr, e1, r1, ok_bind, pure_eq_ok, ht]
      · have hy := (UCore.sampleLoop_earlier (n := n) (e := e) (a := a) h1 h3 he
          (cb := c.sustainRange && !c.release) 4097 hp hw (by simp +contextual) hi32 h2 r1).1
        have e2 : wrapI32 (t0 - a) = t0 - a := by unfold wrapI32; omega
        have ht' : wrapU32 (t - a) = t - a := by unfold wrapU32; omega
        rw [hr, e2, hy, ok_bind, pure_eq_ok, ht']
        congr 2
        split <;> split <;> omega
    · have key : ∀ t e, 0 ≤ t → t ≤ 4294967295 → e ≤ t → c.render t e n = .ok (t, c, []) := by
        intro t e h1 h2 h3
        have e1 : wrapU32 (wrapI32 t) = t := wrapU32_wrapI32 ⟨h1, h2⟩
        rw [hr, UCore.sampleLoop_done (by omega), ok_bind, e1, pure_eq_ok, if_neg (by omega)]
      exact ⟨_, _, _, key _ _ h0 h0' (by omega), h, by omega, .inl (by omega), by simp, fun a h1 h2 h3 => by
        rw [key _ _ (by omega) (by omega) (by omega)]; rfl⟩

/-- Rendering in two parts. -/
theorem UCore.Usable.split {n : Nat} {c : UCore} (h : c.Usable n) {t0 e1 e2 : Int} (h0 : 0 ≤ t0) (h0' : t0 ≤ 4294967295)
    (he0 : 0 ≤ e1) (he : e1 ≤ e2) (he2 : e2 ≤ 2145386496) {t1 t2 : Int} {c1 c2 : UCore} {p1 p2 : List Pulse}
    (r1 : c.render t0 e1 n = .ok (t1, c1, p1)) (r2 : c1.render t1 e2 n = .ok (t2, c2, p2)) :
    ∃ ps, c.render t0 e2 n = .ok (t2, c2, ps) ∧ ∀ i, onChan i ps = onChan i p1 ++ onChan i p2 := by
  obtain ⟨hi, hc⟩ := id h
  have hper := hi.period
  by_cases hs : c.waveform = .sample
  · obtain ⟨a1, a2, a3, a4, a5, a6, b1, b2, b3, -⟩ := UCore.sample_split hi hc hs t0 ⟨h0, h0'⟩ he0 he he2
    rw [r1] at b1; cases b1
    rw [r2] at b2; cases b2
    exact ⟨_, b3, fun i => onChan_append _ _ _⟩
  by_cases hn : c.waveform = .none
  · have key : ∀ t e, c.render t e n = .ok (if t < e then e else t, c, []) := by
      intro t e
      unfold UCore.render UCore.runAny
      rw [hn]; split <;> rfl
    rw [key] at r1; cases r1
    rw [key] at r2; cases r2
    refine ⟨[], ?_, fun i => rfl⟩
    rw [key]
    congr 2
    repeat' split
    all_goals omega
  · obtain ⟨a1, a2, a3, a4, a5, a6, ps, b1, -, b2, -, b3, -, -, b4⟩ :=
      UCore.wave_split (t0 := t0) (n := n) (c := c) ⟨hn, hs⟩ hi.waveOk he (by omega) he0
    rw [r1] at b1; cases b1
    rw [r2] at b2; cases b2
    exact ⟨ps, b3, b4⟩

end BK
