import Verif.Lemmas.Train2
import Verif.Props.Note
/-!
C89 for noise and custom waveforms.
-/
namespace BK

variable {N : Nat}

/-- The period that is set in the unit, for at least two steps. -/
theorem tone_period2 {n rate count p q v : Int} (hp : tonePeriodLookup n rate = .ok p) (hc' : count ≤ 64) (h2c : 2 ≤ count)
    (hq : udiv (wrapU32 (wrapI32 p)) (cmin count 64) = .ok q) (hv : cabs (wrapI32 q) = .ok v) :
    cmax v 0 = exactPeriod n rate / count ∧ 1 ≤ exactPeriod n rate / count := by
  obtain ⟨p', e, h1, h2, h3⟩ := C19_range n rate
  rw [hp] at e
  cases e
  rw [C19_period_exact] at hp
  cases hp
  rw [wrapU32_wrapI32 h3] at hq
  have hcm : cmin count 64 = count := by unfold cmin; split <;> omega
  rw [hcm] at hq
  unfold udiv at hq
  rw [if_neg (by omega)] at hq
  cases hq
  have l1 : 1 ≤ exactPeriod n rate / count := by
    rw [Int.le_ediv_iff_mul_le (by omega)]
    omega
  have l2 : exactPeriod n rate / count ≤ 2147483647 := by
    have : exactPeriod n rate / count ≤ exactPeriod n rate / 2 := by
      rw [Int.le_ediv_iff_mul_le (by omega)]
      have := Int.ediv_mul_le (exactPeriod n rate) (b := count) (by omega)
      have l0 : exactPeriod n rate / count * 2 ≤ exactPeriod n rate / count * count := Int.mul_le_mul_of_nonneg_left h2c (by omega)
      omega
    unfold InU32 at h3
    omega
  generalize exactPeriod n rate / count = z at *
  have hw : wrapI32 z = z := by unfold wrapI32; omega
  rw [hw] at hv
  refine ⟨?_, l1⟩
  unfold cabs at hv
  split at hv
  · rename_i h; omega
  · cases hv
    unfold cmax
    split <;> omega

/-- What C89 says of a track with any waveform, for a track on its own: `u` is the unit with all changes applied. -/
theorem Track.steady_any {m : Nat} {s : TWorld} (hgood : s.iw.Good m) {x : Nat} {t : Track} (hti : t.Inv N False) (hok : ∀ p, t.Ok x s.iw p)
    {rate chans : Int} (hc : t.ctx = some (rate, chans)) (he : t.effectsOff)
    (hm : t.unit.mute = 0) (htab : t.unit.waveform.tabled) {cnt : Nat} (hcnt : t.unit.count = cnt) (h2 : 2 ≤ cnt) (h64 : cnt ≤ 64)
    (hwt : t.waveform ≠ 16391) (h0 : 0 ≤ t.unit.time) (h1 : t.unit.time ≤ 2147483647)
    {note : Int} (hn : t.note.get = .ok note) {ds : List Int} (hds : ds ≠ []) (hd : ∀ d ∈ ds, 0 ≤ d ∧ d ≤ 1073741824) :
    ∃ u : UCore, t.unit.toUCore.SameWave u ∧ u.Inv ∧ t.HeldSteps N x s.iw rate cnt note ds u.vals := by
  unfold Track.HeldSteps
  have hne : t.ctx ≠ none := by rw [hc]; exact fun e => by cases e
  obtain ⟨u, hu, hui⟩ := (hti.updateUnit (x := x) hgood).get trivial
  have hcl : u.Clean := Track.updateUnit_clean hu
  have hux : u.ctx = some (rate, chans) := (Track.updateUnit_ctx hu).trans hc
  have hun : u.ctx ≠ none := by rw [hux]; exact fun e => by cases e
  have hut := Track.updateUnit_time hu
  have hch := (hui.ctx _ hux).2.2
  have huw := Track.updateUnit_wave hu
  obtain ⟨sb, sn⟩ := Track.updateUnit_same hu
  refine ⟨u.unit.toUCore, huw, hui.unit.inv, ?_⟩
  have huse : u.unit.toUCore.Usable N := ⟨hui.unit.inv, hui.unit.sinv⟩
  obtain ⟨τ1, c1, p1, a1, -⟩ := huse.render (t0 := u.unit.time) (e := 0) (by omega) (by omega) (by omega) (by omega)
  obtain ⟨v1, v2, v3⟩ := Track.heard_is_set hgood hok hne he (Track.run_ok hu hux hch a1)
  have tone := UCore.render_tone a1
  obtain ⟨m, n1, n2, -⟩ := v2 rate chans hux
  have hwt' : u.waveform ≠ 16391 := by rw [sb.waveform]; exact hwt
  obtain ⟨p, q, v, q1, q2, q3, q4⟩ := n2 hwt'
  have k1 : u.unit.count = cnt := huw.count.trans hcnt
  have hper : u.unit.period = exactPeriod m rate / cnt ∧ 1 ≤ exactPeriod m rate / cnt := by
    have e1 : u.unit.period = cmax v 0 := tone.period.symm.trans q4
    have e2 : c1.count = cnt := tone.count.trans k1
    have e3 : (({ u with unit := { toUCore := c1, time := τ1 } } : Track)).unit.count = cnt := e2
    rw [e3] at q2
    have := tone_period2 q1 (by omega) (by omega) q2 q3
    rw [e1]
    exact this
  have hmp : m = t.pitchSet x s.iw note := by
    have : t.noteSum x s.iw = .ok m := by
      rw [← n1]
      unfold Track.noteSum Track.noteSum.vib
      dsimp only
      rw [sn.note, sb.arpeggioOn, sb.arp, sb.vibratoOn, sb.vibrato, sb.pitch]
    exact Track.noteSum_pitch he.2.2.2.2 hn this
  rw [← hmp]
  obtain ⟨hq1, hq2⟩ := hper
  generalize hQ : exactPeriod m rate / (cnt : Int) = Q at *
  obtain ⟨un, ps, g1, g2⟩ := Track.Inv.held (x := x) (w := s.iw) ds 0 hui hun hcl (by omega) (by omega) hd
  have hold_eq : t.hold x s.iw 0 ds = u.hold x s.iw 0 ds := by
    cases ds with
    | nil => exact absurd rfl hds
    | cons d ds =>
      unfold Track.hold
      have : t.run x s.iw d = u.run x s.iw d := by
        unfold Track.run
        rw [hu, hcl.updateUnit x s.iw]
      rw [this]
  have hQc : cnt * Q ≤ exactPeriod m rate ∧ exactPeriod m rate < cnt * Q + cnt := by
    rw [← hQ]
    have d1 := Int.mul_ediv_add_emod (exactPeriod m rate) cnt
    have d2 := Int.emod_nonneg (exactPeriod m rate) (b := (cnt : Int)) (by omega)
    have d3 := Int.emod_lt_of_pos (exactPeriod m rate) (b := (cnt : Int)) (by omega)
    omega
  have vol : ({ u with unit := un } : Track).VolNow x s.iw := by
    obtain ⟨mm, m1, m2, m3⟩ := v1
    have e : c1.volume = un.volume := tone.volume.trans g2.symm
    refine ⟨mm, m1, fun hh => ?_, fun hh => ?_⟩
    · obtain ⟨c, c2, c3, c4⟩ := m2 hh
      refine ⟨c, c2, ?_, ?_⟩
      · show un.volume 0 = _
        rw [← e]; exact c3
      · show un.volume 1 = _
        rw [← e]; exact c4
    · have := m3 hh
      show un.volume = _
      rw [← e]; exact this
  refine ⟨_, Q, hold_eq.trans g1, vol, hq2, hQc.1, hQc.2, ?_⟩
  intro i hi hv
  have hat : u.unit.toUCore.Runs u.unit.toUCore Q (un.volume i) (t.unit.lastPulse i) i 0 :=
    { inv := hui.unit.inv, ok0 := hui.unit.inv.waveOk.phase, wave := rfl, tabled := by rw [huw.waveform]; exact htab,
      mute := huw.mute.trans hm, period := hq1, pos := hq2, duty := rfl, wrap := rfl, count := rfl, frames := rfl,
      vol := by rw [g2], loud := hv, phase := ⟨[], rfl⟩, last := by rw [if_pos rfl, huw.last] }
  have tr := Track.Inv.held_steps (x := x) (w := s.iw) hi ds 0 0 hui hun hcl hat (by omega) (by omega) hd g1
  dsimp only at tr ⊢
  rw [tr, hut]
  constructor
  · intro k hk
    have hk' := (pulseCount_iff hq2 ds.sum k t.unit.time).2 hk
    rw [List.getElem?_map, List.getElem?_range hk', Option.map_some, Int.zero_add, Nat.zero_add]
    rfl
  · intro k hk
    have hk' := mt (pulseCount_iff hq2 ds.sum k t.unit.time).1 hk
    rw [List.getElem?_eq_none]
    simp only [List.length_map, List.length_range]
    omega

theorem Track.steady_custom {m : Nat} {s : TWorld} (hgood : s.iw.Good m) {x : Nat} {t : Track} (hti : t.Inv N False) (hok : ∀ p, t.Ok x s.iw p)
    {rate chans : Int} (hc : t.ctx = some (rate, chans)) (he : t.effectsOff)
    (hm : t.unit.mute = 0) (hw : t.unit.waveform = .custom) {cnt : Nat} (hcnt : t.unit.count = cnt) (h2 : 2 ≤ cnt) (hz : t.unit.wrap = 0)
    (hwt : t.waveform ≠ 16391) (h0 : 0 ≤ t.unit.time) (h1 : t.unit.time ≤ 2147483647)
    {note : Int} (hn : t.note.get = .ok note) {ds : List Int} (hds : ds ≠ []) (hd : ∀ d ∈ ds, 0 ≤ d ∧ d ≤ 1073741824) :
    ∃ φ, t.HeldSteps N x s.iw rate cnt note ds fun k => t.unit.frames.getD ((φ + k) % cnt) 0 := by
  have hph := hti.unit.inv.phase
  rw [hw] at hph
  obtain ⟨u, e1, e2, e3⟩ := Track.steady_any hgood hti hok hc he hm (by rw [hw]; exact ⟨by simp, by simp⟩) hcnt h2
    (by have := hph.2.1; omega) hwt h0 h1 hn hds hd
  refine ⟨u.phase.toNat, ?_⟩
  have e : u.vals = fun k => t.unit.frames.getD ((u.phase.toNat + k) % cnt) 0 := by
    funext k
    rw [UCore.vals_custom e2 (e1.waveform.trans hw) (e1.wrap.trans hz), e1.frames, e1.count, hcnt, Int.toNat_natCast]
  rw [← e]
  exact e3

theorem Track.steady_noise {m : Nat} {s : TWorld} (hgood : s.iw.Good m) {x : Nat} {t : Track} (hti : t.Inv N False) (hok : ∀ p, t.Ok x s.iw p)
    {rate chans : Int} (hc : t.ctx = some (rate, chans)) (he : t.effectsOff)
    (hm : t.unit.mute = 0) (hw : t.unit.waveform = .noise)
    (hwt : t.waveform ≠ 16391) (h0 : 0 ≤ t.unit.time) (h1 : t.unit.time ≤ 2147483647)
    {note : Int} (hn : t.note.get = .ok note) {ds : List Int} (hds : ds ≠ []) (hd : ∀ d ∈ ds, 0 ≤ d ∧ d ≤ 1073741824) :
    ∃ val, t.HeldSteps N x s.iw rate 8 note ds val ∧ (∀ k, val k = 16383 ∨ val k = -16383) ∧
      (t.unit.wrap = 0 → ∀ k, (∃ j < 17, val (k + j) = 16383) ∧ ∃ j < 17, val (k + j) = -16383) := by
  have hph := hti.unit.inv.phase
  rw [hw] at hph
  obtain ⟨u, e1, e2, e3⟩ := Track.steady_any (cnt := 8) hgood hti hok hc he hm (by rw [hw]; exact ⟨by simp, by simp⟩) hph.2 (by omega) (by omega)
    hwt h0 h1 hn hds hd
  have hw' := e1.waveform.trans hw
  exact ⟨u.vals, e3, fun k => UCore.vals_two e2 hw' k, fun hz k => UCore.vals_both e2 hw' (e1.wrap.trans hz) k⟩

/-- C89: a held note of a custom waveform with `cnt` frames makes steps at equal distances from one of its frames to the next, round and
round; one round takes the period of the pitch that is set, up to rounding.  With phase wrap, the frames are those of C46. -/
theorem C89_custom_partial {fuel : Nat} {ops : List WOp} {s : TWorld} {x : Nat} {t : Track}
    (hf : ops.length ≤ fuel) (hl : ({} : TWorld).LegalRun N fuel ops) (h : ({} : TWorld).run fuel ops = .ok s)
    (ht : s.tracks x = some t) {rate chans : Int} (hc : t.ctx = some (rate, chans)) (he : t.effectsOff)
    (hs : ∀ p, stale x p ops = false) (hm : t.unit.mute = 0) (hw : t.unit.waveform = .custom)
    {cnt : Nat} (hcnt : t.unit.count = cnt) (h2 : 2 ≤ cnt) (hz : t.unit.wrap = 0)
    (hwt : t.waveform ≠ 16391) (h0 : 0 ≤ t.unit.time) (h1 : t.unit.time ≤ 2147483647)
    {note : Int} (hn : t.note.get = .ok note) {ds : List Int} (hds : ds ≠ []) (hd : ∀ d ∈ ds, 0 ≤ d ∧ d ≤ 1073741824) :
    ∃ φ, t.HeldSteps N x s.iw rate cnt note ds fun k => t.unit.frames.getD ((φ + k) % cnt) 0 := by
  have hinv : s.Inv (0 + ops.length) N := by
    have := (TWorld.Inv.init N).run ops (by omega) hl
    rw [h] at this
    exact this
  exact Track.steady_custom hinv.good (hinv.tracks x t ht)
    (fun p => TWorld.run_ok ops (TWorld.Inv.init N) (by omega) hl (fun _ t h => by cases h) h (hs p) t ht) hc he hm hw hcnt h2 hz hwt h0 h1 hn hds hd

/-- C89: noise makes steps at equal distances, an eighth of the period of the pitch that is set, between two levels; without phase wrap
both levels occur among any 17 of them. -/
theorem C89_noise_partial {fuel : Nat} {ops : List WOp} {s : TWorld} {x : Nat} {t : Track}
    (hf : ops.length ≤ fuel) (hl : ({} : TWorld).LegalRun N fuel ops) (h : ({} : TWorld).run fuel ops = .ok s)
    (ht : s.tracks x = some t) {rate chans : Int} (hc : t.ctx = some (rate, chans)) (he : t.effectsOff)
    (hs : ∀ p, stale x p ops = false) (hm : t.unit.mute = 0) (hw : t.unit.waveform = .noise)
    (hwt : t.waveform ≠ 16391) (h0 : 0 ≤ t.unit.time) (h1 : t.unit.time ≤ 2147483647)
    {note : Int} (hn : t.note.get = .ok note) {ds : List Int} (hds : ds ≠ []) (hd : ∀ d ∈ ds, 0 ≤ d ∧ d ≤ 1073741824) :
    ∃ val, t.HeldSteps N x s.iw rate 8 note ds val ∧ (∀ k, val k = 16383 ∨ val k = -16383) ∧
      (t.unit.wrap = 0 → ∀ k, (∃ j < 17, val (k + j) = 16383) ∧ ∃ j < 17, val (k + j) = -16383) := by
  have hinv : s.Inv (0 + ops.length) N := by
    have := (TWorld.Inv.init N).run ops (by omega) hl
    rw [h] at this
    exact this
  exact Track.steady_noise hinv.good (hinv.tracks x t ht)
    (fun p => TWorld.run_ok ops (TWorld.Inv.init N) (by omega) hl (fun _ t h => by cases h) h (hs p) t ht) hc he hm hw hwt h0 h1 hn hds hd

/-- C89: so it is with custom waveforms in a song, from now on. -/
theorem C89_song_custom_partial {υ : Type} {pr : Program υ} (hp : pr.Plays N) {T : Nat} {c : Ctx (Band υ)} {S : List Int} (h : Concert N pr T c S)
    {x : Nat} {t : Track} (ht : (c.world.pass c.deltaTime).tracks x = some t) {rate chans : Int} (hc : t.ctx = some (rate, chans))
    (he : t.effectsOff) (hs : ∀ p, stale x p c.user.log = false) (hm : t.unit.mute = 0) (hw : t.unit.waveform = .custom) {cnt : Nat} (hcnt : t.unit.count = cnt)
    (hc2 : 2 ≤ cnt) (hz : t.unit.wrap = 0)
    (hwt : t.waveform ≠ 16391) {note : Int} (hn : t.note.get = .ok note) {ds : List Int} (hds : ds ≠ [])
    (hd : ∀ d ∈ ds, 0 ≤ d ∧ d ≤ 1073741824) :
    ∃ φ, t.HeldSteps N x c.world.iw rate cnt note ds fun k => t.unit.frames.getD ((φ + k) % cnt) 0 := by
  obtain ⟨fuel, ops, h1, h2, h3, h4⟩ := C84_refines_partial hp h.recording.song
  have hs' : ∀ q, stale x q ops = false := fun q => by rw [← stale_filter, h4]; exact hs q
  have hinv : c.world.Inv (0 + ops.length) N := by
    have := (TWorld.Inv.init N).run ops (by omega) h2
    rw [h3] at this
    exact this
  obtain ⟨P, k1, -⟩ := C86_performance_partial hp h
  obtain ⟨k2, k3⟩ := k1.sane.1.time x t ht
  have hti := k1.sane.1.inv.tracks x t ht
  obtain ⟨t', ht', e⟩ : ∃ t', c.world.tracks x = some t' ∧ ∃ τ, t = { t' with unit := { t'.unit with time := τ } } := by
    unfold TWorld.pass at ht
    dsimp only at ht
    obtain ⟨t', e1, e2⟩ := Option.map_eq_some_iff.1 ht
    refine ⟨t', e1, ?_⟩
    split at e2
    · exact ⟨t'.unit.time, e2.symm⟩
    · exact ⟨_, e2.symm⟩
  obtain ⟨τ, rfl⟩ := e
  have hok : ∀ p, t'.Ok x c.world.iw p := fun p =>
    TWorld.run_ok ops (TWorld.Inv.init N) (by omega) h2 (fun _ t h => by cases h) h3 (hs' p) t' ht'
  exact Track.steady_custom hinv.good hti (fun p => match p with | .vol => hok .vol | .note => hok .note | .duty => hok .duty) hc he hm hw hcnt hc2 hz hwt k2 k3 hn hds hd

/-- C89: and with noise. -/
theorem C89_song_noise_partial {υ : Type} {pr : Program υ} (hp : pr.Plays N) {T : Nat} {c : Ctx (Band υ)} {S : List Int} (h : Concert N pr T c S)
    {x : Nat} {t : Track} (ht : (c.world.pass c.deltaTime).tracks x = some t) {rate chans : Int} (hc : t.ctx = some (rate, chans))
    (he : t.effectsOff) (hs : ∀ p, stale x p c.user.log = false) (hm : t.unit.mute = 0) (hw : t.unit.waveform = .noise)
    (hwt : t.waveform ≠ 16391) {note : Int} (hn : t.note.get = .ok note) {ds : List Int} (hds : ds ≠ [])
    (hd : ∀ d ∈ ds, 0 ≤ d ∧ d ≤ 1073741824) :
    ∃ val, t.HeldSteps N x c.world.iw rate 8 note ds val ∧ (∀ k, val k = 16383 ∨ val k = -16383) ∧
      (t.unit.wrap = 0 → ∀ k, (∃ j < 17, val (k + j) = 16383) ∧ ∃ j < 17, val (k + j) = -16383) := by
  obtain ⟨fuel, ops, h1, h2, h3, h4⟩ := C84_refines_partial hp h.recording.song
  have hs' : ∀ q, stale x q ops = false := fun q => by rw [← stale_filter, h4]; exact hs q
  have hinv : c.world.Inv (0 + ops.length) N := by
    have := (TWorld.Inv.init N).run ops (by omega) h2
    rw [h3] at this
    exact this
  obtain ⟨P, k1, -⟩ := C86_performance_partial hp h
  obtain ⟨k2, k3⟩ := k1.sane.1.time x t ht
  have hti := k1.sane.1.inv.tracks x t ht
  obtain ⟨t', ht', e⟩ : ∃ t', c.world.tracks x = some t' ∧ ∃ τ, t = { t' with unit := { t'.unit with time := τ } } := by
    unfold TWorld.pass at ht
    dsimp only at ht
    obtain ⟨t', e1, e2⟩ := Option.map_eq_some_iff.1 ht
    refine ⟨t', e1, ?_⟩
    split at e2
    · exact ⟨t'.unit.time, e2.symm⟩
    · exact ⟨_, e2.symm⟩
  obtain ⟨τ, rfl⟩ := e
  have hok : ∀ p, t'.Ok x c.world.iw p := fun p =>
    TWorld.run_ok ops (TWorld.Inv.init N) (by omega) h2 (fun _ t h => by cases h) h3 (hs' p) t' ht'
  exact Track.steady_noise hinv.good hti (fun p => match p with | .vol => hok .vol | .note => hok .note | .duty => hok .duty) hc he hm hw hwt k2 k3 hn hds hd

/-- An A (note 45, 440 Hz) of a waveform of four frames and of noise. -/
def customA : List WOp := [.init 0 16385, .track 0 (.attach 44100 2 0), .track 0 (.data .waveform (some ⟨7, ⟨4, 1, [8000, 16000, -8000, -16000]⟩, 0⟩)),
  .track 0 (.attr .masterVolume 6554), .track 0 (.attr .note (45 * 1048576))]

def noiseA : List WOp := [.init 0 16387, .track 0 (.attach 44100 2 0), .track 0 (.attr .masterVolume 6554), .track 0 (.attr .note (45 * 1048576))]

/-- What C89 asks of a track. -/
def heldFacts (ops : List WOp) : Option (List Int × List Bool) := do
  let s ← (({} : TWorld).run 32 ops).toOption
  let t ← s.tracks 0
  return ([t.unit.mute, t.unit.count, t.unit.wrap, t.unit.waveform.code, t.waveform, t.unit.time, t.note.get.toOption.getD (-1)],
    [decide (t.ctx = some (44100, 2)), !t.volumeSlide, !t.panningSlide, !t.tremoloOn, !t.portamento, !t.vibratoOn,
      !stale 0 .vol ops, !stale 0 .note ops, !stale 0 .duty ops])

/-- These tracks are as C89 asks. -/
example : heldFacts customA = some ([0, 4, 0, 16390, 16390, 0, 47185920], List.replicate 9 true) ∧
    heldFacts noiseA = some ([0, 8, 0, 16387, 16387, 0, 47185920], List.replicate 9 true) := by decide +kernel

/-- One round of four frames takes 4 · 26239500 time units, the time of 16 steps of a square wave; noise changes every 13119750. -/
example : (heardAfter customA 134217728).map (fun ps => (onChan 0 ps).map (·.time)) = some [0, 26239500, 52479000, 78718500, 104958000, 131197500] ∧
    (heardAfter noiseA 33554432).map (fun ps => (onChan 0 ps).map (·.time)) = some [0, 13119750, 26239500] := by decide +kernel

end BK
