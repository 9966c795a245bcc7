import Verif.Lemmas.Train
import Verif.Props.Current
import Verif.Props.Pitch
import Verif.Props.SongTracks
import Verif.Props.Score
/-!
C89: a held note sounds at its pitch.
-/
namespace BK

variable {N : Nat}

theorem addIf_ok {b : Bool} {n d m : Int} (h : addIf b n d = .ok m) : m = n + (if b then d else 0) := by
  unfold addIf at h
  split at h
  · rename_i hb
    rw [if_pos hb]
    exact (i32_eq_ok_iff.1 h).2
  · rename_i hb
    rw [if_neg hb]
    cases h
    omega

theorem Track.noteSum_pitch {x : Nat} {w : IWorld} {t : Track} {note n : Int} (hv : t.vibratoOn = false) (hn : t.note.get = .ok note)
    (h : t.noteSum x w = .ok n) : n = t.pitchSet x w note := by
  unfold Track.noteSum at h
  rw [hn, ok_bind] at h
  obtain ⟨a, ha, h⟩ := bind_ok_iff.1 h
  unfold Track.noteSum.vib at h
  rw [hv] at h
  simp only [Bool.false_eq_true, if_false, ok_bind] at h
  obtain ⟨c, hc, h⟩ := bind_ok_iff.1 h
  have h1 := addIf_ok ha
  have h2 := addIf_ok hc
  have h3 := (i32_eq_ok_iff.1 h).2
  unfold Track.pitchSet
  omega

/-- The period that is set in the unit. -/
theorem tone_period {n rate count p q v : Int} (hp : tonePeriodLookup n rate = .ok p) (hc : 1 ≤ count) (hc' : count ≤ 64) (h7 : 7 ≤ count)
    (hq : udiv (wrapU32 (wrapI32 p)) (cmin count 64) = .ok q) (hv : cabs (wrapI32 q) = .ok v) :
    cmax v 0 = exactPeriod n rate / count ∧ 1 ≤ exactPeriod n rate / count := by
  obtain ⟨p', e, h1, h2, h3⟩ := C19_range n rate
  rw [hp] at e
  cases e
  rw [C19_period_exact] at hp
  cases hp
  rw [wrapU32_wrapI32 h3] at hq
  have hcm : cmin count 64 = count := by unfold cmin; split <;> omega
  rw [hcm] at hq
  unfold udiv at hq
  rw [if_neg (by omega)] at hq
  cases hq
  have l1 : 1 ≤ exactPeriod n rate / count := by
    rw [Int.le_ediv_iff_mul_le (by omega)]
    omega
  have l2 : exactPeriod n rate / count ≤ 439714286 := by
    have : exactPeriod n rate / count ≤ exactPeriod n rate / 7 := by
      rw [Int.le_ediv_iff_mul_le (by omega)]
      have := Int.ediv_mul_le (exactPeriod n rate) (b := count) (by omega)
      have l0 : exactPeriod n rate / count * 7 ≤ exactPeriod n rate / count * count := Int.mul_le_mul_of_nonneg_left h7 (by omega)
      omega
    omega
  generalize exactPeriod n rate / count = z at *
  have hw : wrapI32 z = z := by unfold wrapI32; omega
  rw [hw] at hv
  refine ⟨?_, l1⟩
  unfold cabs at hv
  split at hv
  · rename_i h; omega
  · cases hv
    unfold cmax
    split <;> omega

/-- What is heard is what is set (C82), for a track on its own. -/
theorem Track.heard_is_set {n : Nat} {w : IWorld} (hgood : w.Good n) {x : Nat} {t : Track} (k : ∀ p, t.Ok x w p) (hc : t.ctx ≠ none)
    (he : t.effectsOff) {e : Int} {r : Track × List Pulse} (hr : t.run x w e = .ok r) : r.1.VolNow x w ∧ r.1.NoteNow x w ∧ r.1.DutyNow x w := by
  have k' : ∀ p, r.1.Ok x w p := fun p =>
    Track.Ok.exec (op := .run e) (r := (w, r.1)) (hgood.pointed x) (Or.inr ⟨k p, by cases p <;> rfl⟩) (by
      unfold Track.exec; dsimp only; rw [hr]; rfl)
  obtain ⟨c1, c2, sb⟩ := Track.run_clean hr
  obtain ⟨h1, h2, h3, h4, h5⟩ := he
  exact ⟨k' .vol (by rw [sb.ctx]; exact hc) c1 (by rw [sb.volumeSlide]; exact h1) (by rw [sb.panningSlide]; exact h2)
      (by rw [sb.tremoloOn]; exact h3),
    k' .note c2.1 (by rw [sb.portamento]; exact h4) (by rw [sb.vibratoOn]; exact h5), k' .duty c2.2⟩

/-- What C89 says of a track, for a track on its own. -/
theorem Track.steady {m : Nat} {s : TWorld} (hgood : s.iw.Good m) {x : Nat} {t : Track} (hti : t.Inv N False) (hok : ∀ p, t.Ok x s.iw p)
    {rate chans : Int} (hc : t.ctx = some (rate, chans)) (he : t.effectsOff)
    (hm : t.unit.mute = 0) {cnt : Nat} (hw : t.unit.waveform.phases = some cnt)
    (hwt : t.waveform ≠ 16391) (h0 : 0 ≤ t.unit.time) (h1 : t.unit.time ≤ 2147483647)
    {note : Int} (hn : t.note.get = .ok note) {ds : List Int} (hds : ds ≠ []) (hd : ∀ d ∈ ds, 0 ≤ d ∧ d ≤ 1073741824) :
    t.HeldTrain N x s.iw rate cnt note ds := by
  unfold Track.HeldTrain
  have hne : t.ctx ≠ none := by rw [hc]; exact fun e => by cases e
  obtain ⟨u, hu, hui⟩ := (hti.updateUnit (x := x) hgood).get trivial
  have hcl : u.Clean := Track.updateUnit_clean hu
  have hux : u.ctx = some (rate, chans) := (Track.updateUnit_ctx hu).trans hc
  have hun : u.ctx ≠ none := by rw [hux]; exact fun e => by cases e
  have hut := Track.updateUnit_time hu
  have hch := (hui.ctx _ hux).2.2
  have huw := Track.updateUnit_wave hu
  obtain ⟨sb, sn⟩ := Track.updateUnit_same hu
  -- what is heard is what is set
  have huse : u.unit.toUCore.Usable N := ⟨hui.unit.inv, hui.unit.sinv⟩
  obtain ⟨τ1, c1, p1, a1, -⟩ := huse.render (t0 := u.unit.time) (e := 0) (by omega) (by omega) (by omega) (by omega)
  obtain ⟨v1, v2, v3⟩ := Track.heard_is_set hgood hok hne he (Track.run_ok hu hux hch a1)
  have tone := UCore.render_tone a1
  obtain ⟨m, n1, n2, -⟩ := v2 rate chans hux
  have hwt' : u.waveform ≠ 16391 := by rw [sb.waveform]; exact hwt
  obtain ⟨p, q, v, q1, q2, q3, q4⟩ := n2 hwt'
  have hcnt : u.unit.count = cnt ∧ 7 ≤ cnt ∧ cnt ≤ 64 ∧ 0 ≤ u.unit.phase ∧ u.unit.phase < cnt := by
    have hph := hui.unit.inv.phase
    rw [← huw.waveform] at hw
    unfold PhaseInv at hph
    unfold Wave.phases at hw
    cases hwv : u.unit.waveform <;> rw [hwv] at hw hph <;> dsimp only at hw hph <;> cases hw <;>
      exact ⟨hph.2, by omega, by omega, hph.1⟩
  obtain ⟨k1, k2, k3, k4, k5⟩ := hcnt
  have hper : u.unit.period = exactPeriod m rate / cnt ∧ 1 ≤ exactPeriod m rate / cnt := by
    have e1 : u.unit.period = cmax v 0 := tone.period.symm.trans q4
    have e2 : c1.count = cnt := tone.count.trans k1
    have e3 : (({ u with unit := { toUCore := c1, time := τ1 } } : Track)).unit.count = cnt := e2
    rw [e3] at q2
    have := tone_period q1 (by omega) (by omega) (by omega) q2 q3
    rw [e1]
    exact this
  have hmp : m = t.pitchSet x s.iw note := by
    have : t.noteSum x s.iw = .ok m := by
      rw [← n1]
      unfold Track.noteSum Track.noteSum.vib
      dsimp only
      rw [sn.note, sb.arpeggioOn, sb.arp, sb.vibratoOn, sb.vibrato, sb.pitch]
    exact Track.noteSum_pitch he.2.2.2.2 hn this
  rw [← hmp]
  obtain ⟨hq1, hq2⟩ := hper
  generalize hQ : exactPeriod m rate / (cnt : Int) = Q at *
  have hdu := hui.unit.inv.duty
  obtain ⟨un, ps, g1, g2⟩ := Track.Inv.held (x := x) (w := s.iw) ds 0 hui hun hcl (by omega) (by omega) hd
  -- all is as if the update had been made before
  have hold_eq : t.hold x s.iw 0 ds = u.hold x s.iw 0 ds := by
    cases ds with
    | nil => exact absurd rfl hds
    | cons d ds =>
      unfold Track.hold
      have : t.run x s.iw d = u.run x s.iw d := by
        unfold Track.run
        rw [hu, hcl.updateUnit x s.iw]
      rw [this]
  have hQc : cnt * Q ≤ exactPeriod m rate ∧ exactPeriod m rate < cnt * Q + cnt := by
    rw [← hQ]
    have d1 := Int.mul_ediv_add_emod (exactPeriod m rate) cnt
    have d2 := Int.emod_nonneg (exactPeriod m rate) (b := (cnt : Int)) (by omega)
    have d3 := Int.emod_lt_of_pos (exactPeriod m rate) (b := (cnt : Int)) (by omega)
    omega
  have vol : ({ u with unit := un } : Track).VolNow x s.iw := by
    obtain ⟨mm, m1, m2, m3⟩ := v1
    have e : c1.volume = un.volume := tone.volume.trans g2.symm
    refine ⟨mm, m1, fun hh => ?_, fun hh => ?_⟩
    · obtain ⟨c, c2, c3, c4⟩ := m2 hh
      refine ⟨c, c2, ?_, ?_⟩
      · show un.volume 0 = _
        rw [← e]; exact c3
      · show un.volume 1 = _
        rw [← e]; exact c4
    · have := m3 hh
      show un.volume = _
      rw [← e]; exact this
  have duty : u.unit.dutyCycle = max 1 (min 15 (if s.iw.on x ∧ s.iw.value x 3 ≠ 0 then s.iw.value x 3 else t.dutyCycle)) := by
    unfold Track.DutyNow at v3
    have e : u.unit.dutyCycle = c1.dutyCycle := tone.duty.symm
    rw [e]
    refine Eq.trans v3 ?_
    rw [← sb.dutyCycle]
    unfold cclamp
    dsimp only
    split <;> (try split) <;> omega
  refine ⟨_, u.unit.dutyCycle.toNat, u.unit.phase.toNat, Q, hold_eq.trans g1, vol, ?_, by omega, hq2, hQc.1, hQc.2, ?_⟩
  · rw [← duty]; omega
  · intro i hi hv
    have hat : u.unit.toUCore.At t.unit.waveform u.unit.dutyCycle.toNat cnt u.unit.phase.toNat Q (un.volume i) (t.unit.lastPulse i) i 0 :=
      { inv := hui.unit.inv, wave := huw.waveform, cnt := hw, mute := huw.mute.trans hm, period := hq1, pos := hq2,
        duty := by omega, vol := by rw [g2], loud := hv
        phase := by rw [Nat.add_zero, Nat.mod_eq_of_lt (by omega)]; omega
        last := by rw [if_pos rfl, huw.last] }
    have tr := Track.Inv.held_train (x := x) (w := s.iw) hi ds 0 0 hui hun hcl hat (by omega) (by omega) hd g1
    dsimp only at tr ⊢
    rw [tr, hut]
    constructor
    · intro k hk
      have hk' := (pulseCount_iff hq2 ds.sum k t.unit.time).2 hk
      rw [List.getElem?_map, List.getElem?_range hk', Option.map_some, Int.zero_add, Nat.zero_add]
      rfl
    · intro k hk
      have hk' := mt (pulseCount_iff hq2 ds.sum k t.unit.time).1 hk
      rw [List.getElem?_eq_none]
      simp only [List.length_map, List.length_range]
      omega

/-- C89: a track that is attached, not muted, has no running effect and plays one of the four periodic
waveforms sends steps at equal distances, for however long it is rendered and in whatever parts.  The
distance is the period of the pitch that is set, divided by the number of steps of one cycle and
rounded down; the steps follow the values of the waveform in order, scaled by the volume. -/
theorem C89_steady_partial {fuel : Nat} {ops : List WOp} {s : TWorld} {x : Nat} {t : Track}
    (hf : ops.length ≤ fuel) (hl : ({} : TWorld).LegalRun N fuel ops) (h : ({} : TWorld).run fuel ops = .ok s)
    (ht : s.tracks x = some t) {rate chans : Int} (hc : t.ctx = some (rate, chans)) (he : t.effectsOff)
    (hs : ∀ p, stale x p ops = false) (hm : t.unit.mute = 0) {cnt : Nat} (hw : t.unit.waveform.phases = some cnt)
    (hwt : t.waveform ≠ 16391) (h0 : 0 ≤ t.unit.time) (h1 : t.unit.time ≤ 2147483647)
    {note : Int} (hn : t.note.get = .ok note) {ds : List Int} (hds : ds ≠ []) (hd : ∀ d ∈ ds, 0 ≤ d ∧ d ≤ 1073741824) :
    t.HeldTrain N x s.iw rate cnt note ds := by
  have hinv : s.Inv (0 + ops.length) N := by
    have := (TWorld.Inv.init N).run ops (by omega) hl
    rw [h] at this
    exact this
  exact Track.steady hinv.good (hinv.tracks x t ht)
    (fun p => TWorld.run_ok ops (TWorld.Inv.init N) (by omega) hl (fun _ t h => by cases h) h (hs p) t ht) hc he hm hw hwt h0 h1 hn hds hd

/-- C89: so it is at any time in a song in a context with clocks, for a track whose last calls are not among those
listed in `TOp.upsets`: while no calls are made, it makes such steps, from now on. -/
theorem C89_song_partial {υ : Type} {pr : Program υ} (hp : pr.Plays N) {T : Nat} {c : Ctx (Band υ)} {S : List Int} (h : Concert N pr T c S) {x : Nat} {t : Track}
    (ht : (c.world.pass c.deltaTime).tracks x = some t) {rate chans : Int} (hc : t.ctx = some (rate, chans)) (he : t.effectsOff)
    (hs : ∀ p, stale x p c.user.log = false) (hm : t.unit.mute = 0) {cnt : Nat} (hw : t.unit.waveform.phases = some cnt)
    (hwt : t.waveform ≠ 16391) {note : Int} (hn : t.note.get = .ok note) {ds : List Int} (hds : ds ≠ [])
    (hd : ∀ d ∈ ds, 0 ≤ d ∧ d ≤ 1073741824) : t.HeldTrain N x c.world.iw rate cnt note ds := by
  obtain ⟨fuel, ops, h1, h2, h3, h4⟩ := C84_refines_partial hp h.recording.song
  have hs' : ∀ q, stale x q ops = false := fun q => by rw [← stale_filter, h4]; exact hs q
  have hinv : c.world.Inv (0 + ops.length) N := by
    have := (TWorld.Inv.init N).run ops (by omega) h2
    rw [h3] at this
    exact this
  obtain ⟨P, k1, -⟩ := C86_performance_partial hp h
  obtain ⟨k2, k3⟩ := k1.sane.1.time x t ht
  have hti := k1.sane.1.inv.tracks x t ht
  obtain ⟨t', ht', e⟩ : ∃ t', c.world.tracks x = some t' ∧ ∃ τ, t = { t' with unit := { t'.unit with time := τ } } := by
    unfold TWorld.pass at ht
    dsimp only at ht
    obtain ⟨t', e1, e2⟩ := Option.map_eq_some_iff.1 ht
    refine ⟨t', e1, ?_⟩
    split at e2
    · exact ⟨t'.unit.time, e2.symm⟩
    · exact ⟨_, e2.symm⟩
  obtain ⟨τ, rfl⟩ := e
  have hok : ∀ p, t'.Ok x c.world.iw p := fun p =>
    TWorld.run_ok ops (TWorld.Inv.init N) (by omega) h2 (fun _ t h => by cases h) h3 (hs' p) t' ht'
  exact Track.steady hinv.good hti (fun p => match p with | .vol => hok .vol | .note => hok .note | .duty => hok .duty) hc he hm hw hwt k2 k3 hn hds hd

/-- C89: so a whole note is in tune.  With neither arpeggio nor instrument nor pitch, one cycle of note
`n` (45 is A at 440 Hz) takes at most the time it has in equal temperament, `rate · 2²⁰ / (440 · 2^((n − 45)
/ 12))` time units, and falls short of it by less than `4 · rate + cnt` units, that is four millionths
of a second plus rounding. -/
theorem C89_in_tune {n cnt q rate : Nat} (hn : n ≤ 96) (hr : 16000 ≤ rate) (hr' : rate ≤ 96000)
    (h1 : (cnt * q : Int) ≤ exactPeriod (n * 1048576) rate) (h2 : exactPeriod (n * 1048576) rate < cnt * q + cnt) :
    (cnt * q) ^ 12 * 440 ^ 12 * 2 ^ n ≤ (rate * 2 ^ 20) ^ 12 * 2 ^ 45 ∧
      (rate * 2 ^ 20) ^ 12 * 2 ^ 45 < (cnt * q + cnt + 4 * rate) ^ 12 * 440 ^ 12 * 2 ^ n := by
  obtain ⟨p, e, k1, k2⟩ := C69_tuning hn hr hr'
  rw [C19_period_exact] at e
  have e' : exactPeriod (n * 1048576) rate = p := Except.ok.inj e
  rw [e'] at h1 h2
  have l1 : cnt * q ≤ p := by exact_mod_cast h1
  have l2 : p ≤ cnt * q + cnt := by
    have : (p : Int) < (cnt * q + cnt : Nat) := by push_cast; exact h2
    omega
  constructor
  · refine Nat.le_trans ?_ k1
    exact Nat.mul_le_mul_right _ (Nat.mul_le_mul_right _ (Nat.pow_le_pow_left l1 12))
  · refine Nat.lt_of_lt_of_le k2 ?_
    exact Nat.mul_le_mul_right _ (Nat.mul_le_mul_right _ (Nat.pow_le_pow_left (by omega) 12))

/-- C89: a whole note that is held, with neither arpeggio nor instrument nor pitch, sounds in tune: it makes steps at equal
distances, and the time of one cycle is that of the note, as above. -/
theorem C89_note_partial {fuel : Nat} {ops : List WOp} {s : TWorld} {x : Nat} {t : Track}
    (hf : ops.length ≤ fuel) (hl : ({} : TWorld).LegalRun N fuel ops) (h : ({} : TWorld).run fuel ops = .ok s)
    (ht : s.tracks x = some t) {rate : Nat} {chans : Int} (hc : t.ctx = some ((rate : Int), chans)) (he : t.effectsOff)
    (hs : ∀ p, stale x p ops = false) (hm : t.unit.mute = 0) {cnt : Nat} (hw : t.unit.waveform.phases = some cnt)
    (hwt : t.waveform ≠ 16391) (h0 : 0 ≤ t.unit.time) (h1 : t.unit.time ≤ 2147483647)
    {n : Nat} (hn : t.note.get = .ok (n * 1048576)) (hn' : n ≤ 96) (ha : t.arpeggioOn = false) (hi : s.iw.on x = false) (hpi : t.pitch = 0)
    {d : Int} (hd : 0 ≤ d ∧ d ≤ 1073741824) :
    ∃ r q, t.run x s.iw d = .ok r ∧ 1 ≤ q ∧ (cnt * q) ^ 12 * 440 ^ 12 * 2 ^ n ≤ (rate * 2 ^ 20) ^ 12 * 2 ^ 45 ∧
      (rate * 2 ^ 20) ^ 12 * 2 ^ 45 < (cnt * q + cnt + 4 * rate) ^ 12 * 440 ^ 12 * 2 ^ n ∧
      ∀ i < N, r.1.unit.volume i ≠ 0 → ∀ k : Nat, ((onChan i r.2)[k]?).map (·.time) =
        if t.unit.time + k * (q : Nat) < d then some (t.unit.time + k * q) else none := by
  have hinv : s.Inv (0 + ops.length) N := by
    have := (TWorld.Inv.init N).run ops (by omega) hl
    rw [h] at this
    exact this
  have hr := (hinv.tracks x t ht).ctx _ hc
  obtain ⟨r, duty, φ, q, g1, -, -, -, g2, g3, g4, g5⟩ := C89_steady_partial hf hl h ht hc he hs hm hw hwt h0 h1 hn (ds := [d]) (by simp)
    (fun d' h' => by rw [List.mem_singleton] at h'; subst h'; exact hd)
  have hp : t.pitchSet x s.iw (n * 1048576) = n * 1048576 := by
    unfold Track.pitchSet
    rw [ha, hi, hpi]
    simp
  rw [hp] at g3 g4
  obtain ⟨Q, rfl⟩ : ∃ Q : Nat, q = Q := ⟨q.toNat, by omega⟩
  obtain ⟨t1, t2⟩ := C89_in_tune (cnt := cnt) (q := Q) (rate := rate) hn' (by have := hr.1; dsimp only at this; omega) (by have := hr.2.1; dsimp only at this; omega) g3 g4
  unfold Track.hold Track.hold at g1
  obtain ⟨r0, e0, g1⟩ := bind_ok_iff.1 g1
  rw [ok_bind] at g1
  cases g1
  refine ⟨r0, Q, e0, by omega, t1, t2, fun i hi' hv k => ?_⟩
  obtain ⟨f1, f2⟩ := g5 i hi' hv
  have e3 : onChan i (r0.2.map (Pulse.later 0) ++ []) = onChan i r0.2 := by
    rw [List.append_nil]
    congr 1
    refine (List.map_congr_left fun p _ => ?_).trans (List.map_id _)
    show Pulse.later 0 p = p
    unfold Pulse.later
    rw [Int.add_zero]
  dsimp only at f1 f2
  rw [e3, List.sum_singleton] at f1 f2
  by_cases hk : t.unit.time + k * (Q : Int) < d
  · rw [f1 k hk, if_pos hk]; rfl
  · rw [f2 k hk, if_neg hk]; rfl

/-- The times of the first steps of an A (note 45, 440 Hz) of a square wave at 44100 Hz, rendered up to frame 32. -/
def heldA : Option (List Int) := (heardAfter (squareTrack ++ [.track 0 (.attr .note (45 * 1048576))]) 33554432).map fun ps => (onChan 0 ps).map (·.time)

/-- One cycle of 16 steps takes 16 · 6559875 time units, that is 100.10 frames; in equal temperament it would take 100.23. -/
example : heldA = some [0, 6559875, 13119750, 19679625, 26239500, 32799375] := by decide +kernel

/-- That track is as C89 asks. -/
example : ∃ s t, ({} : TWorld).run 32 (squareTrack ++ [.track 0 (.attr .note (45 * 1048576))]) = .ok s ∧ s.tracks 0 = some t ∧
    t.ctx = some (44100, 2) ∧ t.effectsOff ∧ (∀ p, stale 0 p (squareTrack ++ [.track 0 (.attr .note (45 * 1048576))]) = false) ∧
    t.unit.mute = 0 ∧ t.unit.waveform.phases = some 16 ∧ t.waveform ≠ 16391 ∧ t.unit.time = 0 ∧ t.note.get = .ok (45 * 1048576) ∧
    t.arpeggioOn = false ∧ s.iw.on 0 = false ∧ t.pitch = 0 := by
  have hd : (do
      let s ← ({} : TWorld).run 32 (squareTrack ++ [.track 0 (.attr .note (45 * 1048576))])
      return (s.tracks 0).map fun t => ([t.unit.mute, t.waveform, t.unit.time, t.note.get.toOption.getD (-1), t.pitch],
        [decide (t.ctx = some (44100, 2)), decide (t.unit.waveform.phases = some 16),
          !t.volumeSlide, !t.panningSlide, !t.tremoloOn, !t.portamento, !t.vibratoOn, !t.arpeggioOn, !s.iw.on 0]) :
      C (Option (List Int × List Bool))) = .ok (some ([0, 16385, 0, 47185920, 0], List.replicate 9 true)) := by decide +kernel
  obtain ⟨s, e1, e2⟩ := bind_ok_iff.1 hd
  have e2 := Except.ok.inj e2
  obtain ⟨t, ht, e3⟩ := Option.map_eq_some_iff.1 e2
  simp only [Prod.mk.injEq, List.replicate, List.cons.injEq, and_true, decide_eq_true_eq, Bool.not_eq_true'] at e3
  obtain ⟨⟨a2, a4, a5, a6, a7⟩, a1, a3, b1, b2, b3, b4, b5, b6, b7⟩ := e3
  refine ⟨s, t, e1, ht, a1, ⟨b1, b2, b3, b4, b5⟩, ?_, a2, a3, by rw [a4]; decide, a5, ?_, b6, b7, a7⟩
  · intro p
    cases p <;> decide
  · cases e : t.note.get with
    | error f => rw [e] at a6; exact absurd a6 (by show ¬ (-1 : Int) = 47185920; decide)
    | ok v => rw [e] at a6; exact congrArg Except.ok a6

end BK
