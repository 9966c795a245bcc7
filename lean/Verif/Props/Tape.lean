import Verif.Lemmas.Tape2
import Verif.Props.Note2
/-!
C102: a held sample is played frame by frame at its pitch.
-/
namespace BK

variable {N : Nat}

/-- What C102 says of a track, for a track on its own. -/
theorem Track.steady_tape {m : Nat} {s : TWorld} (hgood : s.iw.Good m) {x : Nat} {t : Track} (hti : t.Inv N False) (hok : ∀ p, t.Ok x s.iw p)
    {rate chans : Int} (hc : t.ctx = some (rate, chans)) (he : t.effectsOff)
    (hm : t.unit.mute = 0) (hw : t.unit.waveform = .sample) (hlen : 2 ≤ t.unit.length) (hper : t.unit.period ≠ 0)
    (hwt : t.waveform = 16391) (h0 : 0 ≤ t.unit.time) (h1 : t.unit.time ≤ 2147483647)
    {note : Int} (hn : t.note.get = .ok note) {ds : List Int} (hds : ds ≠ []) (hd : ∀ d ∈ ds, 0 ≤ d ∧ d ≤ 1073741824) :
    t.HeldTape N x s.iw note ds := by
  unfold Track.HeldTape
  have hne : t.ctx ≠ none := by rw [hc]; exact fun e => by cases e
  obtain ⟨u, hu, hui⟩ := (hti.updateUnit (x := x) hgood).get trivial
  have hcl : u.Clean := Track.updateUnit_clean hu
  have hux : u.ctx = some (rate, chans) := (Track.updateUnit_ctx hu).trans hc
  have hun : u.ctx ≠ none := by rw [hux]; exact fun e => by cases e
  have hut := Track.updateUnit_time hu
  have hch := (hui.ctx _ hux).2.2
  have huw := Track.updateUnit_wave hu
  have hup := Track.updateUnit_tape hw hu
  obtain ⟨sb, sn⟩ := Track.updateUnit_same hu
  have hw' : u.unit.waveform = .sample := huw.waveform.trans hw
  have hm' : u.unit.mute = 0 := huw.mute.trans hm
  have hlen' : 2 ≤ u.unit.length := by
    have := congrArg Tape.len hup.tape
    show 2 ≤ u.unit.tape.len
    rw [this]
    exact hlen
  have hper' : u.unit.period ≠ 0 := by rw [Track.updateUnit_period hwt hu]; exact hper
  obtain ⟨τ1, c1, p1, m1, τ, a1, a2, -⟩ := UCore.render_tape (n := N) hui.unit.inv hui.unit.sinv hw' hlen' hm' hper'
    (t0 := u.unit.time) (by omega) (by omega) (e := 0) (by omega) (by omega)
  obtain ⟨v1, v2, v3⟩ := Track.heard_is_set hgood hok hne he (Track.run_ok hu hux hch a1)
  have hm0 : m1 = 0 := by
    by_contra hne0
    have := (a2.early 0 (by omega)).1
    push_cast at this
    omega
  have hspeed : c1.samplePeriod = u.unit.samplePeriod := by
    subst hm0
    by_cases hg : c1.mute = 0
    · obtain ⟨-, -, g, -⟩ := a2.going hg
      exact (congrArg Head.speed (Option.some.inj g)).symm
    · cases a2.ended hg
  obtain ⟨mm, n1, -, n2⟩ := v2 rate chans hux
  have hwt' : u.waveform = 16391 := by rw [sb.waveform]; exact hwt
  obtain ⟨n', p, v, q1, q2, q3, q4⟩ := n2 hwt'
  obtain ⟨p', e1, l1, l2⟩ := C21_total n'
  rw [q2] at e1
  cases e1
  have hv : v = p := by
    have : wrapI32 p = p := by unfold wrapI32; omega
    rw [this] at q3
    unfold cabs at q3
    rw [if_neg (by omega)] at q3
    cases q3
    rfl
  have hcv : cclamp v 4096 268435456 = p := by
    rw [hv]
    unfold cclamp
    rw [if_neg (by omega), if_neg (by omega)]
  rw [hcv] at q4
  have hq : u.unit.samplePeriod = p ∨ u.unit.samplePeriod = -p := by
    rw [← hspeed]
    exact q4
  have hmp : mm = t.pitchSet x s.iw note := by
    have : t.noteSum x s.iw = .ok mm := by
      rw [← n1]
      unfold Track.noteSum Track.noteSum.vib
      dsimp only
      rw [sn.note, sb.arpeggioOn, sb.arp, sb.vibratoOn, sb.vibrato, sb.pitch]
    exact Track.noteSum_pitch he.2.2.2.2 hn this
  have hn' : n' = t.pitchSet x s.iw note + t.samplePitch := by
    have e : n' = mm + u.samplePitch := by
      have := (i32_eq_ok_iff.1 q1).2
      first | exact this | exact this.symm
    rw [e, hmp, sb.samplePitch]
  obtain ⟨un, ps, g1, g2⟩ := Track.Inv.held (x := x) (w := s.iw) ds 0 hui hun hcl (by omega) (by omega) hd
  have hold_eq : t.hold x s.iw 0 ds = u.hold x s.iw 0 ds := by
    cases ds with
    | nil => exact absurd rfl hds
    | cons d ds =>
      unfold Track.hold
      have : t.run x s.iw d = u.run x s.iw d := by
        unfold Track.run
        rw [hu, hcl.updateUnit x s.iw]
      rw [this]
  have vol : ({ u with unit := un } : Track).VolNow x s.iw := by
    obtain ⟨mm, m1, m2, m3⟩ := v1
    have e : c1.volume = un.volume := a2.same.setup.volume.trans g2.symm
    refine ⟨mm, m1, fun hh => ?_, fun hh => ?_⟩
    · obtain ⟨c, c2, c3, c4⟩ := m2 hh
      refine ⟨c, c2, ?_, ?_⟩
      · show un.volume 0 = _
        rw [← e]; exact c3
      · show un.volume 1 = _
        rw [← e]; exact c4
    · have := m3 hh
      show un.volume = _
      rw [← e]; exact this
  refine ⟨_, u.unit.head, hold_eq.trans g1, vol, hup.pos, ?_, fun i hi k => ?_⟩
  · rw [← hn', q2]
    congr 1
    have hsp : u.unit.head.speed = u.unit.samplePeriod := rfl
    rw [hsp]
    have := hup.sign
    split <;> omega
  · have tr := Track.Inv.held_tape (x := x) (w := s.iw) hi ds 0 hui hun hcl hw' hm' hper' hlen' (by omega) (by omega) hd g1 k
    dsimp only at tr ⊢
    rw [tr, hut, hup.tape]
    have hlev : u.unit.levAt i = fun h => level (frameAt t.unit.frames t.unit.numChannels i h) (un.volume i) := by
      funext h
      unfold UCore.levAt
      rw [huw.frames, hup.numChannels, g2]
    unfold Tape.step
    rw [hlev, huw.last, Int.zero_add]
    cases k <;> rfl

/-- C102: a track that is attached, not muted, has no running effect and plays a sample makes one step per output frame and channel, from frame to frame of the
sample; the head moves at the speed of the pitch that is set.  So it is for however long it is rendered and in whatever parts. -/
theorem C102_tape_partial {fuel : Nat} {ops : List WOp} {s : TWorld} {x : Nat} {t : Track}
    (hf : ops.length ≤ fuel) (hl : ({} : TWorld).LegalRun N fuel ops) (h : ({} : TWorld).run fuel ops = .ok s)
    (ht : s.tracks x = some t) {rate chans : Int} (hc : t.ctx = some (rate, chans)) (he : t.effectsOff)
    (hs : ∀ p, stale x p ops = false) (hm : t.unit.mute = 0) (hw : t.unit.waveform = .sample) (hlen : 2 ≤ t.unit.length) (hper : t.unit.period ≠ 0)
    (hwt : t.waveform = 16391) (h0 : 0 ≤ t.unit.time) (h1 : t.unit.time ≤ 2147483647)
    {note : Int} (hn : t.note.get = .ok note) {ds : List Int} (hds : ds ≠ []) (hd : ∀ d ∈ ds, 0 ≤ d ∧ d ≤ 1073741824) :
    t.HeldTape N x s.iw note ds := by
  have hinv : s.Inv (0 + ops.length) N := by
    have := (TWorld.Inv.init N).run ops (by omega) hl
    rw [h] at this
    exact this
  exact Track.steady_tape hinv.good (hinv.tracks x t ht)
    (fun p => TWorld.run_ok ops (TWorld.Inv.init N) (by omega) hl (fun _ t h => by cases h) h (hs p) t ht) hc he hm hw hlen hper hwt h0 h1 hn hds hd

/-- C102: so it is at any time in a song. -/
theorem C102_song_partial {υ : Type} {pr : Program υ} (hp : pr.Plays N) {T : Nat} {c : Ctx (Band υ)} {S : List Int} (h : Concert N pr T c S)
    {x : Nat} {t : Track} (ht : (c.world.pass c.deltaTime).tracks x = some t) {rate chans : Int} (hc : t.ctx = some (rate, chans))
    (he : t.effectsOff) (hs : ∀ p, stale x p c.user.log = false) (hm : t.unit.mute = 0) (hw : t.unit.waveform = .sample)
    (hlen : 2 ≤ t.unit.length) (hper : t.unit.period ≠ 0)
    (hwt : t.waveform = 16391) {note : Int} (hn : t.note.get = .ok note) {ds : List Int} (hds : ds ≠ [])
    (hd : ∀ d ∈ ds, 0 ≤ d ∧ d ≤ 1073741824) :
    t.HeldTape N x c.world.iw note ds := by
  obtain ⟨fuel, ops, h1, h2, h3, h4⟩ := C84_refines_partial hp h.recording.song
  have hs' : ∀ q, stale x q ops = false := fun q => by rw [← stale_filter, h4]; exact hs q
  have hinv : c.world.Inv (0 + ops.length) N := by
    have := (TWorld.Inv.init N).run ops (by omega) h2
    rw [h3] at this
    exact this
  obtain ⟨P, k1, -⟩ := C86_performance_partial hp h
  obtain ⟨k2, k3⟩ := k1.sane.1.time x t ht
  have hti := k1.sane.1.inv.tracks x t ht
  obtain ⟨t', ht', e⟩ : ∃ t', c.world.tracks x = some t' ∧ ∃ τ, t = { t' with unit := { t'.unit with time := τ } } := by
    unfold TWorld.pass at ht
    dsimp only at ht
    obtain ⟨t', e1, e2⟩ := Option.map_eq_some_iff.1 ht
    refine ⟨t', e1, ?_⟩
    split at e2
    · exact ⟨t'.unit.time, e2.symm⟩
    · exact ⟨_, e2.symm⟩
  obtain ⟨τ, rfl⟩ := e
  have hok : ∀ p, t'.Ok x c.world.iw p := fun p =>
    TWorld.run_ok ops (TWorld.Inv.init N) (by omega) h2 (fun _ t h => by cases h) h3 (hs' p) t' ht'
  exact Track.steady_tape hinv.good hti (fun p => match p with | .vol => hok .vol | .note => hok .note | .duty => hok .duty) hc he hm hw hlen hper hwt k2 k3 hn hds hd

/-! Where the head is. -/

theorem Tape.next_inside {T : Tape} (hh : T.hold = none) {h : Head} (h0 : 0 ≤ h.pos + h.speed) (h1 : h.pos + h.speed < T.len * U20) :
    T.next h = some ⟨h.pos + h.speed, h.speed⟩ := by
  unfold Tape.next Tape.turn
  dsimp only
  rw [if_pos ⟨h0, h1⟩]
  unfold Tape.keep
  rw [hh]
  rfl

/-- C102: played once, the head moves on by its speed until it leaves the sample at the end it moves to, and then stops. -/
theorem C102_once {T : Tape} (hh : T.hold = none) (hm1 : T.mode ≠ 1) (hm2 : T.mode ≠ 2) : ∀ (k : Nat) {h : Head}, 0 ≤ h.pos → h.pos < T.len * U20 →
    T.at h k = if 0 ≤ h.pos + k * h.speed ∧ h.pos + k * h.speed < T.len * U20 then some ⟨h.pos + k * h.speed, h.speed⟩ else none
  | 0, h, h0, h1 => by
    rw [Tape.at_zero, if_pos (by push_cast; omega)]
    congr 1
    cases h
    congr 1
    push_cast
    omega
  | k + 1, h, h0, h1 => by
    have hk : ((k + 1 : Nat) : Int) * h.speed = h.speed + k * h.speed := by push_cast; ring
    rw [hk, ← Int.add_assoc]
    by_cases hin : 0 ≤ h.pos + h.speed ∧ h.pos + h.speed < T.len * U20
    · rw [Tape.at_succ (Tape.next_inside hh hin.1 hin.2), C102_once hh hm1 hm2 k hin.1 hin.2]
    · have hn : T.next h = none := by
        unfold Tape.next Tape.turn
        dsimp only
        rw [if_neg hin, if_neg hm1, if_neg hm2]
        rfl
      show (T.next h).bind _ = _
      rw [hn, if_neg]
      · rfl
      · intro hx
        rcases Int.le_total 0 h.speed with hs | hs
        · have := Int.mul_nonneg (Int.natCast_nonneg k) hs
          omega
        · have := Int.mul_nonneg (Int.natCast_nonneg k) (show 0 ≤ -h.speed by omega)
          rw [Int.mul_neg] at this
          omega

/-- C102: repeated, it goes round for ever without a gap: after `k` frames it is where `k` times its speed leads on a ring. -/
theorem C102_round {T : Tape} (hh : T.hold = none) (hm : T.mode = 1) : ∀ (k : Nat) {h : Head}, 0 ≤ h.pos → h.pos < T.len * U20 →
    T.at h k = some ⟨(h.pos + k * h.speed) % (T.len * U20), h.speed⟩
  | 0, h, h0, h1 => by
    rw [Tape.at_zero]
    congr 1
    cases h
    dsimp only at h0 h1 ⊢
    congr 1
    rw [show ((0 : Nat) : Int) = 0 from rfl, Int.zero_mul, Int.add_zero, Int.emod_eq_of_lt h0 h1]
  | k + 1, h, h0, h1 => by
    have hk : ((k + 1 : Nat) : Int) * h.speed = h.speed + k * h.speed := by push_cast; ring
    have hn : T.next h = some ⟨(h.pos + h.speed) % (T.len * U20), h.speed⟩ := by
      by_cases hin : 0 ≤ h.pos + h.speed ∧ h.pos + h.speed < T.len * U20
      · rw [Tape.next_inside hh hin.1 hin.2, Int.emod_eq_of_lt hin.1 hin.2]
      · unfold Tape.next Tape.turn
        dsimp only
        rw [if_neg hin, if_pos hm]
        unfold Tape.keep
        rw [hh]
        rfl
    have r1 := Int.emod_nonneg (h.pos + h.speed) (show T.len * U20 ≠ 0 by omega)
    have r2 := Int.emod_lt_of_pos (h.pos + h.speed) (show 0 < T.len * U20 by omega)
    rw [Tape.at_succ hn, C102_round hh hm k r1 r2]
    dsimp only
    rw [Int.emod_add_emod, hk, Int.add_assoc]

/-- The frame of a sample played back and forth, on a ring of all frames forwards and, but for the first, backwards. -/
def fold (len x : Int) : Int := if x < len then x else 2 * len - 1 - x

/-- The head at place `x` of that ring with fraction `f`, moving by `s` frames in the direction that belongs to the place. -/
def Head.onRing (len s f x : Int) (h : Head) : Prop :=
  h.pos = fold len x * U20 + f ∧ (x < len ∧ h.speed = s * U20 ∨ (x = 0 ∨ len ≤ x) ∧ h.speed = -(s * U20))

theorem Tape.next_ring {T : Tape} (hh : T.hold = none) (hm : T.mode = 2) {s : Int} (hs0 : 0 < s) (hs : s ≤ T.len - 1)
    {x f : Int} (h0 : 0 ≤ x) (h1 : x < 2 * T.len - 1) (f0 : 0 ≤ f) (f1 : f < U20) {h : Head} (hr : h.onRing T.len s f x) :
    ∃ d, T.next h = some d ∧ d.onRing T.len s f ((x + s) % (2 * T.len - 1)) := by
  have keepid : ∀ h, T.keep h = h := by
    intro h
    unfold Tape.keep
    rw [hh]
  obtain ⟨p, v⟩ := h
  obtain ⟨e1, e2⟩ := hr
  dsimp only at e1 e2
  unfold fold at e1
  rcases e2 with ⟨hx, e2⟩ | ⟨hx, e2⟩
  · rw [if_pos hx] at e1
    rw [Int.emod_eq_of_lt (show 0 ≤ x + s by omega) (show x + s < 2 * T.len - 1 by omega)]
    by_cases hy : x + s < T.len
    · refine ⟨_, Tape.next_inside hh (by dsimp only; omega) (by dsimp only; omega), ?_, .inl ⟨hy, e2⟩⟩
      unfold fold
      rw [if_pos hy]
      dsimp only
      omega
    · have hmod : (x + s) % T.len = x + s - T.len := by
        rw [← Int.sub_emod_right, Int.emod_eq_of_lt (by omega) (by omega)]
      have hfr : (p + v) / U20 = x + s := by omega
      have hn : T.next ⟨p, v⟩ = some ⟨(T.len - 1 - (x + s - T.len)) * U20 + f, -v⟩ := by
        unfold Tape.next Tape.turn Head.frame
        dsimp only
        rw [if_neg (by omega), if_neg (by rw [hm]; decide), if_pos hm, if_pos (by omega), hfr, hmod, Option.map_some, keepid]
        congr 2
        omega
      refine ⟨_, hn, ?_, .inr ⟨.inr (by omega), ?_⟩⟩
      · unfold fold
        rw [if_neg hy]
        dsimp only
        omega
      · dsimp only
        omega
  · have e1' : p = (if x = 0 then 0 else 2 * T.len - 1 - x) * U20 + f := by
      rw [e1]
      rcases hx with rfl | hx
      · rw [if_pos (by omega), if_pos rfl]
      · rw [if_neg (by omega), if_neg (by omega)]
    by_cases hy : x ≠ 0 ∧ x + s ≤ 2 * T.len - 1
    · rw [if_neg hy.1] at e1'
      refine ⟨_, Tape.next_inside hh (by dsimp only; omega) (by dsimp only; omega), ?_, .inr ⟨?_, e2⟩⟩
      · unfold fold
        by_cases hz : x + s = 2 * T.len - 1
        · rw [hz, Int.emod_self, if_pos (by omega)]
          dsimp only
          omega
        · rw [Int.emod_eq_of_lt (by omega) (by omega), if_neg (by omega)]
          dsimp only
          omega
      · by_cases hz : x + s = 2 * T.len - 1
        · exact .inl (by rw [hz, Int.emod_self])
        · rw [Int.emod_eq_of_lt (by omega) (by omega)]
          exact .inr (by omega)
    · obtain ⟨y, hy1, hy2, hy3, hy4⟩ : ∃ y, 0 < y ∧ y < T.len ∧ (x + s) % (2 * T.len - 1) = y ∧ p + v = -y * U20 + f := by
        by_cases hz : x = 0
        · refine ⟨s, hs0, by omega, ?_, ?_⟩
          · rw [hz, Int.zero_add, Int.emod_eq_of_lt (by omega) (by omega)]
          · rw [if_pos hz] at e1'
            omega
        · refine ⟨x + s - (2 * T.len - 1), by omega, by omega, ?_, ?_⟩
          · rw [← Int.sub_emod_right, Int.emod_eq_of_lt (by omega) (by omega)]
          · rw [if_neg hz] at e1'
            omega
      rw [hy3]
      have hmod : (-y) % T.len = T.len - y := by
        rw [← Int.add_emod_right, Int.emod_eq_of_lt (by omega) (by omega)]
        omega
      have hfr : (p + v) / U20 = -y := by omega
      have hn : T.next ⟨p, v⟩ = some ⟨(T.len - (T.len - y)) * U20 + f, -v⟩ := by
        unfold Tape.next Tape.turn Head.frame
        dsimp only
        rw [if_neg (by omega), if_neg (by rw [hm]; decide), if_pos hm, if_neg (by omega), hfr, hmod, Option.map_some, keepid]
        congr 2
        omega
      refine ⟨_, hn, ?_, .inl ⟨hy2, ?_⟩⟩
      · unfold fold
        rw [if_pos hy2]
        dsimp only
        omega
      · dsimp only
        omega

/-- C102: back and forth at a whole number of frames, it goes round a ring of `2 · len − 1` frames: all frames forwards, then all but the first
backwards; the last frame is so played twice in a row. -/
theorem C102_back_and_forth {T : Tape} (hh : T.hold = none) (hm : T.mode = 2) {s : Int} (hs0 : 0 < s) (hs : s ≤ T.len - 1) {f : Int}
    (f0 : 0 ≤ f) (f1 : f < U20) : ∀ (k : Nat) {x : Int} {h : Head}, 0 ≤ x → x < 2 * T.len - 1 → h.onRing T.len s f x →
    ∃ d, T.at h k = some d ∧ d.frame = fold T.len ((x + k * s) % (2 * T.len - 1)) ∧ d.pos % U20 = f
  | 0, x, h, h0, h1, hr => by
    refine ⟨_, rfl, ?_, ?_⟩
    · unfold Head.frame
      rw [hr.1, show ((0 : Nat) : Int) = 0 from rfl, Int.zero_mul, Int.add_zero, Int.emod_eq_of_lt h0 h1]
      omega
    · rw [hr.1]
      omega
  | k + 1, x, h, h0, h1, hr => by
    have hk : ((k + 1 : Nat) : Int) * s = s + k * s := by push_cast; ring
    obtain ⟨y, hn, hy⟩ := Tape.next_ring hh hm hs0 hs h0 h1 f0 f1 hr
    obtain ⟨d, d1, d2, d3⟩ := C102_back_and_forth hh hm hs0 hs f0 f1 k (Int.emod_nonneg _ (by omega)) (Int.emod_lt_of_pos _ (by omega)) hy
    refine ⟨d, by rw [Tape.at_succ hn]; exact d1, ?_, d3⟩
    rw [d2, Int.emod_add_emod, hk, Int.add_assoc]

/-- C102: the speed of whole notes is in tune: `2^((n-48)/12)` frames per output frame, less than four units of `2^-20` below. -/
theorem C102_tuning {n : Nat} (hn : n ≤ 96) {b : Prop} [Decidable b] {v : Int} (h : log2PeriodLookup (n * 1048576) = .ok (if b then -v else v)) :
    v.natAbs ^ 12 * 2 ^ 48 ≤ (2 ^ 20) ^ 12 * 2 ^ n ∧ (2 ^ 20) ^ 12 * 2 ^ n < (v.natAbs + 4) ^ 12 * 2 ^ 48 := by
  obtain ⟨f, h1, h2, h3⟩ := C70_sample_tuning hn
  rw [h1] at h
  have e : v.natAbs = f := by
    have : (f : Int) = if b then -v else v := Except.ok.inj h
    split at this <;> omega
  rw [e]
  exact ⟨h2, h3⟩

/-- Four frames, played at note 48, which is the speed they have been recorded at, and an octave above backwards and repeated. -/
def tapeA : List WOp := [.init 0 16385, .track 0 (.attach 44100 2 0), .track 0 (.data .sample (some ⟨0, ⟨4, 1, [1000, 2000, 3000, 4000]⟩, 0⟩)),
  .track 0 (.attr .masterVolume 32767), .track 0 (.attr .note (48 * 1048576))]

def tapeB (mode : Int) : List WOp := tapeA ++ [.track 0 (.attr (.unit .sampleRepeat) mode)]

/-- What C102 asks of a track. -/
def tapeFacts (ops : List WOp) : Option (List Int × List Bool) := do
  let s ← (({} : TWorld).run 32 ops).toOption
  let t ← s.tracks 0
  return ([t.unit.mute, t.unit.length, t.unit.waveform.code, t.waveform, t.unit.time, t.note.get.toOption.getD (-1), t.unit.repeatMode],
    [decide (t.ctx = some (44100, 2)), !t.volumeSlide, !t.panningSlide, !t.tremoloOn, !t.portamento, !t.vibratoOn,
      !stale 0 .vol ops, !stale 0 .note ops, !stale 0 .duty ops, decide (t.unit.period ≠ 0)])

/-- These tracks are as C102 asks. -/
example : tapeFacts tapeA = some ([0, 4, 16391, 16391, 0, 50331648, 0], List.replicate 10 true) ∧
    tapeFacts (tapeB 2) = some ([0, 4, 16391, 16391, 0, 50331648, 2], List.replicate 10 true) := by decide +kernel

/-- What is heard: once, repeated, back and forth. -/
def tapeHeard (ops : List WOp) (n : Int) : Option (List (Int × Int)) :=
  (heardAfter ops (n * 1048576)).map fun ps => (onChan 0 ps).map fun p => (p.time / 1048576, p.amp)

/-- As C102 says: once four frames and silence; repeated all over again; back and forth with the last frame twice. -/
example : tapeHeard tapeA 6 = some [(0, 999), (1, 1000), (2, 1000), (3, 1000)] ∧
    tapeHeard (tapeB 1) 6 = some [(0, 999), (1, 1000), (2, 1000), (3, 1000), (4, -3000), (5, 1000)] ∧
    tapeHeard (tapeB 2) 12 = some [(0, 999), (1, 1000), (2, 1000), (3, 1000), (4, 0), (5, -1000), (6, -1000), (7, -1000), (8, 1000), (9, 1000),
      (10, 1000), (11, 0)] := by decide +kernel

/-- Tapes and heads as C102 asks. -/
example : (Tape.at ⟨4, 0, none⟩ ⟨524288, 1572864⟩ 2 = some ⟨3670016, 1572864⟩ ∧ Tape.at ⟨4, 0, none⟩ ⟨524288, 1572864⟩ 3 = none) ∧
    Tape.at ⟨4, 1, none⟩ ⟨524288, -1572864⟩ 1 = some ⟨3145728, -1572864⟩ ∧
    Head.onRing 4 2 5 5 ⟨2 * 1048576 + 5, -2 * 1048576⟩ ∧ fold 4 ((5 + 2 * 2) % 7) = 2 ∧
    Tape.at ⟨4, 2, none⟩ ⟨2 * 1048576 + 5, -2 * 1048576⟩ 2 = some ⟨2 * 1048576 + 5, 2 * 1048576⟩ := by
  refine ⟨by decide +kernel, by decide +kernel, ⟨by decide, .inr ⟨.inr (by decide), by decide⟩⟩, by decide, by decide +kernel⟩

end BK
