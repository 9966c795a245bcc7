import Verif.Props.Legato
/-!
C114: instruments on contexts that are not stereo.
-/
namespace BK

/-- The volume of a track up to date that does not pan. -/
theorem Track.VolNow.mono {x : Nat} {w : IWorld} {t : Track} (h : t.VolNow x w) (hon : w.on x = true) (hig : t.ignores = false) (htr : t.tremoloOn = false)
    (hpo : t.panningOn = false) {v : Int} (hv : t.volume.get = .ok v)
    (hm0 : 0 ≤ t.masterVolume) (hm1 : t.masterVolume ≤ 32767) {V : Int}
    (hV : V = max 0 (min 32767 (v * w.value x 0 / 32768)) * t.masterVolume / 32768) : t.unit.volume = fun _ => V := by
  obtain ⟨m, hm, h1, h2⟩ := h
  obtain ⟨v', p', z, e1, e2, e3, e4, e5⟩ := Track.mix_ok hm
  unfold Track.ownVolume at e1
  rw [hv, ok_bind, hig] at e1
  cases e1
  unfold Track.tremoloVolume at e3
  rw [htr, if_neg (fun q => by cases q.1)] at e3
  cases e3
  rw [if_neg (fun q => by cases q.1)] at e4
  unfold instrVolume at e4
  rw [hon, hig] at e4
  simp only [Bool.not_false, Bool.true_or, Bool.and_self, if_true] at e4
  have hcl : ∀ a lo hi : Int, lo ≤ hi → cclamp a lo hi = max lo (min hi a) := fun a lo hi h => by
    unfold cclamp; split
    · omega
    · split <;> omega
  rw [hcl _ _ _ (by decide)] at e4
  rw [← hV] at e4
  have hV0 : 0 ≤ V ∧ V ≤ 32767 := by
    have a0 : 0 ≤ max 0 (min 32767 (v * w.value x 0 / 32768)) := by omega
    have a1 : max 0 (min 32767 (v * w.value x 0 / 32768)) ≤ 32767 := by omega
    generalize max 0 (min 32767 (v * w.value x 0 / 32768)) = y at *
    have b0 := Int.mul_nonneg a0 hm0
    have b1 := Int.mul_le_mul a1 hm1 hm0 (by decide)
    omega
  rw [h2 (fun q => by rw [hpo] at q; cases q.2), e4, hcl _ _ _ (by decide)]
  funext
  omega

/-- What is heard of it. -/
theorem Track.Kept.sounds_mono {N : Nat} {x : Nat} {w : IWorld} {t t2 : Track} {sl : Slide} (hk : ({ t with note := sl } : Track).Kept t2)
    (ehalt : sl.halt true = sl) {v : Int} (eget : sl.get = .ok v) (t2i : t2.Inv N False) (hon : w.on x = true)
    (hc1 : t2.updVolume = false ∧ t2.updNote = false ∧ t2.updDuty = false) (hup : ∀ p, t2.Ok x w p)
    (he : t.effectsOff) (har : t.arpeggioOn = false) (hig : t.ignores = false) (hpo : t.panningOn = false)
    {rate ch : Int} (hc : t.ctx = some (rate, ch)) {cnt : Nat} (hw : t.unit.waveform.phases = some cnt) (hwt : t.waveform ≠ 16391)
    {vol : Int} (hvol : t.volume.get = .ok vol) {V : Int}
    (hV : V = max 0 (min 32767 (vol * w.value x 0 / 32768)) * t.masterVolume / 32768) :
    t2.getAttr (.unit .period) = .ok (some (exactPeriod (v + w.value x 2 + t.pitch) rate / cnt)) ∧
    t2.unit.volume = (fun _ => V) ∧
    t2.unit.dutyCycle = max 1 (min 15 (if w.value x 3 ≠ 0 then w.value x 3 else t.dutyCycle)) := by
  obtain ⟨c1, c2, c3⟩ := hc1
  obtain ⟨he1, he2, he3, he4, he5⟩ := he
  obtain ⟨⟨aa, dd, sb⟩, kn, kw⟩ := id hk
  have kn : t2.note = sl := kn ehalt
  have kw : t2.unit.waveform = t.unit.waveform := kw
  have kvol := hup .vol (by rw [sb.ctx]; show t.ctx ≠ none; rw [hc]; simp) c1 (sb.volumeSlide.trans he1) (sb.panningSlide.trans he2) (sb.tremoloOn.trans he3)
  have knote := hup .note c2 (sb.portamento.trans he4) (sb.vibratoOn.trans he5)
  have kduty := hup .duty c3
  refine ⟨?_, ?_, ?_⟩
  · have := Track.NoteNow.period knote t2i (sb.vibratoOn.trans he5) (sb.ctx.trans hc) (by rw [kw]; exact hw) (fun q => hwt (sb.waveform.symm.trans q)) (by rw [kn]; exact eget)
    rw [this]
    unfold Track.pitchSet
    rw [hon, if_pos rfl, sb.arpeggioOn, sb.pitch]
    dsimp only
    rw [har, if_neg (by decide), Int.add_zero]
  · exact Track.VolNow.mono (V := V) kvol hon (sb.ignores.trans hig) (sb.tremoloOn.trans he3) (sb.panningOn.trans hpo)
      (by rw [sb.volume]; exact hvol) t2i.masterVolume.1 t2i.masterVolume.2 (by rw [sb.masterVolume]; exact hV)
  · have kd : t2.unit.dutyCycle = _ := kduty
    rw [kd, sb.dutyCycle, hon]
    dsimp only
    simp only [true_and]
    generalize (if w.value x 3 ≠ 0 then w.value x 3 else t.dutyCycle) = y
    unfold cclamp
    split
    · omega
    · split <;> omega

/-- C114: as `C113_legato` for contexts with one channel or more than two (a single note is a melody with `ms = []`): all channels have the volume of the instrument, whatever
its panning sequence says. -/
theorem C114_mono {N fuel : Nat} {ops : List WOp} {s0 : TWorld} {x i d n : Nat} {t : Track} {v : Int} {ms : List (Int × Nat)}
    (hl : ({} : TWorld).LegalRun N fuel ops) (hf : ops.length + (melody x (ms ++ [(v, n)])).length ≤ fuel) (h0 : ({} : TWorld).run fuel ops = .ok s0)
    (ht : s0.tracks x = some t) (hs : t.curNote = -1) (hx : s0.iw.links.owner x = some i) (hdv : t.instrDiv.divider = d)
    (hms : ∀ p ∈ ms ++ [(v, n)], 0 ≤ p.1 ∧ p.1 ≤ 96 * U20) (hn : 1 ≤ n)
    (hsu : ∃ k new, new.Short ∧ s0.iw.Plays i k new ∧ new.Sustained)
    (he : t.effectsOff) (har : t.arpeggioOn = false) (hrest : t.note.roundBias = 0) (hsteps : t.note.steps = 0)
    (hst : stale x .vol ops = false) (hig : t.ignores = false)
    {rate ch : Int} (hc : t.ctx = some (rate, ch)) (hch : ch ≠ 2) {cnt : Nat} (hw : t.unit.waveform.phases = some cnt) (hwt : t.waveform ≠ 16391)
    {vol : Int} (hvol : t.volume.get = .ok vol)
    {T : Nat} (hT : T = melodyTicks (ms ++ [(v, n)]))
    {a0 a2 : Int} (h00 : s0.iw.Gives i 0 (firings d 0 T) a0) (h02 : s0.iw.Gives i 2 (firings d 0 T) a2) :
    ∃ s t', s0.run fuel (melody x (ms ++ [(v, n)])) = .ok s ∧ s.tracks x = some t' ∧ t'.unit.mute = 0 ∧
      t'.getAttr (.unit .period) = .ok (some (exactPeriod (v + a2 + t.pitch) rate / cnt)) ∧
      (∀ c, t'.getAttr (.unit (.volumeOf c)) = .ok (some (max 0 (min 32767 (vol * a0 / 32768)) * t.masterVolume / 32768))) ∧
      ∀ a3, s0.iw.Gives i 3 (firings d 0 T) a3 → t'.unit.dutyCycle = max 1 (min 15 (if a3 ≠ 0 then a3 else t.dutyCycle)) := by
  obtain ⟨s, t2, w1, A, eall, k1, k2, m1, m2⟩ := TWorld.melody_mel hl hf h0 ht hs hx hdv hms hn hsu he hrest hsteps hst hwt hT
  have hinv := ((TWorld.Inv.init N).run ops (by omega) hl)
  rw [h0] at hinv
  have hinv : s0.Inv (0 + ops.length) N := hinv
  have hdd := (hinv.tracks x t ht).instrDiv.divider
  rw [hdv] at hdd
  obtain ⟨sl2, q1, q2, -, -, q5⟩ := m1.note
  have hon : s.iw.on x = true := by unfold IWorld.on; rw [m1.links, hx]; rfl
  have hgive : ∀ k a, k < 4 → s0.iw.Gives i k (firings d 0 T) a → s.iw.value x k = a := fun _ _ hk h => m1.gives (by omega) k1 hx k2 hk h
  have hpo : t.panningOn = false := by
    by_contra hq
    obtain ⟨r, hr⟩ := (TWorld.run_sided h0 x t ht).1 (by simpa using hq)
    rw [hc] at hr
    cases hr
    exact hch rfl
  obtain ⟨r1, r2, r4⟩ := q5.sounds_mono q1 q2 (m1.inv.tracks x t2 m1.here) hon m2 m1.ok he har hig hpo hc hw hwt hvol rfl
  rw [hgive 2 a2 (by omega) h02] at r1
  rw [hgive 0 a0 (by omega) h00] at r2
  exact ⟨s, t2, eall, m1.here, m1.mute, r1, fun c => by show Except.ok (some (t2.unit.volume c)) = _; rw [r2],
    fun a3 h03 => by rw [← hgive 3 a3 (by omega) h03]; exact r4⟩

/-- C114: and after the release. -/
theorem C114_release {N fuel : Nat} {ops : List WOp} {s0 : TWorld} {x i d n m : Nat} {t : Track} {v : Int} {ms : List (Int × Nat)}
    (hl : ({} : TWorld).LegalRun N fuel ops) (hf : ops.length + (melody x (ms ++ [(v, n)])).length + (m + 1) ≤ fuel) (h0 : ({} : TWorld).run fuel ops = .ok s0)
    (ht : s0.tracks x = some t) (hs : t.curNote = -1) (hx : s0.iw.links.owner x = some i) (hdv : t.instrDiv.divider = d)
    (hms : ∀ p ∈ ms ++ [(v, n)], 0 ≤ p.1 ∧ p.1 ≤ 96 * U20) (hn : 1 ≤ n) (hm : 1 ≤ m)
    (hsu : ∃ k new, new.Short ∧ s0.iw.Plays i k new ∧ new.Sustained)
    (he : t.effectsOff) (har : t.arpeggioOn = false) (hrest : t.note.roundBias = 0) (hsteps : t.note.steps = 0)
    (hst : stale x .vol ops = false) (hig : t.ignores = false)
    {rate ch : Int} (hc : t.ctx = some (rate, ch)) (hch : ch ≠ 2) {cnt : Nat} (hw : t.unit.waveform.phases = some cnt) (hwt : t.waveform ≠ 16391)
    {vol : Int} (hvol : t.volume.get = .ok vol)
    {T : Nat} (hT : T = melodyTicks (ms ++ [(v, n)])) {f g : Nat} (hfg : f = firings d 0 T) (hg : g = firings d 0 (T + m) - firings d 0 T)
    {a0 a2 : Int} (h00 : s0.iw.GivesReleased i 0 f g a0) (h02 : s0.iw.GivesReleased i 2 f g a2) :
    ∃ s1 s t', s0.run fuel (melody x (ms ++ [(v, n)])) = .ok s1 ∧ s1.run fuel (notePlayed x (-1) m) = .ok s ∧ s.tracks x = some t' ∧
      (t'.unit.mute = 0 →
        t'.getAttr (.unit .period) = .ok (some (exactPeriod (v + a2 + t.pitch) rate / cnt)) ∧
        (∀ c, t'.getAttr (.unit (.volumeOf c)) = .ok (some (max 0 (min 32767 (vol * a0 / 32768)) * t.masterVolume / 32768))) ∧
        ∀ a3, s0.iw.GivesReleased i 3 f g a3 → t'.unit.dutyCycle = max 1 (min 15 (if a3 ≠ 0 then a3 else t.dutyCycle))) := by
  obtain ⟨s1, t1, w1, A, e, k1, k2, m1, m2⟩ := TWorld.melody_mel hl (by omega) h0 ht hs hx hdv hms hn hsu he hrest hsteps hst hwt hT
  have hinv := ((TWorld.Inv.init N).run ops (by omega) hl)
  rw [h0] at hinv
  have hinv : s0.Inv (0 + ops.length) N := hinv
  have hdd := (hinv.tracks x t ht).instrDiv.divider
  rw [hdv] at hdd
  have hpm : Plain (-1) := Plain.of (by omega) (by omega)
  have hlen : (notePlayed x (-1) m).length = m + 1 := by unfold notePlayed; rw [List.length_cons, List.length_replicate]
  obtain ⟨s, e', hend⟩ := (m1.inv.run (fuel := fuel) (notePlayed x (-1) m) (by omega) (legal_note hpm m s1)).get trivial
  have hx1 : s1.iw.links.owner x = some i := by rw [m1.links]; exact hx
  have hon1 : s1.iw.on x = true := by unfold IWorld.on; rw [hx1]; rfl
  obtain ⟨sl, q1, q2, -, -, q5⟩ := m1.note
  obtain ⟨⟨aa, dd, sb⟩, -, -⟩ := id q5
  obtain ⟨he1, he2, he3, he4, he5⟩ := id he
  obtain ⟨t2, a2', hk2, j3⟩ := TWorld.release_kept m1.here hon1
    ⟨sb.volumeSlide.trans he1, sb.panningSlide.trans he2, sb.tremoloOn.trans he3, sb.portamento.trans he4, sb.vibratoOn.trans he5⟩ e'
  have hup : ∀ p, t2.Ok x s.iw p := fun p => m1.inv.played_ok (b := false) (by omega) hpm m1.here (fun _ => m1.ok p) (.inl rfl) e' a2'
  have hpo : t.panningOn = false := by
    by_contra hq
    obtain ⟨r, hr⟩ := (TWorld.run_sided h0 x t ht).1 (by simpa using hq)
    rw [hc] at hr
    cases hr
    exact hch rfl
  refine ⟨s1, s, t2, e, e', a2', fun hmute => ?_⟩
  obtain ⟨hon, hgive⟩ := m1.gives_released (by omega) (by omega) k1 hx k2 e' a2' hmute
  rw [← hg, ← hfg] at hgive
  obtain ⟨r1, r2, r4⟩ := (q5.trans hk2).sounds_mono q1 q2 (hend.tracks x t2 a2') hon (j3 (by omega)) hup he har hig hpo hc hw hwt hvol rfl
  rw [hgive 2 a2 (by omega) h02] at r1
  rw [hgive 0 a0 (by omega) h00] at r2
  exact ⟨r1, fun c => by show Except.ok (some (t2.unit.volume c)) = _; rw [r2], fun a3 h03 => by rw [← hgive 3 a3 (by omega) h03]; exact r4⟩

/-- One channel; the instrument has a panning sequence, too. -/
def monoOps : List WOp :=
  [.init 0 16385, .setSequence 0 0 (.values [32767, 20000, 10000, 5000, 2000] 1 2), .setSequence 0 1 (.values [0, 30000, -30000] 2 1),
   .setSequence 0 2 (.values [0, 1048576, 0] 3 0), .setSequence 0 3 (.values [2, 4, 8] 2 1), .track 0 (.attach 44100 1 0), .track 0 (.attr .volume 20000),
   .track 0 (.attr .masterVolume 32767), .track 0 (.attr .instrDivider 2), .track 0 (.instrument (some 0))]

/-- The volumes of C113, without the panning; with two channels it would be heard. -/
example : ([monoOps, monoOps.map fun o => match o with | .track 0 (.attach r _ z) => .track 0 (.attach r 2 z) | o => o].map fun ops => do
    let s ← ({} : TWorld).run 40 (ops ++ melody 0 [(50331648, 1), (52428800, 1), (54525952, 1)])
    return (s.tracks 0).map fun t => (t.unit.period, t.unit.volume 0, t.unit.volume 1, t.unit.dutyCycle, t.unit.mute)) =
  ([(4134375, 12206, 12206, 4, 0), (4134375, 1030, 12206, 4, 0)].map fun v => (.ok (some v) : C _)) := by
  decide +kernel

theorem mono_legal (fuel : Nat) : ({} : TWorld).LegalRun 1 fuel monoOps := by
  refine TWorld.LegalRun.of_all _ _ ?_
  intro op hop s
  unfold monoOps at hop
  simp only [List.mem_cons, List.not_mem_nil, or_false] at hop
  rcases hop with rfl | rfl | rfl | rfl | rfl | rfl | rfl | rfl | rfl | rfl
  · exact Plain.of (by decide) (by decide)
  · refine ⟨?_, ?_, ?_⟩ <;> simp [NewSeq.Short, NewSeq.Usual, NewSeq.Modest, seqLimit, InI32]
  · refine ⟨?_, ?_, ?_⟩ <;> simp [NewSeq.Short, NewSeq.Usual, NewSeq.Modest, seqLimit, InI32]
  · refine ⟨?_, ?_, ?_⟩ <;> simp [NewSeq.Short, NewSeq.Usual, NewSeq.Modest, seqLimit, InI32]
  · refine ⟨?_, ?_, ?_⟩ <;> simp [NewSeq.Short, NewSeq.Usual, NewSeq.Modest, seqLimit, InI32]
  · exact fun t _ => ⟨by decide, by decide, rfl⟩
  · exact fun t _ => ⟨Plain.of (by decide) (by decide), trivial⟩
  · exact fun t _ => ⟨Plain.of (by decide) (by decide), trivial⟩
  · exact fun t _ => ⟨Plain.of (by decide) (by decide), by show (1 : Int) ≤ 2; decide⟩
  · exact fun t _ => trivial

/-- The sequences of the instrument of track 0 and whether the track meets the conditions of the theorem. -/
def monoView (s : TWorld) : Option (List Bool) × List (Option Sequence) :=
  ((s.tracks 0).map fun t => [decide (t.curNote = -1), decide (t.instrDiv.divider = 2), !t.volumeSlide, !t.panningSlide, !t.tremoloOn, !t.portamento,
      !t.vibratoOn, !t.arpeggioOn, decide (t.note.roundBias = 0), decide (t.note.steps = 0), !t.ignores, decide (t.ctx = some (44100, 1)),
      decide (t.unit.waveform.phases = some 16), decide (t.waveform ≠ 16391), decide (t.volume.get = .ok 20000),
      decide (t.masterVolume = 32767), decide (t.pitch = 0), decide (s.iw.links.owner 0 = some 0)],
    [0, 2, 3].map fun k => ((s.iw.instrs 0).sequences k).bind s.iw.heap)

/-- The hypotheses of the theorems are met by the instrument above. -/
theorem mono_start : ∃ s0 t, ({} : TWorld).run 40 monoOps = .ok s0 ∧ s0.tracks 0 = some t ∧
    (t.curNote = -1 ∧ t.instrDiv.divider = 2 ∧ t.effectsOff ∧ t.arpeggioOn = false ∧ t.note.roundBias = 0 ∧ t.note.steps = 0 ∧ t.ignores = false ∧
      t.ctx = some (44100, 1) ∧ t.unit.waveform.phases = some 16 ∧ t.waveform ≠ 16391 ∧ t.volume.get = .ok 20000 ∧
      t.masterVolume = 32767 ∧ t.pitch = 0) ∧ s0.iw.links.owner 0 = some 0 ∧
    s0.iw.Plays 0 0 (.values [32767, 20000, 10000, 5000, 2000] 1 2) ∧ s0.iw.Plays 0 2 (.values [0, 1048576, 0] 3 0) ∧
    s0.iw.Plays 0 3 (.values [2, 4, 8] 2 1) := by
  have h : (({} : TWorld).run 40 monoOps).map monoView =
      .ok (some (List.replicate 18 true), [some (.simple ⟨[32767, 20000, 10000, 5000, 2000], 5, 1, 2⟩), some (.simple ⟨[0, 1048576, 0], 3, 3, 0⟩),
        some (.simple ⟨[2, 4, 8], 3, 2, 1⟩)]) := by decide +kernel
  obtain ⟨s0, e⟩ := C80_never_faults_partial 1 40 monoOps (by decide) (mono_legal 40)
  rw [e] at h
  have h : monoView s0 = _ := Except.ok.inj h
  unfold monoView at h
  simp only [Prod.mk.injEq, List.map_cons, List.map_nil, List.cons.injEq, and_true] at h
  obtain ⟨h1, h2, h3, h4⟩ := h
  obtain ⟨t, ht, e3⟩ := Option.map_eq_some_iff.1 h1
  simp only [List.replicate, List.cons.injEq, and_true, decide_eq_true_eq, Bool.not_eq_true'] at e3
  obtain ⟨b1, b2, b3, b4, b5, b6, b7, b8, b9, b10, b11, b12, b13, b14, b15, b17, b18, b19⟩ := e3
  refine ⟨s0, t, e, ht, ⟨b1, b2, ⟨b3, b4, b5, b6, b7⟩, b8, b9, b10, b11, b12, b13, b14, b15, b17, b18⟩, b19, ?_, ?_, ?_⟩
  · obtain ⟨id, e1, e2⟩ := Option.bind_eq_some_iff.1 h2
    exact ⟨id, _, e1, e2, by decide⟩
  · obtain ⟨id, e1, e2⟩ := Option.bind_eq_some_iff.1 h3
    exact ⟨id, _, e1, e2, by decide⟩
  · obtain ⟨id, e1, e2⟩ := Option.bind_eq_some_iff.1 h4
    exact ⟨id, _, e1, e2, by decide⟩

example : ∃ s0 s t', ({} : TWorld).run 40 monoOps = .ok s0 ∧ s0.run 40 (melody 0 [(50331648, 1), (52428800, 1), (54525952, 1)]) = .ok s ∧ s.tracks 0 = some t' ∧
    t'.getAttr (.unit .period) = .ok (some (exactPeriod (54525952 + 1048576 + 0) 44100 / (16 : Nat))) ∧
    (∀ c, t'.getAttr (.unit (.volumeOf c)) = .ok (some 12206)) ∧ t'.unit.dutyCycle = 4 := by
  obtain ⟨s0, t, e, ht, ⟨b1, b2, b3, b8, b9, b10, b11, b12, b13, b14, b15, b17, b18⟩, b19, p0, p2, p3⟩ := mono_start
  have sh0 : (NewSeq.values [32767, 20000, 10000, 5000, 2000] 1 2).Short := by simp [NewSeq.Short, InI32]
  obtain ⟨s, t', k1, k2, k5, m1, m2, m4⟩ := C114_mono (N := 1) (n := 1) (d := 2) (v := 54525952)
    (ms := [(50331648, 1), (52428800, 1)]) (mono_legal 40) (by decide) e ht b1 b19 b2
    (by decide) (by decide) ⟨0, _, sh0, p0, by show sustainBegin 5 1 < 5; decide⟩ b3 b8 b9 b10 (by decide) b11 b12 (by decide) b13 b14 b15 rfl
    (.inl ⟨_, _, _, by simp, sh0, p0, rfl⟩) (.inl ⟨_, _, _, by simp, by simp [NewSeq.Short, InI32], p2, rfl⟩)
  rw [b17] at m2
  rw [b18] at m1
  exact ⟨s0, s, t', e, k1, k2, m1, fun c => (m2 c).trans (by congr 1),
    (m4 _ (.inl ⟨_, _, _, by simp, by simp [NewSeq.Short, InI32], p3, rfl⟩)).trans (by rw [if_pos (by decide)]; decide)⟩

/-- Released after these three ticks. -/
example : ∃ s0 s1 s t', ({} : TWorld).run 40 monoOps = .ok s0 ∧ s0.run 40 (melody 0 [(50331648, 1), (52428800, 1), (54525952, 1)]) = .ok s1 ∧
    s1.run 40 (notePlayed 0 (-1) 4) = .ok s ∧ s.tracks 0 = some t' ∧ (t'.unit.mute = 0 →
      t'.getAttr (.unit .period) = .ok (some (exactPeriod (54525952 + 1048576 + 0) 44100 / (16 : Nat))) ∧
      (∀ c, t'.getAttr (.unit (.volumeOf c)) = .ok (some 1219)) ∧ t'.unit.dutyCycle = 4) := by
  obtain ⟨s0, t, e, ht, ⟨b1, b2, b3, b8, b9, b10, b11, b12, b13, b14, b15, b17, b18⟩, b19, p0, p2, p3⟩ := mono_start
  have sh0 : (NewSeq.values [32767, 20000, 10000, 5000, 2000] 1 2).Short := by simp [NewSeq.Short, InI32]
  obtain ⟨s1, s, t', k1, k1', k2, k5⟩ := C114_release (N := 1) (n := 1) (m := 4) (d := 2) (v := 54525952)
    (ms := [(50331648, 1), (52428800, 1)]) (mono_legal 40) (by decide) e ht b1 b19 b2
    (by decide) (by decide) (by decide) ⟨0, _, sh0, p0, by show sustainBegin 5 1 < 5; decide⟩ b3 b8 b9 b10 (by decide) b11 b12 (by decide) b13 b14 b15 rfl rfl rfl
    (.inl ⟨_, _, _, by simp, sh0, p0, rfl⟩) (.inl ⟨_, _, _, by simp, by simp [NewSeq.Short, InI32], p2, rfl⟩)
  refine ⟨s0, s1, s, t', e, k1, k1', k2, fun hm => ?_⟩
  obtain ⟨m1, m2, m4⟩ := k5 hm
  rw [b17] at m2
  rw [b18] at m1
  exact ⟨m1, fun c => (m2 c).trans (by congr 1),
    (m4 _ (.inl ⟨_, _, _, by simp, by simp [NewSeq.Short, InI32], p3, rfl⟩)).trans (by rw [if_pos (by decide)]; decide)⟩

/-- It does sound then. -/
example : ([1, 4].map fun m => do
    let s ← ({} : TWorld).run 40 (monoOps ++ melody 0 [(50331648, 1), (52428800, 1), (54525952, 1)] ++ notePlayed 0 (-1) m)
    return (s.tracks 0).map fun t => (t.unit.period, t.unit.volume 0, t.unit.dutyCycle, t.unit.mute)) =
  ([(4134375, 3050, 4, 0), (4134375, 1219, 4, 0)].map fun v => (.ok (some v) : C _)) := by
  decide +kernel

end BK
