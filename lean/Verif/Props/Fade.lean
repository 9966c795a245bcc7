import Verif.Lemmas.Fade
/-!
C93: fades and glides lead to their end.
-/
namespace BK

/-- C93: a fade.  After any calls on tracks and instruments, set a track without instrument, tremolo and
panning to volume `S`, then have it slide to `v` in `n` steps of `d` ticks.  From then on every tick
gives to every channel the volume that the slide has reached, scaled by the master volume, and the slide
leads from `S` to `v`: it stays between, never turns back, keeps within 3 of the straight line, and has
arrived after `n` steps.  Partial: falling slides of less than 1/128 per step are missing, see `C93_glide_refuted`. -/
theorem C93_fade_partial {N fuel : Nat} {ops : List WOp} {s : TWorld} {x : Nat} {t : Track}
    (hf : ops.length ≤ fuel) (hl : ({} : TWorld).LegalRun N fuel ops) (h : ({} : TWorld).run fuel ops = .ok s)
    (ht : s.tracks x = some t) (hon : s.iw.on x = false) (htr : t.tremoloOn = false) (hig : t.ignores = false)
    (hp : t.panningOn = false ∨ (t.panningSlide = false ∧ t.panning.get = .ok 0))
    {d : Nat} (hd : 1 ≤ d) (hd2 : d ≤ 2147483647) {S v n : Int} (hS : 0 ≤ S) (hS2 : S ≤ 32767) (hv : 0 ≤ v) (hv2 : v ≤ 32767)
    (hn : 1 ≤ n) (hn2 : n ≤ 65536) (hdir : S ≤ v ∨ n ≤ 128 * (S - v)) :
    ∃ r, LeadsTo 3 S v n r ∧ ∃ s0, Track.calls x (fadeCalls d S v n) (s.iw, t) = .ok s0 ∧
      ∀ k, ∃ s', Track.ticks x (k + 1) s0 = .ok s' ∧
        ∀ i, s'.2.getAttr (.unit (.volumeOf i)) = .ok (some (r (firings d 0 k) * t.masterVolume / 32768)) := by
  obtain ⟨m, hinv⟩ : ∃ m, s.Inv m N := by
    have := (TWorld.Inv.init N).run ops (by omega) hl
    rw [h] at this
    exact ⟨_, this⟩
  have hg := hinv.good
  have hi := hinv.tracks x t ht
  obtain ⟨a, b, c, e, q1, q2, q3, q4, q5, q6, r, hr, hget⟩ := hi.volume.fade (by decide) hS hS2 hv hv2 (by omega) hn2
    (by rcases hdir with h | h
        · exact Or.inl h
        · exact Or.inr (by norm_num; omega)) (q := 3) (by norm_num; omega)
  have hcalls := Track.fadeCalls_ok (x := x) (w := s.iw) (d := d) hS hS2 hv hv2 hn hn2 q1 q2 q5 q6
  refine ⟨r, hr, _, hcalls, fun k => ?_⟩
  obtain ⟨a', ha', na⟩ := hi.volume.setSteps (by decide) (n := 0) (by omega)
  rw [q1] at ha'; cases ha'
  obtain ⟨b', hb', nb⟩ := na.setValue (by decide) hS hS2
  rw [q2] at hb'; cases hb'
  obtain ⟨c', hc', nc⟩ := nb.setSteps (by decide) (n := n) hn2
  rw [q5] at hc'; cases hc'
  obtain ⟨e', he', ne⟩ := nc.setValue (by decide) hv hv2
  rw [q6] at he'; cases he'
  generalize hu : ({ t with effectDiv := ⟨d, 0⟩, volume := e, updVolume := true, volumeSlide := true } : Track) = u
  have ui : u.Inv N False := by
    subst hu
    exact { hi with effectDiv := ⟨⟨by dsimp only; omega, by dsimp only; omega⟩, show (0 : Int) ≤ 0 ∧ (0 : Int) ≤ 2147483647 by decide⟩, volume := ne }
  obtain ⟨s1, h1, e1, i1⟩ := ui.ticks hg hon k
  obtain ⟨s2, h2, e2, i2⟩ := ui.ticks hg hon (k + 1)
  refine ⟨s2, h2, fun i => ?_⟩
  have hlast := Track.ticks_last h1 h2
  rw [e1] at hlast
  obtain ⟨-, k2, k3, k4, k5, k6, k7, k8, -⟩ := Track.ticks_keep hon k h1
  have hvol : s1.2.volume.get = .ok (r (firings d 0 k)) := by
    have := (C53_effects_partial x k d 0 (by omega) hd2 s.iw u s1 (by subst hu; rfl) (by subst hu; unfold Track.effects; simp) h1).1
    have hvs : u.volumeSlide = true := by subst hu; rfl
    rw [hvs] at this
    have := times_volume _ this
    obtain ⟨z, z1, z2⟩ := hget (firings d 0 k)
    have hv' : u.fx.volume = e := by subst hu; rfl
    rw [hv', z1] at this
    cases this
    exact z2
  have hb : 0 ≤ r (firings d 0 k) ∧ r (firings d 0 k) ≤ 32767 := by
    have := hr.between (firings d 0 k)
    unfold Between at this
    omega
  have hm : u.masterVolume = t.masterVolume := by subst hu; rfl
  have := Track.tick_volume hlast hon (k2.trans (by subst hu; rfl)) (k3.trans (by subst hu; exact htr)) (k4.trans (by subst hu; exact hig))
    (by
      rcases hp with hp | ⟨p1, p2⟩
      · exact Or.inl (k5.trans (by subst hu; exact hp))
      · refine Or.inr ?_
        rw [k7 (by subst hu; exact p1)]
        subst hu; exact p2) hvol hb.1 hb.2 (by rw [k6, hm]; exact hi.masterVolume.1) (by rw [k6, hm]; exact hi.masterVolume.2)
  show Except.ok (some (s2.2.unit.volume i)) = _
  rw [this, k6, hm]

/-- C93: a glide.  After any calls on tracks and instruments, have an attached track without instrument,
vibrato and arpeggio play note `a`, then glide to `b` in `n` steps of `d` ticks.  From then on every tick
sets the period of the pitch that the glide has reached, divided by the number of phases of the waveform,
and the glide leads from `a` to `b`.  Partial: falling glides of less than 256 units (1/4096 half tone) per
step are missing, see `C93_glide_refuted`. -/
theorem C93_glide_partial {N fuel : Nat} {ops : List WOp} {s : TWorld} {x : Nat} {t : Track}
    (hf : ops.length ≤ fuel) (hl : ({} : TWorld).LegalRun N fuel ops) (h : ({} : TWorld).run fuel ops = .ok s)
    (ht : s.tracks x = some t) (hon : s.iw.on x = false) (hvi : t.vibratoOn = false) (har : t.arpeggioOn = false)
    {rate chans : Int} (hc : t.ctx = some (rate, chans)) {cnt : Nat} (hw : t.unit.waveform.phases = some cnt)
    (hwt : t.waveform ≠ 16391)
    {d : Nat} (hd : 1 ≤ d) (hd2 : d ≤ 2147483647) {a b n : Int} (ha : 0 ≤ a) (ha2 : a ≤ 100663296) (hb : 0 ≤ b) (hb2 : b ≤ 100663296)
    (hn : 1 ≤ n) (hn2 : n ≤ 65536) (hdir : a ≤ b ∨ 256 * n ≤ a - b) :
    ∃ r, LeadsTo (n + 1) a b n r ∧ ∃ s0, Track.calls x (glideCalls d a b n) (s.iw, t) = .ok s0 ∧
      ∀ k, ∃ s', Track.ticks x (k + 1) s0 = .ok s' ∧
        s'.2.getAttr (.unit .period) = .ok (some (exactPeriod (r (firings d 0 k) + t.pitch) rate / cnt)) := by
  obtain ⟨m, hinv⟩ : ∃ m, s.Inv m N := by
    have := (TWorld.Inv.init N).run ops (by omega) hl
    rw [h] at this
    exact ⟨_, this⟩
  have hg := hinv.good
  have hi := hinv.tracks x t ht
  obtain ⟨sa, sb, sc, se, q1, q2, q3, q4, q5, q6, r, hr, hget⟩ := hi.note.fade (by decide) ha ha2 hb hb2 (by omega) hn2
    (by rcases hdir with h | h
        · exact Or.inl h
        · exact Or.inr (by norm_num; omega)) (q := n + 1) (by norm_num; omega)
  -- the five calls
  have pl : ∀ v : Int, 0 ≤ v → v ≤ 2147483647 → Plain v := fun v h h' => Plain.of (by omega) h'
  have at' : ∀ {w : IWorld} {t : Track} {a : TAttr} {v : Int}, w.Good m → t.Inv N False → TOp.Legal N t (.attr a v) →
      ∃ q, t.setAttr x w a v = .ok q ∧ q.2.2.Inv N False := fun hw hi hl => by
    obtain ⟨q, e1, e2⟩ := (Track.Inv.setAttr (x := x) hi hw hl).get trivial
    exact ⟨q, e1, e2.2⟩
  obtain ⟨p1, e1, i1⟩ := at' hg hi (a := .effectDivider) (v := d) ⟨pl _ (by omega) (by omega), by dsimp only; omega⟩
  have e1' := e1
  unfold Track.setAttr at e1'
  cases e1'
  obtain ⟨p2, e2, i2⟩ := at' hg i1 (a := .slide .portamento) (v := 0) ⟨pl _ (by omega) (by omega), trivial⟩
  have e2' := e2
  simp only [Track.setAttr, Track.setEffect, List.getD_cons_zero] at e2'
  rw [if_neg (by decide), cclamp_self (v := 0) (by decide) (by decide), q1] at e2'
  cases e2'
  obtain ⟨p3, e3, i3⟩ := at' hg i2 (a := .note) (v := a) ⟨pl _ (by omega) (by omega), trivial⟩
  have e3' := e3
  unfold Track.setAttr at e3'
  obtain ⟨y3, n3, e3'⟩ := bind_ok_iff.1 e3'
  cases e3'
  obtain ⟨o3, u3, rfl, w3⟩ := Track.playNote_off hon (by exact hwt) ha ha2 q2 (fun _ => ⟨q3, q4⟩) n3
  obtain ⟨p4, e4, i4⟩ := at' hg i3 (a := .slide .portamento) (v := n) ⟨pl _ (by omega) (by omega), trivial⟩
  have e4' := e4
  simp only [Track.setAttr, Track.setEffect, List.getD_cons_zero] at e4'
  rw [if_neg (by decide), cclamp_self (v := n) (by omega) hn2, q5] at e4'
  cases e4'
  obtain ⟨p5, e5, i5⟩ := at' hg i4 (a := .note) (v := b) ⟨pl _ (by omega) (by omega), trivial⟩
  have e5' := e5
  unfold Track.setAttr at e5'
  obtain ⟨y5, n5, e5'⟩ := bind_ok_iff.1 e5'
  cases e5'
  obtain ⟨o5, u5, rfl, w5⟩ := Track.playNote_off hon (by exact hwt) hb hb2 q6 (fun q => by exfalso; dsimp only at q; omega) n5
  have hcalls : ∃ s0, Track.calls x (glideCalls d a b n) (s.iw, t) = .ok s0 ∧ s0.1 = s.iw ∧ s0.2.Inv N False ∧ s0.2.note = se ∧
      s0.2.portamento = true ∧ s0.2.vibratoOn = false ∧ s0.2.arpeggioOn = false ∧ s0.2.pitch = t.pitch ∧ s0.2.ctx = t.ctx ∧
      s0.2.waveform = t.waveform ∧ s0.2.unit.waveform = t.unit.waveform ∧ s0.2.effectDiv = ⟨d, 0⟩ := by
    refine ⟨_, ?_, rfl, i5, rfl, ?_, hvi, har, rfl, rfl, rfl, w5.trans w3, rfl⟩
    · unfold glideCalls
      simp only [Track.calls, Track.exec]
      rw [e1, ok_bind, pure_eq_ok, ok_bind]
      dsimp only
      rw [e2, ok_bind, pure_eq_ok, ok_bind]
      dsimp only
      rw [e3, ok_bind, pure_eq_ok, ok_bind]
      dsimp only
      rw [e4, ok_bind, pure_eq_ok, ok_bind]
      dsimp only
      rw [e5, ok_bind, pure_eq_ok, ok_bind]
    · show decide (n ≠ 0) = true
      rw [decide_eq_true_eq]; omega
  obtain ⟨⟨w0, u⟩, hs0, hw0, ui, f1, f2, f3, f4, f5, f6, f7, f8, f9⟩ := hcalls
  dsimp only at hw0 ui f1 f2 f3 f4 f5 f6 f7 f8 f9
  subst hw0
  refine ⟨r, hr, _, hs0, fun k => ?_⟩
  obtain ⟨s1, h1, g1, j1⟩ := ui.ticks hg hon k
  obtain ⟨s2, h2, g2, j2⟩ := ui.ticks hg hon (k + 1)
  refine ⟨s2, h2, ?_⟩
  have hlast := Track.ticks_last h1 h2
  rw [g1] at hlast
  obtain ⟨-, -, -, -, -, -, -, -, k9, k10, k11, k12, k13, k14⟩ := Track.ticks_keep hon k h1
  have hnote : s1.2.note.get = .ok (r (firings d 0 k)) := by
    have := (C53_effects_partial x k d 0 (by omega) hd2 _ u s1 f9 (by unfold Track.effects; rw [f2]; rfl) h1).2 hon
    rw [f2] at this
    have := times_note _ this
    obtain ⟨z, z1, z2⟩ := hget (firings d 0 k)
    rw [f1, z1] at this
    cases this
    exact z2
  have hwv : s1.2.unit.waveform = t.unit.waveform := by
    rw [← f8]
    exact Track.ticks_wave hon k h1
  obtain ⟨r1, -, r3, r4⟩ := Track.tick_period j1 hlast hon (k9.trans f2) (k10.trans f3) (k11.trans f4) (k13.trans (f6.trans hc))
    (by rw [hwv]; exact hw) (by rw [k14, f7]; exact hwt) hnote
  rw [k12, f5] at r1 r3 r4
  show Except.ok (some (wrapI32 s2.2.unit.period)) = _
  rw [r1]
  refine congrArg (fun z => Except.ok (some z)) ?_
  unfold wrapI32
  omega

/-- A square wave on two channels. -/
def fadeTrack : C (IWorld × Track) := do
  let s ← ({} : TWorld).run 8 [.init 0 16385, .track 0 (.attach 44100 2 0), .track 0 (.attr .masterVolume 16384)]
  match s.tracks 0 with
  | some t => .ok (s.iw, t)
  | none => .error .null

/-- A rise from 0 to 30000 in 3 steps of 2 ticks at half the master volume. -/
example : ((List.range 8).map fun k => do
    let s ← fadeTrack
    let s ← Track.calls 0 (fadeCalls 2 0 30000 3) s
    let s ← Track.ticks 0 (k + 1) s
    s.2.getAttr (.unit (.volumeOf 1))) = [0, 5000, 5000, 10000, 10000, 15000, 15000, 15000].map fun v => (.ok (some v) : C (Option Int)) := by
  decide +kernel

/-- An octave down in 4 steps: the period doubles. -/
example : ((List.range 6).map fun k => do
    let s ← fadeTrack
    let s ← Track.calls 0 (glideCalls 1 50331648 37748736 4) s
    let s ← Track.ticks 0 (k + 1) s
    s.2.getAttr (.unit .period)) = [5512500, 6559875, 7805700, 9283050, 11036025, 11036025].map fun v => (.ok (some v) : C (Option Int)) := by
  decide +kernel

/-- C93 fails for slow falling slides.  A fade from 1 to 0 in 600 steps does not end in silence, nor does setting
the volume to 0 without sliding thereafter bring silence. -/
theorem C93_refuted : (do
    let s ← fadeTrack
    let s ← Track.calls 0 (.attr .masterVolume 32767 :: fadeCalls 1 1 0 600) s
    let a ← Track.ticks 0 602 s
    let b ← Track.calls 0 [.attr (.slide .volumeSlide) 0, .attr .volume 0, .tick] a
    let v ← a.2.getAttr (.unit (.volumeOf 0))
    let u ← b.2.getAttr (.unit (.volumeOf 0))
    return (v, u) : C (Option Int × Option Int)) = .ok (some 1, some 1) := by decide +kernel

/-- Likewise a glide down by 10 units in 10 steps: it ends with a period that is not the one of its target. -/
theorem C93_glide_refuted : (do
    let s ← fadeTrack
    let s ← Track.calls 0 (glideCalls 1 1050378 1050368 10) s
    let a ← Track.ticks 0 12 s
    let b ← Track.calls 0 [.attr (.slide .portamento) 0, .attr .note 1050368, .tick] a
    let v ← a.2.getAttr (.unit .period)
    let u ← b.2.getAttr (.unit .period)
    return (v, u) : C (Option Int × Option Int)) = .ok (some 83393100, some 83393100) ∧
    exactPeriod 1050368 44100 / 16 = 83404125 := by decide +kernel

/-- That track is as C93 asks. -/
example : ∃ s t, ({} : TWorld).run 8 [.init 0 16385, .track 0 (.attach 44100 2 0), .track 0 (.attr .masterVolume 16384)] = .ok s ∧
    s.tracks 0 = some t ∧ s.iw.on 0 = false ∧ t.tremoloOn = false ∧ t.ignores = false ∧ t.panningSlide = false ∧ t.panning.get = .ok 0 ∧
    t.vibratoOn = false ∧ t.arpeggioOn = false ∧ t.unit.waveform.phases = some 16 ∧ t.waveform ≠ 16391 ∧ t.ctx = some (44100, 2) := by
  have hd : (do
      let s ← ({} : TWorld).run 8 [.init 0 16385, .track 0 (.attach 44100 2 0), .track 0 (.attr .masterVolume 16384)]
      return (s.tracks 0).map fun t =>
        [!s.iw.on 0, !t.tremoloOn, !t.ignores, !t.panningSlide, decide (t.panning.get.toOption = some 0), !t.vibratoOn, !t.arpeggioOn, decide (t.unit.waveform.phases = some 16),
          decide (t.waveform ≠ 16391), decide (t.ctx = some (44100, 2))] : C (Option (List Bool))) = .ok (some (List.replicate 10 true)) := by
    decide +kernel
  obtain ⟨s, e1, e2⟩ := bind_ok_iff.1 hd
  have e2 := Except.ok.inj e2
  obtain ⟨t, ht, e3⟩ := Option.map_eq_some_iff.1 e2
  simp only [List.replicate, List.cons.injEq, and_true, decide_eq_true_eq, Bool.not_eq_true'] at e3
  obtain ⟨b1, b2, b3, b4, b5, b⟩ := e3
  refine ⟨s, t, e1, ht, b1, b2, b3, b4, ?_, b⟩
  cases e : t.panning.get with
  | error f => rw [e] at b5; cases b5
  | ok v => rw [e] at b5; cases b5; rfl

end BK
