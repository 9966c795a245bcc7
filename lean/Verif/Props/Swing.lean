import Verif.Lemmas.Swing
import Verif.Props.Fade
/-!
C104: vibrato swings around the note, tremolo below the volume.
-/
namespace BK

/-- The calls that start a vibrato. -/
theorem Track.vibratoCalls_ok {N : Nat} {x : Nat} {w : IWorld} {t : Track} (hi : t.Inv N False) {d : Nat} (hd : 1 ≤ d) (hd2 : d ≤ 2147483647)
    {D : Int} {n : Nat} (h0 : 0 ≤ D) (h1 : D ≤ 536870912) (hn : 1 ≤ n) (hn2 : n ≤ 65536) :
    ∃ u, Track.calls x (vibratoCalls d D n) (w, t) = .ok (w, u) ∧ u.Inv N False ∧ u.vibratoOn = true ∧ u.vibratoDelta.steps = 0 ∧
      u.effectDiv = ⟨d, 0⟩ ∧ u.note = t.note ∧ u.portamento = t.portamento ∧ u.arpeggioOn = t.arpeggioOn ∧ u.pitch = t.pitch ∧
      u.ctx = t.ctx ∧ u.waveform = t.waveform ∧ u.unit = t.unit ∧
      (∃ z1 z2 b, u = { t with effectDiv := ⟨d, 0⟩, vibratoDelta := z1, vibratoSteps := z2, vibrato := b, updNote := true, vibratoOn := true }) ∧
      ∃ r, Swings (n + 1) D n r ∧ ∀ j, ∃ o, u.vibrato.ticks j = .ok o ∧ o.get = .ok (r j) := by
  obtain ⟨a, b, q1, q2, nb, b1, b2, b3, b4, b5⟩ := Osc.restart hi.vibrato (by decide) (by decide) h0 (by omega) (n := n) (by omega) (by omega) 0
  obtain ⟨r, hr, hget⟩ := Osc.swings nb b1 h0 b2 (by omega) b3 b4 b5 (q := n + 1) (by norm_num; omega)
  have i0 : ({ t with effectDiv := ⟨d, 0⟩ } : Track).Inv N False :=
    { hi with effectDiv := ⟨⟨by dsimp only; omega, by dsimp only; omega⟩, show (0 : Int) ≤ 0 ∧ (0 : Int) ≤ 2147483647 by decide⟩ }
  obtain ⟨t1, e1, i1⟩ := (i0.setEffect .vibrato [0] (fun _ => by unfold Notes; decide)).get trivial
  obtain ⟨t2, e2, i2⟩ := (i1.setEffect .vibrato [(n : Int), D] (fun _ => by
    show -536870912 ≤ D ∧ D ≤ 536870912; omega)).get trivial
  have hc : Track.calls x (vibratoCalls d D n) (w, t) = .ok (w, t2) := by
    unfold vibratoCalls
    simp only [Track.calls, Track.exec, Track.setAttr, ok_bind, pure_eq_ok]
    rw [e1, ok_bind, ok_bind]
    dsimp only
    rw [e2, ok_bind, ok_bind]
  simp only [Track.setEffect, List.getD_cons_zero, List.getD_cons_succ, List.getD_nil] at e1 e2
  obtain ⟨y1, hy1, e1⟩ := bind_ok_iff.1 e1
  obtain ⟨y2, hy2, e1⟩ := bind_ok_iff.1 e1
  rw [cclamp_self (v := 0) (by decide) (by decide)] at e1
  rw [if_pos rfl, q1, ok_bind] at e1
  cases e1
  obtain ⟨z1, hz1, e2⟩ := bind_ok_iff.1 e2
  obtain ⟨z2, hz2, e2⟩ := bind_ok_iff.1 e2
  rw [cclamp_self (v := 0) (by decide) (by decide), if_pos rfl, cclamp_self (v := n) (by omega) (by omega)] at e2
  dsimp only at e2
  rw [q2, ok_bind] at e2
  cases e2
  have hdn : decide ((n : Int) ≠ 0) = true := by rw [decide_eq_true_eq]; omega
  rw [hdn] at hc i2
  refine ⟨_, hc, i2, rfl, ?_, rfl, rfl, rfl, rfl, rfl, rfl, rfl, rfl, ⟨_, _, _, rfl⟩, r, hr, hget⟩
  · show z1.steps = 0
    rw [cclamp_self (v := 0) (by decide) (by decide)] at hz1
    rw [Slide.set_zero (Int.le_refl _) hz1]

/-- The calls that start a tremolo. -/
theorem Track.tremoloCalls_ok {N : Nat} {x : Nat} {w : IWorld} {t : Track} (hi : t.Inv N False) {d : Nat} (hd : 1 ≤ d) (hd2 : d ≤ 2147483647)
    {D : Int} {n : Nat} (h0 : 0 ≤ D) (h1 : D ≤ 32767) (hn : 1 ≤ n) (hn2 : n ≤ 65536) :
    ∃ u, Track.calls x (tremoloCalls d D n) (w, t) = .ok (w, u) ∧ u.Inv N False ∧ u.tremoloOn = true ∧ u.tremoloDelta.steps = 0 ∧
      u.effectDiv = ⟨d, 0⟩ ∧ u.volume = t.volume ∧ u.volumeSlide = t.volumeSlide ∧ u.ignores = t.ignores ∧ u.panningOn = t.panningOn ∧
      u.panningSlide = t.panningSlide ∧ u.panning = t.panning ∧ u.masterVolume = t.masterVolume ∧
      (∃ z1 z2 b, u = { t with effectDiv := ⟨d, 0⟩, tremoloDelta := z1, tremoloSteps := z2, tremolo := b, updVolume := true, tremoloOn := true }) ∧
      ∃ r, Swings 5 D n r ∧ ∀ j, ∃ o, u.tremolo.ticks j = .ok o ∧ o.get = .ok (r j) := by
  obtain ⟨a, b, q1, q2, nb, b1, b2, b3, b4, b5⟩ := Osc.restart hi.tremolo (by decide) (by decide) h0 (by omega) (n := n) (by omega) (by omega) 0
  obtain ⟨r, hr, hget⟩ := Osc.swings nb b1 h0 b2 (by omega) b3 b4 b5 (q := 5) (by norm_num; omega)
  have i0 : ({ t with effectDiv := ⟨d, 0⟩ } : Track).Inv N False :=
    { hi with effectDiv := ⟨⟨by dsimp only; omega, by dsimp only; omega⟩, show (0 : Int) ≤ 0 ∧ (0 : Int) ≤ 2147483647 by decide⟩ }
  obtain ⟨t1, e1, i1⟩ := (i0.setEffect .tremolo [0] (fun h => by cases h)).get trivial
  obtain ⟨t2, e2, i2⟩ := (i1.setEffect .tremolo [(n : Int), D] (fun h => by cases h)).get trivial
  have hc : Track.calls x (tremoloCalls d D n) (w, t) = .ok (w, t2) := by
    unfold tremoloCalls
    simp only [Track.calls, Track.exec, Track.setAttr, ok_bind, pure_eq_ok]
    rw [e1, ok_bind, ok_bind]
    dsimp only
    rw [e2, ok_bind, ok_bind]
  simp only [Track.setEffect, List.getD_cons_zero, List.getD_cons_succ, List.getD_nil] at e1 e2
  obtain ⟨y1, hy1, e1⟩ := bind_ok_iff.1 e1
  obtain ⟨y2, hy2, e1⟩ := bind_ok_iff.1 e1
  rw [cclamp_self (v := 0) (by decide) (by decide), cclamp_self (v := 0) (by decide) (by decide)] at e1
  rw [if_pos rfl, q1, ok_bind] at e1
  cases e1
  obtain ⟨z1, hz1, e2⟩ := bind_ok_iff.1 e2
  obtain ⟨z2, hz2, e2⟩ := bind_ok_iff.1 e2
  rw [cclamp_self (v := 0) (by decide) (by decide), if_pos rfl, cclamp_self (v := n) (by omega) (by omega), cclamp_self (v := D) h0 h1] at e2
  dsimp only at e2
  rw [q2, ok_bind] at e2
  cases e2
  have hdn : decide ((n : Int) ≠ 0) = true := by rw [decide_eq_true_eq]; omega
  rw [hdn] at hc i2
  refine ⟨_, hc, i2, rfl, ?_, rfl, rfl, rfl, rfl, rfl, rfl, rfl, rfl, ⟨_, _, _, rfl⟩, r, hr, hget⟩
  · show z1.steps = 0
    rw [cclamp_self (v := 0) (by decide) (by decide)] at hz1
    rw [Slide.set_zero (Int.le_refl _) hz1]

/-- C104: vibrato.  After any calls on tracks and instruments, turn on a vibrato of depth `D` and `n` steps of `d` ticks
on an attached track without instrument, portamento and arpeggio.  From then on every tick sets the period of
the note moved by the vibrato, divided by the number of phases of the waveform, and the vibrato swings: it
begins at the note, goes up to `D` above it, back, down to `D` below it and back, in straight lines of `n` steps each, again
and again.  Partial: a negative depth is missing, see `C104_vibrato_refuted`. -/
theorem C104_vibrato_partial {N fuel : Nat} {ops : List WOp} {s : TWorld} {x : Nat} {t : Track}
    (hf : ops.length ≤ fuel) (hl : ({} : TWorld).LegalRun N fuel ops) (h : ({} : TWorld).run fuel ops = .ok s)
    (ht : s.tracks x = some t) (hon : s.iw.on x = false) (hpo : t.portamento = false) (har : t.arpeggioOn = false)
    {rate chans : Int} (hc : t.ctx = some (rate, chans)) {cnt : Nat} (hw : t.unit.waveform.phases = some cnt)
    (hwt : t.waveform ≠ 16391) {note : Int} (hnote : t.note.get = .ok note)
    {d : Nat} (hd : 1 ≤ d) (hd2 : d ≤ 2147483647) {D : Int} {n : Nat} (h0 : 0 ≤ D) (h1 : D ≤ 536870912) (hn : 1 ≤ n) (hn2 : n ≤ 65536) :
    ∃ r, Swings (n + 1) D n r ∧ ∃ s0, Track.calls x (vibratoCalls d D n) (s.iw, t) = .ok s0 ∧
      ∀ k, ∃ s', Track.ticks x (k + 1) s0 = .ok s' ∧
        s'.2.getAttr (.unit .period) = .ok (some (exactPeriod (note + r (firings d 0 k) + t.pitch) rate / cnt)) := by
  obtain ⟨m, hinv⟩ : ∃ m, s.Inv m N := by
    have := (TWorld.Inv.init N).run ops (by omega) hl
    rw [h] at this
    exact ⟨_, this⟩
  have hg := hinv.good
  have hi := hinv.tracks x t ht
  obtain ⟨u, hcalls, ui, f1, f2, f3, f4, f5, f6, f7, f8, f9, f10, -, r, hr, hget⟩ :=
    Track.vibratoCalls_ok (x := x) (w := s.iw) hi hd hd2 h0 h1 hn hn2
  refine ⟨r, hr, _, hcalls, fun k => ?_⟩
  obtain ⟨s1, q1, g1, j1⟩ := ui.ticks hg hon k
  obtain ⟨s2, q2, g2, j2⟩ := ui.ticks hg hon (k + 1)
  refine ⟨s2, q2, ?_⟩
  have hlast := Track.ticks_last q1 q2
  rw [g1] at hlast
  obtain ⟨-, -, -, -, -, -, -, -, k9, k10, k11, k12, k13, k14⟩ := Track.ticks_keep hon k q1
  obtain ⟨c1, c2⟩ := C53_effects_partial x k d 0 (by omega) hd2 _ u s1 f3 (by unfold Track.effects; rw [f1]; simp) q1
  have hv : s1.2.vibrato.get = .ok (r (firings d 0 k)) := by
    rw [f1] at c1
    have := (times_vibrato _ (show u.fx.vibrato.2.1.steps = 0 from f2) c1).1
    obtain ⟨o, o1, o2⟩ := hget (firings d 0 k)
    have this : u.vibrato.ticks (firings d 0 k) = .ok s1.2.vibrato := this
    rw [o1] at this
    cases this
    exact o2
  have hnt : s1.2.note.get = .ok note := by
    have := c2 hon
    rw [f5, hpo] at this
    rw [times_still _ this, f4]
    exact hnote
  have hwv : s1.2.unit.waveform = t.unit.waveform := by
    rw [← f10]
    exact Track.ticks_wave hon k q1
  obtain ⟨r1, -, r3, r4⟩ := Track.tick_vibrato j1 hlast hon (k10.trans f1) (k11.trans (f6.trans har)) (k13.trans (f8.trans hc))
    (by rw [hwv]; exact hw) (by rw [k14, f9]; exact hwt) hnt hv
  rw [k12, f7] at r1 r3 r4
  show Except.ok (some (wrapI32 s2.2.unit.period)) = _
  rw [r1]
  refine congrArg (fun z => Except.ok (some z)) ?_
  unfold wrapI32
  omega

/-- C104: tremolo.  After any calls on tracks and instruments, turn on a tremolo of depth `D` and `n` steps of `d` ticks on
a track of volume `v` without instrument, volume slide and panning.  From then on every tick gives to every
channel the volume scaled by `32767 - |r|` of 32768 and by the master volume, where `r` swings between `D` and `-D`; so the
tremolo never makes the track louder. -/
theorem C104_tremolo {N fuel : Nat} {ops : List WOp} {s : TWorld} {x : Nat} {t : Track}
    (hf : ops.length ≤ fuel) (hl : ({} : TWorld).LegalRun N fuel ops) (h : ({} : TWorld).run fuel ops = .ok s)
    (ht : s.tracks x = some t) (hon : s.iw.on x = false) (hvs : t.volumeSlide = false) (hig : t.ignores = false)
    (hp : t.panningOn = false ∨ (t.panningSlide = false ∧ t.panning.get = .ok 0))
    {v : Int} (hv : t.volume.get = .ok v) (hv0 : 0 ≤ v) (hv1 : v ≤ 32767)
    {d : Nat} (hd : 1 ≤ d) (hd2 : d ≤ 2147483647) {D : Int} {n : Nat} (h0 : 0 ≤ D) (h1 : D ≤ 32767) (hn : 1 ≤ n) (hn2 : n ≤ 65536) :
    ∃ r, Swings 5 D n r ∧ ∃ s0, Track.calls x (tremoloCalls d D n) (s.iw, t) = .ok s0 ∧
      ∀ k, ∃ s' z, Track.ticks x (k + 1) s0 = .ok s' ∧
        z = v * (32767 - (r (firings d 0 k)).natAbs) / 32768 * t.masterVolume / 32768 ∧ 0 ≤ z ∧ z ≤ v * t.masterVolume / 32768 ∧
        ∀ i, s'.2.getAttr (.unit (.volumeOf i)) = .ok (some z) := by
  obtain ⟨m, hinv⟩ : ∃ m, s.Inv m N := by
    have := (TWorld.Inv.init N).run ops (by omega) hl
    rw [h] at this
    exact ⟨_, this⟩
  have hg := hinv.good
  have hi := hinv.tracks x t ht
  obtain ⟨u, hcalls, ui, f1, f2, f3, f4, f5, f6, f7, f8, f9, f10, -, r, hr, hget⟩ :=
    Track.tremoloCalls_ok (x := x) (w := s.iw) hi hd hd2 h0 h1 hn hn2
  refine ⟨r, hr, _, hcalls, fun k => ?_⟩
  obtain ⟨s1, q1, g1, j1⟩ := ui.ticks hg hon k
  obtain ⟨s2, q2, g2, j2⟩ := ui.ticks hg hon (k + 1)
  have hrr := hr.range (firings d 0 k)
  have tb0 : 0 ≤ v * (32767 - (r (firings d 0 k)).natAbs) / 32768 := scale_nonneg hv0 (by omega)
  have tb1 : v * (32767 - (r (firings d 0 k)).natAbs) / 32768 ≤ v := scale_le hv0 (by omega)
  refine ⟨s2, _, q2, rfl, scale_nonneg tb0 hi.masterVolume.1,
    Int.ediv_le_ediv (by decide) (Int.mul_le_mul_of_nonneg_right tb1 hi.masterVolume.1), fun i => ?_⟩
  have hlast := Track.ticks_last q1 q2
  rw [g1] at hlast
  obtain ⟨-, k2, k3, k4, k5, k6, k7, k8, -⟩ := Track.ticks_keep hon k q1
  have c1 := (C53_effects_partial x k d 0 (by omega) hd2 _ u s1 f3 (by unfold Track.effects; rw [f1]; simp) q1).1
  rw [f1, f5, hvs] at c1
  obtain ⟨c2, -, c3⟩ := times_tremolo _ (show u.fx.tremolo.2.1.steps = 0 from f2) c1
  have htr : s1.2.tremolo.get = .ok (r (firings d 0 k)) := by
    obtain ⟨o, o1, o2⟩ := hget (firings d 0 k)
    have this : u.tremolo.ticks (firings d 0 k) = .ok s1.2.tremolo := c2
    rw [o1] at this
    cases this
    exact o2
  have c3 : s1.2.volume = u.volume := c3
  have := Track.tick_tremolo hlast hon (k3.trans f1) htr (by omega) (by omega) (k4.trans (f6.trans hig))
    (by
      rcases hp with hp | ⟨p1, p2⟩
      · exact Or.inl (k5.trans (f7.trans hp))
      · refine Or.inr ?_
        rw [k7 (f8.trans p1), f9]
        exact p2) (by rw [c3, f4]; exact hv) hv0 hv1 (by rw [k6, f10]; exact hi.masterVolume.1) (by rw [k6, f10]; exact hi.masterVolume.2)
  show Except.ok (some (s2.2.unit.volume i)) = _
  rw [this, k6, f10]

/-- The track of C93's examples with a note and a volume. -/
def swingTrack : C (IWorld × Track) := do
  let s ← ({} : TWorld).run 8 [.init 0 16385, .track 0 (.attach 44100 2 0), .track 0 (.attr .masterVolume 16384), .track 0 (.attr .volume 32000),
    .track 0 (.attr .note 50331648)]
  match s.tracks 0 with
  | some t => .ok (s.iw, t)
  | none => .error .null

/-- Up an octave, back, down an octave and back, three steps each. -/
example : ((List.range 14).map fun k => do
    let s ← swingTrack
    let s ← Track.calls 0 (vibratoCalls 1 12582912 3) s
    let s ← Track.ticks 0 (k + 1) s
    s.2.getAttr (.unit .period)) = [5512500, 4376925, 3472875, 2756250, 3472875, 4376925, 5512500, 6956775, 8764875, 11036025, 8764875,
      6956775, 5512500, 4376925].map fun v => (.ok (some v) : C (Option Int)) := by
  decide +kernel

/-- Down to half the volume, twice a period, at half the master volume. -/
example : ((List.range 14).map fun k => do
    let s ← swingTrack
    let s ← Track.calls 0 (tremoloCalls 1 16384 3) s
    let s ← Track.ticks 0 (k + 1) s
    s.2.getAttr (.unit (.volumeOf 1))) = [15999, 13333, 10666, 7999, 10666, 13333, 15999, 13332, 10666, 7999, 10666, 13332, 15999,
      13333].map fun v => (.ok (some v) : C (Option Int)) := by
  decide +kernel

/-- C104 fails for small negative depths.  A vibrato of depth -10 begins 128 above the note, and its first tick does not set
the period of the note. -/
theorem C104_vibrato_refuted : (do
    let s ← swingTrack
    let s ← Track.calls 0 (.attr .note 1050400 :: vibratoCalls 1 (-10) 10) s
    let a ← Track.ticks 0 1 s
    a.2.getAttr (.unit .period) : C (Option Int)) = .ok (some 83393100) ∧ exactPeriod 1050400 44100 / 16 = 83404125 := by
  decide +kernel

/-- That track is as C104 asks. -/
example : ∃ s t, ({} : TWorld).run 8 [.init 0 16385, .track 0 (.attach 44100 2 0), .track 0 (.attr .masterVolume 16384),
      .track 0 (.attr .volume 32000), .track 0 (.attr .note 50331648)] = .ok s ∧
    s.tracks 0 = some t ∧ s.iw.on 0 = false ∧ t.volumeSlide = false ∧ t.ignores = false ∧ t.panningSlide = false ∧
    t.portamento = false ∧ t.arpeggioOn = false ∧ t.unit.waveform.phases = some 16 ∧ t.waveform ≠ 16391 ∧ t.ctx = some (44100, 2) ∧
    t.panning.get = .ok 0 ∧ t.volume.get = .ok 32000 ∧ t.note.get = .ok 50331648 := by
  have hd : (do
      let s ← ({} : TWorld).run 8 [.init 0 16385, .track 0 (.attach 44100 2 0), .track 0 (.attr .masterVolume 16384),
        .track 0 (.attr .volume 32000), .track 0 (.attr .note 50331648)]
      return (s.tracks 0).map fun t =>
        [!s.iw.on 0, !t.volumeSlide, !t.ignores, !t.panningSlide, !t.portamento, !t.arpeggioOn, decide (t.unit.waveform.phases = some 16),
          decide (t.waveform ≠ 16391), decide (t.ctx = some (44100, 2)), decide (t.panning.get.toOption = some 0),
          decide (t.volume.get.toOption = some 32000), decide (t.note.get.toOption = some 50331648)] : C (Option (List Bool))) =
        .ok (some (List.replicate 12 true)) := by
    decide +kernel
  obtain ⟨s, e1, e2⟩ := bind_ok_iff.1 hd
  have e2 := Except.ok.inj e2
  obtain ⟨t, ht, e3⟩ := Option.map_eq_some_iff.1 e2
  simp only [List.replicate, List.cons.injEq, and_true, decide_eq_true_eq, Bool.not_eq_true'] at e3
  obtain ⟨b1, b2, b3, b4, b5, b6, b7, b8, b9, b10, b11, b12⟩ := e3
  have tk : ∀ {c : C Int} {v : Int}, c.toOption = some v → c = .ok v := by
    intro c v e
    cases c with
    | error f => cases e
    | ok y => cases e; rfl
  exact ⟨s, t, e1, ht, b1, b2, b3, b4, b5, b6, b7, b8, b9, tk b10, tk b11, tk b12⟩

end BK
