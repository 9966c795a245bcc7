import Verif.Spec.AllFx
import Verif.Lemmas.AllFx
import Verif.Props.Sweep
/-!
All effects of a track at once: the calls, and the ticks after them, also with an arpeggio.
-/
namespace BK

/-- A pending update of the note stays pending. -/
theorem Track.arpeggioTick_flag {t t' : Track} (h : t.arpeggioTick = .ok t') (hf : t.updNote = true) : t'.updNote = true := by
  unfold Track.arpeggioTick at h
  split at h
  · obtain ⟨r, -, h⟩ := bind_ok_iff.1 h
    dsimp only at h
    split at h
    · obtain ⟨a, -, h⟩ := bind_ok_iff.1 h
      cases h
      rfl
    · cases h
      exact hf
  · cases h
    exact hf

/-- What a tick gives to the unit while the vibrato is on: the period of the note moved by the arpeggio after its step and by the vibrato before its step. -/
theorem Track.tick_swung {N : Nat} {x : Nat} {w : IWorld} {t : Track} {s : IWorld × Track} (hi : t.Inv N False) (h : t.tick x w = .ok s)
    (hon : w.on x = false) (hvi : t.vibratoOn = true) 
    {rate chans : Int} (hc : t.ctx = some (rate, chans)) {cnt : Nat} (hw : t.unit.waveform.phases = some cnt)
    (hwt : t.waveform ≠ 16391) {v z : Int} (hv : t.note.get = .ok v) (hz : t.vibrato.get = .ok z) :
    s.2.unit.period = exactPeriod (v + (if t.arpeggioOn = true then s.2.arp.delta else 0) + z + t.pitch) rate / cnt ∧ s.2.unit.waveform = t.unit.waveform ∧ 1 ≤ exactPeriod (v + (if t.arpeggioOn = true then s.2.arp.delta else 0) + z + t.pitch) rate / cnt ∧
      exactPeriod (v + (if t.arpeggioOn = true then s.2.arp.delta else 0) + z + t.pitch) rate / cnt ≤ 2147483647 := by
  have hph := hi.unit.inv.phase
  obtain ⟨t1, r, t2, g1, gr, g2, g3, e⟩ := Track.tick_stages h
  have hfl : t.flagEffects.updNote = true := by
    show (t.updNote || t.portamento || t.vibratoOn) = true
    rw [hvi]; simp
  have hnn := Track.arpeggioTick_flag g1 hfl
  obtain ⟨a, dd, nn, rfl⟩ := Track.arpeggioTick_same g1
  have hnn : nn = true := hnn
  subst hnn
  obtain ⟨d', -, -, -, hno⟩ := Track.instrTick_same gr
  obtain ⟨rfl, -⟩ := hno hon
  dsimp only at g2 e
  have hsa : s.2.arp = a := by
    have sb := (Track.updateUnit_same g2).1
    obtain ⟨a', b, c, d'', e', f, g, i, j, k, g3⟩ := Track.effectsTick_same g3
    rw [g3]
    exact sb.arp
  rw [hsa]
  have huw := Track.updateUnit_wave g2
  obtain ⟨a', b, c, d'', e', f, g, i, j, k, g3⟩ := Track.effectsTick_same g3
  rw [g3]
  show t2.unit.period = _ ∧ t2.unit.waveform = _ ∧ _
  unfold Track.updateUnit at g2
  obtain ⟨u1, hu1, g2⟩ := bind_ok_iff.1 g2
  obtain ⟨u2, hu2, g2⟩ := bind_ok_iff.1 g2
  have k2 : t2.unit.period = u2.unit.period := by
    unfold Track.flushDuty at g2
    split at g2
    · obtain ⟨y, hy, g2⟩ := bind_ok_iff.1 g2
      cases g2
      exact (Track.updateDuty_else hy).2.1
    · cases g2; rfl
  have k0 : u1.unit.count = t.unit.count ∧ u1.updNote = true ∧ u1.ctx = t.ctx ∧ u1.note = t.note ∧ u1.vibratoOn = t.vibratoOn ∧
      u1.arpeggioOn = t.arpeggioOn ∧ u1.arp = a ∧ u1.pitch = t.pitch ∧ u1.waveform = t.waveform ∧ u1.vibrato = t.vibrato := by
    unfold Track.flushVolume at hu1
    split at hu1
    · obtain ⟨y, hy, hu1⟩ := bind_ok_iff.1 hu1
      cases hu1
      have sb := (Track.updateVolume_same hy).1
      have sn := (Track.updateVolume_same hy).2
      have se := Track.updateVolume_else hy
      refine ⟨se.1, ?_, sb.ctx, sn.note, sb.vibratoOn, sb.arpeggioOn, sb.arp, sb.pitch, sb.waveform, sb.vibrato⟩
      exact se.2.2.2.2.2.1
    · cases hu1
      refine ⟨rfl, ?_, rfl, rfl, rfl, rfl, rfl, rfl, rfl, rfl⟩
      rfl
  obtain ⟨m1, m2, m3, m4, m5, m6, m6a, m7, m8, m9⟩ := k0
  have hcnt : t.unit.count = cnt ∧ 7 ≤ cnt ∧ cnt ≤ 64 := by
    unfold PhaseInv at hph
    unfold Wave.phases at hw
    cases hwv : t.unit.waveform <;> rw [hwv] at hw hph <;> dsimp only at hw hph <;> cases hw <;>
      exact ⟨hph.2, by omega, by omega⟩
  have hex : (exactPeriod (v + (if t.arpeggioOn = true then a.delta else 0) + z + t.pitch) rate / cnt) ≤ 2147483647 := by
    obtain ⟨p, e1, e2, e3, e4⟩ := C19_range (v + (if t.arpeggioOn = true then a.delta else 0) + z + t.pitch) rate
    rw [C19_period_exact] at e1
    cases e1
    have hh : exactPeriod (v + (if t.arpeggioOn = true then a.delta else 0) + z + t.pitch) rate / cnt ≤ exactPeriod (v + (if t.arpeggioOn = true then a.delta else 0) + z + t.pitch) rate / 7 := by
      rw [Int.le_ediv_iff_mul_le (by omega)]
      have q1 := Int.ediv_mul_le (exactPeriod (v + (if t.arpeggioOn = true then a.delta else 0) + z + t.pitch) rate) (b := (cnt : Int)) (by omega)
      have q2 : 0 ≤ exactPeriod (v + (if t.arpeggioOn = true then a.delta else 0) + z + t.pitch) rate / cnt := Int.ediv_nonneg (by omega) (by omega)
      have l0 : exactPeriod (v + (if t.arpeggioOn = true then a.delta else 0) + z + t.pitch) rate / cnt * 7 ≤ exactPeriod (v + (if t.arpeggioOn = true then a.delta else 0) + z + t.pitch) rate / cnt * cnt := Int.mul_le_mul_of_nonneg_left (by omega) q2
      omega
    omega
  rw [k2]
  unfold Track.flushNote at hu2
  rw [if_pos m2] at hu2
  obtain ⟨y, hy, hu2⟩ := bind_ok_iff.1 hu2
  cases hu2
  show y.unit.period = _ ∧ _
  unfold Track.updateNote at hy
  rw [m3, hc] at hy
  dsimp only at hy
  obtain ⟨zz, hz1, hy⟩ := bind_ok_iff.1 hy
  have hz' := Track.noteSum_vibrato (m5.trans hvi) (by rw [m4]; exact hv) (by rw [m9]; exact hz) hz1
  rw [m6, m6a, hon, m7] at hz'
  rw [if_neg (show ¬ (false = true) from Bool.false_ne_true), Int.add_zero] at hz'
  subst hz'
  rw [if_pos (by rw [m8]; exact hwt)] at hy
  obtain ⟨p, hp, hy⟩ := bind_ok_iff.1 hy
  obtain ⟨q, hq, hy⟩ := bind_ok_iff.1 hy
  obtain ⟨y1, hy1, rfl⟩ := Track.setUnit_eq hy
  unfold UCore.setAttr at hy1
  dsimp only at hy1
  obtain ⟨z1, hz2, hy1⟩ := bind_ok_iff.1 hy1
  cases hy1
  rw [m1] at hq
  rw [hcnt.1] at hq
  have := tone_period hp (by omega) (by omega) (by omega) hq hz2
  exact ⟨this.1, huw.waveform, this.2, hex⟩

theorem LeadsTo.inside {tol S v n : Int} {r : Nat → Int} (h : LeadsTo tol S v n r) {lo hi : Int} (h1 : lo ≤ S) (h2 : S ≤ hi) (h3 : lo ≤ v)
    (h4 : v ≤ hi) (j : Nat) : lo ≤ r j ∧ r j ≤ hi := by
  have := h.between j
  unfold Between at this
  omega

/-- A track on which all effects run, with the values that they take. -/
structure Track.AllOn (t : Track) (d : Nat) (note vol place vib trem : Nat → Int) : Prop where
  portamento : t.portamento = true
  vibratoOn : t.vibratoOn = true
  tremoloOn : t.tremoloOn = true
  volumeSlide : t.volumeSlide = true
  panningSlide : t.panningSlide = true
  still : t.tremoloDelta.steps = 0 ∧ t.vibratoDelta.steps = 0
  div : t.effectDiv = ⟨d, 0⟩
  note : ∀ j, ∃ o, t.note.ticks j = .ok o ∧ o.get = .ok (note j)
  vol : ∀ j, ∃ o, t.volume.ticks j = .ok o ∧ o.get = .ok (vol j)
  place : ∀ j, ∃ o, t.panning.ticks j = .ok o ∧ o.get = .ok (place j)
  vib : ∀ j, ∃ o, t.vibrato.ticks j = .ok o ∧ o.get = .ok (vib j)
  trem : ∀ j, ∃ o, t.tremolo.ticks j = .ok o ∧ o.get = .ok (trem j)

theorem Track.allCalls_ok {N m : Nat} {x : Nat} {w : IWorld} {t : Track} (hg : w.Good m) (hi : t.Inv N False) (hon : w.on x = false)
    (hwt : t.waveform ≠ 16391)
    {d : Nat} (hd : 1 ≤ d) (hd2 : d ≤ 2147483647)
    {a b n : Int} (ha : 0 ≤ a) (ha2 : a ≤ 100663296) (hb : 0 ≤ b) (hb2 : b ≤ 100663296) (hn : 1 ≤ n) (hn2 : n ≤ 65536)
    (hdir : a ≤ b ∨ 256 * n ≤ a - b)
    {S v n2 : Int} (hS : 0 ≤ S) (hS2 : S ≤ 32767) (hv : 0 ≤ v) (hv2 : v ≤ 32767) (gn : 1 ≤ n2) (gn2 : n2 ≤ 65536)
    (gdir : S ≤ v ∨ n2 ≤ 128 * (S - v))
    {A B n3 : Int} (hA : -32767 ≤ A) (hA2 : A ≤ 32767) (hB : -32767 ≤ B) (hB2 : B ≤ 32767) (pn : 1 ≤ n3) (pn2 : n3 ≤ 65536)
    (pdir : A ≤ B ∨ n3 ≤ 128 * (A - B))
    {D : Int} {n4 : Nat} (hD : 0 ≤ D) (hD2 : D ≤ 536870912) (vn : 1 ≤ n4) (vn2 : n4 ≤ 65536)
    {E : Int} {n5 : Nat} (hE : 0 ≤ E) (hE2 : E ≤ 32767) (tn : 1 ≤ n5) (tn2 : n5 ≤ 65536) :
    ∃ note vol place vib trem u, LeadsTo (n + 1) a b n note ∧ LeadsTo 3 S v n2 vol ∧ LeadsTo 3 A B n3 place ∧
      Swings (n4 + 1) D n4 vib ∧ Swings 5 E n5 trem ∧ Track.calls x (allCalls d a b n S v n2 A B n3 D n4 E n5) (w, t) = .ok (w, u) ∧
      u.Inv N False ∧ u.AllOn d note vol place vib trem ∧ u.arpeggioOn = t.arpeggioOn ∧ u.pitch = t.pitch ∧ u.ctx = t.ctx ∧
      u.waveform = t.waveform ∧ u.unit.waveform = t.unit.waveform ∧ u.ignores = t.ignores ∧ u.panningOn = t.panningOn ∧
      u.masterVolume = t.masterVolume := by
  -- glide
  obtain ⟨u1, c1, i1, a1, a2, a3, a4, a5, a6, a7, a8, a9, note, hnote, gnote⟩ :=
    Track.glideCalls_ok hg hi hon hwt hd hd2 ha ha2 hb hb2 hn hn2 hdir
  -- fade
  obtain ⟨sa, sb, sc, se, q1, q2, -, -, q5, q6, vol, hvol, gvol⟩ := i1.volume.fade (by decide) hS hS2 hv hv2 (by omega) gn2
    (by rcases gdir with h | h
        · exact Or.inl h
        · exact Or.inr (by norm_num; omega)) (q := 3) (by norm_num; omega)
  have c2 := Track.fadeCalls_ok (x := x) (w := w) (d := d) hS hS2 hv hv2 gn gn2 q1 q2 q5 q6
  obtain ⟨sa', ea, na⟩ := i1.volume.setSteps (by decide) (n := 0) (by omega)
  rw [q1] at ea; cases ea
  obtain ⟨sb', eb, nb⟩ := na.setValue (by decide) hS hS2
  rw [q2] at eb; cases eb
  obtain ⟨sc', ec, nc⟩ := nb.setSteps (by decide) (n := n2) gn2
  rw [q5] at ec; cases ec
  obtain ⟨se', ee, ne⟩ := nc.setValue (by decide) hv hv2
  rw [q6] at ee; cases ee
  have dv : (⟨d, 0⟩ : DivState).Ok := ⟨⟨by dsimp only; omega, by dsimp only; omega⟩, show (0 : Int) ≤ 0 ∧ (0 : Int) ≤ 2147483647 by decide⟩
  have i2 : ({ u1 with effectDiv := ⟨d, 0⟩, volume := se, updVolume := true, volumeSlide := true } : Track).Inv N False :=
    { i1 with effectDiv := dv, volume := ne }
  generalize hu2 : ({ u1 with effectDiv := ⟨d, 0⟩, volume := se, updVolume := true, volumeSlide := true } : Track) = u2 at *
  -- sweep
  obtain ⟨pa, pb, pc, pe, p1, p2, -, -, p5, p6, place, hplace, gplace⟩ := i2.panning.fade (by decide) hA hA2 hB hB2 (by omega) pn2
    (by rcases pdir with h | h
        · exact Or.inl h
        · exact Or.inr (by norm_num; omega)) (q := 3) (by norm_num; omega)
  have c3 := Track.sweepCalls_ok (x := x) (w := w) (d := d) hA hA2 hB hB2 pn pn2 p1 p2 p5 p6
  obtain ⟨pa', ea, na'⟩ := i2.panning.setSteps (by decide) (n := 0) (by omega)
  rw [p1] at ea; cases ea
  obtain ⟨pb', eb, nb'⟩ := na'.setValue (by decide) hA hA2
  rw [p2] at eb; cases eb
  obtain ⟨pc', ec, nc'⟩ := nb'.setSteps (by decide) (n := n3) pn2
  rw [p5] at ec; cases ec
  obtain ⟨pe', ee, ne'⟩ := nc'.setValue (by decide) hB hB2
  rw [p6] at ee; cases ee
  have i3 : ({ u2 with effectDiv := ⟨d, 0⟩, panning := pe, updVolume := true, panningSlide := true } : Track).Inv N False :=
    { i2 with effectDiv := dv, panning := ne' }
  generalize hu3 : ({ u2 with effectDiv := ⟨d, 0⟩, panning := pe, updVolume := true, panningSlide := true } : Track) = u3 at *
  -- vibrato and tremolo
  obtain ⟨u4, c4, i4, f1, f2, -, -, -, -, -, -, -, -, ⟨y1, y2, y3, hu4⟩, vib, hvib, gvib⟩ :=
    Track.vibratoCalls_ok (x := x) (w := w) i3 hd hd2 hD hD2 vn vn2
  obtain ⟨u, c5, ui, g1, g2, g3, -, -, -, -, -, -, -, ⟨y1', y2', y3', hu⟩, trem, htrem, gtrem⟩ :=
    Track.tremoloCalls_ok (x := x) (w := w) i4 hd hd2 hE hE2 tn tn2
  have hcalls : Track.calls x (allCalls d a b n S v n2 A B n3 D n4 E n5) (w, t) = .ok (w, u) := by
    unfold allCalls
    rw [Track.calls_append _ _ c1, Track.calls_append _ _ c2, Track.calls_append _ _ c3, Track.calls_append _ _ c4, c5]
  have e1 : u.portamento = true := by rw [hu, hu4, ← hu3, ← hu2]; exact a1
  have e2 : u.arpeggioOn = t.arpeggioOn := by rw [hu, hu4, ← hu3, ← hu2]; exact a2
  have e3 : u.pitch = t.pitch := by rw [hu, hu4, ← hu3, ← hu2]; exact a3
  have e4 : u.ctx = t.ctx := by rw [hu, hu4, ← hu3, ← hu2]; exact a4
  have e5 : u.waveform = t.waveform := by rw [hu, hu4, ← hu3, ← hu2]; exact a5
  have e6 : u.unit.waveform = t.unit.waveform := by rw [hu, hu4, ← hu3, ← hu2]; exact a6
  have e7 : u.ignores = t.ignores := by rw [hu, hu4, ← hu3, ← hu2]; exact a7
  have e8 : u.panningOn = t.panningOn := by rw [hu, hu4, ← hu3, ← hu2]; exact a8
  have e9 : u.masterVolume = t.masterVolume := by rw [hu, hu4, ← hu3, ← hu2]; exact a9
  have e10 : u.note = u1.note := by rw [hu, hu4, ← hu3, ← hu2]
  have e11 : u.volume = se := by rw [hu, hu4, ← hu3, ← hu2]
  have e12 : u.panning = pe := by rw [hu, hu4, ← hu3]
  have e13 : u.vibrato = u4.vibrato := by rw [hu]
  have e14 : u.vibratoDelta.steps = 0 := by rw [hu]; exact f2
  have e15 : u.vibratoOn = true := by rw [hu]; exact f1
  have e16 : u.volumeSlide = true := by rw [hu, hu4, ← hu3, ← hu2]
  have e17 : u.panningSlide = true := by rw [hu, hu4, ← hu3]
  refine ⟨note, vol, place, vib, trem, u, hnote, hvol, hplace, hvib, htrem, hcalls, ui,
    ⟨e1, e15, g1, e16, e17, ⟨g2, e14⟩, g3, by rw [e10]; exact gnote, by rw [e11]; exact gvol, by rw [e12]; exact gplace,
      by rw [e13]; exact gvib, gtrem⟩, e2, e3, e4, e5, e6, e7, e8, e9⟩

/-- What every tick gives to the unit. -/
theorem Track.AllOn.ticks {N m : Nat} {x : Nat} {w : IWorld} {u : Track} {d : Nat} {note vol place vib trem : Nat → Int}
    (h : u.AllOn d note vol place vib trem) (hg : w.Good m) (ui : u.Inv N False) (hon : w.on x = false) (hig : u.ignores = false)
    (hpo : u.panningOn = true) {rate chans : Int} (hc : u.ctx = some (rate, chans)) {cnt : Nat} (hw : u.unit.waveform.phases = some cnt)
    (hwt : u.waveform ≠ 16391) (hd : 1 ≤ d) (hd2 : d ≤ 2147483647) (hvol : ∀ j, 0 ≤ vol j ∧ vol j ≤ 32767)
    (hplace : ∀ j, -32767 ≤ place j ∧ place j ≤ 32767) (htrem : ∀ j, -32767 ≤ trem j ∧ trem j ≤ 32767) (k : Nat) :
    ∃ s' j V, Track.ticks x (k + 1) (w, u) = .ok s' ∧ j = firings d 0 k ∧
        V = vol j * (32767 - (trem j).natAbs) / 32768 * u.masterVolume / 32768 ∧
        s'.2.getAttr (.unit .period) =
          .ok (some (exactPeriod (note j + (if u.arpeggioOn = true then s'.2.arp.delta else 0) + vib j + u.pitch) rate / cnt)) ∧
        s'.2.getAttr (.unit (.volumeOf 0)) = .ok (some (leftOf V (place j))) ∧
        s'.2.getAttr (.unit (.volumeOf 1)) = .ok (some (rightOf V (place j))) := by
  obtain ⟨s1, r1, z1, j1⟩ := ui.ticks hg hon k
  obtain ⟨s2, r2, z2, j2⟩ := ui.ticks hg hon (k + 1)
  refine ⟨s2, _, _, r2, rfl, rfl, ?_⟩
  have hlast := Track.ticks_last r1 r2
  rw [z1] at hlast
  obtain ⟨-, k2, k3, k4, k5, k6, k7, k8, k9, k10, k11, k12, k13, k14⟩ := Track.ticks_keep hon k r1
  obtain ⟨d1, d2⟩ := C53_effects_partial x k d 0 (by omega) hd2 _ u s1 h.div (by unfold Track.effects; rw [h.portamento]; simp) r1
  rw [h.volumeSlide, h.panningSlide, h.tremoloOn, h.vibratoOn] at d1
  obtain ⟨b1, b2, b3, b4, -, -⟩ := times_all _ (show u.fx.tremolo.2.1.steps = 0 from h.still.1) (show u.fx.vibrato.2.1.steps = 0 from h.still.2) d1
  have b5 := d2 hon
  rw [h.portamento] at b5
  have b5 := times_note _ b5
  generalize firings d 0 k = j at *
  have w1 : s1.2.note.get = .ok (note j) := by
    obtain ⟨z, y, y'⟩ := h.note j
    rw [y] at b5
    cases b5; exact y'
  have w2 : s1.2.volume.get = .ok (vol j) := by
    obtain ⟨z, y, y'⟩ := h.vol j
    have b1 : u.volume.ticks j = .ok s1.2.volume := b1
    rw [y] at b1
    cases b1; exact y'
  have w3 : s1.2.panning.get = .ok (place j) := by
    obtain ⟨z, y, y'⟩ := h.place j
    have b2 : u.panning.ticks j = .ok s1.2.panning := b2
    rw [y] at b2
    cases b2; exact y'
  have w4 : s1.2.tremolo.get = .ok (trem j) := by
    obtain ⟨z, y, y'⟩ := h.trem j
    have b3 : u.tremolo.ticks j = .ok s1.2.tremolo := b3
    rw [y] at b3
    cases b3; exact y'
  have w5 : s1.2.vibrato.get = .ok (vib j) := by
    obtain ⟨z, y, y'⟩ := h.vib j
    have b4 : u.vibrato.ticks j = .ok s1.2.vibrato := b4
    rw [y] at b4
    cases b4; exact y'
  have x1 := hvol j
  have x2 := hplace j
  have x3 := htrem j
  have hwv : s1.2.unit.waveform = u.unit.waveform := Track.ticks_wave hon k r1
  obtain ⟨l1, -, l3, l4⟩ := Track.tick_swung j1 hlast hon (k10.trans h.vibratoOn) (k13.trans hc)
    (by rw [hwv]; exact hw) (by rw [k14]; exact hwt) w1 w5
  rw [k12, k11] at l1 l3 l4
  obtain ⟨l, l'⟩ := Track.tick_stereo hlast hon (k3.trans h.tremoloOn) w4 (by omega) (by omega) (k4.trans hig) (k5.trans hpo) w3 x2.1 x2.2 w2 x1.1 x1.2
    (by rw [k6]; exact ui.masterVolume.1) (by rw [k6]; exact ui.masterVolume.2)
  rw [k6] at l l'
  refine ⟨?_, congrArg (fun z => Except.ok (some z)) l, congrArg (fun z => Except.ok (some z)) l'⟩
  show Except.ok (some (wrapI32 s2.2.unit.period)) = _
  rw [l1]
  refine congrArg (fun z => Except.ok (some z)) ?_
  unfold wrapI32
  omega

end BK
