import Verif.Lemmas.Sweep
import Verif.Lemmas.Swing
/-!
All effects of a track at once.
-/
namespace BK

/-- What a tick gives to the unit while the tremolo is on, on two channels. -/
theorem Track.tick_stereo {x : Nat} {w : IWorld} {t : Track} {s : IWorld × Track} (h : t.tick x w = .ok s)
    (hon : w.on x = false) (htr : t.tremoloOn = true) {z : Int} (hz : t.tremolo.get = .ok z) (hz0 : -32767 ≤ z) (hz1 : z ≤ 32767) (hig : t.ignores = false)
    (hpo : t.panningOn = true) {p : Int} (hp : t.panning.get = .ok p) (hp0 : -32767 ≤ p) (hp1 : p ≤ 32767) {v : Int} (hv : t.volume.get = .ok v) (h0 : 0 ≤ v)
    (h1 : v ≤ 32767) (hm0 : 0 ≤ t.masterVolume) (hm1 : t.masterVolume ≤ 32767) :
    s.2.unit.volume 0 = leftOf (v * (32767 - z.natAbs) / 32768 * t.masterVolume / 32768) p ∧ s.2.unit.volume 1 = rightOf (v * (32767 - z.natAbs) / 32768 * t.masterVolume / 32768) p := by
  have tb0 : 0 ≤ v * (32767 - z.natAbs) / 32768 := scale_nonneg h0 (by omega)
  have tb1 : v * (32767 - z.natAbs) / 32768 ≤ v := scale_le h0 (by omega)
  obtain ⟨t1, r, t2, g1, gr, g2, g3, e⟩ := Track.tick_stages h
  obtain ⟨a, d, n, rfl⟩ := Track.arpeggioTick_same g1
  obtain ⟨d', -, -, -, hno⟩ := Track.instrTick_same gr
  obtain ⟨rfl, -⟩ := hno hon
  dsimp only at g2 e
  obtain ⟨a', b, c, d'', e', f, g, i, j, k, g3⟩ := Track.effectsTick_same g3
  rw [g3]
  show t2.unit.volume 0 = _ ∧ t2.unit.volume 1 = _
  unfold Track.updateUnit at g2
  obtain ⟨u1, hu1, g2⟩ := bind_ok_iff.1 g2
  obtain ⟨u2, hu2, g2⟩ := bind_ok_iff.1 g2
  have k2 : t2.unit.volume = u2.unit.volume := by
    unfold Track.flushDuty at g2
    split at g2
    · obtain ⟨y, hy, g2⟩ := bind_ok_iff.1 g2
      cases g2
      exact (Track.updateDuty_else hy).2.2.2.1
    · cases g2; rfl
  have k1 : u2.unit.volume = u1.unit.volume := by
    unfold Track.flushNote at hu2
    split at hu2
    · obtain ⟨y, hy, hu2⟩ := bind_ok_iff.1 hu2
      cases hu2
      exact (Track.updateNote_else hy).1
    · cases hu2; rfl
  rw [k2, k1]
  unfold Track.flushVolume at hu1
  rw [if_pos (by simp [Track.flagEffects, htr])] at hu1
  obtain ⟨y, hy, hu1⟩ := bind_ok_iff.1 hu1
  cases hu1
  show y.unit.volume 0 = _ ∧ y.unit.volume 1 = _
  obtain ⟨m, hm, m0, m1, m2, hs, -⟩ := Track.updateVolume_sides (by exact ⟨hm0, hm1⟩) hy
  have hmm : m.1 = v * (32767 - z.natAbs) / 32768 * t.masterVolume / 32768 ∧ m.2 = p := by
    unfold Track.mix at hm
    obtain ⟨v1, hv1, hm⟩ := bind_ok_iff.1 hm
    obtain ⟨p1, hp1, hm⟩ := bind_ok_iff.1 hm
    obtain ⟨v2, hv2, hm⟩ := bind_ok_iff.1 hm
    obtain ⟨p2, hp2, hm⟩ := bind_ok_iff.1 hm
    obtain ⟨v3, hv3, hm⟩ := bind_ok_iff.1 hm
    obtain ⟨v4, hv4, hm⟩ := bind_ok_iff.1 hm
    cases hm
    obtain ⟨u, hu, e1⟩ := Track.ownVolume_ok hv1
    have hu : t.volume.get = .ok u := hu
    rw [hv] at hu
    cases hu
    have e1 : v1 = if t.ignores = true ∧ v ≠ 0 then 32767 else v := e1
    rw [hig] at e1
    simp at e1
    have e2 := scaleIf_ok hv2
    rw [hon] at e2
    simp at e2
    have e3 : v3 = v2 * (32767 - z.natAbs) / 32768 := by
      rcases Track.tremoloVolume_ok hv3 with ⟨-, -, z', hz', a, ha, q⟩ | ⟨q, -⟩
      · have hz' : t.tremolo.get = .ok z' := hz'
        rw [hz] at hz'
        cases hz'
        have hab : a = z.natAbs := by
          unfold cabs at ha
          split at ha
          · obtain ⟨-, rfl⟩ := i32_eq_ok_iff.1 ha; omega
          · cases ha; omega
        rw [q, hab]
      · rcases q with q | q
        · have q : t.tremoloOn = false := q
          rw [htr] at q; cases q
        · have q : t.ignores = true := q
          rw [hig] at q; cases q
    have e4 := scaleIf_ok hv4
    simp only [if_true] at e4
    rw [e3, e2, e1, cclamp_self tb0 (by omega)] at e4
    have hp1 : t.panning.get = .ok p1 := hp1
    rw [hp] at hp1
    cases hp1
    rw [hon] at hp2
    cases hp2
    exact ⟨e4, rfl⟩
  obtain ⟨s0, s1⟩ := hs hpo
  rw [s0, s1, hmm.1, hmm.2, cclamp_self hp0 hp1]
  unfold side leftOf rightOf
  refine ⟨rfl, ?_⟩
  by_cases hn : p < 0
  · rw [if_pos hn, if_pos (by omega), Int.sub_neg]
  · rw [if_neg hn, if_neg (by omega)]

/-- Steps of the effects, all of them. -/
theorem times_all : ∀ (j : Nat) {f g : Fx}, f.tremolo.2.1.steps = 0 → f.vibrato.2.1.steps = 0 → times (Fx.step true true true true) j f = .ok g →
    f.volume.ticks j = .ok g.volume ∧ f.panning.ticks j = .ok g.panning ∧ f.tremolo.1.ticks j = .ok g.tremolo.1 ∧
      f.vibrato.1.ticks j = .ok g.vibrato.1 ∧ g.tremolo.2.1.steps = 0 ∧ g.vibrato.2.1.steps = 0
  | 0, f, g, h0, h0', h => by cases h; exact ⟨rfl, rfl, rfl, rfl, h0, h0'⟩
  | j + 1, f, g, h0, h0', h => by
    unfold times at h
    obtain ⟨a, ha, h⟩ := bind_ok_iff.1 h
    obtain ⟨i1, i2, i3, i4, i5, i6⟩ := times_all j h0 h0' ha
    rw [Slide.ticks_add_one i1, Slide.ticks_add_one i2, Osc.ticks_add_one i3, Osc.ticks_add_one i4]
    unfold Fx.step at h
    obtain ⟨b, hb, h⟩ := bind_ok_iff.1 h
    obtain ⟨c, hc, h⟩ := bind_ok_iff.1 h
    obtain ⟨d, hd, h⟩ := bind_ok_iff.1 h
    obtain ⟨e, he, h⟩ := bind_ok_iff.1 h
    cases h
    unfold tickOsc at hd he
    rw [if_pos rfl, if_neg (by omega)] at hd he
    obtain ⟨o, ho, hd⟩ := bind_ok_iff.1 hd
    obtain ⟨o', ho', he⟩ := bind_ok_iff.1 he
    cases hd
    cases he
    exact ⟨hb, hc, ho, ho', i5, i6⟩

theorem Track.calls_append {x : Nat} : ∀ (a b : List TOp) {s s' : IWorld × Track}, Track.calls x a s = .ok s' →
    Track.calls x (a ++ b) s = Track.calls x b s'
  | [], b, s, s', h => by cases h; rfl
  | op :: a, b, s, s', h => by
    simp only [List.cons_append, Track.calls] at h ⊢
    obtain ⟨s1, h1, h⟩ := bind_ok_iff.1 h
    rw [h1, ok_bind]
    exact Track.calls_append a b h

/-- The calls of a glide. -/
theorem Track.glideCalls_ok {N m : Nat} {x : Nat} {w : IWorld} {t : Track} (hg : w.Good m) (hi : t.Inv N False) (hon : w.on x = false)
    (hwt : t.waveform ≠ 16391) {d : Nat} (hd : 1 ≤ d) (hd2 : d ≤ 2147483647) {a b n : Int} (ha : 0 ≤ a) (ha2 : a ≤ 100663296)
    (hb : 0 ≤ b) (hb2 : b ≤ 100663296) (hn : 1 ≤ n) (hn2 : n ≤ 65536) (hdir : a ≤ b ∨ 256 * n ≤ a - b) :
    ∃ u, Track.calls x (glideCalls d a b n) (w, t) = .ok (w, u) ∧ u.Inv N False ∧ u.portamento = true ∧ u.arpeggioOn = t.arpeggioOn ∧
      u.pitch = t.pitch ∧ u.ctx = t.ctx ∧ u.waveform = t.waveform ∧ u.unit.waveform = t.unit.waveform ∧ u.ignores = t.ignores ∧
      u.panningOn = t.panningOn ∧ u.masterVolume = t.masterVolume ∧
      ∃ r, LeadsTo (n + 1) a b n r ∧ ∀ j, ∃ o, u.note.ticks j = .ok o ∧ o.get = .ok (r j) := by
  obtain ⟨sa, sb, sc, se, q1, q2, q3, q4, q5, q6, r, hr, hget⟩ := hi.note.fade (by decide) ha ha2 hb hb2 (by omega) hn2
    (by rcases hdir with h | h
        · exact Or.inl h
        · exact Or.inr (by norm_num; omega)) (q := n + 1) (by norm_num; omega)
  -- the five calls
  have pl : ∀ v : Int, 0 ≤ v → v ≤ 2147483647 → Plain v := fun v h h' => Plain.of (by omega) h'
  have at' : ∀ {w : IWorld} {t : Track} {a : TAttr} {v : Int}, w.Good m → t.Inv N False → TOp.Legal N t (.attr a v) →
      ∃ q, t.setAttr x w a v = .ok q ∧ q.2.2.Inv N False := fun hw hi hl => by
    obtain ⟨q, e1, e2⟩ := (Track.Inv.setAttr (x := x) hi hw hl).get trivial
    exact ⟨q, e1, e2.2⟩
  obtain ⟨p1, e1, i1⟩ := at' hg hi (a := .effectDivider) (v := d) ⟨pl _ (by omega) (by omega), by dsimp only; omega⟩
  have e1' := e1
  unfold Track.setAttr at e1'
  cases e1'
  obtain ⟨p2, e2, i2⟩ := at' hg i1 (a := .slide .portamento) (v := 0) ⟨pl _ (by omega) (by omega), trivial⟩
  have e2' := e2
  simp only [Track.setAttr, Track.setEffect, List.getD_cons_zero] at e2'
  rw [if_neg (by decide), cclamp_self (v := 0) (by decide) (by decide), q1] at e2'
  cases e2'
  obtain ⟨p3, e3, i3⟩ := at' hg i2 (a := .note) (v := a) ⟨pl _ (by omega) (by omega), trivial⟩
  have e3' := e3
  unfold Track.setAttr at e3'
  obtain ⟨y3, n3, e3'⟩ := bind_ok_iff.1 e3'
  cases e3'
  obtain ⟨o3, u3, rfl, w3⟩ := Track.playNote_off hon (by exact hwt) ha ha2 q2 (fun _ => ⟨q3, q4⟩) n3
  obtain ⟨p4, e4, i4⟩ := at' hg i3 (a := .slide .portamento) (v := n) ⟨pl _ (by omega) (by omega), trivial⟩
  have e4' := e4
  simp only [Track.setAttr, Track.setEffect, List.getD_cons_zero] at e4'
  rw [if_neg (by decide), cclamp_self (v := n) (by omega) hn2, q5] at e4'
  cases e4'
  obtain ⟨p5, e5, i5⟩ := at' hg i4 (a := .note) (v := b) ⟨pl _ (by omega) (by omega), trivial⟩
  have e5' := e5
  unfold Track.setAttr at e5'
  obtain ⟨y5, n5, e5'⟩ := bind_ok_iff.1 e5'
  cases e5'
  obtain ⟨o5, u5, rfl, w5⟩ := Track.playNote_off hon (by exact hwt) hb hb2 q6 (fun q => by exfalso; dsimp only at q; omega) n5
  refine ⟨_, ?_, i5, ?_, rfl, rfl, rfl, rfl, w5.trans w3, rfl, rfl, rfl, r, hr, hget⟩
  · unfold glideCalls
    simp only [Track.calls, Track.exec]
    rw [e1, ok_bind, pure_eq_ok, ok_bind]
    dsimp only
    rw [e2, ok_bind, pure_eq_ok, ok_bind]
    dsimp only
    rw [e3, ok_bind, pure_eq_ok, ok_bind]
    dsimp only
    rw [e4, ok_bind, pure_eq_ok, ok_bind]
    dsimp only
    rw [e5, ok_bind, pure_eq_ok, ok_bind]
  · show decide (n ≠ 0) = true
    rw [decide_eq_true_eq]; omega

end BK
