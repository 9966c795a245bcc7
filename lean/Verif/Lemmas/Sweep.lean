import Verif.Spec.Sweep
import Verif.Lemmas.Fade
import Verif.Props.TrackMix
/-!
Panning slides of tracks.
-/
namespace BK

/-- What a tick gives to the unit while the panning slides: the volume at the position before the step. -/
theorem Track.tick_panning {x : Nat} {w : IWorld} {t : Track} {s : IWorld × Track} (h : t.tick x w = .ok s)
    (hon : w.on x = false) (hvs : t.panningSlide = true) (htr : t.tremoloOn = false) (hig : t.ignores = false)
    (hpo : t.panningOn = true) {p : Int} (hp : t.panning.get = .ok p) (hp0 : -32767 ≤ p) (hp1 : p ≤ 32767) {v : Int} (hv : t.volume.get = .ok v) (h0 : 0 ≤ v)
    (h1 : v ≤ 32767) (hm0 : 0 ≤ t.masterVolume) (hm1 : t.masterVolume ≤ 32767) :
    s.2.unit.volume 0 = leftOf (v * t.masterVolume / 32768) p ∧ s.2.unit.volume 1 = rightOf (v * t.masterVolume / 32768) p := by
  obtain ⟨t1, r, t2, g1, gr, g2, g3, e⟩ := Track.tick_stages h
  obtain ⟨a, d, n, rfl⟩ := Track.arpeggioTick_same g1
  obtain ⟨d', -, -, -, hno⟩ := Track.instrTick_same gr
  obtain ⟨rfl, -⟩ := hno hon
  dsimp only at g2 e
  obtain ⟨a', b, c, d'', e', f, g, i, j, k, g3⟩ := Track.effectsTick_same g3
  rw [g3]
  show t2.unit.volume 0 = _ ∧ t2.unit.volume 1 = _
  unfold Track.updateUnit at g2
  obtain ⟨u1, hu1, g2⟩ := bind_ok_iff.1 g2
  obtain ⟨u2, hu2, g2⟩ := bind_ok_iff.1 g2
  have k2 : t2.unit.volume = u2.unit.volume := by
    unfold Track.flushDuty at g2
    split at g2
    · obtain ⟨y, hy, g2⟩ := bind_ok_iff.1 g2
      cases g2
      exact (Track.updateDuty_else hy).2.2.2.1
    · cases g2; rfl
  have k1 : u2.unit.volume = u1.unit.volume := by
    unfold Track.flushNote at hu2
    split at hu2
    · obtain ⟨y, hy, hu2⟩ := bind_ok_iff.1 hu2
      cases hu2
      exact (Track.updateNote_else hy).1
    · cases hu2; rfl
  rw [k2, k1]
  unfold Track.flushVolume at hu1
  rw [if_pos (by simp [Track.flagEffects, hvs])] at hu1
  obtain ⟨y, hy, hu1⟩ := bind_ok_iff.1 hu1
  cases hu1
  show y.unit.volume 0 = _ ∧ y.unit.volume 1 = _
  obtain ⟨m, hm, m0, m1, m2, hs, -⟩ := Track.updateVolume_sides (by exact ⟨hm0, hm1⟩) hy
  have hmm : m.1 = v * t.masterVolume / 32768 ∧ m.2 = p := by
    unfold Track.mix at hm
    obtain ⟨v1, hv1, hm⟩ := bind_ok_iff.1 hm
    obtain ⟨p1, hp1, hm⟩ := bind_ok_iff.1 hm
    obtain ⟨v2, hv2, hm⟩ := bind_ok_iff.1 hm
    obtain ⟨p2, hp2, hm⟩ := bind_ok_iff.1 hm
    obtain ⟨v3, hv3, hm⟩ := bind_ok_iff.1 hm
    obtain ⟨v4, hv4, hm⟩ := bind_ok_iff.1 hm
    cases hm
    obtain ⟨u, hu, e1⟩ := Track.ownVolume_ok hv1
    have hu : t.volume.get = .ok u := hu
    rw [hv] at hu
    cases hu
    have e1 : v1 = if t.ignores = true ∧ v ≠ 0 then 32767 else v := e1
    rw [hig] at e1
    simp at e1
    have e2 := scaleIf_ok hv2
    rw [hon] at e2
    simp at e2
    have e3 : v3 = v2 := by
      rcases Track.tremoloVolume_ok hv3 with ⟨q, -⟩ | ⟨-, q⟩
      · have q : t.tremoloOn = true := q
        rw [htr] at q; cases q
      · exact q
    have e4 := scaleIf_ok hv4
    simp only [if_true] at e4
    rw [e3, e2, e1, cclamp_self h0 h1] at e4
    have hp1 : t.panning.get = .ok p1 := hp1
    rw [hp] at hp1
    cases hp1
    rw [hon] at hp2
    cases hp2
    exact ⟨e4, rfl⟩
  obtain ⟨s0, s1⟩ := hs hpo
  rw [s0, s1, hmm.1, hmm.2, cclamp_self hp0 hp1]
  unfold side leftOf rightOf
  refine ⟨rfl, ?_⟩
  by_cases hn : p < 0
  · rw [if_pos hn, if_pos (by omega), Int.sub_neg]
  · rw [if_neg hn, if_neg (by omega)]

/-- The panning after `j` steps of the effects. -/
theorem times_panning {tr vi : Bool} : ∀ (j : Nat) {f g : Fx}, times (Fx.step false true tr vi) j f = .ok g →
    f.panning.ticks j = .ok g.panning ∧ g.volume = f.volume
  | 0, f, g, h => by cases h; exact ⟨rfl, rfl⟩
  | j + 1, f, g, h => by
    unfold times at h
    obtain ⟨a, ha, h⟩ := bind_ok_iff.1 h
    obtain ⟨i1, i2⟩ := times_panning j ha
    rw [Slide.ticks_add_one i1]
    unfold Fx.step at h
    obtain ⟨b, hb, h⟩ := bind_ok_iff.1 h
    obtain ⟨c, hc, h⟩ := bind_ok_iff.1 h
    obtain ⟨d, hd, h⟩ := bind_ok_iff.1 h
    obtain ⟨e, he, h⟩ := bind_ok_iff.1 h
    cases h
    cases hb
    exact ⟨hc, i2⟩

/-- The calls of a sweep. -/
theorem Track.sweepCalls_ok {x : Nat} {w : IWorld} {t : Track} {d S v n : Int} (hS : -32767 ≤ S) (hS2 : S ≤ 32767) (hv : -32767 ≤ v) (hv2 : v ≤ 32767)
    (hn : 1 ≤ n) (hn2 : n ≤ 65536) {a b c e : Slide} (ha : t.panning.setSteps 0 = .ok a) (hb : a.setValue S = .ok b)
    (hc : b.setSteps n = .ok c) (he : c.setValue v = .ok e) :
    Track.calls x (sweepCalls d S v n) (w, t) =
      .ok (w, { t with effectDiv := ⟨d, 0⟩, panning := e, updVolume := true, panningSlide := true }) := by
  unfold sweepCalls
  simp only [Track.calls, Track.exec, Track.setAttr, Track.setEffect, ok_bind, pure_eq_ok, List.getD_cons_zero]
  rw [if_neg (by decide)]
  rw [cclamp_self (v := 0) (by decide) (by decide), ha]
  simp only [ok_bind]
  rw [cclamp_self hS hS2, hb]
  simp only [ok_bind]
  rw [if_neg (by decide), cclamp_self (v := n) (by omega) hn2, hc]
  simp only [ok_bind]
  rw [cclamp_self hv hv2, he]
  simp only [ok_bind]
  have : decide (n ≠ 0) = true := by rw [decide_eq_true_eq]; omega
  rw [this]

end BK
