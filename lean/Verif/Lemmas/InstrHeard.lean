import Verif.Lemmas.ArpHeard
import Verif.Lemmas.Sweep
import Verif.Props.Played
/-!
What notes and ticks leave alone on a track with instrument.
-/
namespace BK

/-- Everything but arpeggio position, its divider, the instrument divider, pending updates and what the unit is given; the note if it does not slide. -/
structure Track.Kept (t t' : Track) : Prop where
  same : ∃ a, ∃ d : DivState × DivState, ({ t with arp := a, instrDiv := d.1, arpDiv := d.2 } : Track).SameBut t'
  note : t.note.halt true = t.note → t'.note = t.note
  wave : t'.unit.waveform = t.unit.waveform

theorem Track.Kept.refl (t : Track) : t.Kept t := ⟨⟨t.arp, (t.instrDiv, t.arpDiv), .refl t⟩, fun _ => rfl, rfl⟩

theorem Track.Kept.trans {t u v : Track} (h : t.Kept u) (h' : u.Kept v) : t.Kept v := by
  obtain ⟨⟨a, d, s⟩, n, w⟩ := h
  obtain ⟨⟨a', d', s'⟩, n', w'⟩ := h'
  have s2 : ({ t with arp := a', instrDiv := d'.1, arpDiv := d'.2 } : Track).SameBut { u with arp := a', instrDiv := d'.1, arpDiv := d'.2 } := by
    obtain ⟨h1, h2, h3, h4, h5, h6, h7, h8, h9, h10, h11, h12, h13, h14, h15, h16, h17, h18, h19, h20, h21, h22, h23, h24, h25, h26, h27, h28⟩ := s
    exact ⟨rfl, rfl, rfl, h4, h5, h6, h7, h8, h9, h10, h11, h12, h13, h14, h15, h16, h17, h18, h19, h20, h21, h22, h23, h24, h25, h26, h27, h28⟩
  refine ⟨⟨a', d', s2.trans s'⟩, fun e => ?_, w'.trans w⟩
  have := n e
  rw [n' (by rw [this]; exact e), this]

theorem Track.Kept.but {t t' : Track} (h : t.SameBut t') (n : t.note.halt true = t.note → t'.note = t.note)
    (w : t'.unit.waveform = t.unit.waveform) : t.Kept t' := ⟨⟨t.arp, (t.instrDiv, t.arpDiv), h⟩, n, w⟩

theorem Track.Kept.flagged (t : Track) (a b c : Bool) : t.Kept { t with updVolume := a, updNote := b, updDuty := c } :=
  .but ((Track.SameBut.refl t).flags a b c) (fun _ => rfl) rfl

theorem Track.updateUnit_kept {x : Nat} {w : IWorld} {t t' : Track} (h : t.updateUnit x w = .ok t') : t.Kept t' :=
  .but (Track.updateUnit_same h).1 (fun _ => (Track.updateUnit_same h).2.note) (Track.updateUnit_wave h).waveform

theorem Track.setMute_kept {t t' : Track} {v : Int} (h : t.setUnit .mute v = .ok t') : t.Kept t' := by
  refine .but (Track.setUnit_same h) (fun _ => (Track.setUnit_note h).note) ?_
  obtain ⟨y, hy, rfl⟩ := Track.setUnit_eq h
  cases hy
  rfl

theorem Track.setRelease_kept {t t' : Track} {v : Int} (h : t.setUnit .flagRelease v = .ok t') : t.Kept t' := by
  refine .but (Track.setUnit_same h) (fun _ => (Track.setUnit_note h).note) ?_
  obtain ⟨y, hy, rfl⟩ := Track.setUnit_eq h
  unfold UCore.setAttr at hy
  dsimp only at hy
  show y.2.waveform = _
  split at hy
  · split at hy
    · split at hy
      · cases hy; rfl
      · obtain ⟨p, -, hy⟩ := bind_ok_iff.1 hy
        cases hy; rfl
    · cases hy; rfl
  · cases hy; rfl

theorem Track.silence_kept {t t' : Track} (h : t.silence = .ok t') : t.Kept t' := by
  unfold Track.silence at h
  obtain ⟨a, ha, h⟩ := bind_ok_iff.1 h
  obtain ⟨b, hb, h⟩ := bind_ok_iff.1 h
  cases h
  exact ((Track.setMute_kept ha).trans (Track.setRelease_kept hb)).trans (.flagged _ _ _ _)

theorem Track.stopNote_kept (t : Track) : t.Kept t.stopNote := .but t.stopNote_same (fun e => e) rfl

theorem Track.told_kept {x : Nat} {w : IWorld} {t t' : Track} {e : InstrEvent} (h : t.told x w e = .ok t') : t.Kept t' := by
  cases e <;> unfold Track.told at h <;> dsimp only at h
  · exact (Track.Kept.flagged t true true true).trans (Track.updateUnit_kept h)
  · split at h
    · obtain ⟨a, ha, h⟩ := bind_ok_iff.1 h
      cases h
      exact ((t.stopNote_kept).trans (Track.silence_kept ha)).trans (.flagged _ _ _ _)
    · cases h; exact .flagged _ _ _ _
  · exact ((t.stopNote_kept).trans (.flagged _ _ _ _)).trans (Track.silence_kept h)

theorem Track.hear_kept {x : Nat} {w w' : IWorld} {t t' : Track} (h : t.hear x w w' = .ok t') : t.Kept t' := by
  unfold Track.hear at h
  exact foldlM_inv (P := fun s => t.Kept s) (fun s e s' hs he => hs.trans (Track.told_kept he)) _ (.refl t) h

/-- Ticks without effects. -/
theorem Track.tick_kept {x : Nat} {w : IWorld} {t : Track} {s : IWorld × Track} (h : t.tick x w = .ok s) (he : t.effectsOff) :
    t.Kept s.2 ∧ s.2.updVolume = false ∧ s.2.updNote = false ∧ s.2.updDuty = false := by
  obtain ⟨t1, r, t2, g1, gr, g2, g3, e⟩ := Track.tick_stages h
  obtain ⟨a1, d1, n1, rfl⟩ := Track.arpeggioTick_same g1
  have ka : t.Kept { t.flagEffects with arp := a1, arpDiv := d1, updNote := n1 } :=
    (Track.Kept.flagged t _ _ _).trans ((Track.Kept.flagged t.flagEffects _ n1 _).trans ⟨⟨a1, (t.instrDiv, d1), .refl _⟩, fun _ => rfl, rfl⟩)
  generalize ({ t.flagEffects with arp := a1, arpDiv := d1, updNote := n1 } : Track) = t1 at *
  have k1 : t1.Kept r.2 := by
    unfold Track.instrTick at gr
    split at gr
    · obtain ⟨q, -, gr⟩ := bind_ok_iff.1 gr
      obtain ⟨w', -, gr⟩ := bind_ok_iff.1 gr
      obtain ⟨t3, k3, gr⟩ := bind_ok_iff.1 gr
      cases gr
      have := Track.hear_kept k3
      exact (Track.Kept.trans (u := { t1 with instrDiv := q.2 }) ⟨⟨t1.arp, (q.2, t1.arpDiv), .refl _⟩, fun _ => rfl, rfl⟩ this).trans (.flagged _ _ _ _)
    · cases gr; exact .refl _
  have k0 : t.Kept t2 := (ka.trans k1).trans (Track.updateUnit_kept g2)
  have hoff : t2.effects = false := by
    obtain ⟨⟨a, d, s⟩, -, -⟩ := k0
    obtain ⟨q1, q2, q3, q4, q5⟩ := he
    unfold Track.effects
    rw [s.portamento, s.volumeSlide, s.panningSlide, s.tremoloOn, s.vibratoOn]
    dsimp only
    rw [q1, q2, q3, q4, q5]
    rfl
  unfold Track.effectsTick at g3
  rw [if_neg (by rw [hoff]; exact fun q => by cases q)] at g3
  have g3 := Except.ok.inj g3
  rw [← g3]
  exact ⟨k0, Track.updateUnit_clean g2⟩

/-- A note after silence, the instrument being attacked. -/
theorem Track.newNote_kept {x : Nat} {w : IWorld} {t : Track} {v : Int} {r : IWorld × Track} (hwt : t.waveform ≠ 16391)
    {s : Slide} (h0 : 0 ≤ v) (h1 : v ≤ 100663296) (hs : t.note.setValue v = .ok s)
    (h : t.setNote x w v = .ok r) : ({ t with note := s.halt true } : Track).Kept r.2 ∨ t.curNote ≠ -1 := by
  by_cases hc : t.curNote = -1
  swap
  · exact .inr hc
  refine .inl ?_
  unfold Track.setNote Track.noteCase at h
  rw [if_pos (by omega)] at h
  unfold Track.playNote at h
  dsimp only at h
  rw [show cclamp v 0 (96 * 1048576) = v from cclamp_self h0 h1, hs] at h
  rw [ok_bind] at h
  obtain ⟨r1, hr1, h⟩ := bind_ok_iff.1 h
  obtain ⟨r2, hr2, hr1⟩ := bind_ok_iff.1 hr1
  obtain ⟨t0, ht0, hr1⟩ := bind_ok_iff.1 hr1
  obtain ⟨t1, ht1, hr1⟩ := bind_ok_iff.1 hr1
  obtain ⟨t2, ht2, hr1⟩ := bind_ok_iff.1 hr1
  cases hr1
  cases h
  have k1 : ({ t with note := s.halt true } : Track).Kept r2.2 := by
    unfold Track.startNote at hr2
    dsimp only at hr2
    rw [if_pos hc] at hr2
    split at hr2
    · obtain ⟨r3, hr3, hr2⟩ := bind_ok_iff.1 hr2
      cases hr2
      unfold Track.instrAttack at hr3
      obtain ⟨w', -, hr3⟩ := bind_ok_iff.1 hr3
      obtain ⟨t3, ht3, hr3⟩ := bind_ok_iff.1 hr3
      cases hr3
      have k := Track.hear_kept ht3
      have k' : ({ t with note := s.halt true } : Track).Kept { t with note := s.halt true, instrDiv := { t.instrDiv with counter := 0 } } :=
        ⟨⟨t.arp, (_, t.arpDiv), .refl _⟩, fun _ => rfl, rfl⟩
      have k'' : t3.Kept { t3.flagSeqs x w' with arp := { t3.arp with offset := 0 } } :=
        (Track.Kept.flagged t3 _ _ _).trans ⟨⟨_, (t3.instrDiv, t3.arpDiv), .refl _⟩, fun _ => rfl, rfl⟩
      exact (k'.trans k).trans k''
    · cases hr2
      exact ⟨⟨_, (t.instrDiv, t.arpDiv), .refl _⟩, fun _ => rfl, rfl⟩
  unfold Track.startSample at ht0
  have hw2 : r2.2.waveform = t.waveform := by
    obtain ⟨⟨a, d, s⟩, -, -⟩ := k1
    exact s.waveform
  rw [if_neg (fun q => hwt (hw2 ▸ q.1))] at ht0
  cases ht0
  have k2 : r2.2.Kept ({ r2.2 with curNote := v } : Track) := .but { Track.SameBut.refl r2.2 with } (fun _ => rfl) rfl
  exact (((k1.trans k2).trans (Track.setMute_kept ht1)).trans (Track.setRelease_kept ht2)).trans (.flagged _ _ _ _)

/-- The release of a note. -/
theorem Track.release_kept {x : Nat} {w : IWorld} {t : Track} {r : IWorld × Track} (hon : w.on x = true)
    (h : t.setNote x w (-1) = .ok r) : t.Kept r.2 := by
  unfold Track.setNote Track.noteCase at h
  rw [if_neg (by decide), if_pos rfl] at h
  obtain ⟨r1, hr1, h⟩ := bind_ok_iff.1 h
  cases h
  unfold Track.releaseNote at hr1
  dsimp only at hr1
  rw [if_pos hon] at hr1
  obtain ⟨r2, hr2, hr1⟩ := bind_ok_iff.1 hr1
  obtain ⟨t1, ht1, hr1⟩ := bind_ok_iff.1 hr1
  cases hr1
  unfold Track.instrPhase at hr2
  obtain ⟨w', -, hr2⟩ := bind_ok_iff.1 hr2
  obtain ⟨t2, ht2, hr2⟩ := bind_ok_iff.1 hr2
  cases hr2
  have k0 : t.Kept ({ t with curNote := -1 } : Track) := .but { Track.SameBut.refl t with } (fun _ => rfl) rfl
  exact (((k0.trans (Track.hear_kept ht2)).trans (.flagged _ _ _ _)).trans (Track.setRelease_kept ht1)).trans (.flagged _ _ _ _)

/-- Many ticks in a world. -/
theorem world_ticks {fuel x : Nat} : ∀ (n : Nat) {s s2 : TWorld} {t : Track}, s.tracks x = some t → t.effectsOff →
    s.run fuel (List.replicate n (.track x .tick)) = .ok s2 →
    ∃ t2, s2.tracks x = some t2 ∧ t.Kept t2 ∧ (n ≠ 0 → t2.updVolume = false ∧ t2.updNote = false ∧ t2.updDuty = false)
  | 0, s, s2, t, ht, he, h => by
    cases h
    exact ⟨t, ht, .refl t, fun h => absurd rfl h⟩
  | n + 1, s, s2, t, ht, he, h => by
    rw [List.replicate_succ] at h
    unfold TWorld.run at h
    obtain ⟨s1, h1, h⟩ := bind_ok_iff.1 h
    unfold TWorld.exec at h1
    dsimp only at h1
    rw [ht] at h1
    obtain ⟨r, hr, h1⟩ := bind_ok_iff.1 h1
    cases h1
    have hr : t.tick x s.iw = .ok r := hr
    obtain ⟨k, c⟩ := Track.tick_kept hr he
    obtain ⟨⟨a, d, sb⟩, -, -⟩ := id k
    obtain ⟨t2, k1, k2, k3⟩ := world_ticks n (s := ⟨r.1, upd s.tracks x (some r.2)⟩) (t := r.2) (upd_self _ _ _)
      ⟨sb.volumeSlide.trans he.1, sb.panningSlide.trans he.2.1, sb.tremoloOn.trans he.2.2.1, sb.portamento.trans he.2.2.2.1, sb.vibratoOn.trans he.2.2.2.2⟩ h
    refine ⟨t2, k1, k.trans k2, fun _ => ?_⟩
    by_cases hn : n = 0
    · subst hn
      cases h
      have : some r.2 = some t2 := (upd_self _ _ _).symm.trans k1
      cases this
      exact c
    · exact k3 hn

/-- The volumes of both channels of a track whose volume is up to date. -/
theorem Track.VolNow.sides {x : Nat} {w : IWorld} {t : Track} (h : t.VolNow x w) (hon : w.on x = true) (hig : t.ignores = false) (htr : t.tremoloOn = false)
    (hpo : t.panningOn = true) {v p : Int} (hv : t.volume.get = .ok v) (hp : t.panning.get = .ok p)
    (hm0 : 0 ≤ t.masterVolume) (hm1 : t.masterVolume ≤ 32767) {V P : Int}
    (hV : V = max 0 (min 32767 (v * w.value x 0 / 32768)) * t.masterVolume / 32768) (hP : P = max (-32767) (min 32767 (p + w.value x 1))) :
    t.unit.volume 0 = leftOf V P ∧ t.unit.volume 1 = rightOf V P := by
  obtain ⟨m, hm, h1, h2⟩ := h
  obtain ⟨v', p', z, e1, e2, e3, e4, e5⟩ := Track.mix_ok hm
  unfold Track.ownVolume at e1
  rw [hv, ok_bind, hig] at e1
  cases e1
  rw [hp] at e2
  cases e2
  unfold Track.tremoloVolume at e3
  rw [htr, if_neg (fun q => by cases q.1)] at e3
  cases e3
  rw [if_neg (fun q => by cases q.1)] at e4
  unfold instrVolume at e4
  rw [hon, hig] at e4
  simp only [Bool.not_false, Bool.true_or, Bool.and_self, if_true] at e4
  rw [hon, if_pos rfl] at e5
  have hcl : ∀ a lo hi : Int, lo ≤ hi → cclamp a lo hi = max lo (min hi a) := fun a lo hi h => by
    unfold cclamp; split
    · omega
    · split <;> omega
  rw [hcl _ _ _ (by decide)] at e4
  rw [← hV] at e4
  have hV0 : 0 ≤ V ∧ V ≤ 32767 := by
    have a0 : 0 ≤ max 0 (min 32767 (v * w.value x 0 / 32768)) := by omega
    have a1 : max 0 (min 32767 (v * w.value x 0 / 32768)) ≤ 32767 := by omega
    generalize max 0 (min 32767 (v * w.value x 0 / 32768)) = y at *
    have b0 := Int.mul_nonneg a0 hm0
    have b1 := Int.mul_le_mul a1 hm1 hm0 (by decide)
    omega
  by_cases hz : m.2 ≠ 0
  · obtain ⟨c, hc, c0, c1⟩ := h1 ⟨hz, hpo⟩
    rw [c0, c1]
    unfold pan at hc
    dsimp only at hc
    rw [hcl m.2 _ _ (by decide), e5, ← hP, e4] at hc
    have hP0 : -32767 ≤ P ∧ P ≤ 32767 := by clear h1 h2 hc c0 c1 e5; omega
    obtain ⟨a, ha, hc⟩ := bind_ok_iff.1 hc
    obtain ⟨b, hb, hc⟩ := bind_ok_iff.1 hc
    cases hc
    have ha := scaleIf_ok ha
    have hb := scaleIf_ok hb
    have f1 : ∀ q : Int, 0 ≤ q → q ≤ 32767 → 0 ≤ V * q / 32768 ∧ V * q / 32768 ≤ 32767 := fun q q0 q1 => by
      have b0 := Int.mul_nonneg hV0.1 q0
      have b1 := Int.mul_le_mul hV0.2 q1 q0 (by decide)
      omega
    simp only [decide_eq_true_eq] at ha hb
    unfold leftOf rightOf
    constructor
    · rw [ha]
      split
      · have := f1 (32767 - P) (by omega) (by omega)
        exact cclamp_self this.1 this.2
      · exact cclamp_self hV0.1 hV0.2
    · rw [hb]
      split
      · have := f1 (32767 + P) (by omega) (by omega)
        exact cclamp_self this.1 this.2
      · exact cclamp_self hV0.1 hV0.2
  · have := h2 (fun q => hz q.1)
    have hP0 : P = 0 := by clear h1 h2 this; omega
    rw [this, e4, hP0]
    dsimp only
    rw [cclamp_self hV0.1 hV0.2]
    exact ⟨rfl, rfl⟩

end BK
