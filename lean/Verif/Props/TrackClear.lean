import Verif.Lemmas.TrackNote
import Verif.Lemmas.IRun
/-!
C58: clearing tracks.
-/
namespace BK

/-- Sample settings of a cleared unit. -/
structure UCore.Plain (c : UCore) : Prop where
  wrap : c.wrap = 0
  repeatMode : c.repeatMode = 0
  samplePeriod : c.samplePeriod = U20
  jump : c.sustainJump = false
  release : c.release = false
  range : c.sustainRange = false

theorem UCore.clear_plain {c c' : UCore} {ctx : Option Int} (h : c.clear ctx = .ok c') : c'.Plain := by
  unfold UCore.clear at h
  obtain ⟨r, -, h⟩ := bind_ok_iff.1 h
  obtain ⟨r', -, h⟩ := bind_ok_iff.1 h
  cases h
  exact ⟨rfl, rfl, rfl, rfl, rfl, rfl⟩

theorem UCore.Plain.setAttr {c : UCore} (hc : c.Plain) {a : UAttr} {v : Int} {r : Ret × UCore}
    (ha : a = .period ∨ a = .dutyCycle ∨ a = .waveform ∨ a = .mute ∨ a = .flagRelease)
    (h : c.setAttr a v = .ok r) : r.2.Plain := by
  obtain ⟨h1, h2, h3, h4, h5, h6⟩ := hc
  unfold UCore.setAttr at h
  rcases ha with rfl | rfl | rfl | rfl | rfl <;> dsimp only at h
  · obtain ⟨z, -, h⟩ := bind_ok_iff.1 h
    cases h; exact ⟨h1, h2, h3, h4, h5, h6⟩
  · split at h <;> cases h <;> exact ⟨h1, h2, h3, h4, h5, h6⟩
  · split at h
    · cases h
      dsimp only
      split <;> exact ⟨h1, h2, h3, h4, h5, h6⟩
    · cases h; exact ⟨h1, h2, h3, h4, h5, h6⟩
  · cases h; exact ⟨h1, h2, h3, h4, h5, h6⟩
  · rw [h6] at h
    rw [if_neg (by decide)] at h
    cases h; exact ⟨h1, h2, h3, h4, h5, h6⟩

theorem Track.setUnit_plain {t t' : Track} {a : UAttr} {v : Int} (hc : t.unit.toUCore.Plain)
    (ha : a = .period ∨ a = .dutyCycle ∨ a = .waveform ∨ a = .mute ∨ a = .flagRelease)
    (h : t.setUnit a v = .ok t') : t'.unit.toUCore.Plain := by
  obtain ⟨r, hr, rfl⟩ := Track.setUnit_eq h
  exact hc.setAttr ha hr

theorem Track.silence_plain {t t' : Track} (hc : t.unit.toUCore.Plain) (h : t.silence = .ok t') :
    t'.unit.toUCore.Plain := by
  unfold Track.silence at h
  obtain ⟨a, ha, h⟩ := bind_ok_iff.1 h
  obtain ⟨b, hb, h⟩ := bind_ok_iff.1 h
  cases h
  have := Track.setUnit_plain (Track.setUnit_plain hc (.inr (.inr (.inr (.inl rfl)))) ha)
    (.inr (.inr (.inr (.inr rfl)))) hb
  exact this

/-- Muting without instrument. -/
theorem Track.mute_off {x : Nat} {w : IWorld} {t : Track} {r : IWorld × Track}
    (hoff : w.on x = false) (h : t.setNote x w (-2) = .ok r) :
    r.1 = w ∧ ∃ u, t.stopNote.silence = .ok u ∧ r.2 = { u with updNote := true } := by
  unfold Track.setNote Track.noteCase at h
  rw [if_neg (by decide), if_neg (by decide), if_pos rfl] at h
  obtain ⟨r1, h1, h⟩ := bind_ok_iff.1 h
  cases h
  unfold Track.muteNote at h1
  dsimp only at h1
  rw [if_neg (by rw [hoff]; decide)] at h1
  obtain ⟨r2, h2, h1⟩ := bind_ok_iff.1 h1
  cases h2
  obtain ⟨u, hu, h1⟩ := bind_ok_iff.1 h1
  cases h1
  exact ⟨rfl, u, hu, rfl⟩

/-- Removing the instrument. -/
theorem Track.unsetInstrument {x : Nat} {w : IWorld} {t : Track} {r : IWorld × Track}
    (h : t.setInstrument x w none = .ok r) :
    r.1.on x = false ∧ (t.unit.toUCore.Plain → r.2.unit.toUCore.Plain) := by
  unfold Track.setInstrument at h
  split at h
  · obtain ⟨r1, h1, h⟩ := bind_ok_iff.1 h
    cases h
    unfold Track.changeInstrument at h1
    obtain ⟨w1, hw, h1⟩ := bind_ok_iff.1 h1
    have hoff : w1.on x = false := by
      cases hw
      unfold IWorld.on
      dsimp only
      rw [Links.owner_removeState, if_pos rfl]
      rfl
    dsimp only at h1 ⊢
    split at h1
    · obtain ⟨e, u, hu, e2⟩ := Track.mute_off hoff h1
      rw [e, e2]
      have := fun hp => Track.silence_plain (t := t.stopNote) hp hu
      exact ⟨hoff, this⟩
    · cases h1
      exact ⟨hoff, fun hp => hp⟩
  · rename_i hc
    obtain ⟨r1, h1, h⟩ := bind_ok_iff.1 h
    cases h1
    cases h
    have : w.links.owner x = none := by
      by_contra hn
      exact hc (fun h => hn h.symm)
    exact ⟨by unfold IWorld.on; rw [this]; rfl, fun hp => hp⟩

theorem Track.plain_profile {t : Track} (hp : t.unit.toUCore.Plain) (hm : t.unit.mute = 1)
    (hv : t.volume = { endValue := 32767 * 32768, value := 32767 * 32768, valueShift := 15 })
    (hpan : t.panning = Slide.init 32767) (hn : t.note = Slide.init 0) (hc : t.curNote = -1)
    (hs : t.samplePitch = 0) (ha : t.arpDiv = ⟨4, 0⟩) (he : t.effectDiv = ⟨1, 0⟩)
    (hi : t.instrDiv = ⟨4, 0⟩) (htd : t.tremoloDelta = Slide.init 32767)
    (hts : t.tremoloSteps = Slide.init 65536) (hvd : t.vibratoDelta = Slide.init 0)
    (hvs : t.vibratoSteps = Slide.init 65536) (har : t.arp = {}) :
    t.profile =
      ([.ok (some 32767), .ok (some 0), .ok (some (-1)), .ok (some 0), .ok (some 4), .ok (some 1),
        .ok (some 4), .ok (some 0), .ok (some 0), .ok (some 0), .ok (some 1), .ok (some 0),
        .ok (some 0), .ok (some U20), .ok (some 0), .ok (some 0)],
       [[0, 0, 0], [0, 0, 0], [0, 0, 0], [0, 0, 0], [0, 0, 0], [0]]) := by
  obtain ⟨h1, h2, h3, h4, h5, h6⟩ := hp
  have e1 : t.getAttr .volume = .ok (some 32767) := by unfold Track.getAttr; rw [hv]; rfl
  have e2 : t.getAttr .panning = .ok (some 0) := by unfold Track.getAttr; rw [hpan]; rfl
  have e3 : t.getAttr .note = .ok (some (-1)) := by unfold Track.getAttr; rw [hc]
  have e4 : t.getAttr .samplePitch = .ok (some 0) := by unfold Track.getAttr; rw [hs]
  have e5 : t.getAttr .arpeggioDivider = .ok (some 4) := by unfold Track.getAttr; rw [ha]
  have e6 : t.getAttr .effectDivider = .ok (some 1) := by unfold Track.getAttr; rw [he]
  have e7 : t.getAttr .instrDivider = .ok (some 4) := by unfold Track.getAttr; rw [hi]
  have e8 : t.getAttr (.slide .volumeSlide) = .ok (some 0) := by unfold Track.getAttr; rw [hv]
  have e9 : t.getAttr (.slide .panningSlide) = .ok (some 0) := by unfold Track.getAttr; rw [hpan]; rfl
  have e10 : t.getAttr (.slide .portamento) = .ok (some 0) := by unfold Track.getAttr; rw [hn]; rfl
  have e11 : t.getAttr (.unit .mute) = .ok (some 1) := by
    unfold Track.getAttr FAttr.attr UCore.getAttr; dsimp only; rw [hm]
  have e12 : t.getAttr (.unit .phaseWrap) = .ok (some 0) := by
    unfold Track.getAttr FAttr.attr UCore.getAttr; dsimp only; rw [h1]; rfl
  have e13 : t.getAttr (.unit .sampleRepeat) = .ok (some 0) := by
    unfold Track.getAttr FAttr.attr UCore.getAttr; dsimp only; rw [h2]; rfl
  have e14 : t.getAttr (.unit .samplePeriod) = .ok (some U20) := by
    unfold Track.getAttr FAttr.attr UCore.getAttr; dsimp only; rw [h3]; rfl
  have e15 : t.getAttr (.unit .immedRelease) = .ok (some 0) := by
    unfold Track.getAttr FAttr.attr UCore.getAttr; dsimp only; rw [h4]; rfl
  have e16 : t.getAttr (.unit .flagRelease) = .ok (some 0) := by
    unfold Track.getAttr FAttr.attr UCore.getAttr; dsimp only; rw [h5]; rfl
  have f1 : t.getEffect .volumeSlide = [0, 0, 0] := by unfold Track.getEffect; rw [hv]
  have f2 : t.getEffect .panningSlide = [0, 0, 0] := by unfold Track.getEffect; rw [hpan]; rfl
  have f3 : t.getEffect .portamento = [0, 0, 0] := by unfold Track.getEffect; rw [hn]; rfl
  have f4 : t.getEffect .tremolo = [0, 0, 0] := by unfold Track.getEffect; rw [htd, hts]; rfl
  have f5 : t.getEffect .vibrato = [0, 0, 0] := by unfold Track.getEffect; rw [hvd, hvs]; rfl
  have f6 : t.getArpeggio = [0] := by unfold Track.getArpeggio; rw [har]; rfl
  unfold Track.profile
  simp only [List.map_cons, List.map_nil, e1, e2, e3, e4, e5, e6, e7, e8, e9, e10, e11, e12, e13,
    e14, e15, e16, f1, f2, f3, f4, f5, f6]

/-- What is known after clearing. -/
structure Track.Cleared (t0 : Track) (w : IWorld) (x : Nat) (t : Track) : Prop where
  off : w.on x = false
  profile : t.profile =
      ([.ok (some 32767), .ok (some 0), .ok (some (-1)), .ok (some 0), .ok (some 4), .ok (some 1),
        .ok (some 4), .ok (some 0), .ok (some 0), .ok (some 0), .ok (some 1), .ok (some 0),
        .ok (some 0), .ok (some U20), .ok (some 0), .ok (some 0)],
       [[0, 0, 0], [0, 0, 0], [0, 0, 0], [0, 0, 0], [0, 0, 0], [0]])
  pitch : t.pitch = 0
  effects : t.effects = false
  arpeggioOn : t.arpeggioOn = false
  master : t.masterVolume = cclamp t0.masterVolume 0 32767
  duty : t.dutyCycle = cclamp t0.dutyCycle 1 15
  triangle : t.triangleIgnores = t0.triangleIgnores
  waveform : t.waveform = if 16385 ≤ t0.waveform ∧ t0.waveform ≤ 16389 then t0.waveform else 0
  pending : t.updVolume = true ∧ t.updNote = true ∧ t.updDuty = true

theorem Track.setWaveform_plain {x : Nat} {w : IWorld} {t : Track} {v : Int} {r : Ret × Track}
    (hw : t.waveform = 0) (hp : t.unit.toUCore.Plain) (h : t.setWaveform x w v = .ok r) :
    r.2.unit.toUCore.Plain ∧
    r.2.waveform = (if 16385 ≤ v ∧ v ≤ 16389 then v else 0) ∧
    (∃ a b d, ({ t with waveform := a, ignores := b, dataId := d } : Track).SameBut r.2) ∧
    t.SameNote r.2 ∧ (t.updVolume = true → r.2.updVolume = true) := by
  unfold Track.setWaveform at h
  obtain ⟨q, hq, h⟩ := bind_ok_iff.1 h
  have hqp := hp.setAttr (by simp) hq
  dsimp only at h
  have hcode : (q.1 = .ok → q.2.waveform.code = if 16385 ≤ v ∧ v ≤ 16389 then v else 0) ∧
      (q.1 ≠ .ok → ¬ (16385 ≤ v ∧ v ≤ 16389)) := by
    unfold UCore.setAttr at hq
    dsimp only at hq
    split at hq
    · rename_i wv n hwv
      cases hq
      refine And.intro (fun _ => ?_) (fun h => absurd rfl h)
      have : (if t.unit.waveform ≠ wv then
          ({ t.unit.toUCore with count := n, phase := 0, waveform := wv } : UCore)
          else { t.unit.toUCore with count := n }).waveform = wv := by
        split
        · rfl
        · rename_i hne; exact Decidable.not_not.1 hne
      refine (congrArg Wave.code this).trans ?_
      unfold waveOfAttr at hwv
      by_cases h0 : v = 0
      · rw [if_pos h0] at hwv; cases hwv; rw [if_neg (by omega)]; rfl
      · rw [if_neg h0] at hwv
        by_cases h1 : v = 16385
        · rw [if_pos h1] at hwv; cases hwv; rw [if_pos (by omega), h1]; rfl
        · rw [if_neg h1] at hwv
          by_cases h2 : v = 16386
          · rw [if_pos h2] at hwv; cases hwv; rw [if_pos (by omega), h2]; rfl
          · rw [if_neg h2] at hwv
            by_cases h3 : v = 16387
            · rw [if_pos h3] at hwv; cases hwv; rw [if_pos (by omega), h3]; rfl
            · rw [if_neg h3] at hwv
              by_cases h4 : v = 16388
              · rw [if_pos h4] at hwv; cases hwv; rw [if_pos (by omega), h4]; rfl
              · rw [if_neg h4] at hwv
                by_cases h5 : v = 16389
                · rw [if_pos h5] at hwv; cases hwv; rw [if_pos (by omega), h5]; rfl
                · rw [if_neg h5] at hwv; cases hwv
    · rename_i hwv
      cases hq
      refine ⟨fun h => (by cases h), fun _ hv => ?_⟩
      unfold waveOfAttr at hwv
      by_cases h1 : v = 16385
      · rw [h1] at hwv; cases hwv
      · by_cases h2 : v = 16386
        · rw [h2] at hwv; cases hwv
        · by_cases h3 : v = 16387
          · rw [h3] at hwv; cases hwv
          · by_cases h4 : v = 16388
            · rw [h4] at hwv; cases hwv
            · have h5 : v = 16389 := by omega
              rw [h5] at hwv; cases hwv
  split at h
  · rename_i hok
    obtain ⟨t1, h1, h⟩ := bind_ok_iff.1 h
    cases h
    obtain ⟨sb, sn⟩ := Track.updateNote_same h1
    have hwf : t1.waveform = if 16385 ≤ v ∧ v ≤ 16389 then v else 0 := by
      rw [sb.waveform]; exact hcode.1 hok
    have sb' : ∃ a b d, ({ t with waveform := a, ignores := b, dataId := d } : Track).SameBut t1 :=
      ⟨t1.waveform, t1.ignores, t1.dataId, sb.arp, sb.arpDiv, sb.instrDiv, sb.effectDiv, sb.arpeggioOn,
        sb.volumeSlide, sb.panningSlide, sb.portamento, sb.tremoloOn, sb.vibratoOn, sb.volume,
        sb.panning, sb.tremolo, sb.tremoloDelta, sb.tremoloSteps, sb.vibrato, sb.vibratoDelta,
        sb.vibratoSteps, sb.ctx, rfl, sb.masterVolume, sb.dutyCycle, sb.pitch, sb.samplePitch,
        sb.panningOn, rfl, sb.triangleIgnores, rfl⟩
    refine ⟨?_, hwf, sb', ⟨sn.note, sn.curNote⟩, ?_⟩
    · unfold Track.updateNote at h1
      split at h1
      · cases h1; exact hqp
      · obtain ⟨n, -, h1⟩ := bind_ok_iff.1 h1
        have hns : q.2.waveform.code ≠ 16391 := by rw [hcode.1 hok]; split <;> omega
        unfold Track.updateIgnore at h1
        dsimp only at h1
        rw [if_pos hns] at h1
        obtain ⟨p, -, h1⟩ := bind_ok_iff.1 h1
        obtain ⟨p', -, h1⟩ := bind_ok_iff.1 h1
        exact Track.setUnit_plain (by exact hqp) (by simp) h1
    · intro _
      unfold Track.updateNote at h1
      split at h1
      · cases h1; rfl
      · obtain ⟨n, -, h1⟩ := bind_ok_iff.1 h1
        split at h1
        · obtain ⟨p, -, h1⟩ := bind_ok_iff.1 h1
          obtain ⟨p', -, h1⟩ := bind_ok_iff.1 h1
          obtain ⟨z, -, rfl⟩ := Track.setUnit_eq h1
          rfl
        · obtain ⟨p, -, h1⟩ := bind_ok_iff.1 h1
          obtain ⟨p', -, h1⟩ := bind_ok_iff.1 h1
          obtain ⟨z, -, rfl⟩ := Track.setUnit_eq h1
          rfl
  · rename_i hno
    cases h
    refine ⟨hqp, ?_, ⟨t.waveform, t.ignores, t.dataId, ?_⟩, ⟨rfl, rfl⟩, fun h => h⟩
    · rw [if_neg (hcode.2 hno)]; exact hw
    · exact ⟨rfl, rfl, rfl, rfl, rfl, rfl, rfl, rfl, rfl, rfl, rfl, rfl, rfl, rfl, rfl, rfl, rfl, rfl,
        rfl, rfl, rfl, rfl, rfl, rfl, rfl, rfl, rfl, rfl⟩

theorem Track.silence_eq {t t' : Track} (h : t.silence = .ok t') :
    ∃ u, t' = { t with unit := u, updNote := true } := by
  unfold Track.silence at h
  obtain ⟨a, ha, h⟩ := bind_ok_iff.1 h
  obtain ⟨b, hb, h⟩ := bind_ok_iff.1 h
  cases h
  obtain ⟨r, -, rfl⟩ := Track.setUnit_eq ha
  obtain ⟨r', -, rfl⟩ := Track.setUnit_eq hb
  exact ⟨_, rfl⟩

theorem Track.unsetInstrument_triangle {x : Nat} {w : IWorld} {t : Track} {r : IWorld × Track}
    (h : t.setInstrument x w none = .ok r) : r.2.triangleIgnores = t.triangleIgnores := by
  unfold Track.setInstrument at h
  split at h
  · obtain ⟨r1, h1, h⟩ := bind_ok_iff.1 h
    cases h
    unfold Track.changeInstrument at h1
    obtain ⟨w1, hw, h1⟩ := bind_ok_iff.1 h1
    have hoff : w1.on x = false := by
      cases hw
      unfold IWorld.on
      dsimp only
      rw [Links.owner_removeState, if_pos rfl]
      rfl
    dsimp only at h1 ⊢
    split at h1
    · obtain ⟨e, u, hu, e2⟩ := Track.mute_off hoff h1
      obtain ⟨u', rfl⟩ := Track.silence_eq hu
      rw [e2]
      rfl
    · cases h1
      rfl
  · obtain ⟨r1, h1, h⟩ := bind_ok_iff.1 h
    cases h1
    cases h
    rfl

/-- Slides after `BKTrackClear`. -/
def Track.clearedVolume : Slide := { endValue := 32767 * 32768, value := 32767 * 32768, valueShift := 15 }

theorem Track.clear_cleared {x : Nat} {w : IWorld} {t : Track} {r : IWorld × Track}
    (h : t.clear x w = .ok r) : Track.Cleared t r.1 x r.2 := by
  unfold Track.clear at h
  obtain ⟨u, hu, h⟩ := bind_ok_iff.1 h
  dsimp only at h
  obtain ⟨r1, h1, h⟩ := bind_ok_iff.1 h
  obtain ⟨hoff, hpl⟩ := Track.unsetInstrument h1
  have hp1 := hpl (UCore.clear_plain hu)
  have htri := Track.unsetInstrument_triangle h1
  obtain ⟨w1, t1⟩ := r1
  clear h1 hpl hu
  dsimp only at h hoff hp1 htri
  obtain ⟨r2, h2, h⟩ := bind_ok_iff.1 h
  have e2 : r2 = (.ok, w1.wipe x, { t1.wiped with volume := Track.clearedVolume, updVolume := true }) := by
    unfold Track.setAttr at h2
    dsimp only at h2
    obtain ⟨s, hs, h2'⟩ := bind_ok_iff.1 h2
    cases h2'
    have : (Slide.init 32767).setValue (cclamp 32767 0 32767) = .ok Track.clearedVolume := by
      decide +kernel
    have hs' : (Slide.init 32767).setValue (cclamp 32767 0 32767) = .ok s := hs
    rw [this] at hs'
    injection hs' with hs'
    rw [← hs']
  clear h2
  subst e2
  obtain ⟨r3, h3, h⟩ := bind_ok_iff.1 h
  have e3 : r3 = (.ok, w1.wipe x, { t1.wiped with
      volume := Track.clearedVolume, updVolume := true,
      masterVolume := cclamp t.masterVolume 0 32767 }) := by
    unfold Track.setAttr at h3
    dsimp only at h3
    injection h3 with h3
    rw [← h3]
  clear h3
  subst e3
  obtain ⟨r4, h4, h⟩ := bind_ok_iff.1 h
  unfold Track.setAttr at h4
  dsimp only at h4
  obtain ⟨q4, h4', e4⟩ := bind_ok_iff.1 h4
  injection e4 with e4
  subst e4
  clear h4
  obtain ⟨p4, w4, ⟨a, b, d, s4⟩, n4, v4⟩ := Track.setWaveform_plain (by rfl) (by exact hp1) h4'
  have v4 := v4 rfl
  clear h4'
  obtain ⟨ret4, t4⟩ := q4
  dsimp only at h p4 w4 s4 n4 v4
  obtain ⟨r5, h5, h⟩ := bind_ok_iff.1 h
  unfold Track.setAttr Track.setDuty at h5
  dsimp only at h5
  obtain ⟨q5, h5', e5⟩ := bind_ok_iff.1 h5
  injection e5 with e5
  subst e5
  clear h5
  obtain ⟨q6, h6, e6⟩ := bind_ok_iff.1 h5'
  injection e6 with e6
  subst e6
  clear h5'
  have p5 := p4.setAttr (.inr (.inl rfl)) h6
  have d5 : q6.1 = .ok ∧ wrapI32 q6.2.dutyCycle = cclamp t.dutyCycle 1 15 := by
    have hb : InI32 (cclamp t.dutyCycle 1 15) := by
      have := cclamp_in (x := t.dutyCycle) (show (1 : Int) ≤ 15 by decide)
      unfold InI32; omega
    unfold UCore.setAttr at h6
    dsimp only at h6
    split at h6
    · cases h6; exact ⟨rfl, wrapI32_of_in hb⟩
    · rename_i hne
      cases h6
      rw [Decidable.not_not.1 hne]
      exact ⟨rfl, wrapI32_of_in hb⟩
  clear h6
  obtain ⟨ret6, u6⟩ := q6
  obtain ⟨d6, d5⟩ := d5
  dsimp only at d6 d5 h p5
  subst d6
  rw [if_pos rfl, d5] at h
  obtain ⟨r6, h7, h⟩ := bind_ok_iff.1 h
  unfold Track.setAttr at h7
  dsimp only at h7
  obtain ⟨q7, h7', e7⟩ := bind_ok_iff.1 h7
  injection e7 with e7
  subst e7
  clear h7
  have hoff' : (w1.wipe x).on x = false := hoff
  obtain ⟨e8, y, hy, e9⟩ := Track.mute_off hoff' h7'
  have p7 : y.unit.toUCore.Plain := by
    refine Track.silence_plain ?_ hy
    exact p5
  obtain ⟨u7, rfl⟩ := Track.silence_eq hy
  clear hy h7'
  obtain ⟨w7, t7⟩ := q7
  dsimp only at e8 e9 h p7
  subst e8
  subst e9
  obtain ⟨r8, h8, h⟩ := bind_ok_iff.1 h
  injection h with h
  subst h
  unfold Track.setAttr at h8
  dsimp only at h8
  obtain ⟨q8, h8', e10⟩ := bind_ok_iff.1 h8
  injection e10 with e10
  subst e10
  clear h8
  have p8 := p7.setAttr (.inr (.inr (.inr (.inl rfl)))) h8'
  have m8 : q8.2.mute = 1 := by
    unfold UCore.setAttr FAttr.attr at h8'
    cases h8'
    rfl
  refine
    { off := hoff
      profile := Track.plain_profile p8 m8 s4.volume s4.panning ?_ rfl s4.samplePitch s4.arpDiv
        s4.effectDiv s4.instrDiv s4.tremoloDelta s4.tremoloSteps s4.vibratoDelta s4.vibratoSteps s4.arp
      pitch := s4.pitch
      effects := ?_
      arpeggioOn := s4.arpeggioOn
      master := s4.masterVolume
      duty := rfl
      triangle := s4.triangleIgnores.trans htri
      waveform := w4
      pending := ⟨v4, rfl, rfl⟩ }
  · show t4.note.halt true = _
    rw [n4.note]
    rfl
  · unfold Track.effects
    dsimp only [Track.stopNote]
    rw [s4.volumeSlide, s4.panningSlide, s4.portamento, s4.tremoloOn, s4.vibratoOn]
    rfl

theorem Track.reset_cleared {x : Nat} {w : IWorld} {t : Track} {r : IWorld × Track}
    (h : t.reset x w = .ok r) : ∃ t0, Track.Cleared t0 r.1 x r.2 ∧ t0.dutyCycle = 4 ∧
      t0.masterVolume = t.masterVolume ∧ t0.waveform = t.waveform ∧
      t0.triangleIgnores = t.triangleIgnores := by
  unfold Track.reset at h
  obtain ⟨u, hu, h⟩ := bind_ok_iff.1 h
  dsimp only at h
  obtain ⟨q, hq, h⟩ := bind_ok_iff.1 h
  refine ⟨_, Track.clear_cleared h, ?_⟩
  unfold Track.setAttr Track.setDuty at hq
  dsimp only at hq
  obtain ⟨q1, h1, e1⟩ := bind_ok_iff.1 hq
  obtain ⟨q2, h2, e2⟩ := bind_ok_iff.1 h1
  injection e1 with e1
  injection e2 with e2
  rw [← e1, ← e2]
  refine ⟨?_, rfl, rfl, rfl⟩
  unfold UCore.setAttr at h2
  dsimp only at h2
  split at h2
  · cases h2; rfl
  · rename_i hne
    cases h2
    dsimp only
    rw [if_pos rfl, Decidable.not_not.1 hne]
    rfl

theorem Track.init_cleared {x : Nat} {w : IWorld} {wf : Int} {r : IWorld × Track}
    (h : Track.init x w wf = .ok r) : ∃ t0, Track.Cleared t0 r.1 x r.2 ∧ t0.dutyCycle = 4 := by
  unfold Track.init at h
  obtain ⟨u, -, h⟩ := bind_ok_iff.1 h
  dsimp only at h
  obtain ⟨q, -, h⟩ := bind_ok_iff.1 h
  obtain ⟨t0, h0, h1, -⟩ := Track.reset_cleared h
  exact ⟨t0, h0, h1⟩

/-- **C58**: whatever happened to a track before, after it has been cleared all that can be read back
from it (`Track.profile`: volume, panning, note, sample pitch, dividers, slides, tremolo, vibrato,
arpeggio, muting and the sample attributes) and its pitch, instrument, arpeggio and effects are those
of any freshly initialised track; its master volume is the one it had.
Missing: duty cycle and waveform, which are not those of a fresh track (`C58_refuted`). -/
theorem C58_clear_partial {x y : Nat} {w w' : IWorld} {t : Track} {wf : Int} {r f : IWorld × Track}
    (hm : 0 ≤ t.masterVolume ∧ t.masterVolume ≤ 32767)
    (h : t.clear x w = .ok r) (hf : Track.init y w' wf = .ok f) :
    r.2.profile = f.2.profile ∧ r.2.pitch = f.2.pitch ∧ r.2.effects = f.2.effects ∧
    r.2.arpeggioOn = f.2.arpeggioOn ∧ r.1.on x = f.1.on y ∧ r.1.on x = false ∧
    r.2.getAttr .masterVolume = t.getAttr .masterVolume := by
  have c := Track.clear_cleared h
  obtain ⟨t0, d, -⟩ := Track.init_cleared hf
  refine ⟨c.profile.trans d.profile.symm, c.pitch.trans d.pitch.symm, c.effects.trans d.effects.symm,
    c.arpeggioOn.trans d.arpeggioOn.symm, c.off.trans d.off.symm, c.off, ?_⟩
  show (Except.ok (some r.2.masterVolume) : C (Option Int)) = .ok (some t.masterVolume)
  rw [c.master]
  have : cclamp t.masterVolume 0 32767 = t.masterVolume := by unfold cclamp; split <;> (try split) <;> omega
  rw [this]

/-- **C58** for `BKReset`, which also restores the duty cycle. -/
theorem C58_reset_partial {x y : Nat} {w w' : IWorld} {t : Track} {wf : Int} {r f : IWorld × Track}
    (hm : 0 ≤ t.masterVolume ∧ t.masterVolume ≤ 32767)
    (h : t.reset x w = .ok r) (hf : Track.init y w' wf = .ok f) :
    r.2.profile = f.2.profile ∧ r.2.pitch = f.2.pitch ∧ r.2.effects = f.2.effects ∧
    r.2.arpeggioOn = f.2.arpeggioOn ∧ r.1.on x = f.1.on y ∧ r.1.on x = false ∧
    r.2.getAttr .masterVolume = t.getAttr .masterVolume ∧
    r.2.dutyCycle = f.2.dutyCycle := by
  obtain ⟨t1, c, e1, e2, -⟩ := Track.reset_cleared h
  obtain ⟨t0, d, e3⟩ := Track.init_cleared hf
  refine ⟨c.profile.trans d.profile.symm, c.pitch.trans d.pitch.symm, c.effects.trans d.effects.symm,
    c.arpeggioOn.trans d.arpeggioOn.symm, c.off.trans d.off.symm, c.off, ?_, ?_⟩
  · show (Except.ok (some r.2.masterVolume) : C (Option Int)) = .ok (some t.masterVolume)
    rw [c.master, e2]
    have : cclamp t.masterVolume 0 32767 = t.masterVolume := by
      unfold cclamp; split <;> (try split) <;> omega
    rw [this]
  · rw [c.duty, d.duty, e1, e3]

/-- What is kept by clearing: duty cycle, whether the triangle wave ignores the volume, and the
waveform if it is one of the five built-in ones.  Volume, period and duty cycle of the output are
recomputed before it continues. -/
theorem C58_kept {x : Nat} {w : IWorld} {t : Track} {r : IWorld × Track} (h : t.clear x w = .ok r) :
    (1 ≤ t.dutyCycle → t.dutyCycle ≤ 15 → r.2.dutyCycle = t.dutyCycle) ∧
    r.2.triangleIgnores = t.triangleIgnores ∧
    (16385 ≤ t.waveform → t.waveform ≤ 16389 → r.2.waveform = t.waveform) ∧
    (r.2.updVolume = true ∧ r.2.updNote = true ∧ r.2.updDuty = true) := by
  have c := Track.clear_cleared h
  refine ⟨fun h1 h2 => ?_, c.triangle, fun h1 h2 => ?_, c.pending⟩
  · rw [c.duty]; unfold cclamp; split <;> (try split) <;> omega
  · rw [c.waveform, if_pos ⟨h1, h2⟩]

/-- A track that has been used, here with a duty cycle of 7. -/
def usedOps : List WOp :=
  [.init 0 16385, .setSequence 0 0 (.values [32767, 20000] 0 1), .track 0 (.instrument (some 0)),
   .track 0 (.attr .masterVolume 3000), .track 0 (.attr .dutyCycle 7), .track 0 (.attr .volume 9),
   .track 0 (.attr .panning (-50)), .track 0 (.effect .tremolo [20, 1000, 5]),
   .track 0 (.effect .portamento [30]), .track 0 (.arpeggio [2, 0, U20]),
   .track 0 (.attr .arpeggioDivider 3), .track 0 (.attr .note (30 * U20)), .track 0 .tick]

/-- Some of what can be read from track 0 after calls. -/
def readBack (ops : List WOp) : C (Option (List Int)) :=
  (({} : TWorld).run 0 ops).map fun s => (s.tracks 0).map fun t =>
    ([TAttr.masterVolume, .volume, .panning, .note, .dutyCycle, .waveform, .slide .portamento].map
      fun a => match t.getAttr a with | .ok (some v) => v | _ => -99) ++ t.getArpeggio ++
      (if s.iw.on 0 then [1] else [])

example : [usedOps, usedOps ++ [.track 0 .clear]].map readBack =
    [.ok (some [3000, 9, -50, 30 * U20, 7, 16385, 30, 2, 0, U20, 1]),
     .ok (some [3000, 32767, 0, -1, 7, 16385, 0, 0])] := by decide +kernel

/-- A waveform. -/
def waveArg : DataArg := ⟨0, ⟨4, 1, [0, 1000, -1000, 0]⟩, 0⟩

/-- Clearing does not restore all defaults: the duty cycle stays (a fresh track has 4), and a track
with a waveform of its own keeps no waveform at all (a fresh one has a square wave or the one
given). -/
theorem C58_refuted :
    ([[.init 0 16385], [.init 0 16385, .track 0 (.attr .dutyCycle 7), .track 0 .clear],
      [.init 0 16385, .track 0 (.attach 44100 2 0),
       .track 0 (.data .waveform (some waveArg))],
      [.init 0 16385, .track 0 (.attach 44100 2 0),
       .track 0 (.data .waveform (some waveArg)), .track 0 .clear]]
      : List (List WOp)).map (fun ops => (({} : TWorld).run 0 ops).map fun s => (s.tracks 0).map fun t =>
        ((t.getAttr .dutyCycle).toOption, (t.getAttr .waveform).toOption)) =
    [.ok (some (some (some 4), some (some 16385))), .ok (some (some (some 7), some (some 16385))),
     .ok (some (some (some 4), some (some 16390))), .ok (some (some (some 4), some (some 0)))] := by
  decide +kernel

end BK
