import Verif.Spec.Track
import Verif.Lemmas.UnitOps
/-!
What calls on tracks leave alone.
-/
namespace BK

/-- The fields of a track that neither the unit nor pending updates touch. -/
structure Track.SameBut (t t' : Track) : Prop where
  arp : t'.arp = t.arp
  arpDiv : t'.arpDiv = t.arpDiv
  instrDiv : t'.instrDiv = t.instrDiv
  effectDiv : t'.effectDiv = t.effectDiv
  arpeggioOn : t'.arpeggioOn = t.arpeggioOn
  volumeSlide : t'.volumeSlide = t.volumeSlide
  panningSlide : t'.panningSlide = t.panningSlide
  portamento : t'.portamento = t.portamento
  tremoloOn : t'.tremoloOn = t.tremoloOn
  vibratoOn : t'.vibratoOn = t.vibratoOn
  volume : t'.volume = t.volume
  panning : t'.panning = t.panning
  tremolo : t'.tremolo = t.tremolo
  tremoloDelta : t'.tremoloDelta = t.tremoloDelta
  tremoloSteps : t'.tremoloSteps = t.tremoloSteps
  vibrato : t'.vibrato = t.vibrato
  vibratoDelta : t'.vibratoDelta = t.vibratoDelta
  vibratoSteps : t'.vibratoSteps = t.vibratoSteps
  ctx : t'.ctx = t.ctx
  waveform : t'.waveform = t.waveform
  masterVolume : t'.masterVolume = t.masterVolume
  dutyCycle : t'.dutyCycle = t.dutyCycle
  pitch : t'.pitch = t.pitch
  samplePitch : t'.samplePitch = t.samplePitch
  panningOn : t'.panningOn = t.panningOn
  ignores : t'.ignores = t.ignores
  triangleIgnores : t'.triangleIgnores = t.triangleIgnores
  dataId : t'.dataId = t.dataId

theorem Track.SameBut.refl (t : Track) : t.SameBut t :=
  ⟨rfl, rfl, rfl, rfl, rfl, rfl, rfl, rfl, rfl, rfl, rfl, rfl, rfl, rfl, rfl, rfl, rfl, rfl, rfl, rfl,
   rfl, rfl, rfl, rfl, rfl, rfl, rfl, rfl⟩

theorem Track.SameBut.trans {a b c : Track} (h : a.SameBut b) (h' : b.SameBut c) : a.SameBut c := by
  constructor
  · rw [h'.arp, h.arp]
  · rw [h'.arpDiv, h.arpDiv]
  · rw [h'.instrDiv, h.instrDiv]
  · rw [h'.effectDiv, h.effectDiv]
  · rw [h'.arpeggioOn, h.arpeggioOn]
  · rw [h'.volumeSlide, h.volumeSlide]
  · rw [h'.panningSlide, h.panningSlide]
  · rw [h'.portamento, h.portamento]
  · rw [h'.tremoloOn, h.tremoloOn]
  · rw [h'.vibratoOn, h.vibratoOn]
  · rw [h'.volume, h.volume]
  · rw [h'.panning, h.panning]
  · rw [h'.tremolo, h.tremolo]
  · rw [h'.tremoloDelta, h.tremoloDelta]
  · rw [h'.tremoloSteps, h.tremoloSteps]
  · rw [h'.vibrato, h.vibrato]
  · rw [h'.vibratoDelta, h.vibratoDelta]
  · rw [h'.vibratoSteps, h.vibratoSteps]
  · rw [h'.ctx, h.ctx]
  · rw [h'.waveform, h.waveform]
  · rw [h'.masterVolume, h.masterVolume]
  · rw [h'.dutyCycle, h.dutyCycle]
  · rw [h'.pitch, h.pitch]
  · rw [h'.samplePitch, h.samplePitch]
  · rw [h'.panningOn, h.panningOn]
  · rw [h'.ignores, h.ignores]
  · rw [h'.triangleIgnores, h.triangleIgnores]
  · rw [h'.dataId, h.dataId]

theorem Track.setUnit_eq {t t' : Track} {a : UAttr} {v : Int} (h : t.setUnit a v = .ok t') :
    ∃ r, t.unit.toUCore.setAttr a v = .ok r ∧ t' = { t with unit := { t.unit with toUCore := r.2 } } := by
  unfold Track.setUnit at h
  obtain ⟨r, hr, h⟩ := bind_ok_iff.1 h
  cases h
  exact ⟨r, hr, rfl⟩

theorem Track.setUnit_same {t t' : Track} {a : UAttr} {v : Int} (h : t.setUnit a v = .ok t') :
    t.SameBut t' := by
  obtain ⟨r, -, rfl⟩ := Track.setUnit_eq h
  exact ⟨rfl, rfl, rfl, rfl, rfl, rfl, rfl, rfl, rfl, rfl, rfl, rfl, rfl, rfl, rfl, rfl, rfl, rfl, rfl,
    rfl, rfl, rfl, rfl, rfl, rfl, rfl, rfl, rfl⟩

/-- The note and whether one is playing are also left alone. -/
structure Track.SameNote (t t' : Track) : Prop where
  note : t'.note = t.note
  curNote : t'.curNote = t.curNote

theorem Track.setUnit_note {t t' : Track} {a : UAttr} {v : Int} (h : t.setUnit a v = .ok t') :
    t.SameNote t' := by
  obtain ⟨r, -, rfl⟩ := Track.setUnit_eq h
  exact ⟨rfl, rfl⟩

theorem Track.SameNote.refl (t : Track) : t.SameNote t := ⟨rfl, rfl⟩

theorem Track.SameNote.trans {a b c : Track} (h : a.SameNote b) (h' : b.SameNote c) : a.SameNote c :=
  ⟨by rw [h'.note, h.note], by rw [h'.curNote, h.curNote]⟩

theorem Track.updateVolume_same {x : Nat} {w : IWorld} {t t' : Track}
    (h : t.updateVolume x w = .ok t') : t.SameBut t' ∧ t.SameNote t' := by
  unfold Track.updateVolume at h
  obtain ⟨m, -, h⟩ := bind_ok_iff.1 h
  split at h
  · obtain ⟨c, -, h⟩ := bind_ok_iff.1 h
    obtain ⟨t1, h1, h⟩ := bind_ok_iff.1 h
    exact ⟨(Track.setUnit_same h1).trans (Track.setUnit_same h),
      (Track.setUnit_note h1).trans (Track.setUnit_note h)⟩
  · exact ⟨Track.setUnit_same h, Track.setUnit_note h⟩

theorem Track.updateNote_same {x : Nat} {w : IWorld} {t t' : Track}
    (h : t.updateNote x w = .ok t') : t.SameBut t' ∧ t.SameNote t' := by
  unfold Track.updateNote at h
  split at h
  · cases h; exact ⟨.refl _, .refl _⟩
  · obtain ⟨n, -, h⟩ := bind_ok_iff.1 h
    split at h
    · obtain ⟨p, -, h⟩ := bind_ok_iff.1 h
      obtain ⟨q, -, h⟩ := bind_ok_iff.1 h
      exact ⟨Track.setUnit_same h, Track.setUnit_note h⟩
    · obtain ⟨p, -, h⟩ := bind_ok_iff.1 h
      obtain ⟨q, -, h⟩ := bind_ok_iff.1 h
      exact ⟨Track.setUnit_same h, Track.setUnit_note h⟩

theorem Track.updateDuty_same {x : Nat} {w : IWorld} {t t' : Track}
    (h : t.updateDuty x w = .ok t') : t.SameBut t' ∧ t.SameNote t' :=
  ⟨Track.setUnit_same h, Track.setUnit_note h⟩

theorem Track.SameBut.flags {t t' : Track} (h : t.SameBut t') (a b c : Bool) :
    t.SameBut { t' with updVolume := a, updNote := b, updDuty := c } := by
  obtain ⟨h1, h2, h3, h4, h5, h6, h7, h8, h9, h10, h11, h12, h13, h14, h15, h16, h17, h18, h19, h20,
    h21, h22, h23, h24, h25, h26, h27, h28⟩ := h
  exact ⟨h1, h2, h3, h4, h5, h6, h7, h8, h9, h10, h11, h12, h13, h14, h15, h16, h17, h18, h19, h20,
    h21, h22, h23, h24, h25, h26, h27, h28⟩

theorem Track.SameNote.flags {t t' : Track} (h : t.SameNote t') (a b c : Bool) :
    t.SameNote { t' with updVolume := a, updNote := b, updDuty := c } := ⟨h.note, h.curNote⟩

theorem Track.updateUnit_same {x : Nat} {w : IWorld} {t t' : Track}
    (h : t.updateUnit x w = .ok t') : t.SameBut t' ∧ t.SameNote t' := by
  unfold Track.updateUnit at h
  obtain ⟨a, ha, h⟩ := bind_ok_iff.1 h
  obtain ⟨b, hb, h⟩ := bind_ok_iff.1 h
  have h1 : t.SameBut a ∧ t.SameNote a := by
    unfold Track.flushVolume at ha
    split at ha
    · obtain ⟨u, hu, ha⟩ := bind_ok_iff.1 ha
      cases ha
      obtain ⟨p, q⟩ := Track.updateVolume_same hu
      exact ⟨p.flags _ _ _, q.flags _ _ _⟩
    · cases ha; exact ⟨.refl _, .refl _⟩
  have h2 : a.SameBut b ∧ a.SameNote b := by
    unfold Track.flushNote at hb
    split at hb
    · obtain ⟨u, hu, hb⟩ := bind_ok_iff.1 hb
      cases hb
      obtain ⟨p, q⟩ := Track.updateNote_same hu
      exact ⟨p.flags _ _ _, q.flags _ _ _⟩
    · cases hb; exact ⟨.refl _, .refl _⟩
  have h3 : b.SameBut t' ∧ b.SameNote t' := by
    unfold Track.flushDuty at h
    split at h
    · obtain ⟨u, hu, h⟩ := bind_ok_iff.1 h
      cases h
      obtain ⟨p, q⟩ := Track.updateDuty_same hu
      exact ⟨p.flags _ _ _, q.flags _ _ _⟩
    · cases h; exact ⟨.refl _, .refl _⟩
  exact ⟨(h1.1.trans h2.1).trans h3.1, (h1.2.trans h2.2).trans h3.2⟩

theorem Track.silence_same {t t' : Track} (h : t.silence = .ok t') : t.SameBut t' ∧ t.SameNote t' := by
  unfold Track.silence at h
  obtain ⟨a, ha, h⟩ := bind_ok_iff.1 h
  obtain ⟨b, hb, h⟩ := bind_ok_iff.1 h
  cases h
  exact ⟨((Track.setUnit_same ha).trans (Track.setUnit_same hb)).flags _ _ _,
    ((Track.setUnit_note ha).trans (Track.setUnit_note hb)).flags _ _ _⟩

theorem Track.stopNote_same (t : Track) : t.SameBut t.stopNote :=
  ⟨rfl, rfl, rfl, rfl, rfl, rfl, rfl, rfl, rfl, rfl, rfl, rfl, rfl, rfl, rfl, rfl, rfl, rfl, rfl, rfl,
   rfl, rfl, rfl, rfl, rfl, rfl, rfl, rfl⟩

theorem Track.told_same {x : Nat} {w : IWorld} {t t' : Track} {e : InstrEvent}
    (h : t.told x w e = .ok t') : t.SameBut t' := by
  cases e <;> unfold Track.told at h <;> dsimp only at h
  · exact ((Track.SameBut.refl t).flags true true true).trans (Track.updateUnit_same h).1
  · split at h
    · obtain ⟨a, ha, h⟩ := bind_ok_iff.1 h
      cases h
      exact ((t.stopNote_same).trans (Track.silence_same ha).1).flags _ _ _
    · cases h; exact (Track.SameBut.refl _).flags _ _ _
  · exact ((t.stopNote_same).flags _ _ _).trans (Track.silence_same h).1

theorem Track.hear_same {x : Nat} {w w' : IWorld} {t t' : Track} (h : t.hear x w w' = .ok t') :
    t.SameBut t' := by
  unfold Track.hear at h
  exact foldlM_inv (P := fun s => t.SameBut s)
    (fun s e s' hs he => hs.trans (Track.told_same he)) _ (.refl t) h

end BK
