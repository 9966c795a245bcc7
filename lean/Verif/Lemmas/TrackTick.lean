import Verif.Lemmas.Track
import Verif.Lemmas.IState
/-!
What a tick does to the parts of a track.
-/
namespace BK

theorem IWorld.tick_links {w w' : IWorld} {x : Nat} {b : Bool} (h : w.tick x b = .ok w') :
    w'.links = w.links := by
  unfold IWorld.tick at h
  split at h
  · cases h
  · obtain ⟨r, -, h⟩ := bind_ok_iff.1 h
    cases h; rfl

theorem Track.arpeggioTick_same {t t' : Track} (h : t.arpeggioTick = .ok t') :
    ∃ a d n, t' = { t with arp := a, arpDiv := d, updNote := n } := by
  unfold Track.arpeggioTick at h
  split at h
  · obtain ⟨r, -, h⟩ := bind_ok_iff.1 h
    dsimp only at h
    split at h
    · obtain ⟨a, -, h⟩ := bind_ok_iff.1 h
      cases h
      exact ⟨a, r.2, true, rfl⟩
    · cases h
      exact ⟨t.arp, r.2, t.updNote, rfl⟩
  · cases h
    exact ⟨t.arp, t.arpDiv, t.updNote, rfl⟩

theorem Track.effectTick_same {t t' : Track} (h : t.effectTick = .ok t') :
    ∃ a b c d e f g i j, t' = { t with
        note := a, volume := b, panning := c, tremolo := d, tremoloDelta := e, tremoloSteps := f,
        vibrato := g, vibratoDelta := i, vibratoSteps := j } ∧
      t.note.tickIf t.portamento = .ok a ∧ t.volume.tickIf t.volumeSlide = .ok b ∧
      t.panning.tickIf t.panningSlide = .ok c ∧
      tickOsc t.tremoloOn t.tremolo t.tremoloDelta t.tremoloSteps = .ok (d, e, f) ∧
      tickOsc t.vibratoOn t.vibrato t.vibratoDelta t.vibratoSteps = .ok (g, i, j) := by
  unfold Track.effectTick at h
  obtain ⟨a, ha, h⟩ := bind_ok_iff.1 h
  obtain ⟨b, hb, h⟩ := bind_ok_iff.1 h
  obtain ⟨c, hc, h⟩ := bind_ok_iff.1 h
  obtain ⟨⟨d, e, f⟩, hd, h⟩ := bind_ok_iff.1 h
  obtain ⟨⟨g, i, j⟩, hg, h⟩ := bind_ok_iff.1 h
  cases h
  exact ⟨a, b, c, d, e, f, g, i, j, rfl, ha, hb, hc, hd, hg⟩

theorem Track.effectsTick_same {t t' : Track} (h : t.effectsTick = .ok t') :
    ∃ a b c d e f g i j k, t' = { t with
        effectDiv := k, note := a, volume := b, panning := c, tremolo := d, tremoloDelta := e,
        tremoloSteps := f, vibrato := g, vibratoDelta := i, vibratoSteps := j } := by
  unfold Track.effectsTick at h
  split at h
  · obtain ⟨r, -, h⟩ := bind_ok_iff.1 h
    dsimp only at h
    split at h
    · obtain ⟨a, b, c, d, e, f, g, i, j, rfl, -⟩ := Track.effectTick_same h
      exact ⟨a, b, c, d, e, f, g, i, j, r.2, rfl⟩
    · cases h
      exact ⟨t.note, t.volume, t.panning, t.tremolo, t.tremoloDelta, t.tremoloSteps, t.vibrato,
        t.vibratoDelta, t.vibratoSteps, r.2, rfl⟩
  · cases h
    exact ⟨t.note, t.volume, t.panning, t.tremolo, t.tremoloDelta, t.tremoloSteps, t.vibrato,
      t.vibratoDelta, t.vibratoSteps, t.effectDiv, rfl⟩

/-- Like `SameBut`, except for the instrument divider. -/
theorem Track.instrTick_same {x : Nat} {w : IWorld} {t : Track} {r : IWorld × Track}
    (h : t.instrTick x w = .ok r) :
    ∃ d, ({ t with instrDiv := d } : Track).SameBut r.2 ∧ r.1.links = w.links ∧
      (w.on x = true → ∃ b, t.instrDiv.tick = .ok (b, d) ∧ w.tick x b = .ok r.1) ∧
      (w.on x = false → r = (w, t) ∧ d = t.instrDiv) := by
  unfold Track.instrTick at h
  split at h
  · rename_i hon
    obtain ⟨⟨b, d⟩, hb, h⟩ := bind_ok_iff.1 h
    obtain ⟨w', hw, h⟩ := bind_ok_iff.1 h
    obtain ⟨t1, ht, h⟩ := bind_ok_iff.1 h
    cases h
    refine ⟨d, ?_, IWorld.tick_links hw, fun _ => ⟨b, hb, hw⟩, fun h => ?_⟩
    · exact (Track.hear_same ht).flags _ _ _
    · rw [hon] at h; cases h
  · rename_i hon
    cases h
    exact ⟨t.instrDiv, .refl t, rfl, fun h => absurd h hon, fun _ => ⟨rfl, rfl⟩⟩

/-- The stages of a tick. -/
theorem Track.tick_stages {x : Nat} {w : IWorld} {t : Track} {s : IWorld × Track}
    (h : t.tick x w = .ok s) :
    ∃ t1 r t2, t.flagEffects.arpeggioTick = .ok t1 ∧ t1.instrTick x w = .ok r ∧
      r.2.updateUnit x r.1 = .ok t2 ∧ t2.effectsTick = .ok s.2 ∧ s.1 = r.1 := by
  unfold Track.tick at h
  obtain ⟨t1, h1, h⟩ := bind_ok_iff.1 h
  obtain ⟨r, hr, h⟩ := bind_ok_iff.1 h
  obtain ⟨t2, h2, h⟩ := bind_ok_iff.1 h
  obtain ⟨t3, h3, h⟩ := bind_ok_iff.1 h
  cases h
  exact ⟨t1, r, t2, h1, hr, h2, h3, rfl⟩

/-- The switches are not changed by a tick. -/
theorem Track.tick_switches {x : Nat} {w : IWorld} {t : Track} {s : IWorld × Track}
    (h : t.tick x w = .ok s) :
    s.2.arpeggioOn = t.arpeggioOn ∧ s.2.volumeSlide = t.volumeSlide ∧
    s.2.panningSlide = t.panningSlide ∧ s.2.portamento = t.portamento ∧
    s.2.tremoloOn = t.tremoloOn ∧ s.2.vibratoOn = t.vibratoOn ∧ s.1.links = w.links ∧
    s.2.ctx = t.ctx := by
  obtain ⟨t1, r, t2, h1, hr, h2, h3, e⟩ := Track.tick_stages h
  obtain ⟨a, d, n, rfl⟩ := Track.arpeggioTick_same h1
  obtain ⟨d', sb, hl, -, -⟩ := Track.instrTick_same hr
  have su := (Track.updateUnit_same h2).1
  obtain ⟨a', b, c, d'', e', f, g, i, j, k, h3⟩ := Track.effectsTick_same h3
  rw [h3, e, hl]
  exact ⟨su.arpeggioOn.trans sb.arpeggioOn, su.volumeSlide.trans sb.volumeSlide,
    su.panningSlide.trans sb.panningSlide, su.portamento.trans sb.portamento,
    su.tremoloOn.trans sb.tremoloOn, su.vibratoOn.trans sb.vibratoOn, rfl, su.ctx.trans sb.ctx⟩

/-- The arpeggio through a tick. -/
theorem Track.tick_arp {x : Nat} {w : IWorld} {t : Track} {s : IWorld × Track}
    (h : t.tick x w = .ok s) :
    (t.arpeggioOn = true → ∃ r, t.arpDiv.tick = .ok r ∧ s.2.arpDiv = r.2 ∧
      (if r.1 then t.arp.tick else .ok t.arp) = .ok s.2.arp) ∧
    (t.arpeggioOn = false → s.2.arpDiv = t.arpDiv ∧ s.2.arp = t.arp) := by
  obtain ⟨t1, r, t2, h1, hr, h2, h3, e⟩ := Track.tick_stages h
  obtain ⟨d', sb, hl, -, -⟩ := Track.instrTick_same hr
  have su := (Track.updateUnit_same h2).1
  obtain ⟨a', b, c, d'', e', f, g, i, j, k, h3⟩ := Track.effectsTick_same h3
  have ea : s.2.arp = t1.arp := by rw [h3]; exact su.arp.trans sb.arp
  have ed : s.2.arpDiv = t1.arpDiv := by rw [h3]; exact su.arpDiv.trans sb.arpDiv
  rw [ea, ed]
  unfold Track.arpeggioTick at h1
  refine ⟨fun hon => ?_, fun hon => ?_⟩
  · rw [show t.flagEffects.arpeggioOn = true from hon, if_pos rfl] at h1
    obtain ⟨q, hq, h1⟩ := bind_ok_iff.1 h1
    refine ⟨q, hq, ?_⟩
    dsimp only at h1
    split at h1
    · rename_i hb
      obtain ⟨a, ha, h1⟩ := bind_ok_iff.1 h1
      cases h1
      exact ⟨rfl, by rw [if_pos hb]; exact ha⟩
    · rename_i hb
      cases h1
      exact ⟨rfl, by rw [if_neg hb]; rfl⟩
  · rw [show t.flagEffects.arpeggioOn = false from hon, if_neg (by decide)] at h1
    cases h1
    exact ⟨rfl, rfl⟩

/-- The instrument through a tick. -/
theorem Track.tick_instr {x : Nat} {w : IWorld} {t : Track} {s : IWorld × Track}
    (h : t.tick x w = .ok s) (hon : w.on x = true) :
    ∃ r, t.instrDiv.tick = .ok r ∧ s.2.instrDiv = r.2 ∧ w.tick x r.1 = .ok s.1 := by
  obtain ⟨t1, r, t2, h1, hr, h2, h3, e⟩ := Track.tick_stages h
  obtain ⟨a, d, n, rfl⟩ := Track.arpeggioTick_same h1
  obtain ⟨d', sb, hl, hi, -⟩ := Track.instrTick_same hr
  have su := (Track.updateUnit_same h2).1
  obtain ⟨a', b, c, d'', e', f, g, i, j, k, h3⟩ := Track.effectsTick_same h3
  obtain ⟨bb, hb, hw⟩ := hi hon
  refine ⟨(bb, d'), hb, ?_, ?_⟩
  · rw [h3]; exact su.instrDiv.trans sb.instrDiv
  · rw [e]; exact hw

/-- The effects through a tick. -/
theorem Track.tick_fx {x : Nat} {w : IWorld} {t : Track} {s : IWorld × Track}
    (h : t.tick x w = .ok s) :
    (t.effects = true → ∃ r, t.effectDiv.tick = .ok r ∧ s.2.effectDiv = r.2 ∧
      (if r.1 then t.fx.step t.volumeSlide t.panningSlide t.tremoloOn t.vibratoOn else .ok t.fx) =
        .ok s.2.fx ∧
      (w.on x = false → (if r.1 then t.note.tickIf t.portamento else .ok t.note) = .ok s.2.note)) ∧
    (t.effects = false → s.2.effectDiv = t.effectDiv ∧ s.2.fx = t.fx) := by
  obtain ⟨t1, r, t2, h1, hr, h2, h3, e⟩ := Track.tick_stages h
  obtain ⟨a, d, n, rfl⟩ := Track.arpeggioTick_same h1
  obtain ⟨d', sb, hl, -, hno⟩ := Track.instrTick_same hr
  obtain ⟨su, sn⟩ := Track.updateUnit_same h2
  have ef : t2.fx = t.fx := by
    unfold Track.fx
    rw [su.volume.trans sb.volume, su.panning.trans sb.panning, su.tremolo.trans sb.tremolo,
      su.tremoloDelta.trans sb.tremoloDelta, su.tremoloSteps.trans sb.tremoloSteps,
      su.vibrato.trans sb.vibrato, su.vibratoDelta.trans sb.vibratoDelta,
      su.vibratoSteps.trans sb.vibratoSteps]
    rfl
  have ed : t2.effectDiv = t.effectDiv := su.effectDiv.trans sb.effectDiv
  have ep : t2.portamento = t.portamento := su.portamento.trans sb.portamento
  have ev : t2.volumeSlide = t.volumeSlide := su.volumeSlide.trans sb.volumeSlide
  have epa : t2.panningSlide = t.panningSlide := su.panningSlide.trans sb.panningSlide
  have et : t2.tremoloOn = t.tremoloOn := su.tremoloOn.trans sb.tremoloOn
  have evi : t2.vibratoOn = t.vibratoOn := su.vibratoOn.trans sb.vibratoOn
  have ee : t2.effects = t.effects := by
    unfold Track.effects; rw [ep, ev, epa, et, evi]
  have en : w.on x = false → t2.note = t.note := by
    intro hon
    obtain ⟨rfl, -⟩ := hno hon
    exact sn.note
  unfold Track.effectsTick at h3
  refine ⟨fun hon => ?_, fun hon => ?_⟩
  · rw [ee, hon, if_pos rfl] at h3
    obtain ⟨q, hq, h3⟩ := bind_ok_iff.1 h3
    refine ⟨q, ed ▸ hq, ?_⟩
    dsimp only at h3
    split at h3
    · rename_i hb
      obtain ⟨a, b, c, d, e, f, g, i, j, h4, k1, k2, k3, k4, k5⟩ := Track.effectTick_same h3
      rw [h4, if_pos hb, if_pos hb]
      dsimp only at k1 k2 k3 k4 k5
      refine ⟨rfl, ?_, fun hon => ?_⟩
      · rw [← ef, ← ev, ← epa, ← et, ← evi]
        unfold Fx.step
        have k2' : t2.fx.volume.tickIf t2.volumeSlide = .ok b := k2
        have k3' : t2.fx.panning.tickIf t2.panningSlide = .ok c := k3
        have k4' : tickOsc t2.tremoloOn t2.fx.tremolo.1 t2.fx.tremolo.2.1 t2.fx.tremolo.2.2 =
          .ok (d, e, f) := k4
        have k5' : tickOsc t2.vibratoOn t2.fx.vibrato.1 t2.fx.vibrato.2.1 t2.fx.vibrato.2.2 =
          .ok (g, i, j) := k5
        rw [k2', ok_bind, k3', ok_bind, k4', ok_bind, k5']
        rfl
      · rw [← en hon, ← ep]; exact k1
    · rename_i hb
      injection h3 with h3
      rw [← h3, if_neg hb, if_neg hb]
      refine ⟨rfl, ?_, fun hon => ?_⟩
      · exact congrArg Except.ok ef.symm
      · exact congrArg Except.ok (en hon).symm
  · rw [ee, hon, if_neg (by decide)] at h3
    cases h3
    exact ⟨ed, ef⟩

end BK
