import Verif.Lemmas.TrackSafe2
/-!
What keeps a track from faulting: arpeggio, data, ticks, clearing and rendering.
-/
namespace BK

theorem Track.Inv.setArpeggio {N : Nat} {Z : Prop} {t : Track} (h : t.Inv N Z) {ws : List Int}
    (hl : TOp.Legal N t (.arpeggio ws)) : Safe True (t.setArpeggio ws) (fun t' => t'.Inv N Z) := by
  obtain ⟨a, e, h1, h2⟩ : ∃ a, t.arp.set ws = .ok a ∧ a.delta = t.arp.delta ∧ ∀ n ∈ a.notes, Notes n := by
    unfold Arp.set
    cases ws with
    | nil => exact ⟨_, rfl, rfl, h.arpNotes⟩
    | cons c ns =>
      obtain ⟨l1, l2, l3⟩ := hl
      dsimp only
      have h0 : 0 ≤ cmin c 8 := by unfold cmin; split <;> omega
      rw [if_neg (by omega)]
      refine ⟨_, rfl, rfl, fun n hn => ?_⟩
      rcases List.mem_append.1 hn with hn | hn
      · exact l3 n (List.mem_of_mem_take hn)
      · exact h.arpNotes n (List.mem_of_mem_drop hn)
  unfold Track.setArpeggio
  rw [e, ok_bind]
  exact { h with arp := h.arp.set e, arpDelta := by rw [h1]; exact h.arpDelta, arpNotes := h2 }

theorem Track.Inv.setData {N n : Nat} {Z : Prop} {t : Track} (h : t.Inv N Z) {x : Nat} {w : IWorld} (hw : w.Good n)
    {type : DataAttr} {d : Option DataArg} (hl : TOp.Legal N t (.data type d)) :
    Safe True (t.setData x w type d) (fun r => r.2.Inv N Z) := by
  have key : Safe True (t.setUnitData type d) (fun r => r.2.Inv N Z) := by
    unfold Track.setUnitData
    split
    · exact h
    · refine (Safe.of_ok (UCore.setData_total h.unit.spre (t.ctx.map (·.2)) type (d.map (·.data)))
        (P := fun r => r.2.Fine N Z) fun r e =>
          UCore.setData_fine h.unit (Track.Inv.chans h.base) hl.1 e).bind fun r hr => ?_
      exact { h with unit := hr }
  unfold Track.setData
  refine key.bind fun r hr => ?_
  split
  · dsimp only
    have h1 : ∀ q : Int, -50331648 ≤ q ∧ q ≤ 50331648 → Track.Inv N Z
        { ({ r.2 with waveform := r.2.unit.waveform.code } : Track).updateIgnore with samplePitch := q } :=
      fun q hq => { hr with samplePitch := hq, wave := ⟨_, rfl⟩ }
    cases d with
    | none => exact ((h1 0 (by decide)).updateNote hw).bind fun a ha => ha
    | some d => exact ((h1 d.pitch (hl.2 d rfl)).updateNote hw).bind fun a ha => ha
  · exact hr

theorem tickOsc_fine {k j : Nat} {on : Bool} {o : Osc} {d n : Slide} {M lo hi : Int} (ho : o.Near k M) (hd : d.Near j lo hi)
    (hn : n.Near 14 0 65536) (hk : (2 : Int) ^ k ≤ 16777216) (h1 : -M ≤ lo)
    (h2 : ∀ v : Int, v * 2 ^ j ≤ hi * 2 ^ j + 8388608 → v ≤ M) :
    ∃ o' d' n', tickOsc on o d n = .ok (o', d', n') ∧ o'.Near k M ∧ d'.Near j lo hi ∧ n'.Near 14 0 65536 := by
  unfold tickOsc
  split
  · split
    · obtain ⟨d', e1, hd'⟩ := hd.tick
      obtain ⟨n', e2, hn'⟩ := hn.tick
      obtain ⟨dv, e3, g1, g2⟩ := hd'.get
      obtain ⟨nv, e4, g3, g4⟩ := hn'.get
      obtain ⟨o1, e5, ho1⟩ := ho.set (d := dv) (n := nv) hk (by omega) (h2 dv g2) (by omega)
      obtain ⟨o2, e6, ho2⟩ := ho1.tick
      rw [e1, ok_bind, e2, ok_bind, e3, ok_bind, e4, ok_bind, e5, ok_bind, e6, ok_bind]
      exact ⟨_, _, _, rfl, ho2, hd', hn'⟩
    · obtain ⟨o2, e6, ho2⟩ := ho.tick
      rw [e6, ok_bind]
      exact ⟨_, _, _, rfl, ho2, hd, hn⟩
  · exact ⟨_, _, _, rfl, ho, hd, hn⟩

theorem Track.Inv.effectTick {N : Nat} {Z : Prop} {t : Track} (h : t.Inv N Z) :
    Safe True t.effectTick (fun t' => t'.Inv N Z) := by
  unfold Track.effectTick Slide.tickIf
  obtain ⟨s1, e1, h1⟩ := h.note.tickIf t.portamento
  obtain ⟨s2, e2, h2⟩ := h.volume.tickIf t.volumeSlide
  obtain ⟨s3, e3, h3⟩ := h.panning.tickIf t.panningSlide
  obtain ⟨o1, d1, n1, e4, h4, h5, h6⟩ := tickOsc_fine (on := t.tremoloOn) h.tremolo h.tremoloDelta h.tremoloSteps
    (by decide) (by decide) (fun v hv => by omega)
  obtain ⟨o2, d2, n2, e5, h7, h8, h9⟩ := tickOsc_fine (on := t.vibratoOn) h.vibrato h.vibratoDelta h.vibratoSteps
    (by decide) (by decide) (fun v hv => by omega)
  rw [e1, ok_bind, e2, ok_bind, e3, ok_bind, e4, ok_bind, e5, ok_bind]
  exact { h with note := h1, volume := h2, panning := h3, tremolo := h4, tremoloDelta := h5, tremoloSteps := h6,
                 vibrato := h7, vibratoDelta := h8, vibratoSteps := h9 }

theorem Track.Inv.arpeggioTick {N : Nat} {Z : Prop} {t : Track} (h : t.Inv N Z) :
    Safe True t.arpeggioTick (fun t' => t'.Inv N Z) := by
  unfold Track.arpeggioTick
  split
  · obtain ⟨r, e, hr⟩ := h.arpDiv.tick
    rw [e, ok_bind]
    dsimp only
    split
    · have hlen := h.arp.len
      have hoff := h.arp.offset
      have hcount := h.arp.count
      obtain ⟨v, ev⟩ : ∃ v, rd t.arp.notes t.arp.offset = .ok v :=
        ⟨_, rd_ok (by omega) (by omega)⟩
      have hv := h.arpNotes v (rd_ok_mem ev)
      obtain ⟨a, ea, ed, en⟩ : ∃ a, t.arp.tick = .ok a ∧ a.delta = v ∧ a.notes = t.arp.notes := by
        unfold Arp.tick
        rw [ev, ok_bind, i32_ok (by omega) (by omega), ok_bind]
        exact ⟨_, rfl, rfl, rfl⟩
      rw [ea, ok_bind]
      exact { h with arpDiv := hr, arp := h.arp.tick ea, arpDelta := ed ▸ hv, arpNotes := by rw [en]; exact h.arpNotes }
    · exact { h with arpDiv := hr }
  · exact h

theorem Track.Inv.instrTick {N n : Nat} {Z : Prop} {t : Track} (h : t.Inv N Z) {x : Nat} {w : IWorld}
    (hw : w.Good n) : Safe True (t.instrTick x w) (Both n N Z) := by
  unfold Track.instrTick
  split
  · rename_i hx
    obtain ⟨r, e, hr⟩ := h.instrDiv.tick
    rw [e, ok_bind]
    refine (hw.tick hx r.1).bind ?_
    rintro w' ⟨h1, -⟩
    have h2 : Track.Inv N Z { t with instrDiv := r.2 } := { h with instrDiv := hr }
    exact (h2.hear w h1).bind fun a ha => ⟨h1, ha.flagSeqs x w'⟩
  · exact ⟨hw, h⟩

theorem Track.Inv.effectsTick {N : Nat} {Z : Prop} {t : Track} (h : t.Inv N Z) :
    Safe True t.effectsTick (fun t' => t'.Inv N Z) := by
  unfold Track.effectsTick
  split
  · obtain ⟨r, e, hr⟩ := h.effectDiv.tick
    rw [e, ok_bind]
    dsimp only
    have h1 : Track.Inv N Z { t with effectDiv := r.2 } := { h with effectDiv := hr }
    split
    · exact h1.effectTick
    · exact h1
  · exact h

theorem Track.Inv.tick {N n : Nat} {Z : Prop} {t : Track} (h : t.Inv N Z) {x : Nat} {w : IWorld}
    (hw : w.Good n) : Safe True (t.tick x w) (Both n N Z) := by
  unfold Track.tick
  have h1 : t.flagEffects.Inv N Z := { h with }
  refine h1.arpeggioTick.bind fun a ha => ?_
  refine (ha.instrTick hw).bind fun r hr => ?_
  refine (hr.2.updateUnit hr.1).bind fun b hb => ?_
  exact hb.effectsTick.bind fun c hc => ⟨hr.1, hc⟩

/-- The state after the `memset`. -/
theorem Track.Base.wiped {N : Nat} {Z : Prop} {t : Track} (h : t.Base N Z) : t.wiped.Inv N Z where
  unit := h.unit
  off := h.off
  ctx := h.ctx
  arpDiv := DivState.Ok.new (by decide) (by decide)
  instrDiv := DivState.Ok.new (by decide) (by decide)
  effectDiv := DivState.Ok.new (by decide) (by decide)
  volume := Slide.init_near (by decide) (by decide) (by decide) ⟨by decide, by decide, by decide, by decide, by decide⟩
  panning := Slide.init_near (by decide) (by decide) (by decide) ⟨by decide, by decide, by decide, by decide, by decide⟩
  note := Slide.init_near (by decide) (by decide) (by decide) ⟨by decide, by decide, by decide, by decide, by decide⟩
  tremolo := Osc.init_near (by decide) (by decide) (by decide) (by decide)
  tremoloDelta := Slide.init_near (by decide) (by decide) (by decide) ⟨by decide, by decide, by decide, by decide, by decide⟩
  tremoloSteps := Slide.init_near (by decide) (by decide) (by decide) ⟨by decide, by decide, by decide, by decide, by decide⟩
  vibrato := Osc.init_near (by decide) (by decide) (by decide) (by decide)
  vibratoDelta := Slide.init_near (by decide) (by decide) (by decide) ⟨by decide, by decide, by decide, by decide, by decide⟩
  vibratoSteps := Slide.init_near (by decide) (by decide) (by decide) ⟨by decide, by decide, by decide, by decide, by decide⟩
  arp := ⟨rfl, show (0 : Int) ≤ 0 ∧ (0 : Int) ≤ 8 by decide, show (0 : Int) ≤ 0 ∧ ((0 : Int) < 0 ∨ (0 : Int) = 0) by decide⟩
  arpDelta := show (-536870912 : Int) ≤ 0 ∧ (0 : Int) ≤ 536870912 by decide
  arpNotes := fun n hn => by
    have : n = 0 := List.eq_of_mem_replicate (n := 8) hn
    subst this
    exact ⟨by decide, by decide⟩
  pitch := show (-50331648 : Int) ≤ 0 ∧ (0 : Int) ≤ 50331648 by decide
  samplePitch := show (-50331648 : Int) ≤ 0 ∧ (0 : Int) ≤ 50331648 by decide
  masterVolume := show (0 : Int) ≤ 0 ∧ (0 : Int) ≤ 32767 by decide
  dutyCycle := show (0 : Int) ≤ 0 ∧ (0 : Int) ≤ 15 by decide
  wave := ⟨.none, rfl⟩
  curNote := .inr (show (0 : Int) ≤ 0 ∧ (0 : Int) ≤ 100663296 by decide)

theorem UCore.setAttr_range {c : UCore} {a : UAttr} {v : Int} {r : Ret × UCore} (e : c.setAttr a v = .ok r) :
    r.2.sustainRange = c.sustainRange := by
  unfold UCore.setAttr at e
  cases a <;> dsimp only at e
  case dutyCycle => split at e <;> cases e <;> rfl
  case waveform =>
    split at e
    · cases e
      dsimp only
      split <;> rfl
    · cases e; rfl
  case period => obtain ⟨y, -, e⟩ := bind_ok_iff.1 e; cases e; rfl
  case samplePeriod => obtain ⟨y, -, e⟩ := bind_ok_iff.1 e; cases e; rfl
  case flagRelease =>
    split at e
    · split at e
      · split at e
        · cases e; rfl
        · obtain ⟨y, -, e⟩ := bind_ok_iff.1 e; cases e; rfl
      · cases e; rfl
    · cases e; rfl
  all_goals (cases e; rfl)

/-- No sustain range is set. -/
def Track.Calm (N : Nat) (Z : Prop) (t : Track) : Prop := t.Base N Z ∧ t.unit.sustainRange = false

theorem Track.Calm.setUnit {N : Nat} {Z : Prop} {t : Track} (h : t.Calm N Z) {a : UAttr} {v : Int}
    (hv : Plain v) (ha : t.unit.toUCore.AttrOk a v) : Safe True (t.setUnit a v) (fun t' => t'.Calm N Z) := by
  unfold Track.setUnit
  refine ((UCore.setAttr_safe h.1.unit hv.1 hv.2 ha).and_ok (Q := fun r => r.2.sustainRange = t.unit.sustainRange)
    fun r e => UCore.setAttr_range e).bind fun r hr => ?_
  exact ⟨{ h.1 with unit := hr.1 }, hr.2.trans h.2⟩

theorem Track.Calm.silence {N : Nat} {Z : Prop} {t : Track} (h : t.Calm N Z) :
    Safe True t.silence (fun t' => t'.Calm N Z) := by
  unfold Track.silence
  exact (h.setUnit (a := .mute) plain_1 trivial).bind fun a ha =>
    (ha.setUnit (a := .flagRelease) plain_0 trivial).bind fun b hb => ⟨{ hb.1 with }, hb.2⟩

/-- No instrument, from a track whose slides are not known. -/
theorem Track.Calm.unset {N n : Nat} {Z : Prop} {t : Track} (h : t.Calm N Z) {x : Nat} {w : IWorld} (hw : w.Good n) :
    Safe True (t.setInstrument x w none) (fun r => r.1.Good n ∧ r.1.links.owner x = none ∧ r.2.Calm N Z) := by
  unfold Track.setInstrument
  dsimp only
  split
  · have key : Safe True (t.changeInstrument x w none)
        (fun r => r.1.Good n ∧ r.1.links.owner x = none ∧ r.2.Calm N Z) := by
      unfold Track.changeInstrument
      dsimp only
      refine (hw.unset x).bind ?_
      rintro w1 ⟨h1, h2⟩
      split
      · have hon : w1.on x = false := by unfold IWorld.on; rw [h2]; rfl
        unfold Track.setNote Track.noteCase
        rw [if_neg (by decide), if_neg (by decide), if_pos rfl]
        unfold Track.muteNote
        dsimp only
        rw [hon, if_neg (by decide), ok_bind]
        have h3 : t.stopNote.Calm N Z := ⟨{ h.1 with }, h.2⟩
        rw [bind_assoc]
        exact h3.silence.bind fun b hb => ⟨h1, h2, { hb.1 with }, hb.2⟩
      · exact ⟨h1, h2, h⟩
    exact key.bind fun r hr => ⟨hr.1, hr.2.1, { hr.2.2.1 with }, hr.2.2.2⟩
  · rename_i hi
    exact ⟨hw, (not_not.1 hi).symm, { h.1 with }, h.2⟩

theorem UCore.Fine.strong {N : Nat} {Z : Prop} {c : UCore} (h : c.Fine N Z) (hc : 1 ≤ c.count ∧ c.count ≤ 64) :
    c.Fine N False := { h with count := .inr hc }

theorem UCore.setAttr_waveform {N : Nat} {Z : Prop} {c : UCore} (h : c.Fine N Z) {v : Int} (hv : Plain v)
    (ha : c.AttrOk .waveform v) (hz : Z → waveOfAttr v ≠ none) :
    Safe True (c.setAttr .waveform v) (fun r => r.2.Fine N False) := by
  refine Safe.of_ok (UCore.setAttr_total h .waveform hv.1 hv.2) fun r e => ?_
  refine (UCore.setAttr_fine h hv.1 ha e).strong ?_
  unfold UCore.setAttr at e
  dsimp only at e
  split at e
  · rename_i w m hw
    have := waveOfAttr_some hw
    cases e
    dsimp only
    split <;> (dsimp only; omega)
  · rename_i hw
    cases e
    rcases h.count with hc | hc
    · exact absurd hw (hz hc)
    · exact hc

theorem Track.Inv.setWaveform_strong {N n : Nat} {Z : Prop} {t : Track} (h : t.Inv N Z) {x : Nat} {w : IWorld}
    (hw : w.Good n) {v : Int} (hv : Plain v) (ha : t.unit.toUCore.AttrOk .waveform v)
    (hz : Z → waveOfAttr v ≠ none) : Safe True (t.setWaveform x w v) (fun r => r.2.Inv N False) := by
  unfold Track.setWaveform
  refine (UCore.setAttr_waveform h.unit hv ha hz).bind fun r hr => ?_
  dsimp only
  split
  · have h1 : Track.Inv N False { t with unit := { t.unit with toUCore := r.2 }, dataId := none, waveform := r.2.waveform.code } :=
      { h with unit := hr, off := False.elim, wave := ⟨_, rfl⟩ }
    exact (h1.updateIgnore.updateNote hw).bind fun a ha => ha
  · exact { h with unit := hr, off := False.elim }

end BK
