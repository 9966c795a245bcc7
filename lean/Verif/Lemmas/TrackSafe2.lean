import Verif.Lemmas.TrackSafe
/-!
What keeps a track from faulting: notes, instruments and attributes.
-/
namespace BK

theorem Safe.foldlM {α β} {f : β → α → C β} {P : β → Prop} (hf : ∀ b a, P b → Safe True (f b a) P) :
    ∀ (l : List α) (b : β), P b → Safe True (l.foldlM f b) P
  | [], b, h => h
  | a :: l, b, h => by
    rw [List.foldlM_cons]
    exact (hf b a h).bind fun b' h' => Safe.foldlM hf l b' h'

theorem plain_0 : Plain 0 := Plain.of (by decide) (by decide)
theorem plain_1 : Plain 1 := Plain.of (by decide) (by decide)

theorem Track.Inv.stopNote {N : Nat} {Z : Prop} {t : Track} (h : t.Inv N Z) : t.stopNote.Inv N Z :=
  { h with note := h.note.halt true, curNote := .inl rfl }

theorem Track.Inv.flagSeqs {N : Nat} {Z : Prop} {t : Track} (h : t.Inv N Z) (x : Nat) (w : IWorld) :
    (t.flagSeqs x w).Inv N Z := { h with }

theorem Track.Inv.flagAll {N : Nat} {Z : Prop} {t : Track} (h : t.Inv N Z) : t.flagAll.Inv N Z := { h with }

theorem Track.Inv.silence {N : Nat} {Z : Prop} {t : Track} (h : t.Inv N Z) :
    Safe True t.silence (fun t' => t'.Inv N Z) := by
  unfold Track.silence
  exact (h.setUnit (a := .mute) plain_1 trivial).bind fun a ha =>
    (ha.setUnit (a := .flagRelease) plain_0 trivial).bind fun b hb => { hb with }

theorem Track.Inv.told {N n : Nat} {Z : Prop} {t : Track} (h : t.Inv N Z) {x : Nat} {w : IWorld} (hw : w.Good n)
    (e : InstrEvent) : Safe True (t.told x w e) (fun t' => t'.Inv N Z) := by
  cases e with
  | mute => exact (h.stopNote.flagSeqs x w).silence
  | reset => exact h.flagAll.updateUnit hw
  | dispose =>
    unfold Track.told
    dsimp only
    split
    · exact h.stopNote.silence.bind fun a ha => ha.flagAll
    · exact h.flagAll

theorem Track.Inv.hear {N n : Nat} {Z : Prop} {t : Track} (h : t.Inv N Z) {x : Nat} (w : IWorld) {w' : IWorld}
    (hw : w'.Good n) : Safe True (t.hear x w w') (fun t' => t'.Inv N Z) :=
  Safe.foldlM (P := Track.Inv N Z) (fun _ e ht => Track.Inv.told ht hw e) _ _ h

/-- World and track after a call. -/
def Both (n N : Nat) (Z : Prop) (r : IWorld × Track) : Prop := r.1.Good n ∧ r.2.Inv N Z

theorem DivState.Ok.restart {d : DivState} (h : d.Ok) : DivState.Ok { d with counter := 0 } :=
  ⟨h.divider, show (0 : Int) ≤ 0 ∧ (0 : Int) ≤ 2147483647 by decide⟩

theorem Track.Inv.instrAttack {N n : Nat} {Z : Prop} {t : Track} (h : t.Inv N Z) {x : Nat} {w : IWorld}
    (hw : w.Good n) : Safe True (t.instrAttack x w) (Both n N Z) := by
  unfold Track.instrAttack
  refine (hw.attack x h.dutyCycle.1 h.dutyCycle.2).bind ?_
  rintro w' ⟨h1, -⟩
  have h2 : Track.Inv N Z { t with instrDiv := { t.instrDiv with counter := 0 } } :=
    { h with instrDiv := h.instrDiv.restart }
  exact (h2.hear w h1).bind fun a ha => ⟨h1, ha.flagSeqs x w'⟩

theorem Track.Inv.instrPhase {N n : Nat} {Z : Prop} {t : Track} (h : t.Inv N Z) {x : Nat} {w : IWorld}
    (hw : w.Good n) (p : SeqPhase) : Safe True (t.instrPhase x w p) (Both n N Z) := by
  unfold Track.instrPhase
  refine (hw.setPhase x p).bind ?_
  rintro w' ⟨h1, -⟩
  exact (h.hear w h1).bind fun a ha => ⟨h1, ha.flagSeqs x w'⟩

theorem Track.Inv.startNote {N n : Nat} {Z : Prop} {t : Track} (h : t.Inv N Z) {x : Nat} {w : IWorld}
    (hw : w.Good n) : Safe True (t.startNote x w) (Both n N Z) := by
  unfold Track.startNote
  split
  · have h1 : Track.Inv N Z { t with note := t.note.halt true } := { h with note := h.note.halt true }
    dsimp only
    split
    · exact (h1.instrAttack hw).bind fun r hr => ⟨hr.1, { hr.2 with arp := hr.2.arp.start }⟩
    · exact ⟨hw, { h1 with arp := h1.arp.start }⟩
  · exact ⟨hw, h⟩

theorem Track.Inv.startSample {N : Nat} {Z : Prop} {t : Track} (h : t.Inv N Z) :
    Safe True t.startSample (fun t' => t'.Inv N Z) := by
  unfold Track.startSample
  split
  · exact h.setUnit (a := .phase) (Plain.of (by decide) (by decide)) trivial
  · exact h

theorem Track.Inv.playNote {N n : Nat} {Z : Prop} {t : Track} (h : t.Inv N Z) {x : Nat} {w : IWorld}
    (hw : w.Good n) (v : Int) : Safe True (t.playNote x w v) (Both n N Z) := by
  unfold Track.playNote
  dsimp only
  have hc := cclamp_in (x := v) (show (0 : Int) ≤ 96 * U20 by decide)
  obtain ⟨s, e, hs⟩ := h.note.setValue (by decide) hc.1 hc.2
  rw [e, ok_bind]
  have h1 : Track.Inv N Z { t with note := s } := { h with note := hs }
  refine (h1.startNote hw).bind fun r hr => ?_
  refine hr.2.startSample.bind fun a ha => ?_
  have h2 : Track.Inv N Z { a with curNote := cclamp v 0 (96 * U20) } := { ha with curNote := .inr hc }
  refine (h2.setUnit (a := .mute) plain_0 trivial).bind fun b hb => ?_
  exact (hb.setUnit (a := .flagRelease) plain_0 trivial).bind fun c hc => ⟨hr.1, hc⟩

theorem Track.Inv.releaseNote {N n : Nat} {Z : Prop} {t : Track} (h : t.Inv N Z) {x : Nat} {w : IWorld}
    (hw : w.Good n) : Safe True (t.releaseNote x w) (Both n N Z) := by
  unfold Track.releaseNote
  have h1 : Track.Inv N Z { t with curNote := -1 } := { h with curNote := .inl rfl }
  dsimp only
  split
  · refine (h1.instrPhase hw .release).bind fun r hr => ?_
    exact (hr.2.setUnit (a := .flagRelease) plain_1 trivial).bind fun b hb => ⟨hr.1, hb⟩
  · split
    · exact (h1.setUnit (a := .flagRelease) plain_1 trivial).bind fun b hb => ⟨hw, hb⟩
    · have h2 : Track.Inv N Z { t with curNote := -1, note := t.note.halt false } :=
        { h with note := h.note.halt false, curNote := .inl rfl }
      exact (h2.setUnit (a := .mute) plain_1 trivial).bind fun b hb => ⟨hw, hb⟩

theorem Track.Inv.muteNote {N n : Nat} {Z : Prop} {t : Track} (h : t.Inv N Z) {x : Nat} {w : IWorld}
    (hw : w.Good n) : Safe True (t.muteNote x w) (Both n N Z) := by
  unfold Track.muteNote
  dsimp only
  split
  · exact (h.stopNote.instrPhase hw .mute).bind fun r hr => hr.2.silence.bind fun b hb => ⟨hr.1, hb⟩
  · exact h.stopNote.silence.bind fun b hb => ⟨hw, hb⟩

theorem Track.Inv.setNote {N n : Nat} {Z : Prop} {t : Track} (h : t.Inv N Z) {x : Nat} {w : IWorld}
    (hw : w.Good n) (v : Int) : Safe True (t.setNote x w v) (Both n N Z) := by
  unfold Track.setNote
  have key : Safe True (t.noteCase x w v) (Both n N Z) := by
    unfold Track.noteCase
    split
    · exact h.playNote hw v
    · split
      · exact h.releaseNote hw
      · split
        · exact h.muteNote hw
        · exact ⟨hw, h⟩
  exact key.bind fun r hr => ⟨hr.1, { hr.2 with }⟩

theorem Track.Inv.setInstrument {N n : Nat} {Z : Prop} {t : Track} (h : t.Inv N Z) {x : Nat} {w : IWorld}
    (hw : w.Good n) (i : Option Nat) : Safe True (t.setInstrument x w i) (Both (n + 1) N Z) := by
  unfold Track.setInstrument
  have key : i ≠ w.links.owner x → Safe True (t.changeInstrument x w i) (Both (n + 1) N Z) := by
    intro _
    cases i with
    | some i =>
      unfold Track.changeInstrument
      dsimp only
      refine (hw.setInstrument x i).bind ?_
      rintro w1 ⟨h1, -⟩
      refine (h1.initValues x h.dutyCycle.1 h.dutyCycle.2).bind ?_
      rintro w2 ⟨h2, -⟩
      have h3 : Track.Inv N Z { t with instrDiv := { t.instrDiv with counter := 0 } } :=
        { h with instrDiv := h.instrDiv.restart }
      split
      · exact h3.instrPhase h2 .mute
      · exact h3.instrAttack h2
    | none =>
      unfold Track.changeInstrument
      dsimp only
      refine (hw.unset x).bind ?_
      rintro w1 ⟨h1, -⟩
      have h1 := h1.mono (Nat.le_succ n)
      split
      · exact h.setNote h1 (-2)
      · exact ⟨h1, h⟩
  dsimp only
  split
  · rename_i hi
    exact (key hi).bind fun r hr => ⟨hr.1, hr.2.flagAll⟩
  · exact ⟨hw.mono (Nat.le_succ n), h.flagAll⟩

theorem Track.Inv.setEffect {N : Nat} {Z : Prop} {t : Track} (h : t.Inv N Z) (e : Effect) (vals : List Int)
    (hv : e = .vibrato → Notes (vals.getD 1 0)) : Safe True (t.setEffect e vals) (fun t' => t'.Inv N Z) := by
  have c0 := cclamp_in (x := vals.getD 0 0) (show (0 : Int) ≤ 65536 by decide)
  have c1 := cclamp_in (x := vals.getD 1 0) (show (0 : Int) ≤ 32767 by decide)
  have c2 := cclamp_in (x := vals.getD 2 0) (show (0 : Int) ≤ 65536 by decide)
  unfold Track.setEffect
  dsimp only
  cases e with
  | volumeSlide =>
    obtain ⟨s, e, hs⟩ := h.volume.setSteps (by decide) c0.2
    dsimp only
    rw [e, ok_bind]
    exact { h with volume := hs }
  | panningSlide =>
    obtain ⟨s, e, hs⟩ := h.panning.setSteps (by decide) c0.2
    dsimp only
    rw [e, ok_bind]
    exact { h with panning := hs }
  | portamento =>
    obtain ⟨s, e, hs⟩ := h.note.setSteps (by decide) c0.2
    dsimp only
    rw [e, ok_bind]
    exact { h with note := hs }
  | tremolo =>
    obtain ⟨d, e1, hd⟩ := h.tremoloDelta.set (by decide) c1.1 c1.2 c2.2
    obtain ⟨m, e2, hm⟩ := h.tremoloSteps.set (by decide) c0.1 c0.2 c2.2
    obtain ⟨o, e3, ho⟩ := h.tremolo.set (d := cclamp (vals.getD 1 0) 0 32767) (n := cclamp (vals.getD 0 0) 0 65536)
      (by decide) (by omega) (by omega) (by omega)
    dsimp only
    rw [e1, ok_bind, e2, ok_bind]
    split
    · rw [e3, ok_bind]
      exact { h with tremoloDelta := hd, tremoloSteps := hm, tremolo := ho }
    · exact { h with tremoloDelta := hd, tremoloSteps := hm }
  | vibrato =>
    obtain ⟨v1, v2⟩ := hv rfl
    obtain ⟨d, e1, hd⟩ := h.vibratoDelta.set (by decide) v1 v2 c2.2
    obtain ⟨m, e2, hm⟩ := h.vibratoSteps.set (by decide) c0.1 c0.2 c2.2
    obtain ⟨o, e3, ho⟩ := h.vibrato.set (d := vals.getD 1 0) (n := cclamp (vals.getD 0 0) 0 65536)
      (by decide) (by omega) (by omega) (by omega)
    dsimp only
    rw [e1, ok_bind, e2, ok_bind]
    split
    · rw [e3, ok_bind]
      exact { h with vibratoDelta := hd, vibratoSteps := hm, vibrato := ho }
    · exact { h with vibratoDelta := hd, vibratoSteps := hm }

theorem Track.Inv.updateIgnore {N : Nat} {Z : Prop} {t : Track} (h : t.Inv N Z) : t.updateIgnore.Inv N Z := { h with }

theorem Track.Inv.setWaveform {N n : Nat} {Z : Prop} {t : Track} (h : t.Inv N Z) {x : Nat} {w : IWorld}
    (hw : w.Good n) {v : Int} (hv : Plain v) (ha : t.unit.toUCore.AttrOk .waveform v) :
    Safe True (t.setWaveform x w v) (fun r => r.2.Inv N Z) := by
  unfold Track.setWaveform
  refine (UCore.setAttr_safe h.unit hv.1 hv.2 ha).bind fun r hr => ?_
  dsimp only
  split
  · have h1 : Track.Inv N Z { t with unit := { t.unit with toUCore := r.2 }, dataId := none, waveform := r.2.waveform.code } :=
      { h with unit := hr, wave := ⟨_, rfl⟩ }
    exact (h1.updateIgnore.updateNote hw).bind fun a ha => ha
  · exact { h with unit := hr }

theorem Track.Inv.setDuty {N : Nat} {Z : Prop} {t : Track} (h : t.Inv N Z) (v : Int) :
    Safe True (t.setDuty v) (fun r => r.2.Inv N Z) := by
  unfold Track.setDuty
  refine (UCore.setAttr_duty_fine h.unit v).bind fun r hr => ?_
  refine { h with unit := hr, dutyCycle := ?_ }
  have h1 := hr.inv.duty
  have h2 := h.dutyCycle
  unfold wrapI32
  dsimp only
  split <;> omega

theorem DivState.Ok.new {v : Int} (h1 : 1 ≤ v) (h2 : v ≤ 2147483647) : DivState.Ok ⟨v, 0⟩ :=
  ⟨⟨h1, h2⟩, show (0 : Int) ≤ 0 ∧ (0 : Int) ≤ 2147483647 by decide⟩

theorem Track.Inv.setAttr {N n : Nat} {t : Track} (h : t.Inv N False) {x : Nat} {w : IWorld} (hw : w.Good n)
    {a : TAttr} {v : Int} (hl : TOp.Legal N t (.attr a v)) :
    Safe True (t.setAttr x w a v) (fun r => Both n N False r.2) := by
  obtain ⟨hp, hl⟩ := hl
  have hv := hp.1.2
  unfold Track.setAttr
  cases a with
  | masterVolume =>
    exact ⟨hw, { h with masterVolume := cclamp_in (by decide) }⟩
  | volume =>
    have c := cclamp_in (x := v) (show (0 : Int) ≤ 32767 by decide)
    obtain ⟨s, e, hs⟩ := h.volume.setValue (by decide) c.1 c.2
    dsimp only
    rw [e, ok_bind]
    exact ⟨hw, { h with volume := hs }⟩
  | panning =>
    have c := cclamp_in (x := v) (show (-32767 : Int) ≤ 32767 by decide)
    obtain ⟨s, e, hs⟩ := h.panning.setValue (by decide) c.1 c.2
    dsimp only
    rw [e, ok_bind]
    exact ⟨hw, { h with panning := hs }⟩
  | waveform => exact (h.setWaveform hw hp hl).bind fun r hr => ⟨hw, hr⟩
  | dutyCycle => exact (h.setDuty v).bind fun r hr => ⟨hw, hr⟩
  | note => exact (h.setNote hw v).bind fun r hr => hr
  | pitch => exact ⟨hw, { h with pitch := cclamp_in (by decide) }⟩
  | samplePitch => exact ⟨hw, { h with samplePitch := cclamp_in (by decide) }⟩
  | arpeggioDivider => exact ⟨hw, { h with arpDiv := DivState.Ok.new hl hv }⟩
  | effectDivider => exact ⟨hw, { h with effectDiv := DivState.Ok.new hl hv }⟩
  | instrDivider => exact ⟨hw, { h with instrDiv := DivState.Ok.new hl hv }⟩
  | triangleIgnores => exact ⟨hw, { h with }⟩
  | slide e =>
    dsimp only
    split
    · exact ⟨hw, h⟩
    · rename_i he
      exact (h.setEffect e _ (fun e' => absurd (.inr e') he)).bind fun a ha => ⟨hw, ha⟩
  | unit a => exact (UCore.setAttr_safe h.unit hp.1 hp.2 hl).bind fun r hr => ⟨hw, { h with unit := hr }⟩

end BK
