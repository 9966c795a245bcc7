import Verif.Model.Band
import Verif.Spec.Song
/-!
Calls on a track do not depend on the time of its unit.
-/
namespace BK

theorem mv_bind {α β β' : Type} {g : β → β'} {m : C α} {k : α → C β} {k' : α → C β'} (h : ∀ a, k' a = (k a).map g) :
    (m >>= k') = (m >>= k).map g := by
  cases m with
  | error e => rfl
  | ok a => exact h a

theorem mv_bind' {α α' β β' : Type} {g : β → β'} (f : α → α') {m : C α} {m' : C α'} {k : α → C β} {k' : α' → C β'}
    (hm : m' = m.map f) (h : ∀ a, k' (f a) = (k a).map g) : (m' >>= k') = (m >>= k).map g := by
  subst hm
  cases m with
  | error e => rfl
  | ok a => exact h a

/-- The unit of a track at another time. -/
def Track.moved (τ : Int) (t : Track) : Track := { t with unit := { t.unit with time := τ } }

/-- A track in a pair. -/
def moved2 {α : Type} (τ : Int) (r : α × Track) : α × Track := (r.1, r.2.moved τ)

/-- A track in a triple. -/
def moved3 {α β : Type} (τ : Int) (r : α × β × Track) : α × β × Track := (r.1, r.2.1, r.2.2.moved τ)

variable {x : Nat} {w : IWorld} {t : Track} {τ : Int}

theorem Track.moved_setUnit {a : UAttr} {v : Int} : (t.moved τ).setUnit a v = (t.setUnit a v).map (Track.moved τ) := by
  unfold Track.setUnit
  exact mv_bind fun r => rfl

theorem Track.moved_updateVolume : (t.moved τ).updateVolume x w = (t.updateVolume x w).map (Track.moved τ) := by
  unfold Track.updateVolume
  refine mv_bind (m := t.mix x w) fun m => ?_
  by_cases h : m.2 ≠ 0 ∧ t.panningOn = true
  · rw [if_pos h, if_pos (show m.2 ≠ 0 ∧ (t.moved τ).panningOn = true from h)]
    refine mv_bind fun c => ?_
    refine mv_bind' (Track.moved τ) Track.moved_setUnit fun t => ?_
    exact Track.moved_setUnit
  · rw [if_neg h, if_neg (show ¬ (m.2 ≠ 0 ∧ (t.moved τ).panningOn = true) from h)]
    exact Track.moved_setUnit

theorem Track.moved_updateNote : (t.moved τ).updateNote x w = (t.updateNote x w).map (Track.moved τ) := by
  unfold Track.updateNote
  show (match t.ctx with | none => _ | some (rate, _) => _ : C Track) = _
  cases hc : t.ctx with
  | none => rfl
  | some c =>
    dsimp only
    refine mv_bind (m := t.noteSum x w) fun n => ?_
    by_cases h : t.waveform ≠ 16391
    · rw [if_pos h, if_pos (show (t.moved τ).waveform ≠ 16391 from h)]
      refine mv_bind fun p => ?_
      refine mv_bind (m := udiv (wrapU32 (wrapI32 p)) (cmin t.unit.count 64)) fun q => ?_
      exact Track.moved_setUnit
    · rw [if_neg h, if_neg (show ¬ (t.moved τ).waveform ≠ 16391 from h)]
      refine mv_bind (m := i32 (n + t.samplePitch)) fun p => ?_
      refine mv_bind fun q => ?_
      exact Track.moved_setUnit

theorem Track.moved_updateDuty : (t.moved τ).updateDuty x w = (t.updateDuty x w).map (Track.moved τ) := by
  unfold Track.updateDuty
  exact Track.moved_setUnit

theorem Track.moved_flushVolume : (t.moved τ).flushVolume x w = (t.flushVolume x w).map (Track.moved τ) := by
  unfold Track.flushVolume
  by_cases h : t.updVolume = true
  · rw [if_pos h, if_pos (show (t.moved τ).updVolume = true from h)]
    exact mv_bind' (Track.moved τ) Track.moved_updateVolume fun t => rfl
  · rw [if_neg h, if_neg (show ¬ (t.moved τ).updVolume = true from h)]
    rfl

theorem Track.moved_flushNote : (t.moved τ).flushNote x w = (t.flushNote x w).map (Track.moved τ) := by
  unfold Track.flushNote
  by_cases h : t.updNote = true
  · rw [if_pos h, if_pos (show (t.moved τ).updNote = true from h)]
    exact mv_bind' (Track.moved τ) Track.moved_updateNote fun t => rfl
  · rw [if_neg h, if_neg (show ¬ (t.moved τ).updNote = true from h)]
    rfl

theorem Track.moved_flushDuty : (t.moved τ).flushDuty x w = (t.flushDuty x w).map (Track.moved τ) := by
  unfold Track.flushDuty
  by_cases h : t.updDuty = true
  · rw [if_pos h, if_pos (show (t.moved τ).updDuty = true from h)]
    exact mv_bind' (Track.moved τ) Track.moved_updateDuty fun t => rfl
  · rw [if_neg h, if_neg (show ¬ (t.moved τ).updDuty = true from h)]
    rfl

theorem Track.moved_updateUnit : (t.moved τ).updateUnit x w = (t.updateUnit x w).map (Track.moved τ) := by
  unfold Track.updateUnit
  refine mv_bind' (Track.moved τ) Track.moved_flushVolume fun t => ?_
  refine mv_bind' (Track.moved τ) Track.moved_flushNote fun t => ?_
  exact Track.moved_flushDuty

theorem Track.moved_silence : (t.moved τ).silence = t.silence.map (Track.moved τ) := by
  unfold Track.silence
  refine mv_bind' (Track.moved τ) Track.moved_setUnit fun t => ?_
  exact mv_bind' (Track.moved τ) Track.moved_setUnit fun t => rfl

theorem Track.moved_told {e : InstrEvent} : (t.moved τ).told x w e = (t.told x w e).map (Track.moved τ) := by
  unfold Track.told
  cases e <;> dsimp only
  · exact Track.moved_updateUnit (t := t.flagAll)
  · by_cases h : t.curNote = -1
    · rw [if_pos h, if_pos (show (t.moved τ).curNote = -1 from h)]
      exact mv_bind' (Track.moved τ) (Track.moved_silence (t := t.stopNote)) fun t => rfl
    · rw [if_neg h, if_neg (show ¬ (t.moved τ).curNote = -1 from h)]
      rfl
  · exact Track.moved_silence (t := t.stopNote.flagSeqs x w)

theorem Track.moved_tell {w' : IWorld} : ∀ (es : List InstrEvent) {t : Track},
    es.foldlM (fun (t : Track) e => t.told x w' e) (t.moved τ) = (es.foldlM (fun (t : Track) e => t.told x w' e) t).map (Track.moved τ)
  | [], t => rfl
  | e :: es, t => by
    rw [List.foldlM_cons, List.foldlM_cons]
    exact mv_bind' (Track.moved τ) Track.moved_told fun t => Track.moved_tell es

theorem Track.moved_hear {w' : IWorld} : (t.moved τ).hear x w w' = (t.hear x w w').map (Track.moved τ) :=
  Track.moved_tell _

theorem Track.moved_instrAttack : (t.moved τ).instrAttack x w = (t.instrAttack x w).map (moved2 τ) := by
  unfold Track.instrAttack
  refine mv_bind (m := w.attack x t.dutyCycle) fun w' => ?_
  exact mv_bind' (Track.moved τ) (Track.moved_hear (t := { t with instrDiv := { t.instrDiv with counter := 0 } })) fun t => rfl

theorem Track.moved_instrPhase {p : SeqPhase} : (t.moved τ).instrPhase x w p = (t.instrPhase x w p).map (moved2 τ) := by
  unfold Track.instrPhase
  refine mv_bind fun w' => ?_
  exact mv_bind' (Track.moved τ) Track.moved_hear fun t => rfl

theorem Track.moved_startNote : (t.moved τ).startNote x w = (t.startNote x w).map (moved2 τ) := by
  unfold Track.startNote
  by_cases h : t.curNote = -1
  · rw [if_pos h, if_pos (show (t.moved τ).curNote = -1 from h)]
    dsimp only
    split
    · exact mv_bind' (moved2 τ) (Track.moved_instrAttack (t := { t with note := t.note.halt true })) fun r => rfl
    · rfl
  · rw [if_neg h, if_neg (show ¬ (t.moved τ).curNote = -1 from h)]
    rfl

theorem Track.moved_startSample : (t.moved τ).startSample = t.startSample.map (Track.moved τ) := by
  unfold Track.startSample
  by_cases h : t.waveform = 16391 ∧ t.curNote = -1
  · rw [if_pos h, if_pos (show (t.moved τ).waveform = 16391 ∧ (t.moved τ).curNote = -1 from h)]
    exact Track.moved_setUnit
  · rw [if_neg h, if_neg (show ¬ ((t.moved τ).waveform = 16391 ∧ (t.moved τ).curNote = -1) from h)]
    rfl

theorem Track.moved_playNote {n : Int} : (t.moved τ).playNote x w n = (t.playNote x w n).map (moved2 τ) := by
  unfold Track.playNote
  dsimp only
  refine mv_bind (m := t.note.setValue _) fun s => ?_
  refine mv_bind' (moved2 τ) (Track.moved_startNote (t := { t with note := s })) fun r => ?_
  refine mv_bind' (Track.moved τ) (Track.moved_startSample (t := r.2)) fun u => ?_
  refine mv_bind' (Track.moved τ) (Track.moved_setUnit (t := { u with curNote := cclamp n 0 (96 * 1048576) })) fun u => ?_
  exact mv_bind' (Track.moved τ) Track.moved_setUnit fun u => rfl

theorem Track.moved_releaseNote : (t.moved τ).releaseNote x w = (t.releaseNote x w).map (moved2 τ) := by
  unfold Track.releaseNote
  dsimp only
  by_cases h : w.on x = true
  · rw [if_pos h, if_pos h]
    refine mv_bind' (moved2 τ) (Track.moved_instrPhase (t := { t with curNote := -1 })) fun r => ?_
    exact mv_bind' (Track.moved τ) (Track.moved_setUnit (t := r.2)) fun u => rfl
  · rw [if_neg h, if_neg h]
    by_cases h2 : t.unit.sustainRange = true
    · rw [if_pos h2, if_pos (show (t.moved τ).unit.sustainRange = true from h2)]
      exact mv_bind' (Track.moved τ) (Track.moved_setUnit (t := { t with curNote := -1 })) fun u => rfl
    · rw [if_neg h2, if_neg (show ¬ (t.moved τ).unit.sustainRange = true from h2)]
      exact mv_bind' (Track.moved τ) (Track.moved_setUnit (t := { t with curNote := -1, note := t.note.halt false })) fun u => rfl

theorem Track.moved_muteNote : (t.moved τ).muteNote x w = (t.muteNote x w).map (moved2 τ) := by
  unfold Track.muteNote
  dsimp only
  split
  · refine mv_bind' (moved2 τ) (Track.moved_instrPhase (t := t.stopNote)) fun r => ?_
    exact mv_bind' (Track.moved τ) (Track.moved_silence (t := r.2)) fun u => rfl
  · exact mv_bind' (Track.moved τ) (Track.moved_silence (t := t.stopNote)) fun u => rfl

theorem Track.moved_setNote {n : Int} : (t.moved τ).setNote x w n = (t.setNote x w n).map (moved2 τ) := by
  unfold Track.setNote
  refine mv_bind' (moved2 τ) ?_ fun r => rfl
  unfold Track.noteCase
  split
  · exact Track.moved_playNote
  · split
    · exact Track.moved_releaseNote
    · split
      · exact Track.moved_muteNote
      · rfl

theorem Track.moved_changeInstrument {i : Option Nat} :
    (t.moved τ).changeInstrument x w i = (t.changeInstrument x w i).map (moved2 τ) := by
  unfold Track.changeInstrument
  cases i with
  | some i =>
    dsimp only
    refine mv_bind fun w => ?_
    refine mv_bind (m := w.initValues x t.dutyCycle) fun w => ?_
    by_cases h : t.curNote = -1
    · rw [if_pos h, if_pos (show (t.moved τ).curNote = -1 from h)]
      exact Track.moved_instrPhase (t := { t with instrDiv := { t.instrDiv with counter := 0 } })
    · rw [if_neg h, if_neg (show ¬ (t.moved τ).curNote = -1 from h)]
      exact Track.moved_instrAttack (t := { t with instrDiv := { t.instrDiv with counter := 0 } })
  | none =>
    dsimp only
    refine mv_bind fun w => ?_
    by_cases h : t.curNote = -1
    · rw [if_pos h, if_pos (show (t.moved τ).curNote = -1 from h)]
      exact Track.moved_setNote
    · rw [if_neg h, if_neg (show ¬ (t.moved τ).curNote = -1 from h)]
      rfl

theorem Track.moved_setInstrument {i : Option Nat} :
    (t.moved τ).setInstrument x w i = (t.setInstrument x w i).map (moved2 τ) := by
  unfold Track.setInstrument
  split
  · exact mv_bind' (moved2 τ) Track.moved_changeInstrument fun r => rfl
  · rfl

theorem Track.moved_setEffect {e : Effect} {vs : List Int} : (t.moved τ).setEffect e vs = (t.setEffect e vs).map (Track.moved τ) := by
  unfold Track.setEffect
  cases e <;> dsimp only
  · exact mv_bind (m := t.volume.setSteps _) fun s => rfl
  · exact mv_bind (m := t.panning.setSteps _) fun s => rfl
  · exact mv_bind (m := t.note.setSteps _) fun s => rfl
  · refine mv_bind (m := t.tremoloDelta.setValueAndSteps _ _) fun d => ?_
    refine mv_bind (m := t.tremoloSteps.setValueAndSteps _ _) fun n => ?_
    split
    · exact mv_bind (m := t.tremolo.setDeltaAndSteps _ _) fun o => rfl
    · rfl
  · refine mv_bind (m := t.vibratoDelta.setValueAndSteps _ _) fun d => ?_
    refine mv_bind (m := t.vibratoSteps.setValueAndSteps _ _) fun n => ?_
    split
    · exact mv_bind (m := t.vibrato.setDeltaAndSteps _ _) fun o => rfl
    · rfl

theorem Track.moved_setWaveform {v : Int} : (t.moved τ).setWaveform x w v = (t.setWaveform x w v).map (moved2 τ) := by
  unfold Track.setWaveform
  refine mv_bind (m := t.unit.toUCore.setAttr .waveform v) fun r => ?_
  dsimp only
  split
  · exact mv_bind' (Track.moved τ) (Track.moved_updateNote (t := Track.updateIgnore
      { t with unit := { t.unit with toUCore := r.2 }, dataId := none, waveform := r.2.waveform.code })) fun t => rfl
  · rfl

theorem Track.moved_setDuty {v : Int} : (t.moved τ).setDuty v = (t.setDuty v).map (moved2 τ) := by
  unfold Track.setDuty
  exact mv_bind (m := t.unit.toUCore.setAttr .dutyCycle v) fun r => rfl

theorem Track.moved_setAttr {a : TAttr} {v : Int} : (t.moved τ).setAttr x w a v = (t.setAttr x w a v).map (moved3 τ) := by
  unfold Track.setAttr
  cases a <;> dsimp only
  · rfl
  · exact mv_bind (m := t.volume.setValue _) fun s => rfl
  · exact mv_bind (m := t.panning.setValue _) fun s => rfl
  · exact mv_bind' (moved2 τ) Track.moved_setWaveform fun r => rfl
  · exact mv_bind' (moved2 τ) Track.moved_setDuty fun r => rfl
  · exact mv_bind' (moved2 τ) Track.moved_setNote fun r => rfl
  · rfl
  · rfl
  · rfl
  · rfl
  · rfl
  · rfl
  · split
    · rfl
    · exact mv_bind' (Track.moved τ) Track.moved_setEffect fun r => rfl
  · exact mv_bind (m := t.unit.toUCore.setAttr _ v) fun r => rfl

theorem Track.moved_setData {k : DataAttr} {d : Option DataArg} :
    (t.moved τ).setData x w k d = (t.setData x w k d).map (moved2 τ) := by
  unfold Track.setData
  refine mv_bind' (moved2 τ) ?_ fun r => ?_
  · unfold Track.setUnitData
    by_cases h : k = .sample ∧ t.unit.waveform = .sample ∧ d.map (·.id) = t.dataId
    · rw [if_pos h, if_pos (show k = .sample ∧ (t.moved τ).unit.waveform = .sample ∧ d.map (·.id) = (t.moved τ).dataId from h)]
      rfl
    · rw [if_neg h, if_neg (show ¬ (k = .sample ∧ (t.moved τ).unit.waveform = .sample ∧ d.map (·.id) = (t.moved τ).dataId) from h)]
      refine mv_bind (m := t.unit.toUCore.setData (t.ctx.map (·.2)) k (d.map (·.data))) fun r => ?_
      rfl
  · by_cases h : r.1 = .ok
    · rw [if_pos h, if_pos (show (moved2 τ r).1 = .ok from h)]
      dsimp only
      exact mv_bind' (Track.moved τ) (Track.moved_updateNote (t := { Track.updateIgnore { r.2 with waveform := r.2.unit.waveform.code } with
        samplePitch := match d with | some d => d.pitch | none => 0 })) fun t => rfl
    · rw [if_neg h, if_neg (show ¬ (moved2 τ r).1 = .ok from h)]
      rfl

theorem Track.moved_effectTick : (t.moved τ).effectTick = t.effectTick.map (Track.moved τ) := by
  unfold Track.effectTick
  refine mv_bind (m := t.note.tickIf t.portamento) fun a => ?_
  refine mv_bind (m := t.volume.tickIf t.volumeSlide) fun b => ?_
  refine mv_bind (m := t.panning.tickIf t.panningSlide) fun c => ?_
  refine mv_bind (m := tickOsc t.tremoloOn t.tremolo t.tremoloDelta t.tremoloSteps) fun d => ?_
  exact mv_bind (m := tickOsc t.vibratoOn t.vibrato t.vibratoDelta t.vibratoSteps) fun e => rfl

theorem Track.moved_arpeggioTick : (t.moved τ).arpeggioTick = t.arpeggioTick.map (Track.moved τ) := by
  unfold Track.arpeggioTick
  by_cases h : t.arpeggioOn = true
  · rw [if_pos h, if_pos (show (t.moved τ).arpeggioOn = true from h)]
    refine mv_bind (m := t.arpDiv.tick) fun r => ?_
    dsimp only
    split
    · exact mv_bind (m := t.arp.tick) fun a => rfl
    · rfl
  · rw [if_neg h, if_neg (show ¬ (t.moved τ).arpeggioOn = true from h)]
    rfl

theorem Track.moved_instrTick : (t.moved τ).instrTick x w = (t.instrTick x w).map (moved2 τ) := by
  unfold Track.instrTick
  split
  · refine mv_bind (m := t.instrDiv.tick) fun r => ?_
    refine mv_bind fun w' => ?_
    exact mv_bind' (Track.moved τ) (Track.moved_hear (t := { t with instrDiv := r.2 })) fun t => rfl
  · rfl

theorem Track.moved_effectsTick : (t.moved τ).effectsTick = t.effectsTick.map (Track.moved τ) := by
  unfold Track.effectsTick
  by_cases h : t.effects = true
  · rw [if_pos h, if_pos (show (t.moved τ).effects = true from h)]
    refine mv_bind (m := t.effectDiv.tick) fun r => ?_
    dsimp only
    split
    · exact Track.moved_effectTick (t := { t with effectDiv := r.2 })
    · rfl
  · rw [if_neg h, if_neg (show ¬ (t.moved τ).effects = true from h)]
    rfl

theorem Track.moved_tick : (t.moved τ).tick x w = (t.tick x w).map (moved2 τ) := by
  unfold Track.tick
  refine mv_bind' (Track.moved τ) (Track.moved_arpeggioTick (t := t.flagEffects)) fun t => ?_
  refine mv_bind' (moved2 τ) Track.moved_instrTick fun r => ?_
  refine mv_bind' (Track.moved τ) (Track.moved_updateUnit (t := r.2)) fun t => ?_
  exact mv_bind' (Track.moved τ) Track.moved_effectsTick fun t => rfl

theorem Track.moved_clear : (t.moved τ).clear x w = (t.clear x w).map (moved2 τ) := by
  unfold Track.clear
  refine mv_bind (m := t.unit.toUCore.clear (t.ctx.map (·.2))) fun u => ?_
  dsimp only
  refine mv_bind' (moved2 τ) (Track.moved_setInstrument (t := { t with unit := { t.unit with toUCore := u }, dataId := if u.data = none then none else t.dataId })) fun r => ?_
  refine mv_bind' (moved3 τ) (Track.moved_setAttr (t := r.2.wiped)) fun r => ?_
  refine mv_bind' (moved3 τ) (Track.moved_setAttr (t := r.2.2)) fun r => ?_
  refine mv_bind' (moved3 τ) (Track.moved_setAttr (t := r.2.2)) fun r => ?_
  refine mv_bind' (moved3 τ) (Track.moved_setAttr (t := r.2.2)) fun r => ?_
  refine mv_bind' (moved3 τ) (Track.moved_setAttr (t := r.2.2)) fun r => ?_
  exact mv_bind' (moved3 τ) (Track.moved_setAttr (t := r.2.2)) fun r => rfl

/-- All calls that leave a track where it is. -/
theorem Track.moved_exec {op : TOp} (hq : op.Quiet) : (t.moved τ).exec x w op = (t.exec x w op).map (moved2 τ) := by
  unfold Track.exec
  cases op <;> dsimp only
  · exact mv_bind' (moved3 τ) Track.moved_setAttr fun r => rfl
  · exact mv_bind' (Track.moved τ) Track.moved_setEffect fun r => rfl
  · refine mv_bind' (Track.moved τ) ?_ fun r => rfl
    unfold Track.setArpeggio
    exact mv_bind (m := t.arp.set _) fun a => rfl
  · exact Track.moved_setInstrument
  · exact mv_bind' (moved2 τ) Track.moved_setData fun r => rfl
  · exact mv_bind (m := t.unit.toUCore.setRange _) fun r => rfl
  · exact mv_bind (m := t.unit.toUCore.setSustainRange _) fun r => rfl
  · rfl
  · exact Track.moved_clear
  · cases hq
  · cases hq
  · cases hq
  · exact Track.moved_tick
  · cases hq
  · cases hq

/-- Rendering. -/
theorem Track.moved_run {e : Int} : (t.moved τ).run x w e = (do
    let t ← t.updateUnit x w
    let r ← t.unit.toUCore.render τ e (match t.ctx with | some c => c.2 | none => 0).toNat
    return ({ t with unit := { toUCore := r.2.1, time := r.1 } }, r.2.2)) := by
  unfold Track.run
  rw [Track.moved_updateUnit]
  cases t.updateUnit x w with
  | error e => rfl
  | ok t => rfl

end BK
