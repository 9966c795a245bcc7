import Verif.Lemmas.ReadBack
/-!
Which calls keep the sample of a track and its ranges.
-/
namespace BK

/-- All that is read of a sample or a waveform. -/
def UCore.picked (c : UCore) : Wave × Option SampleData × (Int × Int) × (Int × Int) × List Int × Int × Int :=
  (c.waveform, c.data, (c.offset, c.stop), (c.sustainOffset, c.sustainEnd), c.frames, c.numChannels, c.count)

def Track.picked (t : Track) : Option Nat × Wave × Option SampleData × (Int × Int) × (Int × Int) × List Int × Int × Int :=
  (t.dataId, t.unit.toUCore.picked)

theorem UCore.sampleChan_picked {t idx : Int} {st st' : UCore × List Pulse} {i : Nat}
    (h : UCore.sampleChan t idx st i = .ok st') : st'.1.picked = st.1.picked := by
  unfold UCore.sampleChan at h
  obtain ⟨p, -, h⟩ := bind_ok_iff.1 h
  obtain ⟨y, -, h⟩ := bind_ok_iff.1 h
  obtain ⟨z, -, h⟩ := bind_ok_iff.1 h
  obtain ⟨w, -, h⟩ := bind_ok_iff.1 h
  cases h; rfl

theorem UCore.advance_picked {c c' : UCore} (h : c.advance = .ok c') : c'.picked = c.picked := by
  unfold UCore.advance at h
  obtain ⟨p, -, h⟩ := bind_ok_iff.1 h
  obtain ⟨y, -, h⟩ := bind_ok_iff.1 h
  cases h; rfl

theorem UCore.checkRange_picked {c : UCore} {r : Bool × UCore} (h : c.checkRange = .ok r) :
    r.2.picked = c.picked := by
  unfold UCore.checkRange at h
  split at h
  · unfold UCore.resetSample at h
    obtain ⟨w, -, h⟩ := bind_ok_iff.1 h
    split at h
    · cases h; rfl
    · obtain ⟨y, -, h⟩ := bind_ok_iff.1 h
      cases h; rfl
  · cases h; rfl

theorem UCore.checkSustain_picked {c c' : UCore} {b : Bool} (h : c.checkSustain b = .ok c') :
    c'.picked = c.picked := by
  unfold UCore.checkSustain at h
  split at h
  · unfold UCore.sustain at h
    split at h <;> split at h <;> (cases h; rfl)
  · cases h; rfl

theorem UCore.sampleStep_picked {c : UCore} {cb : Bool} {t : Int} {n : Nat}
    {r : Bool × UCore × List Pulse} (h : c.sampleStep cb t n = .ok r) : r.2.1.picked = c.picked := by
  unfold UCore.sampleStep at h
  obtain ⟨x, hx, h⟩ := bind_ok_iff.1 h
  obtain ⟨y, hy, h⟩ := bind_ok_iff.1 h
  obtain ⟨z, hz, h⟩ := bind_ok_iff.1 h
  have h0 : x.1.picked = c.picked :=
    foldlM_inv (P := fun st : UCore × List Pulse => st.1.picked = c.picked)
      (fun st i st' hst hs => (UCore.sampleChan_picked hs).trans hst) _ rfl hx
  have h1 := (UCore.checkRange_picked hz).trans ((UCore.advance_picked hy).trans h0)
  split at h
  · cases h; exact h1
  · obtain ⟨v, hv, h⟩ := bind_ok_iff.1 h
    cases h
    exact (UCore.checkSustain_picked hv).trans h1

theorem UCore.sampleLoop_picked {cb : Bool} {e : Int} {n : Nat} : ∀ (k : Nat) {t : Int} {c : UCore}
    {r : Int × UCore × List Pulse}, UCore.sampleLoop cb e n k t c = .ok r → r.2.1.picked = c.picked
  | 0, t, c, r, h => by cases h; rfl
  | k + 1, t, c, r, h => by
    unfold UCore.sampleLoop at h
    split at h
    · obtain ⟨x, hx, h⟩ := bind_ok_iff.1 h
      have h0 := UCore.sampleStep_picked hx
      split at h
      · cases h; exact h0
      · obtain ⟨y, -, h⟩ := bind_ok_iff.1 h
        obtain ⟨z, hz, h⟩ := bind_ok_iff.1 h
        cases h
        exact (UCore.sampleLoop_picked k hz).trans h0
    · cases h; rfl

theorem UCore.render_picked {c : UCore} {t0 e : Int} {n : Nat} {r : Int × UCore × List Pulse}
    (h : c.render t0 e n = .ok r) : r.2.1.picked = c.picked := by
  unfold UCore.render at h
  obtain ⟨x, hx, h⟩ := bind_ok_iff.1 h
  cases h
  dsimp only
  unfold UCore.runAny at hx
  split at hx
  · cases hx; rfl
  · split at hx
    · cases hx; rfl
    · unfold UCore.runSample at hx
      split at hx
      · cases hx; rfl
      · obtain ⟨d, -, hx⟩ := bind_ok_iff.1 hx
        obtain ⟨d', -, hx⟩ := bind_ok_iff.1 hx
        split at hx
        · cases hx; rfl
        · obtain ⟨y, hy, hx⟩ := bind_ok_iff.1 hx
          cases hx
          have := UCore.sampleLoop_picked _ hy
          exact this
    · unfold UCore.runWaveform at hx
      split at hx
      · cases hx; rfl
      · refine foldlM_inv (P := fun st : Int × UCore × List Pulse => st.2.1.picked = c.picked) ?_ _ rfl hx
        intro st i st' hst hs
        unfold UCore.waveChan at hs
        split at hs
        · cases hs; exact hst
        · obtain ⟨x, -, hs⟩ := bind_ok_iff.1 hs
          cases hs
          exact hst


theorem UCore.setAttr_picked {c : UCore} {a : UAttr} {v : Int} {r : Ret × UCore} (ha : a ≠ .waveform) (h : c.setAttr a v = .ok r) :
    r.2.picked = c.picked := by
  unfold UCore.setAttr at h
  cases a <;> dsimp only at h
  case waveform => exact absurd rfl ha
  case dutyCycle => split at h <;> (cases h; rfl)
  case period =>
    obtain ⟨p, -, h⟩ := bind_ok_iff.1 h
    cases h; rfl
  case samplePeriod =>
    obtain ⟨p, -, h⟩ := bind_ok_iff.1 h
    cases h; rfl
  case flagRelease =>
    split at h
    · split at h
      · split at h
        · cases h; rfl
        · obtain ⟨p, -, h⟩ := bind_ok_iff.1 h
          cases h; rfl
      · cases h; rfl
    · cases h; rfl
  all_goals (cases h; rfl)

theorem Track.setUnit_picked {t t' : Track} {a : UAttr} {v : Int} (ha : a ≠ .waveform := by decide) (h : t.setUnit a v = .ok t') :
    t'.picked = t.picked := by
  obtain ⟨r, hr, rfl⟩ := Track.setUnit_eq h
  unfold Track.picked
  dsimp only
  rw [UCore.setAttr_picked ha hr]

theorem Track.updateVolume_picked {x : Nat} {w : IWorld} {t t' : Track} (h : t.updateVolume x w = .ok t') : t'.picked = t.picked := by
  unfold Track.updateVolume at h
  obtain ⟨m, -, h⟩ := bind_ok_iff.1 h
  split at h
  · obtain ⟨c, -, h⟩ := bind_ok_iff.1 h
    obtain ⟨t1, h1, h⟩ := bind_ok_iff.1 h
    exact (Track.setUnit_picked (h := h)).trans (Track.setUnit_picked (h := h1))
  · exact Track.setUnit_picked (h := h)

theorem Track.updateNote_picked {x : Nat} {w : IWorld} {t t' : Track} (h : t.updateNote x w = .ok t') : t'.picked = t.picked := by
  unfold Track.updateNote at h
  split at h
  · cases h; rfl
  · obtain ⟨n, -, h⟩ := bind_ok_iff.1 h
    split at h
    · obtain ⟨p, -, h⟩ := bind_ok_iff.1 h
      obtain ⟨q, -, h⟩ := bind_ok_iff.1 h
      exact Track.setUnit_picked (h := h)
    · obtain ⟨p, -, h⟩ := bind_ok_iff.1 h
      obtain ⟨q, -, h⟩ := bind_ok_iff.1 h
      exact Track.setUnit_picked (h := h)

theorem Track.updateUnit_picked {x : Nat} {w : IWorld} {t t' : Track} (h : t.updateUnit x w = .ok t') : t'.picked = t.picked := by
  unfold Track.updateUnit at h
  obtain ⟨a, ha, h⟩ := bind_ok_iff.1 h
  obtain ⟨b, hb, h⟩ := bind_ok_iff.1 h
  have h1 : a.picked = t.picked := by
    unfold Track.flushVolume at ha
    split at ha
    · obtain ⟨u, hu, ha⟩ := bind_ok_iff.1 ha
      cases ha
      have k := Track.updateVolume_picked hu
      exact k
    · cases ha; rfl
  have h2 : b.picked = a.picked := by
    unfold Track.flushNote at hb
    split at hb
    · obtain ⟨u, hu, hb⟩ := bind_ok_iff.1 hb
      cases hb
      have k := Track.updateNote_picked hu
      exact k
    · cases hb; rfl
  have h3 : t'.picked = b.picked := by
    unfold Track.flushDuty at h
    split at h
    · obtain ⟨u, hu, h⟩ := bind_ok_iff.1 h
      cases h
      unfold Track.updateDuty at hu
      have k := Track.setUnit_picked (h := hu)
      exact k
    · cases h; rfl
  exact h3.trans (h2.trans h1)

theorem Track.silence_picked {t t' : Track} (h : t.silence = .ok t') : t'.picked = t.picked := by
  unfold Track.silence at h
  obtain ⟨a, ha, h⟩ := bind_ok_iff.1 h
  obtain ⟨b, hb, h⟩ := bind_ok_iff.1 h
  cases h
  have k := (Track.setUnit_picked (h := hb)).trans (Track.setUnit_picked (h := ha))
  exact k

theorem Track.stopNote_picked (t : Track) : t.stopNote.picked = t.picked := rfl

theorem Track.flagSeqs_picked (x : Nat) (w : IWorld) (t : Track) : (t.flagSeqs x w).picked = t.picked := by
  unfold Track.flagSeqs
  try split
  all_goals rfl

theorem Track.told_picked {x : Nat} {w : IWorld} {t t' : Track} {e : InstrEvent} (h : t.told x w e = .ok t') : t'.picked = t.picked := by
  cases e <;> unfold Track.told at h <;> dsimp only at h
  · have k := Track.updateUnit_picked h
    exact k.trans rfl
  · split at h
    · obtain ⟨a, ha, h⟩ := bind_ok_iff.1 h
      cases h
      exact (Track.silence_picked ha).trans t.stopNote_picked
    · cases h; rfl
  · exact (Track.silence_picked h).trans t.stopNote_picked

theorem Track.hear_picked {x : Nat} {w w' : IWorld} {t t' : Track} (h : t.hear x w w' = .ok t') : t'.picked = t.picked := by
  unfold Track.hear at h
  exact foldlM_inv (P := fun s : Track => s.picked = t.picked) (fun s e s' hs he => (Track.told_picked he).trans hs) _ rfl h

theorem Track.instrAttack_picked {x : Nat} {w : IWorld} {t : Track} {r : IWorld × Track} (h : t.instrAttack x w = .ok r) :
    r.2.picked = t.picked := by
  unfold Track.instrAttack at h
  obtain ⟨w', -, h⟩ := bind_ok_iff.1 h
  obtain ⟨t', ht, h⟩ := bind_ok_iff.1 h
  cases h
  have k := Track.hear_picked ht
  have k2 := Track.flagSeqs_picked x w' t'
  exact k2.trans (k.trans rfl)

theorem Track.instrPhase_picked {x : Nat} {w : IWorld} {t : Track} {p : SeqPhase} {r : IWorld × Track}
    (h : t.instrPhase x w p = .ok r) : r.2.picked = t.picked := by
  unfold Track.instrPhase at h
  obtain ⟨w', -, h⟩ := bind_ok_iff.1 h
  obtain ⟨t', ht, h⟩ := bind_ok_iff.1 h
  cases h
  have k := Track.hear_picked ht
  have k2 := Track.flagSeqs_picked x w' t'
  exact k2.trans (k.trans rfl)

theorem Track.noteHalt_picked (t : Track) (b : Bool) : { t with note := t.note.halt b }.picked = t.picked := rfl

theorem Track.startNote_picked {x : Nat} {w : IWorld} {t : Track} {r : IWorld × Track} (h : t.startNote x w = .ok r) :
    r.2.picked = t.picked := by
  unfold Track.startNote at h
  split at h
  · dsimp only at h
    split at h
    · obtain ⟨r', h1, h⟩ := bind_ok_iff.1 h
      cases h
      exact (Track.instrAttack_picked h1).trans (t.noteHalt_picked true)
    · cases h
      exact t.noteHalt_picked true
  · cases h; rfl

theorem Track.startSample_picked {t t' : Track} (h : t.startSample = .ok t') : t'.picked = t.picked := by
  unfold Track.startSample at h
  split at h
  · exact Track.setUnit_picked (h := h)
  · cases h; rfl

theorem Track.playNote_picked {x : Nat} {w : IWorld} {t : Track} {n : Int} {r : IWorld × Track} (h : t.playNote x w n = .ok r) : r.2.picked = t.picked := by
  unfold Track.playNote at h
  obtain ⟨s, h0, h⟩ := bind_ok_iff.1 h
  obtain ⟨r', h1, h⟩ := bind_ok_iff.1 h
  obtain ⟨t1, h2, h⟩ := bind_ok_iff.1 h
  obtain ⟨t2, h3, h⟩ := bind_ok_iff.1 h
  obtain ⟨t3, h4, h⟩ := bind_ok_iff.1 h
  cases h
  have k0 : { t with note := s }.picked = t.picked := rfl
  have k3 : t2.picked = t1.picked := by
    have k := Track.setUnit_picked (h := h3)
    exact k.trans rfl
  exact (Track.setUnit_picked (h := h4)).trans (k3.trans ((Track.startSample_picked h2).trans ((Track.startNote_picked h1).trans k0)))

theorem Track.releaseNote_picked {x : Nat} {w : IWorld} {t : Track} {r : IWorld × Track} (h : t.releaseNote x w = .ok r) :
    r.2.picked = t.picked := by
  unfold Track.releaseNote at h
  dsimp only at h
  split at h
  · obtain ⟨r', h1, h⟩ := bind_ok_iff.1 h
    obtain ⟨t1, h2, h⟩ := bind_ok_iff.1 h
    cases h
    have k := Track.instrPhase_picked h1
    exact (Track.setUnit_picked (h := h2)).trans (k.trans rfl)
  · split at h
    · obtain ⟨t1, h2, h⟩ := bind_ok_iff.1 h
      cases h
      have k := Track.setUnit_picked (h := h2)
      exact k.trans rfl
    · obtain ⟨t1, h2, h⟩ := bind_ok_iff.1 h
      cases h
      exact (Track.setUnit_picked (h := h2)).trans (Track.noteHalt_picked { t with curNote := -1 } false)

theorem Track.muteNote_picked {x : Nat} {w : IWorld} {t : Track} {r : IWorld × Track} (h : t.muteNote x w = .ok r) :
    r.2.picked = t.picked := by
  unfold Track.muteNote at h
  dsimp only at h
  split at h
  · obtain ⟨r', h1, h⟩ := bind_ok_iff.1 h
    obtain ⟨t1, h2, h⟩ := bind_ok_iff.1 h
    cases h
    exact (Track.silence_picked h2).trans ((Track.instrPhase_picked h1).trans t.stopNote_picked)
  · obtain ⟨r', h1, h⟩ := bind_ok_iff.1 h
    obtain ⟨t1, h2, h⟩ := bind_ok_iff.1 h
    cases h1
    cases h
    exact (Track.silence_picked h2).trans t.stopNote_picked

theorem Track.setNote_picked {x : Nat} {w : IWorld} {t : Track} {n : Int} {r : IWorld × Track} (h : t.setNote x w n = .ok r) : r.2.picked = t.picked := by
  unfold Track.setNote at h
  obtain ⟨r', h1, h⟩ := bind_ok_iff.1 h
  cases h
  show r'.2.picked = t.picked
  unfold Track.noteCase at h1
  split at h1
  · exact Track.playNote_picked h1
  · split at h1
    · exact Track.releaseNote_picked h1
    · split at h1
      · exact Track.muteNote_picked h1
      · cases h1; rfl

theorem Track.setInstrument_picked {x : Nat} {w : IWorld} {t : Track} {i : Option Nat} {r : IWorld × Track} (h : t.setInstrument x w i = .ok r) : r.2.picked = t.picked := by
  unfold Track.setInstrument at h
  split at h
  · obtain ⟨r', h1, h⟩ := bind_ok_iff.1 h
    cases h
    show r'.2.picked = t.picked
    cases i with
    | some i =>
      unfold Track.changeInstrument at h1
      dsimp only at h1
      obtain ⟨w1, -, h1⟩ := bind_ok_iff.1 h1
      obtain ⟨w2, -, h1⟩ := bind_ok_iff.1 h1
      split at h1
      · have k := Track.instrPhase_picked h1
        exact k.trans rfl
      · have k := Track.instrAttack_picked h1
        exact k.trans rfl
    | none =>
      unfold Track.changeInstrument at h1
      dsimp only at h1
      obtain ⟨w1, -, h1⟩ := bind_ok_iff.1 h1
      split at h1
      · exact Track.setNote_picked h1
      · cases h1; rfl
  · cases h
    rfl


theorem Track.setEffect_picked {t t' : Track} {e : Effect} {vals : List Int} (h : t.setEffect e vals = .ok t') : t'.picked = t.picked := by
  unfold Track.setEffect at h
  cases e <;> dsimp only at h
  iterate 3
    · obtain ⟨s, -, h⟩ := bind_ok_iff.1 h
      cases h; rfl
  all_goals
    obtain ⟨d, -, h⟩ := bind_ok_iff.1 h
    obtain ⟨n, -, h⟩ := bind_ok_iff.1 h
    split at h
    · obtain ⟨o, -, h⟩ := bind_ok_iff.1 h
      cases h; rfl
    · cases h; rfl

theorem Track.tick_picked {x : Nat} {w : IWorld} {t : Track} {r : IWorld × Track} (h : t.tick x w = .ok r) : r.2.picked = t.picked := by
  unfold Track.tick at h
  obtain ⟨t1, h1, h⟩ := bind_ok_iff.1 h
  obtain ⟨r2, h2, h⟩ := bind_ok_iff.1 h
  obtain ⟨t3, h3, h⟩ := bind_ok_iff.1 h
  obtain ⟨t4, h4, h⟩ := bind_ok_iff.1 h
  cases h
  have k1 : t1.picked = t.picked := by
    unfold Track.arpeggioTick at h1
    split at h1
    · obtain ⟨q, -, h1⟩ := bind_ok_iff.1 h1
      dsimp only at h1
      split at h1
      · obtain ⟨a, -, h1⟩ := bind_ok_iff.1 h1
        cases h1; rfl
      · cases h1; rfl
    · cases h1; rfl
  have k2 : r2.2.picked = t1.picked := by
    unfold Track.instrTick at h2
    split at h2
    · obtain ⟨q, -, h2⟩ := bind_ok_iff.1 h2
      obtain ⟨w', -, h2⟩ := bind_ok_iff.1 h2
      obtain ⟨t', ht, h2⟩ := bind_ok_iff.1 h2
      cases h2
      have k := Track.hear_picked ht
      exact k.trans rfl
    · cases h2; rfl
  have k4 : t4.picked = t3.picked := by
    unfold Track.effectsTick at h4
    split at h4
    · obtain ⟨q, -, h4⟩ := bind_ok_iff.1 h4
      dsimp only at h4
      split at h4
      · unfold Track.effectTick at h4
        obtain ⟨a, ha, h4⟩ := bind_ok_iff.1 h4
        obtain ⟨b, hb, h4⟩ := bind_ok_iff.1 h4
        obtain ⟨c, hc, h4⟩ := bind_ok_iff.1 h4
        obtain ⟨d, hd, h4⟩ := bind_ok_iff.1 h4
        obtain ⟨e, he, h4⟩ := bind_ok_iff.1 h4
        cases h4; rfl
      · cases h4; rfl
    · cases h4; rfl
  exact k4.trans ((Track.updateUnit_picked h3).trans (k2.trans k1))

/-- Calls that do not set a sample or its ranges. -/
theorem Track.exec_picked {x : Nat} {w : IWorld} {t : Track} {op : TOp} {r : IWorld × Track}
    (ho : op.leavesSample) (h : t.exec x w op = .ok r) : r.2.picked = t.picked := by
  unfold Track.exec at h
  cases op <;> dsimp only at h
  case attr a v =>
    obtain ⟨s, h1, h⟩ := bind_ok_iff.1 h
    cases h
    unfold Track.setAttr at h1
    cases a <;> dsimp only at h1
    case waveform => exact ho.elim
    case note =>
      obtain ⟨s, h2, h1⟩ := bind_ok_iff.1 h1
      cases h1
      exact Track.setNote_picked h2
    case dutyCycle =>
      obtain ⟨s, h2, h1⟩ := bind_ok_iff.1 h1
      cases h1
      unfold Track.setDuty at h2
      obtain ⟨q, hq, h2⟩ := bind_ok_iff.1 h2
      cases h2
      have k := UCore.setAttr_picked (by decide) hq
      unfold Track.picked
      dsimp only
      rw [k]
    case slide f =>
      split at h1
      · cases h1; rfl
      · obtain ⟨u, h2, h1⟩ := bind_ok_iff.1 h1
        cases h1
        exact Track.setEffect_picked h2
    case unit a =>
      obtain ⟨q, hq, h1⟩ := bind_ok_iff.1 h1
      cases h1
      have k := UCore.setAttr_picked (by cases a <;> simp [FAttr.attr]) hq
      unfold Track.picked
      dsimp only
      rw [k]
    all_goals
      first
      | (cases h1; rfl)
      | (obtain ⟨u, -, h1⟩ := bind_ok_iff.1 h1
         cases h1; rfl)
  case effect f vals =>
    obtain ⟨s, h1, h⟩ := bind_ok_iff.1 h
    cases h
    exact Track.setEffect_picked h1
  case arpeggio ws =>
    obtain ⟨s, h1, h⟩ := bind_ok_iff.1 h
    cases h
    unfold Track.setArpeggio at h1
    obtain ⟨a, ha, h1⟩ := bind_ok_iff.1 h1
    cases h1; rfl
  case instrument i => exact Track.setInstrument_picked h
  case data a d => exact ho.elim
  case range v => exact ho.elim
  case sustain v => exact ho.elim
  case callback b => cases h; rfl
  case clear => exact ho.elim
  case reset => exact ho.elim
  case attach a b c =>
    obtain ⟨s, h1, h⟩ := bind_ok_iff.1 h
    cases h
    unfold Track.attach at h1
    split at h1
    · cases h1; rfl
    · obtain ⟨t1, h2, h1⟩ := bind_ok_iff.1 h1
      cases h1
      have k := Track.updateUnit_picked h2
      exact k.trans rfl
  case detach =>
    cases h
    unfold Track.detach
    dsimp only
    split <;> rfl
  case tick => exact Track.tick_picked h
  case run b =>
    obtain ⟨s, h1, h⟩ := bind_ok_iff.1 h
    cases h
    unfold Track.run at h1
    obtain ⟨t1, h2, h1⟩ := bind_ok_iff.1 h1
    obtain ⟨q, hq, h1⟩ := bind_ok_iff.1 h1
    cases h1
    have k := UCore.render_picked hq
    have k2 := Track.updateUnit_picked h2
    unfold Track.picked at k2 ⊢
    dsimp only
    rw [k]
    exact k2
  case endAt b => cases h; rfl

end BK
