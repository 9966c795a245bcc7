import Verif.Spec.ReadBack
import Verif.Lemmas.TrackArp
import Verif.Lemmas.TrackSafe4
/-!
Which calls keep effects and arpeggio.
-/
namespace BK

/-- All that is read of effects. -/
def Track.readFx (t : Track) : (Int × Int × Int) × (Int × Int × Int) × (Int × Int × Int) :=
  ((t.volume.steps, t.panning.steps, t.note.steps), (t.tremoloSteps.endValue, t.tremoloDelta.endValue, t.tremoloDelta.steps),
    (t.vibratoSteps.endValue, t.vibratoDelta.endValue, t.vibratoDelta.steps))

theorem Track.getEffect_readFx {t t' : Track} (h : t'.readFx = t.readFx) (e : Effect) : t'.getEffect e = t.getEffect e := by
  unfold Track.readFx at h
  simp only [Prod.mk.injEq] at h
  obtain ⟨⟨h1, h2, h3⟩, ⟨h4, h5, h6⟩, h7, h8, h9⟩ := h
  cases e <;> simp only [Track.getEffect, h1, h2, h3, h4, h5, h6, h7, h8, h9]

theorem Track.SameBut.readFx {t t' : Track} (h : t.SameBut t') (hn : t'.note.steps = t.note.steps) : t'.readFx = t.readFx := by
  unfold Track.readFx
  rw [h.volume, h.panning, hn, h.tremoloSteps, h.tremoloDelta, h.vibratoSteps, h.vibratoDelta]

theorem Slide.halt_steps (s : Slide) (b : Bool) : (s.halt b).steps = s.steps := by
  unfold Slide.halt
  split <;> rfl

theorem Slide.tick_read {s s' : Slide} (h : s.tick = .ok s') : s'.steps = s.steps ∧ s'.endValue = s.endValue := by
  unfold Slide.tick at h
  split at h
  · obtain ⟨v, -, h⟩ := bind_ok_iff.1 h
    dsimp only at h
    split at h <;> cases h <;> exact ⟨rfl, rfl⟩
  · cases h; exact ⟨rfl, rfl⟩

theorem Slide.tickIf_read {s s' : Slide} {b : Bool} (h : s.tickIf b = .ok s') : s'.steps = s.steps ∧ s'.endValue = s.endValue := by
  unfold Slide.tickIf at h
  split at h
  · exact Slide.tick_read h
  · cases h; exact ⟨rfl, rfl⟩

/-- What is read of a slide after setting it. -/
theorem Slide.set_read {s s' : Slide} {v n : Int} (hn : n ≤ 8388608) (h : s.setValueAndSteps v n = .ok s') :
    s'.steps = max 0 n ∧ s'.endValue = v * 2 ^ s.valueShift := by
  by_cases h0 : 0 < n
  · obtain ⟨-, a, -, -, -, b, -⟩ := Slide.set_steps h0 h
    exact ⟨by rw [b]; omega, a⟩
  · rw [Slide.set_zero (by omega) h]
    exact ⟨by show (0 : Int) = _; omega, rfl⟩

theorem Slide.setValue_steps {s s' : Slide} {v : Int} (h0 : 0 ≤ s.steps) (h1 : s.steps ≤ 8388608) (h : s.setValue v = .ok s') :
    s'.steps = s.steps := by
  rw [(Slide.set_read h1 h).1]
  omega

theorem Track.setUnit_readFx {t t' : Track} {a : UAttr} {v : Int} (h : t.setUnit a v = .ok t') : t'.readFx = t.readFx :=
  (Track.setUnit_same h).readFx (by rw [(Track.setUnit_note h).note])

theorem Track.updateUnit_readFx {x : Nat} {w : IWorld} {t t' : Track} (h : t.updateUnit x w = .ok t') : t'.readFx = t.readFx :=
  (Track.updateUnit_same h).1.readFx (by rw [(Track.updateUnit_same h).2.note])

theorem Track.silence_readFx {t t' : Track} (h : t.silence = .ok t') : t'.readFx = t.readFx :=
  (Track.silence_same h).1.readFx (by rw [(Track.silence_same h).2.note])

theorem Track.stopNote_readFx (t : Track) : t.stopNote.readFx = t.readFx := t.stopNote_same.readFx (Slide.halt_steps _ _)

theorem Track.flagSeqs_readFx (x : Nat) (w : IWorld) (t : Track) : (t.flagSeqs x w).readFx = t.readFx := by
  unfold Track.flagSeqs
  try split
  all_goals rfl

theorem Track.told_readFx {x : Nat} {w : IWorld} {t t' : Track} {e : InstrEvent} (h : t.told x w e = .ok t') : t'.readFx = t.readFx := by
  cases e <;> unfold Track.told at h <;> dsimp only at h
  · have k := Track.updateUnit_readFx h
    exact k.trans rfl
  · split at h
    · obtain ⟨a, ha, h⟩ := bind_ok_iff.1 h
      cases h
      exact (Track.silence_readFx ha).trans t.stopNote_readFx
    · cases h; rfl
  · exact (Track.silence_readFx h).trans t.stopNote_readFx

theorem Track.hear_readFx {x : Nat} {w w' : IWorld} {t t' : Track} (h : t.hear x w w' = .ok t') : t'.readFx = t.readFx := by
  unfold Track.hear at h
  exact foldlM_inv (P := fun s : Track => s.readFx = t.readFx) (fun s e s' hs he => (Track.told_readFx he).trans hs) _ rfl h

theorem Track.instrAttack_readFx {x : Nat} {w : IWorld} {t : Track} {r : IWorld × Track} (h : t.instrAttack x w = .ok r) :
    r.2.readFx = t.readFx := by
  unfold Track.instrAttack at h
  obtain ⟨w', -, h⟩ := bind_ok_iff.1 h
  obtain ⟨t', ht, h⟩ := bind_ok_iff.1 h
  cases h
  have k := Track.hear_readFx ht
  have k2 := Track.flagSeqs_readFx x w' t'
  exact k2.trans (k.trans rfl)

theorem Track.instrPhase_readFx {x : Nat} {w : IWorld} {t : Track} {p : SeqPhase} {r : IWorld × Track}
    (h : t.instrPhase x w p = .ok r) : r.2.readFx = t.readFx := by
  unfold Track.instrPhase at h
  obtain ⟨w', -, h⟩ := bind_ok_iff.1 h
  obtain ⟨t', ht, h⟩ := bind_ok_iff.1 h
  cases h
  have k := Track.hear_readFx ht
  have k2 := Track.flagSeqs_readFx x w' t'
  exact k2.trans (k.trans rfl)

/-- A track whose slides have a sensible number of steps. -/
structure Track.Stepped (t : Track) : Prop where
  volume : 0 ≤ t.volume.steps ∧ t.volume.steps ≤ 8388608
  panning : 0 ≤ t.panning.steps ∧ t.panning.steps ≤ 8388608
  note : 0 ≤ t.note.steps ∧ t.note.steps ≤ 8388608

theorem Track.Inv.stepped {N : Nat} {Z : Prop} {t : Track} (h : t.Inv N Z) : t.Stepped := by
  have a := h.volume.inv.steps
  have b := h.panning.inv.steps
  have c := h.note.inv.steps
  exact ⟨⟨a.1, by omega⟩, ⟨b.1, by omega⟩, ⟨c.1, by omega⟩⟩

theorem Track.noteHalt_readFx (t : Track) (b : Bool) : { t with note := t.note.halt b }.readFx = t.readFx := by
  unfold Track.readFx
  dsimp only
  rw [Slide.halt_steps]

theorem Track.startNote_readFx {x : Nat} {w : IWorld} {t : Track} {r : IWorld × Track} (h : t.startNote x w = .ok r) :
    r.2.readFx = t.readFx := by
  unfold Track.startNote at h
  split at h
  · dsimp only at h
    split at h
    · obtain ⟨r', h1, h⟩ := bind_ok_iff.1 h
      cases h
      exact (Track.instrAttack_readFx h1).trans (t.noteHalt_readFx true)
    · cases h
      exact t.noteHalt_readFx true
  · cases h; rfl

theorem Track.startSample_readFx {t t' : Track} (h : t.startSample = .ok t') : t'.readFx = t.readFx := by
  unfold Track.startSample at h
  split at h
  · exact Track.setUnit_readFx h
  · cases h; rfl

theorem Track.playNote_readFx {x : Nat} {w : IWorld} {t : Track} {n : Int} {r : IWorld × Track} (hs : t.Stepped)
    (h : t.playNote x w n = .ok r) : r.2.readFx = t.readFx := by
  unfold Track.playNote at h
  obtain ⟨s, h0, h⟩ := bind_ok_iff.1 h
  obtain ⟨r', h1, h⟩ := bind_ok_iff.1 h
  obtain ⟨t1, h2, h⟩ := bind_ok_iff.1 h
  obtain ⟨t2, h3, h⟩ := bind_ok_iff.1 h
  obtain ⟨t3, h4, h⟩ := bind_ok_iff.1 h
  cases h
  have k0 : { t with note := s }.readFx = t.readFx := by
    unfold Track.readFx
    dsimp only
    rw [Slide.setValue_steps hs.note.1 hs.note.2 h0]
  have k3 : t2.readFx = t1.readFx := by
    have k := Track.setUnit_readFx h3
    exact k.trans rfl
  exact (Track.setUnit_readFx h4).trans (k3.trans ((Track.startSample_readFx h2).trans ((Track.startNote_readFx h1).trans k0)))

theorem Track.releaseNote_readFx {x : Nat} {w : IWorld} {t : Track} {r : IWorld × Track} (h : t.releaseNote x w = .ok r) :
    r.2.readFx = t.readFx := by
  unfold Track.releaseNote at h
  dsimp only at h
  split at h
  · obtain ⟨r', h1, h⟩ := bind_ok_iff.1 h
    obtain ⟨t1, h2, h⟩ := bind_ok_iff.1 h
    cases h
    have k := Track.instrPhase_readFx h1
    exact (Track.setUnit_readFx h2).trans (k.trans rfl)
  · split at h
    · obtain ⟨t1, h2, h⟩ := bind_ok_iff.1 h
      cases h
      have k := Track.setUnit_readFx h2
      exact k.trans rfl
    · obtain ⟨t1, h2, h⟩ := bind_ok_iff.1 h
      cases h
      exact (Track.setUnit_readFx h2).trans (Track.noteHalt_readFx { t with curNote := -1 } false)

theorem Track.muteNote_readFx {x : Nat} {w : IWorld} {t : Track} {r : IWorld × Track} (h : t.muteNote x w = .ok r) :
    r.2.readFx = t.readFx := by
  unfold Track.muteNote at h
  dsimp only at h
  split at h
  · obtain ⟨r', h1, h⟩ := bind_ok_iff.1 h
    obtain ⟨t1, h2, h⟩ := bind_ok_iff.1 h
    cases h
    exact (Track.silence_readFx h2).trans ((Track.instrPhase_readFx h1).trans t.stopNote_readFx)
  · obtain ⟨r', h1, h⟩ := bind_ok_iff.1 h
    obtain ⟨t1, h2, h⟩ := bind_ok_iff.1 h
    cases h1
    cases h
    exact (Track.silence_readFx h2).trans t.stopNote_readFx

theorem Track.setNote_readFx {x : Nat} {w : IWorld} {t : Track} {n : Int} {r : IWorld × Track} (hs : t.Stepped)
    (h : t.setNote x w n = .ok r) : r.2.readFx = t.readFx := by
  unfold Track.setNote at h
  obtain ⟨r', h1, h⟩ := bind_ok_iff.1 h
  cases h
  show r'.2.readFx = t.readFx
  unfold Track.noteCase at h1
  split at h1
  · exact Track.playNote_readFx hs h1
  · split at h1
    · exact Track.releaseNote_readFx h1
    · split at h1
      · exact Track.muteNote_readFx h1
      · cases h1; rfl

theorem Track.setInstrument_readFx {x : Nat} {w : IWorld} {t : Track} {i : Option Nat} {r : IWorld × Track} (hs : t.Stepped)
    (h : t.setInstrument x w i = .ok r) : r.2.readFx = t.readFx := by
  unfold Track.setInstrument at h
  split at h
  · obtain ⟨r', h1, h⟩ := bind_ok_iff.1 h
    cases h
    show r'.2.readFx = t.readFx
    cases i with
    | some i =>
      unfold Track.changeInstrument at h1
      dsimp only at h1
      obtain ⟨w1, -, h1⟩ := bind_ok_iff.1 h1
      obtain ⟨w2, -, h1⟩ := bind_ok_iff.1 h1
      split at h1
      · have k := Track.instrPhase_readFx h1
        exact k.trans rfl
      · have k := Track.instrAttack_readFx h1
        exact k.trans rfl
    | none =>
      unfold Track.changeInstrument at h1
      dsimp only at h1
      obtain ⟨w1, -, h1⟩ := bind_ok_iff.1 h1
      split at h1
      · exact Track.setNote_readFx hs h1
      · cases h1; rfl
  · cases h
    rfl

theorem Track.updateNote_readFx {x : Nat} {w : IWorld} {t t' : Track} (h : t.updateNote x w = .ok t') : t'.readFx = t.readFx :=
  (Track.updateNote_same h).1.readFx (by rw [(Track.updateNote_same h).2.note])

theorem Track.setWaveform_readFx {x : Nat} {w : IWorld} {t : Track} {v : Int} {r : Ret × Track}
    (h : t.setWaveform x w v = .ok r) : r.2.readFx = t.readFx := by
  unfold Track.setWaveform at h
  obtain ⟨q, -, h⟩ := bind_ok_iff.1 h
  dsimp only at h
  split at h
  · obtain ⟨t1, h1, h⟩ := bind_ok_iff.1 h
    cases h
    have k := Track.updateNote_readFx h1
    exact k.trans rfl
  · cases h; rfl

theorem Track.setData_readFx {x : Nat} {w : IWorld} {t : Track} {a : DataAttr} {d : Option DataArg} {r : Ret × Track}
    (h : t.setData x w a d = .ok r) : r.2.readFx = t.readFx := by
  unfold Track.setData at h
  obtain ⟨q, hq, h⟩ := bind_ok_iff.1 h
  have k : q.2.readFx = t.readFx := by
    unfold Track.setUnitData at hq
    split at hq
    · cases hq; rfl
    · obtain ⟨z, -, hq⟩ := bind_ok_iff.1 hq
      cases hq; rfl
  split at h
  · dsimp only at h
    obtain ⟨t1, h1, h⟩ := bind_ok_iff.1 h
    cases h
    have k2 := Track.updateNote_readFx h1
    exact k2.trans k
  · cases h; exact k

/-- Setting an effect: how it reads, and that no other changes. -/
theorem Track.setEffect_read {N : Nat} {Z : Prop} {t t' : Track} (hi : t.Inv N Z) {e : Effect} {vals : List Int}
    (h : t.setEffect e vals = .ok t') :
    t'.getEffect e = effectRead e vals ∧ ∀ f, f ≠ e → t'.getEffect f = t.getEffect f := by
  have cl1 : ∀ v : Int, cclamp v 0 65536 = nearest 0 65536 v := by
    intro v
    unfold cclamp nearest
    split <;> try split
    all_goals omega
  have cl2 : ∀ v : Int, cclamp v 0 32767 = nearest 0 32767 v := by
    intro v
    unfold cclamp nearest
    split <;> try split
    all_goals omega
  have n0 : ∀ v : Int, nearest 0 65536 v ≤ 8388608 ∧ max 0 (nearest 0 65536 v) = nearest 0 65536 v := by
    intro v
    unfold nearest
    omega
  unfold Track.setEffect at h
  dsimp only at h
  rw [cl1, cl1] at h
  cases e <;> dsimp only at h
  · obtain ⟨s, hs, h⟩ := bind_ok_iff.1 h
    cases h
    unfold Slide.setSteps at hs
    have k := (Slide.set_read (n0 (vals.getD 0 0)).1 hs).1
    rw [(n0 _).2] at k
    refine ⟨?_, fun f hf => ?_⟩
    · simp only [Track.getEffect, effectRead, given, k]
    · cases f <;> first | rfl | exact absurd rfl hf
  · obtain ⟨s, hs, h⟩ := bind_ok_iff.1 h
    cases h
    unfold Slide.setSteps at hs
    have k := (Slide.set_read (n0 (vals.getD 0 0)).1 hs).1
    rw [(n0 _).2] at k
    refine ⟨?_, fun f hf => ?_⟩
    · simp only [Track.getEffect, effectRead, given, k]
    · cases f <;> first | rfl | exact absurd rfl hf
  · obtain ⟨s, hs, h⟩ := bind_ok_iff.1 h
    cases h
    unfold Slide.setSteps at hs
    have k := (Slide.set_read (n0 (vals.getD 0 0)).1 hs).1
    rw [(n0 _).2] at k
    refine ⟨?_, fun f hf => ?_⟩
    · simp only [Track.getEffect, effectRead, given, k]
    · cases f <;> first | rfl | exact absurd rfl hf
  · rw [cl2] at h
    obtain ⟨d, hd, h⟩ := bind_ok_iff.1 h
    obtain ⟨n, hn, h⟩ := bind_ok_iff.1 h
    obtain ⟨k1, k2⟩ := Slide.set_read (n0 (vals.getD 2 0)).1 hd
    obtain ⟨-, k4⟩ := Slide.set_read (n0 (vals.getD 2 0)).1 hn
    rw [(n0 _).2] at k1
    rw [hi.tremoloDelta.shift] at k2
    rw [hi.tremoloSteps.shift] at k4
    have key : t'.getEffect .tremolo = [n.endValue, d.endValue, d.steps] ∧ ∀ f, f ≠ .tremolo → t'.getEffect f = t.getEffect f := by
      split at h
      · obtain ⟨o, -, h⟩ := bind_ok_iff.1 h
        cases h
        exact ⟨rfl, fun f hf => by cases f <;> first | rfl | exact absurd rfl hf⟩
      · cases h
        exact ⟨rfl, fun f hf => by cases f <;> first | rfl | exact absurd rfl hf⟩
    refine ⟨?_, key.2⟩
    rw [key.1, k1, k2, k4]
    rfl
  · obtain ⟨d, hd, h⟩ := bind_ok_iff.1 h
    obtain ⟨n, hn, h⟩ := bind_ok_iff.1 h
    obtain ⟨k1, k2⟩ := Slide.set_read (n0 (vals.getD 2 0)).1 hd
    obtain ⟨-, k4⟩ := Slide.set_read (n0 (vals.getD 2 0)).1 hn
    rw [(n0 _).2] at k1
    rw [hi.vibratoDelta.shift] at k2
    rw [hi.vibratoSteps.shift] at k4
    have key : t'.getEffect .vibrato = [n.endValue, d.endValue, d.steps] ∧ ∀ f, f ≠ .vibrato → t'.getEffect f = t.getEffect f := by
      split at h
      · obtain ⟨o, -, h⟩ := bind_ok_iff.1 h
        cases h
        exact ⟨rfl, fun f hf => by cases f <;> first | rfl | exact absurd rfl hf⟩
      · cases h
        exact ⟨rfl, fun f hf => by cases f <;> first | rfl | exact absurd rfl hf⟩
    refine ⟨?_, key.2⟩
    rw [key.1, k1, k2, k4]
    simp [effectRead, given]

theorem Track.setAttr_readFx {x : Nat} {w : IWorld} {t : Track} (hs : t.Stepped) {a : TAttr} {v : Int} (ha : ∀ e, a ≠ .slide e)
    {r : Ret × IWorld × Track} (h : t.setAttr x w a v = .ok r) : r.2.2.readFx = t.readFx := by
  unfold Track.setAttr at h
  cases a <;> dsimp only at h
  · cases h; rfl
  · obtain ⟨s, h1, h⟩ := bind_ok_iff.1 h
    cases h
    unfold Track.readFx
    dsimp only
    rw [Slide.setValue_steps hs.volume.1 hs.volume.2 h1]
  · obtain ⟨s, h1, h⟩ := bind_ok_iff.1 h
    cases h
    unfold Track.readFx
    dsimp only
    rw [Slide.setValue_steps hs.panning.1 hs.panning.2 h1]
  · obtain ⟨s, h1, h⟩ := bind_ok_iff.1 h
    cases h; exact Track.setWaveform_readFx h1
  · obtain ⟨s, h1, h⟩ := bind_ok_iff.1 h
    cases h
    unfold Track.setDuty at h1
    obtain ⟨q, -, h1⟩ := bind_ok_iff.1 h1
    cases h1; rfl
  · obtain ⟨s, h1, h⟩ := bind_ok_iff.1 h
    cases h; exact Track.setNote_readFx hs h1
  · cases h; rfl
  · cases h; rfl
  · cases h; rfl
  · cases h; rfl
  · cases h; rfl
  · cases h; rfl
  · exact absurd rfl (ha _)
  · obtain ⟨s, -, h⟩ := bind_ok_iff.1 h
    cases h; rfl

theorem tickOsc_read {on : Bool} {o : Osc} {d n : Slide} {r : Osc × Slide × Slide} (h : tickOsc on o d n = .ok r) :
    r.2.1.steps = d.steps ∧ r.2.1.endValue = d.endValue ∧ r.2.2.endValue = n.endValue := by
  unfold tickOsc at h
  split at h
  · split at h
    · obtain ⟨d', h1, h⟩ := bind_ok_iff.1 h
      obtain ⟨n', h2, h⟩ := bind_ok_iff.1 h
      obtain ⟨dv, -, h⟩ := bind_ok_iff.1 h
      obtain ⟨nv, -, h⟩ := bind_ok_iff.1 h
      obtain ⟨o', -, h⟩ := bind_ok_iff.1 h
      obtain ⟨o'', -, h⟩ := bind_ok_iff.1 h
      cases h
      exact ⟨(Slide.tick_read h1).1, (Slide.tick_read h1).2, (Slide.tick_read h2).2⟩
    · obtain ⟨o', -, h⟩ := bind_ok_iff.1 h
      cases h
      exact ⟨rfl, rfl, rfl⟩
  · cases h; exact ⟨rfl, rfl, rfl⟩

theorem Track.tick_readFx {x : Nat} {w : IWorld} {t : Track} {r : IWorld × Track} (h : t.tick x w = .ok r) : r.2.readFx = t.readFx := by
  unfold Track.tick at h
  obtain ⟨t1, h1, h⟩ := bind_ok_iff.1 h
  obtain ⟨r2, h2, h⟩ := bind_ok_iff.1 h
  obtain ⟨t3, h3, h⟩ := bind_ok_iff.1 h
  obtain ⟨t4, h4, h⟩ := bind_ok_iff.1 h
  cases h
  have k1 : t1.readFx = t.readFx := by
    unfold Track.arpeggioTick at h1
    split at h1
    · obtain ⟨q, -, h1⟩ := bind_ok_iff.1 h1
      dsimp only at h1
      split at h1
      · obtain ⟨a, -, h1⟩ := bind_ok_iff.1 h1
        cases h1; rfl
      · cases h1; rfl
    · cases h1; rfl
  have k2 : r2.2.readFx = t1.readFx := by
    unfold Track.instrTick at h2
    split at h2
    · obtain ⟨q, -, h2⟩ := bind_ok_iff.1 h2
      obtain ⟨w', -, h2⟩ := bind_ok_iff.1 h2
      obtain ⟨t', ht, h2⟩ := bind_ok_iff.1 h2
      cases h2
      have k := Track.hear_readFx ht
      exact k.trans rfl
    · cases h2; rfl
  have k4 : t4.readFx = t3.readFx := by
    unfold Track.effectsTick at h4
    split at h4
    · obtain ⟨q, -, h4⟩ := bind_ok_iff.1 h4
      dsimp only at h4
      split at h4
      · unfold Track.effectTick at h4
        obtain ⟨a, ha, h4⟩ := bind_ok_iff.1 h4
        obtain ⟨b, hb, h4⟩ := bind_ok_iff.1 h4
        obtain ⟨c, hc, h4⟩ := bind_ok_iff.1 h4
        obtain ⟨d, hd, h4⟩ := bind_ok_iff.1 h4
        obtain ⟨e, he, h4⟩ := bind_ok_iff.1 h4
        cases h4
        obtain ⟨d1, d2, d3⟩ := tickOsc_read hd
        obtain ⟨e1, e2, e3⟩ := tickOsc_read he
        unfold Track.readFx
        dsimp only
        rw [(Slide.tickIf_read ha).1, (Slide.tickIf_read hb).1, (Slide.tickIf_read hc).1, d1, d2, d3, e1, e2, e3]
      · cases h4; rfl
    · cases h4; rfl
  exact k4.trans ((Track.updateUnit_readFx h3).trans (k2.trans k1))

/-- Calls that leave effect `e` alone. -/
theorem Track.exec_effect {N : Nat} {Z : Prop} {x : Nat} {w : IWorld} {t : Track} {op : TOp} {r : IWorld × Track} {e : Effect}
    (hi : t.Inv N Z) (ho : op.leavesEffect e) (h : t.exec x w op = .ok r) : r.2.getEffect e = t.getEffect e := by
  unfold Track.exec at h
  cases op <;> dsimp only at h
  case attr a v =>
    obtain ⟨s, h1, h⟩ := bind_ok_iff.1 h
    cases h
    by_cases ha : ∃ f, a = .slide f
    · obtain ⟨f, rfl⟩ := ha
      unfold Track.setAttr at h1
      dsimp only at h1
      split at h1
      · cases h1; rfl
      · obtain ⟨s, h2, h1⟩ := bind_ok_iff.1 h1
        cases h1
        exact (Track.setEffect_read hi h2).2 e (fun c => ho c.symm)
    · exact Track.getEffect_readFx (Track.setAttr_readFx hi.stepped (fun f c => ha ⟨f, c⟩) h1) e
  case effect f vals =>
    obtain ⟨s, h1, h⟩ := bind_ok_iff.1 h
    cases h
    exact (Track.setEffect_read hi h1).2 e (fun c => ho c.symm)
  case arpeggio ws =>
    obtain ⟨s, h1, h⟩ := bind_ok_iff.1 h
    cases h
    unfold Track.setArpeggio at h1
    obtain ⟨a, ha, h1⟩ := bind_ok_iff.1 h1
    cases h1
    exact Track.getEffect_readFx rfl e
  case instrument i => exact Track.getEffect_readFx (Track.setInstrument_readFx hi.stepped h) e
  case data a d =>
    obtain ⟨s, h1, h⟩ := bind_ok_iff.1 h
    cases h; exact Track.getEffect_readFx (Track.setData_readFx h1) e
  case range v =>
    obtain ⟨s, h1, h⟩ := bind_ok_iff.1 h
    cases h; exact Track.getEffect_readFx rfl e
  case sustain v =>
    obtain ⟨s, h1, h⟩ := bind_ok_iff.1 h
    cases h; exact Track.getEffect_readFx rfl e
  case callback b => cases h; exact Track.getEffect_readFx rfl e
  case clear => exact ho.elim
  case reset => exact ho.elim
  case attach a b c =>
    obtain ⟨s, h1, h⟩ := bind_ok_iff.1 h
    cases h
    unfold Track.attach at h1
    split at h1
    · cases h1; rfl
    · obtain ⟨t1, h2, h1⟩ := bind_ok_iff.1 h1
      cases h1
      have k := Track.updateUnit_readFx h2
      exact Track.getEffect_readFx (k.trans rfl) e
  case detach => cases h; exact Track.getEffect_readFx rfl e
  case tick => exact Track.getEffect_readFx (Track.tick_readFx h) e
  case run b =>
    obtain ⟨s, h1, h⟩ := bind_ok_iff.1 h
    cases h
    unfold Track.run at h1
    obtain ⟨t1, h2, h1⟩ := bind_ok_iff.1 h1
    obtain ⟨q, -, h1⟩ := bind_ok_iff.1 h1
    cases h1
    exact Track.getEffect_readFx (t := t) (Track.updateUnit_readFx h2) e
  case endAt b => cases h; exact Track.getEffect_readFx rfl e

theorem Track.ArpKept.read {t t' : Track} (h : t.ArpKept t') : t'.getArpeggio = t.getArpeggio := by
  unfold Track.getArpeggio
  rcases h.arp with e | e <;> rw [e]

/-- Calls that leave the arpeggio alone. -/
theorem Track.exec_arpeggio {x : Nat} {w : IWorld} {t : Track} {op : TOp} {r : IWorld × Track}
    (ho : op.leavesArpeggio) (h : t.exec x w op = .ok r) : r.2.getArpeggio = t.getArpeggio := by
  unfold Track.exec at h
  cases op <;> dsimp only at h
  case attr a v =>
    obtain ⟨s, h1, h⟩ := bind_ok_iff.1 h
    cases h; exact (Track.setAttr_kept h1).read
  case effect f vals =>
    obtain ⟨s, h1, h⟩ := bind_ok_iff.1 h
    cases h; exact (Track.setEffect_kept h1).read
  case arpeggio ws => exact ho.elim
  case instrument i => exact (Track.setInstrument_kept h).read
  case data a d =>
    obtain ⟨s, h1, h⟩ := bind_ok_iff.1 h
    cases h; exact (Track.setData_kept h1).read
  case range v =>
    obtain ⟨s, h1, h⟩ := bind_ok_iff.1 h
    cases h; rfl
  case sustain v =>
    obtain ⟨s, h1, h⟩ := bind_ok_iff.1 h
    cases h; rfl
  case callback b => cases h; rfl
  case clear => exact ho.elim
  case reset => exact ho.elim
  case attach a b c =>
    obtain ⟨s, h1, h⟩ := bind_ok_iff.1 h
    cases h
    unfold Track.attach at h1
    split at h1
    · cases h1; rfl
    · obtain ⟨t1, h2, h1⟩ := bind_ok_iff.1 h1
      cases h1
      exact (Track.updateUnit_same h2).1.kept.read
  case detach => cases h; rfl
  case tick =>
    have ha := Track.tick_arp h
    by_cases hon : t.arpeggioOn = true
    · obtain ⟨q, -, -, e⟩ := ha.1 hon
      unfold Track.getArpeggio
      split at e
      · unfold Arp.tick at e
        obtain ⟨d, -, e⟩ := bind_ok_iff.1 e
        obtain ⟨o, -, e⟩ := bind_ok_iff.1 e
        injection e with e
        rw [← e]
      · injection e with e
        rw [← e]
    · unfold Track.getArpeggio
      rw [(ha.2 (by simpa using hon)).2]
  case run b =>
    obtain ⟨s, h1, h⟩ := bind_ok_iff.1 h
    cases h
    unfold Track.run at h1
    obtain ⟨t1, h2, h1⟩ := bind_ok_iff.1 h1
    obtain ⟨q, -, h1⟩ := bind_ok_iff.1 h1
    cases h1
    exact (Track.updateUnit_same h2).1.kept.read
  case endAt b => cases h; rfl

/-- Something that holds for track `x` and that calls keep. -/
theorem TWorld.hear_one {x : Nat} {P : Track → Prop} (hP : ∀ w t e t', P t → Track.told x w t e = .ok t' → P t') {s s' : TWorld}
    {iw : IWorld} (hs : ∃ t, s.tracks x = some t ∧ P t) (h : s.hear iw = .ok s') : ∃ t, s'.tracks x = some t ∧ P t := by
  unfold TWorld.hear at h
  obtain ⟨ts, hts, h⟩ := bind_ok_iff.1 h
  cases h
  exact foldlM_inv (P := fun ts : Nat → Option Track => ∃ t, ts x = some t ∧ P t)
    (fun ts e ts' h0 he => by
      unfold TWorld.tell at he
      split at he
      · cases he; exact h0
      · rename_i t ht
        obtain ⟨t', h1, he⟩ := bind_ok_iff.1 he
        cases he
        obtain ⟨u, hu, hp⟩ := h0
        by_cases hx : x = e.1
        · subst hx
          rw [ht] at hu
          cases hu
          exact ⟨t', upd_self _ _ _, hP _ _ _ _ hp h1⟩
        · exact ⟨u, by rw [upd_ne _ _ hx]; exact hu, hp⟩) _ hs hts

theorem TWorld.run_one {N fuel x : Nat} {P : Track → Prop} {ok : TOp → Prop}
    (hP : ∀ w t e t', P t → Track.told x w t e = .ok t' → P t')
    (hexec : ∀ w t op r, ok op → t.Inv N False → P t → Track.exec x w t op = .ok r → P r.2) :
    ∀ (ops : List WOp) {n : Nat} {s s' : TWorld}, s.Inv n N → n + ops.length ≤ fuel → s.LegalRun N fuel ops →
      (∀ op, .track x op ∈ ops → ok op) → (∃ t, s.tracks x = some t ∧ P t) → s.run fuel ops = .ok s' → ∃ t, s'.tracks x = some t ∧ P t
  | [], n, s, s', _, _, _, _, hs, h => by cases h; exact hs
  | op :: ops, n, s, s', hi, hf, hl, hok, hs, h => by
    rw [List.length_cons] at hf
    unfold TWorld.run at h
    obtain ⟨s1, h1, h⟩ := bind_ok_iff.1 h
    have hi1 := hi.exec (fuel := fuel) (by omega) hl.1
    rw [h1] at hi1
    have hi1 : s1.Inv (n + 1) N := hi1
    refine TWorld.run_one hP hexec ops hi1 (by omega) (hl.2 s1 h1) (fun o ho => hok o (List.mem_cons_of_mem _ ho)) ?_ h
    obtain ⟨t, ht, hp⟩ := hs
    unfold TWorld.exec at h1
    cases op <;> dsimp only at h1
    case init y wf =>
      split at h1
      · cases h1; exact ⟨t, ht, hp⟩
      · rename_i hy
        obtain ⟨r, -, h1⟩ := bind_ok_iff.1 h1
        cases h1
        exact ⟨t, by
          show upd _ _ _ x = _
          rw [upd_ne _ _ (by rintro rfl; rw [ht] at hy; cases hy)]; exact ht, hp⟩
    case track y o =>
      split at h1
      · cases h1; exact ⟨t, ht, hp⟩
      · rename_i u hu
        obtain ⟨r, hr, h1⟩ := bind_ok_iff.1 h1
        cases h1
        by_cases hy : x = y
        · subst hy
          rw [ht] at hu
          cases hu
          exact ⟨r.2, upd_self _ _ _, hexec _ _ _ _ (hok o List.mem_cons_self) (hi.tracks x t ht) hp hr⟩
        · exact ⟨t, by show upd _ _ _ x = _; rw [upd_ne _ _ hy]; exact ht, hp⟩
    case setSequence i k new =>
      obtain ⟨r, -, h1⟩ := bind_ok_iff.1 h1
      exact TWorld.hear_one hP ⟨t, ht, hp⟩ h1
    case detachInstr i =>
      obtain ⟨r, -, h1⟩ := bind_ok_iff.1 h1
      exact TWorld.hear_one hP ⟨t, ht, hp⟩ h1
    case disposeInstr i =>
      obtain ⟨r, -, h1⟩ := bind_ok_iff.1 h1
      exact TWorld.hear_one hP ⟨t, ht, hp⟩ h1

end BK
