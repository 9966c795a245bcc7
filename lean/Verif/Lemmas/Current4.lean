import Verif.Lemmas.Current3
import Verif.Lemmas.TrackSafe4
import Verif.Props.Instrument
/-!
All calls on tracks and instruments.
-/
namespace BK

/-! ### Waveforms and data -/

theorem Track.NoteOk.now {x : Nat} {w : IWorld} {t : Track} (h : t.NoteNow x w) : t.NoteOk x w := fun _ _ _ => h

/-- Setting waveform or data: the volume is flagged and the note is computed. -/
theorem Track.Ok.retuned {x : Nat} {w : IWorld} {t u t' : Track} {p : Part} (h : t.Ok x w p)
    (h1 : u.updVolume = true) (h2 : u.updDuty = t.updDuty) (h3 : u.dutyCycle = t.dutyCycle)
    (h4 : u.unit.dutyCycle = t.unit.dutyCycle) (e : u.updateNote x w = .ok t') : t'.Ok x w p := by
  obtain ⟨a1, a2, a3, a4, a5⟩ := Track.updateNote_else e
  cases p with
  | vol => exact Track.Ok.pending (a3.trans h1)
  | note => exact Track.NoteOk.now (Track.updateNote_now e)
  | duty =>
    exact Track.DutyOk.same h ⟨a5.trans h2, ((Track.updateNote_same e).1.dutyCycle).trans h3, a2.trans h4, rfl, rfl⟩

theorem Track.Ok.setWaveform {x : Nat} {w : IWorld} {t : Track} {p : Part} {v : Int} {r : Ret × Track}
    (h : t.Ok x w p) (e : t.setWaveform x w v = .ok r) : r.2.Ok x w p := by
  unfold Track.setWaveform at e
  obtain ⟨q, hq, e⟩ := bind_ok_iff.1 e
  unfold UCore.setAttr at hq
  dsimp only at hq e
  split at hq
  · injection hq with hq
    subst hq
    dsimp only at e
    rw [if_pos rfl] at e
    obtain ⟨u, hu, e⟩ := bind_ok_iff.1 e
    have k : u.Ok x w p := by
      refine Track.Ok.retuned h ?_ ?_ ?_ ?_ hu
      · rfl
      · rfl
      · rfl
      · unfold Track.updateIgnore; dsimp only; split <;> rfl
    cases e
    exact k
  · cases hq
    cases e
    exact h

theorem UCore.setData_duty {c : UCore} {n : Option Int} {a : DataAttr} {d : Option SampleData}
    {r : Ret × UCore} (h : c.setData n a d = .ok r) : r.2.dutyCycle = c.dutyCycle ∧ r.2.volume = c.volume := by
  unfold UCore.setData at h
  obtain ⟨q, hq, h⟩ := bind_ok_iff.1 h
  have k : q.2.dutyCycle = c.dutyCycle ∧ q.2.volume = c.volume := by
    unfold UCore.trySetData at hq
    split at hq
    · cases hq; exact ⟨rfl, rfl⟩
    · split at hq
      · injection hq with hq
        subst hq
        unfold UCore.trySetWave
        split
        · split <;> exact ⟨rfl, rfl⟩
        · split <;> exact ⟨rfl, rfl⟩
      · unfold UCore.trySetSample at hq
        split at hq
        · split at hq
          · cases hq; exact ⟨rfl, rfl⟩
          · split at hq
            · cases hq; exact ⟨rfl, rfl⟩
            · obtain ⟨s, -, hq⟩ := bind_ok_iff.1 hq
              cases hq; exact ⟨rfl, rfl⟩
        · split at hq <;> (cases hq; exact ⟨rfl, rfl⟩)
  split at h
  · cases h; exact k
  · split at h
    · cases h; exact k
    · cases h; exact k

theorem Track.Ok.dataId {x : Nat} {w : IWorld} {t : Track} {p : Part} (h : t.Ok x w p) (d : Option Nat) :
    ({ t with dataId := d } : Track).Ok x w p := by cases p <;> exact h

theorem Track.Ok.setData {x : Nat} {w : IWorld} {t : Track} {p : Part} {a : DataAttr} {d : Option DataArg}
    {r : Ret × Track} (h : t.Ok x w p) (e : t.setData x w a d = .ok r) : r.2.Ok x w p := by
  unfold Track.setData at e
  obtain ⟨q, hq, e⟩ := bind_ok_iff.1 e
  have k : q.2.updDuty = t.updDuty ∧ q.2.dutyCycle = t.dutyCycle ∧ q.2.unit.dutyCycle = t.unit.dutyCycle ∧
      (q.1 ≠ .ok → q.2.Ok x w p) := by
    unfold Track.setUnitData at hq
    split at hq
    · cases hq; exact ⟨rfl, rfl, rfl, fun hn => absurd rfl hn⟩
    · obtain ⟨z, hz, hq⟩ := bind_ok_iff.1 hq
      cases hq
      refine ⟨rfl, rfl, (UCore.setData_duty hz).1, fun hn => ?_⟩
      exact (h.unit (u := { t.unit with toUCore := z.2 }) (UCore.setData_tone hz hn)).dataId _
  obtain ⟨k1, k2, k3, k4⟩ := k
  split at e
  · cases d with
    | none =>
      dsimp only at e
      obtain ⟨u, hu, e⟩ := bind_ok_iff.1 e
      have k : u.Ok x w p := by
        refine Track.Ok.retuned h ?_ ?_ ?_ ?_ hu
        · rfl
        · exact k1
        · exact k2
        · exact k3
      cases e
      exact k
    | some d =>
      dsimp only at e
      obtain ⟨u, hu, e⟩ := bind_ok_iff.1 e
      have k : u.Ok x w p := by
        refine Track.Ok.retuned h ?_ ?_ ?_ ?_ hu
        · rfl
        · exact k1
        · exact k2
        · exact k3
      cases e
      exact k
  · rename_i hn
    cases e
    exact k4 hn

/-! ### Attributes -/

theorem FAttr.quiet {a : FAttr} (h1 : ∀ i, a ≠ .volumeOf i) (h2 : a ≠ .period) (h3 : a ≠ .samplePeriod) :
    a.attr.quiet = true := by
  cases a <;> first | rfl | skip
  · exact absurd rfl h2
  · rename_i i; exact absurd rfl (h1 i)
  · exact absurd rfl h3

theorem Track.Ok.setAttr {x : Nat} {w : IWorld} {t : Track} {p : Part} {a : TAttr} {v : Int}
    {r : Ret × IWorld × Track} (hp : w.Pointed x) (h : TOp.renews p (.attr a v) = true ∨
      (t.Ok x w p ∧ TOp.upsets p (.attr a v) = false)) (e : t.setAttr x w a v = .ok r) : r.2.2.Ok x r.2.1 p := by
  cases a with
  | masterVolume =>
    cases e
    cases p
    · exact Track.Ok.pending rfl
    · rcases h with h | ⟨h, -⟩
      · cases h
      · exact h
    · rcases h with h | ⟨h, -⟩
      · cases h
      · exact h
  | volume =>
    obtain ⟨s, -, e⟩ := bind_ok_iff.1 e
    cases e
    cases p
    · exact Track.Ok.pending rfl
    · rcases h with h | ⟨h, -⟩
      · cases h
      · exact h
    · rcases h with h | ⟨h, -⟩
      · cases h
      · exact h
  | panning =>
    obtain ⟨s, -, e⟩ := bind_ok_iff.1 e
    cases e
    cases p
    · exact Track.Ok.pending rfl
    · rcases h with h | ⟨h, -⟩
      · cases h
      · exact h
    · rcases h with h | ⟨h, -⟩
      · cases h
      · exact h
  | waveform =>
    obtain ⟨q, hq, e⟩ := bind_ok_iff.1 e
    rcases h with h | ⟨h, -⟩
    · cases p <;> cases h
    · have k := h.setWaveform hq
      cases e; exact k
  | dutyCycle =>
    obtain ⟨q, hq, e⟩ := bind_ok_iff.1 e
    unfold Track.setDuty at hq
    obtain ⟨z, hz, hq⟩ := bind_ok_iff.1 hq
    cases hq
    cases e
    have kv : z.2.volume = t.unit.volume ∧ z.2.count = t.unit.count ∧ z.2.period = t.unit.period ∧
        z.2.samplePeriod = t.unit.samplePeriod := by
      unfold UCore.setAttr at hz
      dsimp only at hz
      split at hz <;> (cases hz; exact ⟨rfl, rfl, rfl, rfl⟩)
    cases p with
    | vol =>
      rcases h with h | ⟨h, -⟩
      · cases h
      · exact Track.VolOk.same h ⟨Iff.rfl, rfl, rfl, rfl, rfl, rfl, rfl, rfl, rfl, rfl, rfl, kv.1, rfl, rfl, rfl⟩
    | note =>
      rcases h with h | ⟨h, -⟩
      · cases h
      · exact Track.NoteOk.same h ⟨rfl, rfl, rfl, rfl, rfl, rfl, rfl, rfl, rfl, rfl, rfl, kv.2.1, kv.2.2.1,
          Or.inl kv.2.2.2, rfl, rfl⟩
    | duty => exact Track.Ok.pending rfl
  | note =>
    obtain ⟨q, hq, e⟩ := bind_ok_iff.1 e
    have k := Track.Ok.setNote (p := p) (fun hn => by
      rcases h with h | ⟨h, -⟩
      · cases p
        · cases h
        · exact absurd rfl hn
        · cases h
      · exact h) hp hq
    cases e
    exact k
  | pitch =>
    cases e
    cases p
    · rcases h with h | ⟨h, -⟩
      · cases h
      · exact h
    · rcases h with h | ⟨-, h⟩ <;> cases h
    · rcases h with h | ⟨h, -⟩
      · cases h
      · exact h
  | samplePitch =>
    cases e
    cases p
    · rcases h with h | ⟨h, -⟩
      · cases h
      · exact h
    · rcases h with h | ⟨-, h⟩ <;> cases h
    · rcases h with h | ⟨h, -⟩
      · cases h
      · exact h
  | arpeggioDivider =>
    cases e
    rcases h with h | ⟨h, -⟩
    · cases p <;> cases h
    · cases p <;> exact h
  | effectDivider =>
    cases e
    rcases h with h | ⟨h, -⟩
    · cases p <;> cases h
    · cases p <;> exact h
  | instrDivider =>
    cases e
    rcases h with h | ⟨h, -⟩
    · cases p <;> cases h
    · cases p <;> exact h
  | triangleIgnores =>
    cases e
    rcases h with h | ⟨h, -⟩
    · cases p <;> cases h
    · cases p
      · exact Track.Ok.pending rfl
      · exact h
      · exact h
  | slide ef =>
    rcases h with h | ⟨h, -⟩
    · cases p <;> cases h
    · unfold Track.setAttr at e
      dsimp only at e
      split at e
      · cases e; exact h
      · obtain ⟨u, hu, e⟩ := bind_ok_iff.1 e
        have k := h.setEffect hu
        cases e; exact k
  | unit a =>
    obtain ⟨q, hq, e⟩ := bind_ok_iff.1 e
    rcases h with h | ⟨h, h'⟩
    · cases p <;> cases h
    · cases e
      dsimp only
      by_cases hq1 : ∃ i, a = .volumeOf i
      · obtain ⟨i, rfl⟩ := hq1
        cases p
        · cases h'
        · cases hq
          exact h
        · cases hq
          exact h
      · by_cases hq2 : a = .period ∨ a = .samplePeriod
        · have kv : q.2.volume = t.unit.volume ∧ q.2.dutyCycle = t.unit.dutyCycle := by
            rcases hq2 with rfl | rfl <;>
            · unfold FAttr.attr UCore.setAttr at hq
              dsimp only at hq
              obtain ⟨z, -, hq⟩ := bind_ok_iff.1 hq
              cases hq; exact ⟨rfl, rfl⟩
          cases p
          · exact Track.VolOk.same h ⟨Iff.rfl, rfl, rfl, rfl, rfl, rfl, rfl, rfl, rfl, rfl, rfl, kv.1, rfl, rfl, rfl⟩
          · rcases hq2 with rfl | rfl <;> cases h'
          · exact Track.DutyOk.same h ⟨rfl, rfl, kv.2, rfl, rfl⟩
        · exact h.unit (u := { t.unit with toUCore := q.2 }) (UCore.setAttr_tone (FAttr.quiet
            (fun i e => hq1 ⟨i, e⟩) (fun e => hq2 (Or.inl e)) (fun e => hq2 (Or.inr e))) hq)

/-! ### Clearing -/

/-- Everything is to be updated. -/
structure Track.Flagged (t : Track) : Prop where
  vol : t.updVolume = true
  note : t.updNote = true
  duty : t.updDuty = true

theorem Track.Flagged.ok {x : Nat} {w : IWorld} {t : Track} (h : t.Flagged) (p : Part) : t.Ok x w p :=
  Track.Ok.pending (by cases p; exact h.vol; exact h.note; exact h.duty)

theorem IWorld.wipe_off {x : Nat} {w w' : IWorld} {t : Track} {r : IWorld × Track}
    (h : t.setInstrument x w none = .ok r) (hw : w' = r.1.wipe x) : w'.on x = false := by
  have k : r.1.links.owner x = none := by
    unfold Track.setInstrument at h
    dsimp only at h
    split at h
    · obtain ⟨q, hq, h⟩ := bind_ok_iff.1 h
      cases h
      unfold Track.changeInstrument at hq
      dsimp only at hq
      obtain ⟨w1, h1, hq⟩ := bind_ok_iff.1 hq
      have hw1 : w1.links.owner x = none := by
        cases h1
        show (w.links.removeState x).owner x = none
        unfold Links.removeState
        split
        · assumption
        · exact upd_self _ _ _
      split at hq
      · unfold Track.setNote at hq
        obtain ⟨q', hq', hq⟩ := bind_ok_iff.1 hq
        cases hq
        unfold Track.noteCase at hq'
        rw [if_neg (by decide), if_neg (by decide), if_pos rfl] at hq'
        unfold Track.muteNote at hq'
        dsimp only at hq'
        rw [if_neg (by unfold IWorld.on; rw [hw1]; decide), ok_bind] at hq'
        obtain ⟨u, hu, hq'⟩ := bind_ok_iff.1 hq'
        cases hq'
        exact hw1
      · cases hq; exact hw1
    · rename_i hn
      cases h
      exact (Decidable.not_not.1 hn).symm
  subst hw
  unfold IWorld.wipe IWorld.on
  rw [k]; rfl

theorem Track.clear_flagged {x : Nat} {w : IWorld} {t : Track} {r : IWorld × Track}
    (h : t.clear x w = .ok r) : r.2.Flagged := by
  unfold Track.clear at h
  obtain ⟨u, hu, h⟩ := bind_ok_iff.1 h
  obtain ⟨r1, h1, h⟩ := bind_ok_iff.1 h
  dsimp only at h
  generalize hw : r1.1.wipe x = w' at h
  have hoff := IWorld.wipe_off h1 hw.symm
  obtain ⟨r2, h2, h⟩ := bind_ok_iff.1 h
  obtain ⟨r3, h3, h⟩ := bind_ok_iff.1 h
  obtain ⟨r4, h4, h⟩ := bind_ok_iff.1 h
  obtain ⟨r5, h5, h⟩ := bind_ok_iff.1 h
  obtain ⟨r6, h6, h⟩ := bind_ok_iff.1 h
  obtain ⟨r7, h7, h⟩ := bind_ok_iff.1 h
  have k3 : r3.2.2.updVolume = true := by cases h3; rfl
  have k4 : r4.2.2.updVolume = true := by
    obtain ⟨q, hq, h4⟩ := bind_ok_iff.1 h4
    cases h4
    dsimp only
    unfold Track.setWaveform at hq
    obtain ⟨z, hz, hq⟩ := bind_ok_iff.1 hq
    dsimp only at hq
    split at hq
    · obtain ⟨y, hy, hq⟩ := bind_ok_iff.1 hq
      cases hq
      exact (Track.updateNote_else hy).2.2.1
    · cases hq
      exact k3
  have k5 : r5.2.2.updVolume = true ∧ r5.2.2.updDuty = true := by
    obtain ⟨q, hq, h5⟩ := bind_ok_iff.1 h5
    cases h5
    unfold Track.setDuty at hq
    obtain ⟨z, hz, hq⟩ := bind_ok_iff.1 hq
    cases hq
    exact ⟨k4, rfl⟩
  have k6 : r6.2.2.Flagged := by
    obtain ⟨q, hq, h6⟩ := bind_ok_iff.1 h6
    cases h6
    unfold Track.setNote at hq
    obtain ⟨z, hz, hq⟩ := bind_ok_iff.1 hq
    cases hq
    unfold Track.noteCase at hz
    rw [if_neg (by decide), if_neg (by decide), if_pos rfl] at hz
    unfold Track.muteNote at hz
    dsimp only at hz
    rw [if_neg (by rw [hoff]; decide), ok_bind] at hz
    obtain ⟨y, hy, hz⟩ := bind_ok_iff.1 hz
    cases hz
    obtain ⟨a1, a2, a3, -, -⟩ := Track.silence_flag hy
    exact ⟨a1.trans k5.1, rfl, a2.trans k5.2⟩
  obtain ⟨q, hq, h7⟩ := bind_ok_iff.1 h7
  cases h7
  cases h
  exact ⟨k6.vol, k6.note, k6.duty⟩

theorem Track.reset_flagged {x : Nat} {w : IWorld} {t : Track} {r : IWorld × Track}
    (h : t.reset x w = .ok r) : r.2.Flagged := by
  unfold Track.reset at h
  obtain ⟨u, -, h⟩ := bind_ok_iff.1 h
  obtain ⟨q, -, h⟩ := bind_ok_iff.1 h
  exact Track.clear_flagged h

theorem Track.init_flagged {x : Nat} {w : IWorld} {v : Int} {r : IWorld × Track}
    (h : Track.init x w v = .ok r) : r.2.Flagged := by
  unfold Track.init at h
  obtain ⟨u, -, h⟩ := bind_ok_iff.1 h
  obtain ⟨q, -, h⟩ := bind_ok_iff.1 h
  exact Track.reset_flagged h

/-! ### All calls -/

theorem Track.Ok.detach {x : Nat} {w : IWorld} {t : Track} {p : Part} (h : t.Ok x w p) : t.detach.Ok x w p := by
  cases p with
  | vol => exact fun hc => absurd rfl hc
  | note => exact fun _ _ _ rate k hc => by cases hc
  | duty =>
    refine Track.DutyOk.same h ⟨rfl, rfl, ?_, rfl, rfl⟩
    unfold Track.detach
    dsimp only
    split <;> rfl

theorem Track.Ok.attach {x : Nat} {w : IWorld} {t : Track} {p : Part} {a b c : Int} {r : Ret × Track}
    (h : t.Ok x w p) (hp : p ≠ .note) (e : t.attach x w a b c = .ok r) : r.2.Ok x w p := by
  unfold Track.attach at e
  split at e
  · cases e; exact h
  · dsimp only at e
    obtain ⟨u, hu, e⟩ := bind_ok_iff.1 e
    cases e
    cases p with
    | vol => exact Track.Ok.updateUnit (p := .vol) (Track.Ok.pending rfl) hu
    | note => exact absurd rfl hp
    | duty =>
      refine Track.Ok.updateUnit (p := .duty) ?_ hu
      exact Track.DutyOk.same h ⟨rfl, rfl, rfl, rfl, rfl⟩

theorem Track.Ok.exec {x : Nat} {w : IWorld} {t : Track} {p : Part} {op : TOp} {r : IWorld × Track}
    (hp : w.Pointed x) (h : op.renews p = true ∨ (t.Ok x w p ∧ op.upsets p = false))
    (e : t.exec x w op = .ok r) : r.2.Ok x r.1 p := by
  cases op with
  | attr a v =>
    obtain ⟨q, hq, e⟩ := bind_ok_iff.1 e
    have k := Track.Ok.setAttr hp h hq
    cases e; exact k
  | effect ef vals =>
    obtain ⟨u, hu, e⟩ := bind_ok_iff.1 e
    cases e
    rcases h with h | ⟨h, -⟩
    · have k := Track.setEffect_ok (x := x) (w := w) hu
      cases p <;> cases ef <;> first | (cases h; done) | exact k
    · exact h.setEffect hu
  | arpeggio ws =>
    obtain ⟨u, hu, e⟩ := bind_ok_iff.1 e
    cases e
    obtain ⟨z, -, hu⟩ := bind_ok_iff.1 hu
    cases hu
    cases p
    · rcases h with h | ⟨h, -⟩
      · cases h
      · exact h
    · exact Track.Ok.pending rfl
    · rcases h with h | ⟨h, -⟩
      · cases h
      · exact h
  | instrument i => exact Track.setInstrument_ok e
  | data a d =>
    obtain ⟨q, hq, e⟩ := bind_ok_iff.1 e
    cases e
    rcases h with h | ⟨h, -⟩
    · cases p <;> cases h
    · exact h.setData hq
  | range v =>
    obtain ⟨q, hq, e⟩ := bind_ok_iff.1 e
    cases e
    rcases h with h | ⟨h, -⟩
    · cases p <;> cases h
    · exact h.unit (u := { t.unit with toUCore := q.2 }) (UCore.setRange_tone hq)
  | sustain v =>
    obtain ⟨q, hq, e⟩ := bind_ok_iff.1 e
    cases e
    rcases h with h | ⟨h, -⟩
    · cases p <;> cases h
    · exact h.unit (u := { t.unit with toUCore := q.2 }) (UCore.setSustainRange_tone hq)
  | callback b =>
    cases e
    rcases h with h | ⟨h, -⟩
    · cases p <;> cases h
    · exact h.unit ⟨rfl, rfl, rfl, rfl, Or.inl rfl⟩
  | clear => exact (Track.clear_flagged e).ok p
  | reset => exact (Track.reset_flagged e).ok p
  | attach a b c =>
    obtain ⟨q, hq, e⟩ := bind_ok_iff.1 e
    cases e
    rcases h with h | ⟨h, h'⟩
    · cases p <;> cases h
    · exact h.attach (fun hn => by subst hn; cases h') hq
  | detach =>
    cases e
    rcases h with h | ⟨h, -⟩
    · cases p <;> cases h
    · exact h.detach
  | tick =>
    rcases h with h | ⟨h, -⟩
    · cases p <;> cases h
    · exact h.tick e
  | run en =>
    obtain ⟨q, hq, e⟩ := bind_ok_iff.1 e
    cases e
    rcases h with h | ⟨h, -⟩
    · cases p <;> cases h
    · obtain ⟨u, hu, hq⟩ := bind_ok_iff.1 hq
      obtain ⟨z, hz, hq⟩ := bind_ok_iff.1 hq
      cases hq
      exact (h.updateUnit hu).unit (UCore.render_tone hz)
  | endAt en =>
    cases e
    rcases h with h | ⟨h, -⟩
    · cases p <;> cases h
    · exact h.unit ⟨rfl, rfl, rfl, rfl, Or.inl rfl⟩

end BK
