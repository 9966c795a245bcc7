import Verif.Lemmas.TrackTick
import Verif.Lemmas.TrackNote
import Verif.Lemmas.TrackMix
/-!
When volume, period and duty cycle of a unit are those of its track.
-/
namespace BK

/-- The unit plays the same tone. -/
structure UCore.SameTone (c c' : UCore) : Prop where
  period : c'.period = c.period
  volume : c'.volume = c.volume
  duty : c'.dutyCycle = c.dutyCycle
  count : c'.count = c.count
  speed : c'.samplePeriod = c.samplePeriod ∨ c'.samplePeriod = -c.samplePeriod

theorem UCore.SameTone.refl (c : UCore) : c.SameTone c := ⟨rfl, rfl, rfl, rfl, Or.inl rfl⟩

theorem UCore.SameTone.trans {a b c : UCore} (h : a.SameTone b) (h' : b.SameTone c) : a.SameTone c := by
  refine ⟨h'.period.trans h.period, h'.volume.trans h.volume, h'.duty.trans h.duty, h'.count.trans h.count, ?_⟩
  rcases h.speed with e | e <;> rcases h'.speed with e' | e' <;> omega

/-- Attributes that do not change the tone. -/
def UAttr.quiet : UAttr → Bool
  | .phase | .phaseWrap | .mute | .sampleRepeat | .immedRelease | .flagRelease | .numPhases | .other => true
  | _ => false

theorem cabs_or {x y : Int} (h : cabs x = .ok y) : y = x ∨ y = -x := by
  unfold cabs at h
  split at h
  · obtain ⟨-, rfl⟩ := i32_eq_ok_iff.1 h; exact Or.inr rfl
  · cases h; exact Or.inl rfl

theorem UCore.setAttr_tone {c : UCore} {a : UAttr} {v : Int} {r : Ret × UCore} (ha : a.quiet = true)
    (h : c.setAttr a v = .ok r) : c.SameTone r.2 := by
  cases a <;> first | (cases ha; done) | skip
  · cases h; exact ⟨rfl, rfl, rfl, rfl, Or.inl rfl⟩
  · cases h; exact ⟨rfl, rfl, rfl, rfl, Or.inl rfl⟩
  · cases h; exact ⟨rfl, rfl, rfl, rfl, Or.inl rfl⟩
  · cases h; exact ⟨rfl, rfl, rfl, rfl, Or.inl rfl⟩
  · cases h; exact ⟨rfl, rfl, rfl, rfl, Or.inl rfl⟩
  · unfold UCore.setAttr at h
    dsimp only at h
    split at h
    · split at h
      · split at h
        · cases h; exact ⟨rfl, rfl, rfl, rfl, Or.inl rfl⟩
        · obtain ⟨p, -, h⟩ := bind_ok_iff.1 h
          cases h; exact ⟨rfl, rfl, rfl, rfl, Or.inl rfl⟩
      · cases h; exact ⟨rfl, rfl, rfl, rfl, Or.inl rfl⟩
    · cases h; exact .refl _
  · cases h; exact .refl _
  · cases h; exact .refl _

theorem UCore.updateSustainRange_tone {c c' : UCore} {a b : Int} (h : c.updateSustainRange a b = .ok c') :
    c.SameTone c' := by
  unfold UCore.updateSustainRange at h
  split at h
  · cases h; exact .refl _
  · obtain ⟨p, -, h⟩ := bind_ok_iff.1 h
    obtain ⟨q, -, h⟩ := bind_ok_iff.1 h
    cases h; exact ⟨rfl, rfl, rfl, rfl, Or.inl rfl⟩

theorem UCore.updateSampleRange_tone {c c' : UCore} {a b : Int} (h : c.updateSampleRange a b = .ok c') :
    c.SameTone c' := by
  unfold UCore.updateSampleRange at h
  split at h
  · cases h; exact .refl _
  · obtain ⟨p, -, h⟩ := bind_ok_iff.1 h
    obtain ⟨q, -, h⟩ := bind_ok_iff.1 h
    dsimp only at h
    obtain ⟨d, -, h⟩ := bind_ok_iff.1 h
    obtain ⟨l, -, h⟩ := bind_ok_iff.1 h
    obtain ⟨k, -, h⟩ := bind_ok_iff.1 h
    obtain ⟨s, hs, h⟩ := bind_ok_iff.1 h
    cases h
    refine ⟨rfl, rfl, rfl, rfl, ?_⟩
    have := cabs_or hs
    dsimp only
    split <;> omega

theorem UCore.setRange_tone {c : UCore} {v : Option (Int × Int)} {r : Ret × UCore}
    (h : c.setRange v = .ok r) : c.SameTone r.2 := by
  unfold UCore.setRange at h
  split at h
  · cases h; exact .refl _
  · obtain ⟨a, ha, h⟩ := bind_ok_iff.1 h
    obtain ⟨b, hb, h⟩ := bind_ok_iff.1 h
    cases h
    exact (UCore.updateSampleRange_tone ha).trans (UCore.updateSustainRange_tone hb)

theorem UCore.setSustainRange_tone {c : UCore} {v : Option (Int × Int)} {r : Ret × UCore}
    (h : c.setSustainRange v = .ok r) : c.SameTone r.2 := by
  unfold UCore.setSustainRange at h
  split at h
  · cases h; exact .refl _
  · dsimp only at h
    obtain ⟨b, hb, h⟩ := bind_ok_iff.1 h
    cases h
    exact UCore.updateSustainRange_tone hb

/-- Refused data changes nothing of the tone. -/
theorem UCore.setData_tone {c : UCore} {n : Option Int} {a : DataAttr} {d : Option SampleData}
    {r : Ret × UCore} (h : c.setData n a d = .ok r) (hr : r.1 ≠ .ok) : c.SameTone r.2 := by
  unfold UCore.setData at h
  obtain ⟨q, hq, h⟩ := bind_ok_iff.1 h
  have key : q.1 ≠ .ok → c.SameTone q.2 := by
    intro hne
    unfold UCore.trySetData at hq
    split at hq
    · cases hq; exact .refl _
    · split at hq
      · injection hq with hq
        subst hq
        unfold UCore.trySetWave
        split
        · rename_i d
          split
          · rename_i hd
            exfalso; apply hne; unfold UCore.trySetWave; dsimp only; rw [if_pos hd]
          · exact .refl _
        · split
          · exact ⟨rfl, rfl, rfl, rfl, Or.inl rfl⟩
          · exact .refl _
      · unfold UCore.trySetSample at hq
        split at hq
        · split at hq
          · cases hq; exact .refl _
          · split at hq
            · cases hq; exact .refl _
            · obtain ⟨s, -, hq⟩ := bind_ok_iff.1 hq
              cases hq; exact absurd rfl hne
        · split at hq
          · cases hq; exact absurd rfl hne
          · cases hq; exact absurd rfl hne
  split at h
  · cases h; exact absurd rfl hr
  · rename_i hne
    have k := key hne
    split at h
    · cases h; exact ⟨k.period, k.volume, k.duty, k.count, k.speed⟩
    · cases h; exact k

/-! Rendering. -/

theorem UCore.sampleChan_tone {t idx : Int} {st st' : UCore × List Pulse} {i : Nat}
    (h : UCore.sampleChan t idx st i = .ok st') : st.1.SameTone st'.1 := by
  unfold UCore.sampleChan at h
  dsimp only at h
  obtain ⟨p, -, h⟩ := bind_ok_iff.1 h
  obtain ⟨q, -, h⟩ := bind_ok_iff.1 h
  obtain ⟨r, -, h⟩ := bind_ok_iff.1 h
  obtain ⟨s, -, h⟩ := bind_ok_iff.1 h
  cases h; exact ⟨rfl, rfl, rfl, rfl, Or.inl rfl⟩

theorem UCore.advance_tone {c c' : UCore} (h : c.advance = .ok c') : c.SameTone c' := by
  unfold UCore.advance at h
  obtain ⟨p, -, h⟩ := bind_ok_iff.1 h
  obtain ⟨q, -, h⟩ := bind_ok_iff.1 h
  cases h; exact ⟨rfl, rfl, rfl, rfl, Or.inl rfl⟩

theorem UCore.checkRange_tone {c : UCore} {r : Bool × UCore} (h : c.checkRange = .ok r) :
    c.SameTone r.2 := by
  unfold UCore.checkRange at h
  split at h
  · unfold UCore.resetSample at h
    obtain ⟨w, -, h⟩ := bind_ok_iff.1 h
    split at h
    · cases h; exact ⟨rfl, rfl, rfl, rfl, Or.inl rfl⟩
    · obtain ⟨s, hs, h⟩ := bind_ok_iff.1 h
      cases h
      refine ⟨rfl, rfl, rfl, rfl, ?_⟩
      have := cabs_or hs
      dsimp only
      split <;> omega
  · cases h; exact .refl _

theorem UCore.checkSustain_tone {c c' : UCore} {b : Bool} (h : c.checkSustain b = .ok c') :
    c.SameTone c' := by
  unfold UCore.checkSustain UCore.sustain at h
  split at h
  · split at h
    · split at h <;> (cases h; exact ⟨rfl, rfl, rfl, rfl, Or.inl rfl⟩)
    · split at h <;> (cases h; exact ⟨rfl, rfl, rfl, rfl, Or.inl rfl⟩)
  · cases h; exact .refl _

theorem UCore.sampleStep_tone {c : UCore} {cb : Bool} {t : Int} {n : Nat} {r : Bool × UCore × List Pulse}
    (h : c.sampleStep cb t n = .ok r) : c.SameTone r.2.1 := by
  unfold UCore.sampleStep at h
  obtain ⟨q, hq, h⟩ := bind_ok_iff.1 h
  have k1 : c.SameTone q.1 := foldlM_inv (P := fun s : UCore × List Pulse => c.SameTone s.1)
    (fun s i s' hs he => hs.trans (UCore.sampleChan_tone he)) _ (.refl c) hq
  obtain ⟨a, ha, h⟩ := bind_ok_iff.1 h
  obtain ⟨b, hb, h⟩ := bind_ok_iff.1 h
  have k2 := (k1.trans (UCore.advance_tone ha)).trans (UCore.checkRange_tone hb)
  split at h
  · cases h; exact k2
  · obtain ⟨d, hd, h⟩ := bind_ok_iff.1 h
    cases h; exact k2.trans (UCore.checkSustain_tone hd)

theorem UCore.sampleLoop_tone {cb : Bool} {e : Int} {n : Nat} : ∀ (k : Nat) {t : Int} {c : UCore}
    {r : Int × UCore × List Pulse}, UCore.sampleLoop cb e n k t c = .ok r → c.SameTone r.2.1
  | 0, t, c, r, h => by cases h; exact .refl _
  | k + 1, t, c, r, h => by
    unfold UCore.sampleLoop at h
    split at h
    · obtain ⟨q, hq, h⟩ := bind_ok_iff.1 h
      have k1 := UCore.sampleStep_tone hq
      split at h
      · cases h; exact k1
      · obtain ⟨t', -, h⟩ := bind_ok_iff.1 h
        obtain ⟨s, hs, h⟩ := bind_ok_iff.1 h
        have k2 := UCore.sampleLoop_tone k hs
        cases h; exact k1.trans k2
    · cases h; exact .refl _

theorem UCore.render_tone {c : UCore} {t0 e : Int} {n : Nat} {r : Int × UCore × List Pulse}
    (h : c.render t0 e n = .ok r) : c.SameTone r.2.1 := by
  unfold UCore.render at h
  obtain ⟨q, hq, h⟩ := bind_ok_iff.1 h
  cases h
  dsimp only
  have wave : ∀ {r : Int × UCore × List Pulse}, c.runWaveform t0 e n = .ok r → c.SameTone r.2.1 := by
    intro r h
    unfold UCore.runWaveform at h
    split at h
    · cases h; exact .refl _
    · refine foldlM_inv (P := fun s : Int × UCore × List Pulse => c.SameTone s.2.1) ?_ _ (.refl c) h
      intro s i s' hs he
      unfold UCore.waveChan at he
      split at he
      · cases he; exact hs
      · obtain ⟨z, -, he⟩ := bind_ok_iff.1 he
        cases he
        exact ⟨hs.period, hs.volume, hs.duty, hs.count, hs.speed⟩
  unfold UCore.runAny at hq
  split at hq
  · cases hq; exact .refl _
  · split at hq
    · cases hq; exact .refl _
    · unfold UCore.runSample at hq
      split at hq
      · cases hq; exact .refl _
      · obtain ⟨d, -, hq⟩ := bind_ok_iff.1 hq
        obtain ⟨d', -, hq⟩ := bind_ok_iff.1 hq
        split at hq
        · cases hq; exact .refl _
        · obtain ⟨z, hz, hq⟩ := bind_ok_iff.1 hq
          have k2 := UCore.sampleLoop_tone _ hz
          cases hq; exact k2
    · exact wave hq

/-! What is current. -/

/-- The channel volumes are those that would be computed now. -/
def Track.VolNow (x : Nat) (w : IWorld) (t : Track) : Prop :=
  ∃ m, t.mix x w = .ok m ∧
    ((m.2 ≠ 0 ∧ t.panningOn = true) → ∃ c, pan m.1 m.2 = .ok c ∧
      t.unit.volume 0 = cclamp c.1 0 32767 ∧ t.unit.volume 1 = cclamp c.2 0 32767) ∧
    (¬ (m.2 ≠ 0 ∧ t.panningOn = true) → t.unit.volume = fun _ => cclamp m.1 0 32767)

/-- The period is the one that would be computed now. -/
def Track.NoteNow (x : Nat) (w : IWorld) (t : Track) : Prop :=
  ∀ rate k, t.ctx = some (rate, k) → ∃ n, t.noteSum x w = .ok n ∧
    (t.waveform ≠ 16391 → ∃ p q v, tonePeriodLookup n rate = .ok p ∧
      udiv (wrapU32 (wrapI32 p)) (cmin t.unit.count 64) = .ok q ∧ cabs (wrapI32 q) = .ok v ∧
      t.unit.period = cmax v 0) ∧
    (t.waveform = 16391 → ∃ n' p v, i32 (n + t.samplePitch) = .ok n' ∧ log2PeriodLookup n' = .ok p ∧
      cabs (wrapI32 p) = .ok v ∧
      (t.unit.samplePeriod = cclamp v 4096 268435456 ∨ t.unit.samplePeriod = -cclamp v 4096 268435456))

/-- The duty cycle is the one that would be computed now. -/
def Track.DutyNow (x : Nat) (w : IWorld) (t : Track) : Prop :=
  t.unit.dutyCycle = cclamp (if w.on x ∧ w.value x 3 ≠ 0 then w.value x 3 else t.dutyCycle) 1 15

/-- The volume is current unless an update is pending or an effect is changing it. -/
def Track.VolOk (x : Nat) (w : IWorld) (t : Track) : Prop :=
  t.ctx ≠ none → t.updVolume = false → t.volumeSlide = false → t.panningSlide = false →
    t.tremoloOn = false → t.VolNow x w

def Track.NoteOk (x : Nat) (w : IWorld) (t : Track) : Prop :=
  t.updNote = false → t.portamento = false → t.vibratoOn = false → t.NoteNow x w

def Track.DutyOk (x : Nat) (w : IWorld) (t : Track) : Prop := t.updDuty = false → t.DutyNow x w

/-- All three. -/
structure Track.Settled (x : Nat) (w : IWorld) (t : Track) : Prop where
  vol : t.VolOk x w
  note : t.NoteOk x w
  duty : t.DutyOk x w

/-- Nothing that the volume depends on has changed. -/
structure Track.VolSame (x : Nat) (w w' : IWorld) (t t' : Track) : Prop where
  ctx : t'.ctx = none ↔ t.ctx = none
  upd : t'.updVolume = t.updVolume
  vs : t'.volumeSlide = t.volumeSlide
  ps : t'.panningSlide = t.panningSlide
  tr : t'.tremoloOn = t.tremoloOn
  tremolo : t'.tremolo = t.tremolo
  volume : t'.volume = t.volume
  panning : t'.panning = t.panning
  ignores : t'.ignores = t.ignores
  pan : t'.panningOn = t.panningOn
  master : t'.masterVolume = t.masterVolume
  unit : t'.unit.volume = t.unit.volume
  on : w'.on x = w.on x
  v0 : w'.value x 0 = w.value x 0
  v1 : w'.value x 1 = w.value x 1

structure Track.NoteSame (x : Nat) (w w' : IWorld) (t t' : Track) : Prop where
  ctx : t'.ctx = t.ctx
  upd : t'.updNote = t.updNote
  po : t'.portamento = t.portamento
  vi : t'.vibratoOn = t.vibratoOn
  vibrato : t'.vibrato = t.vibrato
  note : t'.note = t.note
  arpOn : t'.arpeggioOn = t.arpeggioOn
  delta : t'.arp.delta = t.arp.delta
  pitch : t'.pitch = t.pitch
  samplePitch : t'.samplePitch = t.samplePitch
  waveform : t'.waveform = t.waveform
  count : t'.unit.count = t.unit.count
  period : t'.unit.period = t.unit.period
  speed : t'.unit.samplePeriod = t.unit.samplePeriod ∨ t'.unit.samplePeriod = -t.unit.samplePeriod
  on : w'.on x = w.on x
  v2 : w'.value x 2 = w.value x 2

structure Track.DutySame (x : Nat) (w w' : IWorld) (t t' : Track) : Prop where
  upd : t'.updDuty = t.updDuty
  duty : t'.dutyCycle = t.dutyCycle
  unit : t'.unit.dutyCycle = t.unit.dutyCycle
  on : w'.on x = w.on x
  v3 : w'.value x 3 = w.value x 3

theorem Track.VolOk.same {x : Nat} {w w' : IWorld} {t t' : Track} (h : t.VolOk x w)
    (s : Track.VolSame x w w' t t') : t'.VolOk x w' := by
  intro h1 h2 h3 h4 h5
  obtain ⟨m, hm, a, b⟩ := h (fun e => h1 (s.ctx.2 e)) (s.upd ▸ h2) (s.vs ▸ h3) (s.ps ▸ h4) (s.tr ▸ h5)
  refine ⟨m, ?_, ?_, ?_⟩
  · rw [← hm]
    unfold Track.mix Track.ownVolume Track.tremoloVolume Track.tremoloFactor
    rw [s.volume, s.panning, s.ignores, s.tremolo, s.tr, s.master, s.on, s.v0, s.v1]
  · rw [s.pan, s.unit]; exact a
  · rw [s.pan, s.unit]; exact b

theorem Track.NoteNow.same {x : Nat} {w w' : IWorld} {t t' : Track} (h : t.NoteNow x w)
    (s : Track.NoteSame x w w' t t') : t'.NoteNow x w' := by
  intro rate k hc
  obtain ⟨n, hn, a, b⟩ := h rate k (s.ctx ▸ hc)
  refine ⟨n, ?_, ?_, ?_⟩
  · rw [← hn]
    unfold Track.noteSum Track.noteSum.vib
    rw [s.note, s.arpOn, s.delta, s.vi, s.vibrato, s.on, s.v2, s.pitch]
  · rw [s.waveform, s.count, s.period]; exact a
  · rw [s.waveform, s.samplePitch]
    intro hw
    obtain ⟨n', p, v, e1, e2, e3, e4⟩ := b hw
    refine ⟨n', p, v, e1, e2, e3, ?_⟩
    rcases s.speed with e | e <;> rw [e] <;> omega

theorem Track.NoteOk.same {x : Nat} {w w' : IWorld} {t t' : Track} (h : t.NoteOk x w)
    (s : Track.NoteSame x w w' t t') : t'.NoteOk x w' :=
  fun h1 h2 h3 => (h (s.upd ▸ h1) (s.po ▸ h2) (s.vi ▸ h3)).same s

theorem Track.DutyNow.same {x : Nat} {w w' : IWorld} {t t' : Track} (h : t.DutyNow x w)
    (s : Track.DutySame x w w' t t') : t'.DutyNow x w' := by
  unfold Track.DutyNow at h ⊢
  rw [s.unit, s.duty, s.on, s.v3]
  exact h

theorem Track.DutyOk.same {x : Nat} {w w' : IWorld} {t t' : Track} (h : t.DutyOk x w)
    (s : Track.DutySame x w w' t t') : t'.DutyOk x w' := fun h1 => (h (s.upd ▸ h1)).same s

/-- An update is pending. -/
theorem Track.VolOk.pending {x : Nat} {w : IWorld} {t : Track} (h : t.updVolume = true) : t.VolOk x w := by
  intro _ h'; rw [h] at h'; cases h'

theorem Track.NoteOk.pending {x : Nat} {w : IWorld} {t : Track} (h : t.updNote = true) : t.NoteOk x w := by
  intro h'; rw [h] at h'; cases h'

theorem Track.DutyOk.pending {x : Nat} {w : IWorld} {t : Track} (h : t.updDuty = true) : t.DutyOk x w := by
  intro h'; rw [h] at h'; cases h'

/-- Only the unit changes, not its tone. -/
theorem Track.Settled.unit {x : Nat} {w : IWorld} {t : Track} (h : t.Settled x w) {u : BUnit}
    (hu : t.unit.toUCore.SameTone u.toUCore) : ({ t with unit := u } : Track).Settled x w :=
  ⟨h.vol.same ⟨Iff.rfl, rfl, rfl, rfl, rfl, rfl, rfl, rfl, rfl, rfl, rfl, hu.volume, rfl, rfl, rfl⟩,
   h.note.same ⟨rfl, rfl, rfl, rfl, rfl, rfl, rfl, rfl, rfl, rfl, rfl, hu.count, hu.period, hu.speed, rfl, rfl⟩,
   h.duty.same ⟨rfl, rfl, hu.duty, rfl, rfl⟩⟩

/-! Updates make it current. -/

theorem Track.updateVolume_now {x : Nat} {w : IWorld} {t t' : Track} (h : t.updateVolume x w = .ok t') :
    t'.VolNow x w := by
  unfold Track.updateVolume at h
  obtain ⟨m, hm, h⟩ := bind_ok_iff.1 h
  split at h
  · rename_i hc
    obtain ⟨c, hp, h⟩ := bind_ok_iff.1 h
    obtain ⟨t1, h1, h⟩ := bind_ok_iff.1 h
    cases h1
    cases h
    exact ⟨m, hm, fun _ => ⟨c, hp, rfl, rfl⟩, fun hn => absurd hc hn⟩
  · rename_i hc
    cases h
    exact ⟨m, hm, fun hn => absurd hn hc, fun _ => rfl⟩

theorem Track.updateNote_now {x : Nat} {w : IWorld} {t t' : Track} (h : t.updateNote x w = .ok t') :
    t'.NoteNow x w := by
  intro rate k hc
  have hs := (Track.updateNote_same h).1
  rw [hs.ctx] at hc
  unfold Track.updateNote at h
  rw [hc] at h
  dsimp only at h
  obtain ⟨n, hn, h⟩ := bind_ok_iff.1 h
  split at h
  · rename_i hw
    obtain ⟨p, hp, h⟩ := bind_ok_iff.1 h
    obtain ⟨q, hq, h⟩ := bind_ok_iff.1 h
    obtain ⟨r, hr, rfl⟩ := Track.setUnit_eq h
    unfold UCore.setAttr at hr
    dsimp only at hr
    obtain ⟨v, hv, hr⟩ := bind_ok_iff.1 hr
    cases hr
    exact ⟨n, hn, fun _ => ⟨p, q, v, hp, hq, hv, rfl⟩, fun hn => absurd hn hw⟩
  · rename_i hw
    obtain ⟨n', hn', h⟩ := bind_ok_iff.1 h
    obtain ⟨p, hp, h⟩ := bind_ok_iff.1 h
    obtain ⟨r, hr, rfl⟩ := Track.setUnit_eq h
    unfold UCore.setAttr at hr
    dsimp only at hr
    obtain ⟨v, hv, hr⟩ := bind_ok_iff.1 hr
    cases hr
    refine ⟨n, hn, fun hn => absurd hn hw, fun _ => ⟨n', p, v, hn', hp, hv, ?_⟩⟩
    dsimp only
    split
    · exact Or.inr rfl
    · exact Or.inl rfl

theorem Track.updateDuty_now {x : Nat} {w : IWorld} {t t' : Track} (h : t.updateDuty x w = .ok t') :
    t'.DutyNow x w := by
  obtain ⟨r, hr, rfl⟩ := Track.setUnit_eq h
  unfold Track.DutyNow
  dsimp only
  generalize (if w.on x ∧ w.value x 3 ≠ 0 then w.value x 3 else t.dutyCycle) = d at hr ⊢
  unfold UCore.setAttr at hr
  dsimp only at hr
  split at hr
  · cases hr; rfl
  · rename_i he
    cases hr
    exact Decidable.not_not.1 he

/-- What updates of one kind leave alone. -/
theorem Track.updateVolume_else {x : Nat} {w : IWorld} {t t' : Track} (h : t.updateVolume x w = .ok t') :
    t'.unit.count = t.unit.count ∧ t'.unit.period = t.unit.period ∧
    t'.unit.samplePeriod = t.unit.samplePeriod ∧ t'.unit.dutyCycle = t.unit.dutyCycle ∧
    t'.updVolume = t.updVolume ∧ t'.updNote = t.updNote ∧ t'.updDuty = t.updDuty := by
  unfold Track.updateVolume at h
  obtain ⟨m, hm, h⟩ := bind_ok_iff.1 h
  split at h
  · obtain ⟨c, hp, h⟩ := bind_ok_iff.1 h
    obtain ⟨t1, h1, h⟩ := bind_ok_iff.1 h
    cases h1
    cases h
    exact ⟨rfl, rfl, rfl, rfl, rfl, rfl, rfl⟩
  · cases h
    exact ⟨rfl, rfl, rfl, rfl, rfl, rfl, rfl⟩

theorem Track.updateNote_else {x : Nat} {w : IWorld} {t t' : Track} (h : t.updateNote x w = .ok t') :
    t'.unit.volume = t.unit.volume ∧ t'.unit.dutyCycle = t.unit.dutyCycle ∧
    t'.updVolume = t.updVolume ∧ t'.updNote = t.updNote ∧ t'.updDuty = t.updDuty := by
  have one : ∀ {a : UAttr} {v : Int}, a = .period ∨ a = .samplePeriod → ∀ {t' : Track},
      t.setUnit a v = .ok t' → t'.unit.volume = t.unit.volume ∧ t'.unit.dutyCycle = t.unit.dutyCycle ∧
      t'.updVolume = t.updVolume ∧ t'.updNote = t.updNote ∧ t'.updDuty = t.updDuty := by
    intro a v ha t' h
    obtain ⟨r, hr, rfl⟩ := Track.setUnit_eq h
    rcases ha with rfl | rfl <;>
    · unfold UCore.setAttr at hr
      dsimp only at hr
      obtain ⟨v, hv, hr⟩ := bind_ok_iff.1 hr
      cases hr
      exact ⟨rfl, rfl, rfl, rfl, rfl⟩
  unfold Track.updateNote at h
  split at h
  · cases h; exact ⟨rfl, rfl, rfl, rfl, rfl⟩
  · obtain ⟨n, hn, h⟩ := bind_ok_iff.1 h
    split at h
    · obtain ⟨p, hp, h⟩ := bind_ok_iff.1 h
      obtain ⟨q, hq, h⟩ := bind_ok_iff.1 h
      exact one (Or.inl rfl) h
    · obtain ⟨p, hp, h⟩ := bind_ok_iff.1 h
      obtain ⟨q, hq, h⟩ := bind_ok_iff.1 h
      exact one (Or.inr rfl) h

theorem Track.updateDuty_else {x : Nat} {w : IWorld} {t t' : Track} (h : t.updateDuty x w = .ok t') :
    t'.unit.count = t.unit.count ∧ t'.unit.period = t.unit.period ∧
    t'.unit.samplePeriod = t.unit.samplePeriod ∧ t'.unit.volume = t.unit.volume ∧
    t'.updVolume = t.updVolume ∧ t'.updNote = t.updNote ∧ t'.updDuty = t.updDuty := by
  obtain ⟨r, hr, rfl⟩ := Track.setUnit_eq h
  generalize (if w.on x ∧ w.value x 3 ≠ 0 then w.value x 3 else t.dutyCycle) = d at hr
  unfold UCore.setAttr at hr
  dsimp only at hr
  split at hr <;> (cases hr; exact ⟨rfl, rfl, rfl, rfl, rfl, rfl, rfl⟩)

end BK
