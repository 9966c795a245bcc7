import Verif.Lemmas.Current
import Verif.Spec.Current
/-!
The three parts of the state of a unit that a track computes, and how updates and callbacks keep
them current.
-/
namespace BK

/-- The part is current, or an update of it is pending, or an effect is changing it. -/
def Track.Ok (x : Nat) (w : IWorld) (t : Track) : Part → Prop
  | .vol => t.VolOk x w
  | .note => t.NoteOk x w
  | .duty => t.DutyOk x w

/-- An update is pending. -/
def Track.flag (t : Track) : Part → Bool
  | .vol => t.updVolume
  | .note => t.updNote
  | .duty => t.updDuty

theorem Track.Ok.pending {x : Nat} {w : IWorld} {t : Track} {p : Part} (h : t.flag p = true) : t.Ok x w p := by
  cases p
  · exact Track.VolOk.pending h
  · exact Track.NoteOk.pending h
  · exact Track.DutyOk.pending h

theorem Track.Ok.unit {x : Nat} {w : IWorld} {t : Track} {p : Part} (h : t.Ok x w p) {u : BUnit}
    (hu : t.unit.toUCore.SameTone u.toUCore) : ({ t with unit := u } : Track).Ok x w p := by
  cases p
  · exact Track.VolOk.same h ⟨Iff.rfl, rfl, rfl, rfl, rfl, rfl, rfl, rfl, rfl, rfl, rfl, hu.volume, rfl, rfl, rfl⟩
  · exact Track.NoteOk.same h
      ⟨rfl, rfl, rfl, rfl, rfl, rfl, rfl, rfl, rfl, rfl, rfl, hu.count, hu.period, hu.speed, rfl, rfl⟩
  · exact Track.DutyOk.same h ⟨rfl, rfl, hu.duty, rfl, rfl⟩

theorem Track.Ok.setUnit {x : Nat} {w : IWorld} {t t' : Track} {p : Part} (h : t.Ok x w p) {a : UAttr} {v : Int}
    (ha : a.quiet = true) (e : t.setUnit a v = .ok t') : t'.Ok x w p := by
  obtain ⟨r, hr, rfl⟩ := Track.setUnit_eq e
  exact h.unit (u := { t.unit with toUCore := r.2 }) (UCore.setAttr_tone ha hr)

theorem Track.setUnit_flag {t t' : Track} {p : Part} {a : UAttr} {v : Int} (e : t.setUnit a v = .ok t') :
    t'.flag p = t.flag p := by
  obtain ⟨r, hr, rfl⟩ := Track.setUnit_eq e
  cases p <;> rfl

/-- Only the world changes, and the state of `x` there does not. -/
theorem Track.Ok.world {x : Nat} {w w' : IWorld} {t : Track} {p : Part} (h : t.Ok x w p)
    (ho : w'.links.owner x = w.links.owner x) (hs : w'.states x = w.states x) : t.Ok x w' p := by
  have on : w'.on x = w.on x := by unfold IWorld.on; rw [ho]
  have v : ∀ k, w'.value x k = w.value x k := fun k => by unfold IWorld.value; rw [hs]
  cases p
  · exact Track.VolOk.same h ⟨Iff.rfl, rfl, rfl, rfl, rfl, rfl, rfl, rfl, rfl, rfl, rfl, rfl, on, v 0, v 1⟩
  · exact Track.NoteOk.same h
      ⟨rfl, rfl, rfl, rfl, rfl, rfl, rfl, rfl, rfl, rfl, rfl, rfl, rfl, Or.inl rfl, on, v 2⟩
  · exact Track.DutyOk.same h ⟨rfl, rfl, rfl, on, v 3⟩

theorem Track.SameBut.volSame {x : Nat} {w : IWorld} {t t' : Track} (h : t.SameBut t')
    (hu : t'.updVolume = t.updVolume) (hv : t'.unit.volume = t.unit.volume) : Track.VolSame x w w t t' :=
  ⟨by rw [h.ctx], hu, h.volumeSlide, h.panningSlide, h.tremoloOn, h.tremolo, h.volume, h.panning, h.ignores,
   h.panningOn, h.masterVolume, hv, rfl, rfl, rfl⟩

theorem Track.SameBut.noteSame {x : Nat} {w : IWorld} {t t' : Track} (h : t.SameBut t') (hn : t'.note = t.note)
    (hu : t'.updNote = t.updNote) (h1 : t'.unit.count = t.unit.count) (h2 : t'.unit.period = t.unit.period)
    (h3 : t'.unit.samplePeriod = t.unit.samplePeriod) : Track.NoteSame x w w t t' :=
  ⟨h.ctx, hu, h.portamento, h.vibratoOn, h.vibrato, hn, h.arpeggioOn, by rw [h.arp], h.pitch, h.samplePitch,
   h.waveform, h1, h2, Or.inl h3, rfl, rfl⟩

theorem Track.SameBut.dutySame {x : Nat} {w : IWorld} {t t' : Track} (h : t.SameBut t')
    (hu : t'.updDuty = t.updDuty) (hv : t'.unit.dutyCycle = t.unit.dutyCycle) : Track.DutySame x w w t t' :=
  ⟨hu, h.dutyCycle, hv, rfl, rfl⟩

theorem Track.Ok.flushVolume {x : Nat} {w : IWorld} {t t' : Track} {p : Part} (h : t.Ok x w p)
    (e : t.flushVolume x w = .ok t') : t'.Ok x w p := by
  unfold Track.flushVolume at e
  split at e
  · obtain ⟨u, hu, e⟩ := bind_ok_iff.1 e
    cases e
    obtain ⟨a1, a2, a3, a4, a5, a6, a7⟩ := Track.updateVolume_else hu
    obtain ⟨sb, sn⟩ := Track.updateVolume_same hu
    cases p
    · intro _ _ _ _ _; have k := Track.updateVolume_now hu; exact k
    · exact Track.NoteOk.same h ((sb.flags _ _ _).noteSame sn.note a6 a1 a2 a3)
    · exact Track.DutyOk.same h ((sb.flags _ _ _).dutySame a7 a4)
  · cases e; exact h

theorem Track.Ok.flushNote {x : Nat} {w : IWorld} {t t' : Track} {p : Part} (h : t.Ok x w p)
    (e : t.flushNote x w = .ok t') : t'.Ok x w p := by
  unfold Track.flushNote at e
  split at e
  · obtain ⟨u, hu, e⟩ := bind_ok_iff.1 e
    cases e
    obtain ⟨a1, a2, a3, a4, a5⟩ := Track.updateNote_else hu
    obtain ⟨sb, sn⟩ := Track.updateNote_same hu
    cases p
    · exact Track.VolOk.same h ((sb.flags _ _ _).volSame a3 a1)
    · intro _ _ _; have k := Track.updateNote_now hu; exact k
    · exact Track.DutyOk.same h ((sb.flags _ _ _).dutySame a5 a2)
  · cases e; exact h

theorem Track.Ok.flushDuty {x : Nat} {w : IWorld} {t t' : Track} {p : Part} (h : t.Ok x w p)
    (e : t.flushDuty x w = .ok t') : t'.Ok x w p := by
  unfold Track.flushDuty at e
  split at e
  · obtain ⟨u, hu, e⟩ := bind_ok_iff.1 e
    cases e
    obtain ⟨a1, a2, a3, a4, a5, a6, a7⟩ := Track.updateDuty_else hu
    obtain ⟨sb, sn⟩ := Track.updateDuty_same hu
    cases p
    · exact Track.VolOk.same h ((sb.flags _ _ _).volSame a5 a4)
    · exact Track.NoteOk.same h ((sb.flags _ _ _).noteSame sn.note a6 a1 a2 a3)
    · intro _; have k := Track.updateDuty_now hu; exact k
  · cases e; exact h

theorem Track.Ok.updateUnit {x : Nat} {w : IWorld} {t t' : Track} {p : Part} (h : t.Ok x w p)
    (e : t.updateUnit x w = .ok t') : t'.Ok x w p := by
  unfold Track.updateUnit at e
  obtain ⟨a, ha, e⟩ := bind_ok_iff.1 e
  obtain ⟨b, hb, e⟩ := bind_ok_iff.1 e
  exact ((h.flushVolume ha).flushNote hb).flushDuty e

/-! Rendering with and without everything computed anew. -/

/-- Other flags. -/
def Track.fl (a b c : Bool) (t : Track) : Track := { t with updVolume := a, updNote := b, updDuty := c }

theorem Track.fl_setUnit {t : Track} (k : UAttr) (v : Int) (a b c : Bool) :
    (t.fl a b c).setUnit k v = t.setUnit k v >>= fun u => .ok (u.fl a b c) := by
  unfold Track.setUnit Track.fl
  dsimp only
  cases t.unit.toUCore.setAttr k v <;> rfl

theorem Track.fl_updateVolume {x : Nat} {w : IWorld} {t : Track} (a b c : Bool) :
    (t.fl a b c).updateVolume x w = t.updateVolume x w >>= fun u => .ok (u.fl a b c) := by
  unfold Track.updateVolume
  rw [show (t.fl a b c).mix x w = t.mix x w from rfl]
  cases t.mix x w with
  | error e => rfl
  | ok m =>
    rw [ok_bind, ok_bind]
    rw [show (t.fl a b c).panningOn = t.panningOn from rfl]
    split
    · cases pan m.1 m.2 with
      | error e => rfl
      | ok q =>
        rw [ok_bind, ok_bind, Track.fl_setUnit]
        cases t.setUnit (.volumeOf 0) q.1 with
        | error e => rfl
        | ok u => rw [ok_bind, ok_bind, ok_bind, Track.fl_setUnit]
    · rw [Track.fl_setUnit]

theorem Track.fl_updateNote {x : Nat} {w : IWorld} {t : Track} (a b c : Bool) :
    (t.fl a b c).updateNote x w = t.updateNote x w >>= fun u => .ok (u.fl a b c) := by
  unfold Track.updateNote
  rw [show (t.fl a b c).ctx = t.ctx from rfl]
  cases t.ctx with
  | none => rfl
  | some q =>
    dsimp only
    rw [show (t.fl a b c).noteSum x w = t.noteSum x w from rfl]
    cases t.noteSum x w with
    | error e => rfl
    | ok n =>
      rw [ok_bind, ok_bind]
      rw [show (t.fl a b c).waveform = t.waveform from rfl, show (t.fl a b c).unit = t.unit from rfl,
        show (t.fl a b c).samplePitch = t.samplePitch from rfl]
      split
      · cases tonePeriodLookup n q.1 with
        | error e => rfl
        | ok p =>
          rw [ok_bind, ok_bind]
          cases udiv (wrapU32 (wrapI32 p)) (cmin t.unit.count 64) with
          | error e => rfl
          | ok z => rw [ok_bind, ok_bind, Track.fl_setUnit]
      · cases i32 (n + t.samplePitch) with
        | error e => rfl
        | ok m =>
          rw [ok_bind, ok_bind]
          cases log2PeriodLookup m with
          | error e => rfl
          | ok z => rw [ok_bind, ok_bind, Track.fl_setUnit]

theorem Track.fl_updateDuty {x : Nat} {w : IWorld} {t : Track} (a b c : Bool) :
    (t.fl a b c).updateDuty x w = t.updateDuty x w >>= fun u => .ok (u.fl a b c) := by
  unfold Track.updateDuty
  rw [show (t.fl a b c).dutyCycle = t.dutyCycle from rfl, Track.fl_setUnit]

theorem Track.fl_self (t : Track) : t = t.fl t.updVolume t.updNote t.updDuty := rfl

theorem Track.VolNow.idle {x : Nat} {w : IWorld} {t : Track} (h : t.VolNow x w) : t.updateVolume x w = .ok t := by
  obtain ⟨m, hm, h1, h2⟩ := h
  unfold Track.updateVolume
  rw [hm, ok_bind]
  split
  · rename_i hc
    obtain ⟨c, hp, e0, e1⟩ := h1 hc
    rw [hp, ok_bind]
    have s0 : t.setUnit (.volumeOf 0) c.1 = .ok t := by
      show Except.ok ({ t with unit := { t.unit with volume := upd t.unit.volume ((0 : Fin 8) : Nat) (cclamp c.1 0 32767) } } : Track) = _
      rw [← e0]
      rw [show upd t.unit.volume ((0 : Fin 8) : Nat) (t.unit.volume 0) = t.unit.volume from funext fun j => by unfold upd; split <;> simp_all]
    have s1 : t.setUnit (.volumeOf 1) c.2 = .ok t := by
      show Except.ok ({ t with unit := { t.unit with volume := upd t.unit.volume ((1 : Fin 8) : Nat) (cclamp c.2 0 32767) } } : Track) = _
      rw [← e1]
      rw [show upd t.unit.volume ((1 : Fin 8) : Nat) (t.unit.volume 1) = t.unit.volume from funext fun j => by unfold upd; split <;> simp_all]
    rw [s0, ok_bind, s1]
  · rename_i hc
    have e := h2 hc
    show Except.ok ({ t with unit := { t.unit with volume := fun _ => cclamp m.1 0 32767 } } : Track) = _
    rw [← e]

theorem Track.NoteNow.idle {x : Nat} {w : IWorld} {t : Track} (h : t.NoteNow x w) : t.updateNote x w = .ok t := by
  unfold Track.updateNote
  cases hc : t.ctx with
  | none => rfl
  | some q =>
    obtain ⟨n, hn, h1, h2⟩ := h q.1 q.2 hc
    dsimp only
    rw [hn, ok_bind]
    split
    · rename_i hw
      obtain ⟨p, z, v, e1, e2, e3, e4⟩ := h1 hw
      rw [e1, ok_bind, e2, ok_bind]
      unfold Track.setUnit UCore.setAttr
      dsimp only
      rw [e3, ok_bind, ← e4]
      rfl
    · rename_i hw
      obtain ⟨n', p, v, e1, e2, e3, e4⟩ := h2 (Decidable.not_not.1 hw)
      rw [e1, ok_bind, e2, ok_bind]
      unfold Track.setUnit UCore.setAttr
      dsimp only
      rw [e3, ok_bind]
      have hv : 4096 ≤ cclamp v 4096 268435456 := (cclamp_in (by decide)).1
      generalize cclamp v 4096 268435456 = d at e4 hv
      have : (if t.unit.samplePeriod < 0 then -d else d) = t.unit.samplePeriod := by
        split <;> omega
      rw [this]
      rfl

theorem Track.DutyNow.idle {x : Nat} {w : IWorld} {t : Track} (h : t.DutyNow x w) : t.updateDuty x w = .ok t := by
  unfold Track.DutyNow at h
  unfold Track.updateDuty Track.setUnit UCore.setAttr
  dsimp only
  rw [if_neg (by rw [h]; exact fun hn => hn rfl)]
  rfl

theorem Track.flushVolume_eq {x : Nat} {w : IWorld} {t : Track}
    (h : t.updVolume = false → t.updateVolume x w = .ok t) :
    t.flushVolume x w = t.updateVolume x w >>= fun u => .ok (u.fl false t.updNote t.updDuty) := by
  unfold Track.flushVolume
  split
  · cases e : t.updateVolume x w with
    | error e => rfl
    | ok u =>
      obtain ⟨-, -, -, -, -, a6, a7⟩ := Track.updateVolume_else e
      rw [ok_bind, ok_bind, ← a6, ← a7]
      rfl
  · rename_i hf
    have hf : t.updVolume = false := by simpa using hf
    rw [h hf, ok_bind, ← hf]
    rfl

theorem Track.flushNote_eq {x : Nat} {w : IWorld} {t : Track}
    (h : t.updNote = false → t.updateNote x w = .ok t) :
    t.flushNote x w = t.updateNote x w >>= fun u => .ok (u.fl t.updVolume false t.updDuty) := by
  unfold Track.flushNote
  split
  · cases e : t.updateNote x w with
    | error e => rfl
    | ok u =>
      obtain ⟨-, -, a6, -, a7⟩ := Track.updateNote_else e
      rw [ok_bind, ok_bind, ← a6, ← a7]
      rfl
  · rename_i hf
    have hf : t.updNote = false := by simpa using hf
    rw [h hf, ok_bind, ← hf]
    rfl

theorem Track.flushDuty_eq {x : Nat} {w : IWorld} {t : Track}
    (h : t.updDuty = false → t.updateDuty x w = .ok t) :
    t.flushDuty x w = t.updateDuty x w >>= fun u => .ok (u.fl t.updVolume t.updNote false) := by
  unfold Track.flushDuty
  split
  · cases e : t.updateDuty x w with
    | error e => rfl
    | ok u =>
      obtain ⟨-, -, -, -, a6, a7, -⟩ := Track.updateDuty_else e
      rw [ok_bind, ok_bind, ← a6, ← a7]
      rfl
  · rename_i hf
    have hf : t.updDuty = false := by simpa using hf
    rw [h hf, ok_bind, ← hf]
    rfl

/-- Everything computed. -/
def Track.compute (x : Nat) (w : IWorld) (t : Track) : C Track := do
  let a ← t.updateVolume x w
  let b ← a.updateNote x w
  let c ← b.updateDuty x w
  return c.fl false false false

theorem Track.updateUnit_compute {x : Nat} {w : IWorld} {t : Track}
    (h1 : t.updVolume = false → t.VolNow x w) (h2 : t.updNote = false → t.NoteNow x w)
    (h3 : t.updDuty = false → t.DutyNow x w) : t.updateUnit x w = t.compute x w := by
  unfold Track.updateUnit Track.compute
  rw [Track.flushVolume_eq fun e => (h1 e).idle]
  cases ea : t.updateVolume x w with
  | error e => rfl
  | ok a =>
    rw [ok_bind, ok_bind, ok_bind]
    obtain ⟨a1, a2, a3, a4, a5, a6, a7⟩ := Track.updateVolume_else ea
    obtain ⟨sb, sn⟩ := Track.updateVolume_same ea
    have i2 : t.updNote = false → a.updateNote x w = .ok a := fun hf =>
      ((h2 hf).same (sb.noteSame sn.note a6 a1 a2 a3)).idle
    have i3 : t.updDuty = false → a.DutyNow x w := fun hf => (h3 hf).same (sb.dutySame a7 a4)
    rw [Track.flushNote_eq (t := a.fl false t.updNote t.updDuty)
      (fun hf => by rw [Track.fl_updateNote, i2 hf, ok_bind]), Track.fl_updateNote]
    cases eb : a.updateNote x w with
    | error e => rfl
    | ok b =>
      rw [ok_bind, ok_bind, ok_bind, ok_bind]
      obtain ⟨b1, b2, b3, b4, b5⟩ := Track.updateNote_else eb
      obtain ⟨sb', sn'⟩ := Track.updateNote_same eb
      have i4 : t.updDuty = false → b.updateDuty x w = .ok b := fun hf =>
        ((i3 hf).same (sb'.dutySame b5 b2)).idle
      show (b.fl false false t.updDuty).flushDuty x w = _
      rw [Track.flushDuty_eq (t := b.fl false false t.updDuty)
        (fun hf => by rw [Track.fl_updateDuty, i4 hf, ok_bind]), Track.fl_updateDuty]
      cases b.updateDuty x w <;> rfl

theorem Track.fl_compute {x : Nat} {w : IWorld} {t : Track} (a b c : Bool) :
    (t.fl a b c).compute x w = t.compute x w := by
  unfold Track.compute
  rw [Track.fl_updateVolume]
  cases t.updateVolume x w with
  | error e => rfl
  | ok u =>
    rw [ok_bind, ok_bind, ok_bind, Track.fl_updateNote]
    cases u.updateNote x w with
    | error e => rfl
    | ok v =>
      rw [ok_bind, ok_bind, ok_bind, Track.fl_updateDuty]
      cases v.updateDuty x w <;> rfl

theorem Track.flagAll_compute {x : Nat} {w : IWorld} {t : Track} : t.flagAll.updateUnit x w = t.compute x w := by
  rw [Track.updateUnit_compute (t := t.flagAll) (fun h => by cases h) (fun h => by cases h) (fun h => by cases h)]
  exact Track.fl_compute true true true

/-- A track all of whose parts are current is updated as one all of whose parts are to be updated. -/
theorem Track.updateUnit_flagAll {x : Nat} {w : IWorld} {t : Track} (h : ∀ p, t.Ok x w p) (hc : t.ctx ≠ none)
    (h1 : t.volumeSlide = false) (h2 : t.panningSlide = false) (h3 : t.tremoloOn = false)
    (h4 : t.portamento = false) (h5 : t.vibratoOn = false) : t.flagAll.updateUnit x w = t.updateUnit x w := by
  rw [Track.flagAll_compute, Track.updateUnit_compute]
  · exact fun e => h .vol hc e h1 h2 h3
  · exact fun e => h .note e h4 h5
  · exact fun e => h .duty e

/-! Callbacks. -/

theorem Track.Ok.flagAll {x : Nat} {w : IWorld} {t : Track} {p : Part} : t.flagAll.Ok x w p :=
  Track.Ok.pending (by cases p <;> rfl)

theorem Track.silence_flag {t t' : Track} (h : t.silence = .ok t') :
    t'.updVolume = t.updVolume ∧ t'.updDuty = t.updDuty ∧ t'.updNote = true ∧
    t'.unit.volume = t.unit.volume ∧ t'.unit.dutyCycle = t.unit.dutyCycle := by
  unfold Track.silence at h
  obtain ⟨a, ha, h⟩ := bind_ok_iff.1 h
  obtain ⟨b, hb, h⟩ := bind_ok_iff.1 h
  obtain ⟨q, hq, rfl⟩ := Track.setUnit_eq ha
  obtain ⟨r, hr, rfl⟩ := Track.setUnit_eq hb
  have k1 := UCore.setAttr_tone rfl hq
  have k2 := UCore.setAttr_tone rfl hr
  cases h
  have k := k1.trans k2
  exact ⟨rfl, rfl, rfl, k.volume, k.duty⟩

theorem Track.Ok.told {x : Nat} {w : IWorld} {t t' : Track} {p : Part} {e : InstrEvent} (h : t.Ok x w p)
    (he : t.told x w e = .ok t') : t'.Ok x w p := by
  cases e with
  | reset => exact Track.Ok.flagAll.updateUnit he
  | dispose =>
    unfold Track.told at he
    dsimp only at he
    split at he
    · obtain ⟨u, -, he⟩ := bind_ok_iff.1 he
      cases he; exact Track.Ok.flagAll
    · cases he; exact Track.Ok.flagAll
  | mute =>
    have sb := Track.told_same he
    obtain ⟨a1, a2, a3, a4, a5⟩ := Track.silence_flag he
    cases p with
    | vol =>
      cases hf : t'.updVolume with
      | true => exact Track.Ok.pending hf
      | false =>
        refine Track.VolOk.same h (sb.volSame ?_ a4)
        rw [a1] at hf
        unfold Track.flagSeqs at hf
        simp only [Bool.or_eq_false_iff] at hf
        rw [a1]; unfold Track.flagSeqs; dsimp only
        rw [hf.1.2, hf.2, Bool.or_false, Bool.or_false]
        rfl
    | note => exact Track.Ok.pending a3
    | duty =>
      cases hf : t'.updDuty with
      | true => exact Track.Ok.pending hf
      | false =>
        refine Track.DutyOk.same h (sb.dutySame ?_ a5)
        rw [a2] at hf
        unfold Track.flagSeqs at hf
        simp only [Bool.or_eq_false_iff] at hf
        rw [a2]; unfold Track.flagSeqs; dsimp only
        rw [hf.2, Bool.or_false]
        rfl

/-- After these two, everything is current. -/
theorem Track.told_ok {x : Nat} {w : IWorld} {t t' : Track} {p : Part} {e : InstrEvent}
    (hn : e ≠ .mute) (he : t.told x w e = .ok t') : t'.Ok x w p := by
  cases e with
  | reset => exact Track.Ok.flagAll.updateUnit he
  | dispose =>
    unfold Track.told at he
    dsimp only at he
    split at he
    · obtain ⟨u, -, he⟩ := bind_ok_iff.1 he
      cases he; exact Track.Ok.flagAll
    · cases he; exact Track.Ok.flagAll
  | mute => exact absurd rfl hn

end BK
