import Verif.Lemmas.TrackSafe3
/-!
What keeps a track from faulting: clearing, rendering, and all calls in sequence.
-/
namespace BK

theorem Track.clear_safe {N n : Nat} {Z : Prop} {t : Track} (h : t.Base N Z) {x : Nat} {w : IWorld} (hw : w.Good n)
    (hp : Plain t.waveform) (hz : Z → waveOfAttr t.waveform ≠ none) :
    Safe True (t.clear x w) (Both n N False) := by
  unfold Track.clear
  refine (UCore.clear_fine h.unit (Track.Inv.chans h)).bind ?_
  rintro u ⟨h1, h2, -⟩
  dsimp only
  have b1 : Track.Calm N Z { t with unit := { t.unit with toUCore := u }
                                    dataId := if u.data = none then none else t.dataId } :=
    ⟨{ h with unit := h1 }, h2⟩
  refine (b1.unset hw).bind ?_
  rintro r ⟨h3, h4, h5, h6⟩
  have h7 := h3.wipe h4
  have i0 := h5.wiped
  have e1 : ∃ s, (r.2.wiped.volume).setValue (cclamp 32767 0 32767) = .ok s ∧ s.Near 15 0 32767 :=
    i0.volume.setValue (by decide) (by decide) (by decide)
  obtain ⟨s, e1, hs⟩ := e1
  have E1 : r.2.wiped.setAttr x (r.1.wipe x) .volume 32767 = .ok (.ok, r.1.wipe x, { r.2.wiped with volume := s, updVolume := true }) := by
    unfold Track.setAttr
    dsimp only
    rw [e1]; rfl
  rw [E1, ok_bind]
  have i1 : Track.Inv N Z { r.2.wiped with volume := s, updVolume := true, masterVolume := cclamp t.masterVolume 0 32767 } :=
    { i0 with volume := hs, masterVolume := cclamp_in (by decide) }
  have E2 : Track.setAttr x (r.1.wipe x) { r.2.wiped with volume := s, updVolume := true } .masterVolume t.masterVolume =
      .ok (.ok, r.1.wipe x, { r.2.wiped with volume := s, updVolume := true, masterVolume := cclamp t.masterVolume 0 32767 }) := rfl
  dsimp only
  rw [E2, ok_bind]
  dsimp only
  have i2 := i1.setWaveform_strong (x := x) h7 hp (fun a => by
    have h6' : r.2.wiped.unit.sustainRange = false := h6
    rw [show Track.unit _ = r.2.wiped.unit from rfl, h6'] at a; cases a) hz
  generalize ({ r.2.wiped with volume := s, updVolume := true, masterVolume := cclamp t.masterVolume 0 32767 } : Track) = t1 at *
  have i3 : Safe True (t1.setAttr x (r.1.wipe x) .waveform t.waveform) (fun q => Both n N False q.2) := by
    unfold Track.setAttr
    exact i2.bind fun q hq => ⟨h7, hq⟩
  refine i3.bind fun q hq => ?_
  have i4 : Safe True (q.2.2.setAttr x (r.1.wipe x) .dutyCycle t.dutyCycle) (fun q => Both n N False q.2) := by
    unfold Track.setAttr
    exact (hq.2.setDuty _).bind fun q hq => ⟨h7, hq⟩
  refine i4.bind fun q hq => ?_
  refine (hq.2.setAttr (a := .note) (v := -2) h7 ⟨Plain.of (by decide) (by decide), trivial⟩).bind fun q hq => ?_
  exact (hq.2.setAttr (a := .unit .mute) (v := 1) hq.1 ⟨plain_1, trivial⟩).bind fun q hq => hq

theorem Track.reset_safe {N n : Nat} {Z : Prop} {t : Track} (h : t.Base N Z) {x : Nat} {w : IWorld} (hw : w.Good n)
    (hp : Plain t.waveform) (hz : Z → waveOfAttr t.waveform ≠ none) :
    Safe True (t.reset x w) (Both n N False) := by
  unfold Track.reset
  refine (BUnit.reset_fine h.unit (Track.Inv.chans h)).bind ?_
  rintro u ⟨h1, -⟩
  dsimp only
  have k : ∀ t1 : Track, t1.Base N Z → t1.waveform = t.waveform →
      Safe True (t1.setAttr x w .dutyCycle 4) (fun q => q.2.1 = w ∧ q.2.2.Base N Z ∧ q.2.2.waveform = t.waveform) := by
    intro t1 b1 e1
    unfold Track.setAttr Track.setDuty
    dsimp only
    rw [bind_assoc]
    exact (UCore.setAttr_duty_fine b1.unit 4).bind fun r hr => ⟨rfl, { b1 with unit := hr }, e1⟩
  refine (k { t with unit := u, dataId := if u.data = none then none else t.dataId } { h with unit := h1 } rfl).bind ?_
  rintro ⟨q1, q2, q3⟩ ⟨rfl, h3, h4⟩
  exact Track.clear_safe h3 hw (h4 ▸ hp) (h4 ▸ hz)

theorem code_plain (w : Wave) : Plain w.code := by
  cases w <;> exact Plain.of (by decide) (by decide)

theorem Track.init_safe {n : Nat} (N : Nat) {x : Nat} {w : IWorld} (hw : w.Good n) {v : Int} (hv : Plain v) :
    Safe True (Track.init x w v) (Both n N False) := by
  unfold Track.init
  refine (UCore.init_fine N v).bind ?_
  rintro u ⟨h1, h2⟩
  dsimp only
  have b0 : Track.Base N True { unit := { toUCore := u, time := 0 }, triangleIgnores := true } :=
    ⟨h1, fun _ => rfl, fun c e => by cases e⟩
  have k : Safe True (Track.setAttr x w { unit := { toUCore := u, time := 0 }, triangleIgnores := true } .waveform v)
      (fun q => q.2.1 = w ∧ q.2.2.Base N True ∧ Plain q.2.2.waveform ∧ waveOfAttr q.2.2.waveform ≠ none) := by
    unfold Track.setAttr Track.setWaveform
    dsimp only
    rw [bind_assoc]
    have h3 : Safe True (u.setAttr .waveform v) (fun r => r.2.Fine N True ∧ (r.1 = .ok → waveOfAttr r.2.waveform.code ≠ none)) := by
      refine (UCore.setAttr_safe (a := .waveform) h1 hv.1 hv.2 (fun a => by rw [h2] at a; cases a)).and_ok fun r e => ?_
      intro hr
      unfold UCore.setAttr at e
      dsimp only at e
      split at e
      · rename_i w' m hw'
        have := waveOfAttr_some hw'
        have hne : waveOfAttr w'.code ≠ none := by
          rcases this with ⟨rfl, -⟩ | ⟨rfl, -⟩ | ⟨rfl, -⟩ | ⟨rfl, -⟩ | ⟨rfl, -⟩ | ⟨rfl, -⟩ <;> decide
        cases e
        dsimp only
        split
        · exact hne
        · rename_i hx
          have hx : u.waveform = w' := not_not.1 hx
          dsimp only
          rw [hx]; exact hne
      · cases e; cases hr
    refine h3.bind ?_
    rintro r ⟨h4, h5⟩
    split
    · rename_i hr
      exact ⟨rfl, ⟨h4, fun _ => rfl, fun c e => by cases e⟩, code_plain _, h5 hr⟩
    · exact ⟨rfl, ⟨h4, fun _ => rfl, fun c e => by cases e⟩, plain_0, show waveOfAttr 0 ≠ none by decide⟩
  refine k.bind ?_
  rintro ⟨q1, q2, q3⟩ ⟨rfl, h3, h4, h5⟩
  exact Track.reset_safe h3 hw h4 fun _ => h5

theorem Track.Inv.attach {N n : Nat} {t : Track} (h : t.Inv N False) {x : Nat} {w : IWorld} (hw : w.Good n)
    {rate chans delta : Int} (hl : TOp.Legal N t (.attach rate chans delta)) :
    Safe True (t.attach x w rate chans delta) (fun r => r.2.Inv N False) := by
  unfold Track.attach
  split
  · exact h
  · have h1 : Track.Inv N False { t with ctx := some (rate, chans), unit := { t.unit with time := delta }
                                         panningOn := t.panningOn || decide (chans = 2), updVolume := true } :=
      { h with off := False.elim, ctx := fun c e => by cases e; exact hl }
    exact (h1.updateUnit hw).bind fun a ha => ha

theorem Track.Inv.detach {N : Nat} {t : Track} (h : t.Inv N False) : t.detach.Inv N False := by
  unfold Track.detach
  refine { h with unit := ?_, off := False.elim, ctx := fun c e => by cases e }
  dsimp only
  split
  · exact h.unit
  · exact h.unit

theorem Track.updateUnit_ctx {x : Nat} {w : IWorld} {t t' : Track} (h : t.updateUnit x w = .ok t') : t'.ctx = t.ctx := by
  have s : ∀ {t t' : Track} {a : UAttr} {v : Int}, t.setUnit a v = .ok t' → t'.ctx = t.ctx := by
    intro t t' a v h
    unfold Track.setUnit at h
    obtain ⟨r, -, h⟩ := bind_ok_iff.1 h
    cases h; rfl
  have f1 : ∀ {t t' : Track}, t.flushVolume x w = .ok t' → t'.ctx = t.ctx := by
    intro t t' h
    unfold Track.flushVolume at h
    split at h
    · obtain ⟨a, ha, h⟩ := bind_ok_iff.1 h
      cases h
      dsimp only
      unfold Track.updateVolume at ha
      obtain ⟨m, -, ha⟩ := bind_ok_iff.1 ha
      split at ha
      · obtain ⟨c, -, ha⟩ := bind_ok_iff.1 ha
        obtain ⟨t1, h1, ha⟩ := bind_ok_iff.1 ha
        exact (s ha).trans (s h1)
      · exact s ha
    · cases h; rfl
  have f2 : ∀ {t t' : Track}, t.flushNote x w = .ok t' → t'.ctx = t.ctx := by
    intro t t' h
    unfold Track.flushNote at h
    split at h
    · obtain ⟨a, ha, h⟩ := bind_ok_iff.1 h
      cases h
      dsimp only
      unfold Track.updateNote at ha
      split at ha
      · cases ha; rfl
      · obtain ⟨m, -, ha⟩ := bind_ok_iff.1 ha
        split at ha
        · obtain ⟨c, -, ha⟩ := bind_ok_iff.1 ha
          obtain ⟨t1, h1, ha⟩ := bind_ok_iff.1 ha
          exact s ha
        · obtain ⟨c, -, ha⟩ := bind_ok_iff.1 ha
          obtain ⟨t1, h1, ha⟩ := bind_ok_iff.1 ha
          exact s ha
    · cases h; rfl
  have f3 : ∀ {t t' : Track}, t.flushDuty x w = .ok t' → t'.ctx = t.ctx := by
    intro t t' h
    unfold Track.flushDuty at h
    split at h
    · obtain ⟨a, ha, h⟩ := bind_ok_iff.1 h
      cases h
      unfold Track.updateDuty at ha
      have := s ha
      exact this
    · cases h; rfl
  unfold Track.updateUnit at h
  obtain ⟨a, ha, h⟩ := bind_ok_iff.1 h
  obtain ⟨b, hb, h⟩ := bind_ok_iff.1 h
  exact (f3 h).trans ((f2 hb).trans (f1 ha))

theorem Track.Inv.run {N n : Nat} {t : Track} (h : t.Inv N False) {x : Nat} {w : IWorld} (hw : w.Good n)
    {e : Int} (hl : TOp.Legal N t (.run e)) : Safe True (t.run x w e) (fun r => r.1.Inv N False) := by
  obtain ⟨l1, l2, l3⟩ := hl
  unfold Track.run
  refine ((h.updateUnit hw).and_ok (Q := fun t' => t'.ctx = t.ctx) fun t' e => Track.updateUnit_ctx e).bind ?_
  rintro a ⟨ha, hc⟩
  obtain ⟨c, hx⟩ : ∃ c, t.ctx = some c := by
    cases hx : t.ctx with
    | none => exact absurd hx l1
    | some c => exact ⟨c, rfl⟩
  have e1 : c.2.toNat = N := by have := (h.ctx c hx).2.2; omega
  rw [hx] at hc
  rw [hc]
  dsimp only
  rw [e1]
  exact (UCore.render_fine ha.unit a.unit.time l2 l3).bind fun r hr =>
    { ha with unit := hr, off := False.elim, ctx := fun c' e => by cases e; exact h.ctx c hx }

/-- Calls with usual arguments on a track. -/
theorem Track.Inv.exec {N n : Nat} {t : Track} (h : t.Inv N False) {x : Nat} {w : IWorld} (hw : w.Good n)
    {op : TOp} (hl : op.Legal N t) : Safe True (t.exec x w op) (Both (n + 1) N False) := by
  have hw' := hw.mono (Nat.le_succ n)
  have hf : Plain t.waveform := by
    obtain ⟨v, e⟩ := h.wave
    rw [e]; exact code_plain v
  unfold Track.exec
  cases op with
  | attr a v => exact (h.setAttr hw' hl).bind fun r hr => hr
  | effect e vals =>
    refine (h.setEffect e vals ?_).bind fun a ha => ⟨hw', ha⟩
    rintro rfl
    exact hl
  | arpeggio ws => exact (h.setArpeggio hl).bind fun a ha => ⟨hw', ha⟩
  | instrument i => exact h.setInstrument hw i
  | data type d => exact (h.setData hw hl).bind fun a ha => ⟨hw', ha⟩
  | range v =>
    obtain ⟨r, e, hr⟩ := UCore.setRange_total h.unit hl.1
    dsimp only
    rw [e, ok_bind]
    exact ⟨hw', { h with unit := hr (hl.2 r e) }⟩
  | sustain v =>
    obtain ⟨r, e⟩ := UCore.setSustainRange_total h.unit hl.1
    dsimp only
    rw [e, ok_bind]
    exact ⟨hw', { h with unit := UCore.setSustainRange_fine h.unit e (hl.2 r e) }⟩
  | callback b => exact ⟨hw', { h with unit := UCore.callback_fine h.unit b }⟩
  | clear => exact Track.clear_safe h.base hw' hf False.elim
  | reset => exact Track.reset_safe h.base hw' hf False.elim
  | attach rate chans delta => exact (h.attach hw hl).bind fun r hr => ⟨hw', hr⟩
  | detach => exact ⟨hw', h.detach⟩
  | tick => exact h.tick hw'
  | run e => exact (h.run hw hl).bind fun r hr => ⟨hw', hr⟩
  | endAt e => exact ⟨hw', { h with unit := h.unit }⟩

/-- All tracks and instruments. -/
structure TWorld.Inv (n N : Nat) (s : TWorld) : Prop where
  good : s.iw.Good n
  tracks : ∀ x t, s.tracks x = some t → t.Inv N False

theorem TWorld.Inv.hear {n N : Nat} {s : TWorld} (h : s.Inv n N) {w : IWorld} (hw : w.Good n) :
    Safe True (s.hear w) (TWorld.Inv n N) := by
  unfold TWorld.hear
  refine (Safe.foldlM (P := fun ts : Nat → Option Track => ∀ x t, ts x = some t → t.Inv N False) ?_ _ _ h.tracks).bind
    fun ts hts => ⟨hw, hts⟩
  intro ts e hts
  unfold TWorld.tell
  split
  · exact hts
  · rename_i t ht
    refine ((hts _ _ ht).told hw e.2).bind fun t' ht' => ?_
    intro x u hu
    unfold upd at hu
    split at hu
    · cases hu; exact ht'
    · exact hts x u hu

theorem TWorld.Inv.put {n N : Nat} {s : TWorld} (h : s.Inv n N) {m x : Nat} {r : IWorld × Track} (hr : Both m N False r) :
    TWorld.Inv m N { iw := r.1, tracks := upd s.tracks x (some r.2) } := by
  refine ⟨hr.1, fun y u hu => ?_⟩
  dsimp only at hu
  unfold upd at hu
  split at hu
  · cases hu; exact hr.2
  · exact h.tracks y u hu

theorem TWorld.Inv.exec {n N fuel : Nat} {s : TWorld} (h : s.Inv n N) (hf : n ≤ fuel) {op : WOp} (hl : op.Legal N s) :
    Safe True (s.exec fuel op) (TWorld.Inv (n + 1) N) := by
  have hup : ∀ s' : TWorld, s'.Inv n N → s'.Inv (n + 1) N := fun s' h' => ⟨h'.good.mono (Nat.le_succ n), h'.tracks⟩
  unfold TWorld.exec
  cases op with
  | init x wf =>
    dsimp only
    split
    · exact hup s h
    · exact (Track.init_safe N (h.good.mono (Nat.le_succ n)) hl).bind fun r hr => h.put hr
  | track x op =>
    dsimp only
    split
    · exact hup s h
    · rename_i t ht
      exact ((h.tracks x t ht).exec h.good (hl t ht)).bind fun r hr => h.put hr
  | setSequence i slot new =>
    exact (h.good.setSequence i slot hl.1 hl.2.1 hl.2.2 hf).bind fun r hr => (h.hear hr).mono hup
  | detachInstr i => exact (h.good.detach i hf).bind fun w hw => (h.hear hw).mono hup
  | disposeInstr i => exact (h.good.dispose i hf).bind fun w hw => (h.hear hw).mono hup

theorem TWorld.Inv.run {N fuel : Nat} : ∀ (ops : List WOp) {n : Nat} {s : TWorld}, s.Inv n N → n + ops.length ≤ fuel →
    s.LegalRun N fuel ops → Safe True (s.run fuel ops) (TWorld.Inv (n + ops.length) N)
  | [], n, s, h, _, _ => h
  | op :: ops, n, s, h, hf, hl => by
    unfold TWorld.run
    rw [List.length_cons] at hf ⊢
    refine ((h.exec (by omega) hl.1).and_ok fun s' e => hl.2 s' e).bind ?_
    rintro s' ⟨h1, h2⟩
    have := TWorld.Inv.run ops h1 (by omega) h2
    rwa [show n + 1 + ops.length = n + (ops.length + 1) by omega] at this

theorem TWorld.Inv.init (N : Nat) : ({} : TWorld).Inv 0 N := ⟨IWorld.Good.init 0, fun x t e => by cases e⟩

end BK
