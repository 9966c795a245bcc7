import Verif.Lemmas.UnitSafe
import Verif.Lemmas.Near
import Verif.Lemmas.WorldSafe
import Verif.Lemmas.TrackArp
import Verif.Props.Tone
import Verif.Props.Pitch
import Mathlib.Data.Nat.Prime.Basic
/-!
What keeps a track from faulting: its update of the unit.
-/
namespace BK

/-- A divider that counts. -/
structure DivState.Ok (d : DivState) : Prop where
  divider : 1 ≤ d.divider ∧ d.divider ≤ 2147483647
  counter : 0 ≤ d.counter ∧ d.counter ≤ 2147483647

theorem DivState.Ok.tick {d : DivState} (h : d.Ok) : ∃ r, d.tick = .ok r ∧ r.2.Ok := by
  obtain ⟨⟨h1, h2⟩, h3, h4⟩ := h
  unfold DivState.tick
  rw [i32_ok (by split <;> omega) (by split <;> omega)]
  refine ⟨_, rfl, ⟨h1, h2⟩, ?_⟩
  dsimp only
  constructor <;> split <;> omega

/-- Unit and context of a track; `Z` holds while the unit is not set up. -/
structure Track.Base (N : Nat) (Z : Prop) (t : Track) : Prop where
  unit : t.unit.toUCore.Fine N Z
  off : Z → t.ctx = none
  ctx : ∀ c, t.ctx = some c → 16000 ≤ c.1 ∧ c.1 ≤ 96000 ∧ c.2 = N

/-- Invariant of a track on which usual calls do not fault. -/
structure Track.Inv (N : Nat) (Z : Prop) (t : Track) : Prop where
  unit : t.unit.toUCore.Fine N Z
  off : Z → t.ctx = none
  ctx : ∀ c, t.ctx = some c → 16000 ≤ c.1 ∧ c.1 ≤ 96000 ∧ c.2 = N
  arpDiv : t.arpDiv.Ok
  instrDiv : t.instrDiv.Ok
  effectDiv : t.effectDiv.Ok
  volume : t.volume.Near 15 0 32767
  panning : t.panning.Near 15 (-32767) 32767
  note : t.note.Near 0 0 100663296
  tremolo : t.tremolo.Near 14 33024
  tremoloDelta : t.tremoloDelta.Near 15 0 32767
  tremoloSteps : t.tremoloSteps.Near 14 0 65536
  vibrato : t.vibrato.Near 0 545259520
  vibratoDelta : t.vibratoDelta.Near 0 (-536870912) 536870912
  vibratoSteps : t.vibratoSteps.Near 14 0 65536
  arp : t.arp.Wf
  arpDelta : Notes t.arp.delta
  arpNotes : ∀ n ∈ t.arp.notes, Notes n
  pitch : -50331648 ≤ t.pitch ∧ t.pitch ≤ 50331648
  samplePitch : -50331648 ≤ t.samplePitch ∧ t.samplePitch ≤ 50331648
  masterVolume : 0 ≤ t.masterVolume ∧ t.masterVolume ≤ 32767
  dutyCycle : 0 ≤ t.dutyCycle ∧ t.dutyCycle ≤ 15
  wave : ∃ w : Wave, t.waveform = w.code
  curNote : t.curNote = -1 ∨ (0 ≤ t.curNote ∧ t.curNote ≤ 100663296)

theorem Track.Inv.base {N : Nat} {Z : Prop} {t : Track} (h : t.Inv N Z) : t.Base N Z := ⟨h.unit, h.off, h.ctx⟩

theorem Track.Inv.chans {N : Nat} {Z : Prop} {t : Track} (h : t.Base N Z) (n : Int)
    (e : t.ctx.map (·.2) = some n) : n = N := by
  cases hc : t.ctx with
  | none => rw [hc] at e; cases e
  | some c => rw [hc] at e; cases e; exact (h.ctx c hc).2.2

theorem Plain.of {v : Int} (h0 : -2147483647 ≤ v) (h1 : v ≤ 2147483647) : Plain v :=
  ⟨⟨by omega, h1⟩, by omega⟩

/-- The track with another unit. -/
theorem Track.setUnit_keep {N : Nat} {Z : Prop} {t : Track} (h : t.unit.toUCore.Fine N Z) {a : UAttr} {v : Int}
    (hv : Plain v) (ha : t.unit.toUCore.AttrOk a v) : Safe True (t.setUnit a v) (fun t' => ∃ c : UCore, c.Fine N Z ∧
      t' = { t with unit := { t.unit with toUCore := c } }) := by
  unfold Track.setUnit
  refine (UCore.setAttr_safe h hv.1 hv.2 ha).bind ?_
  intro r hr
  exact ⟨r.2, hr, rfl⟩

theorem Track.Inv.setUnit {N : Nat} {Z : Prop} {t : Track} (h : t.Inv N Z) {a : UAttr} {v : Int}
    (hv : Plain v) (ha : t.unit.toUCore.AttrOk a v) : Safe True (t.setUnit a v) (fun t' => t'.Inv N Z) :=
  (Track.setUnit_keep h.unit hv ha).mono (by rintro t' ⟨c, hc, rfl⟩; exact { h with unit := hc })

theorem Track.Base.setUnit {N : Nat} {Z : Prop} {t : Track} (h : t.Base N Z) {a : UAttr} {v : Int}
    (hv : Plain v) (ha : t.unit.toUCore.AttrOk a v) : Safe True (t.setUnit a v) (fun t' => t'.Base N Z) :=
  (Track.setUnit_keep h.unit hv ha).mono (by rintro t' ⟨c, hc, rfl⟩; exact { h with unit := hc })

theorem scaleIf_fine {v f V : Int} (b : Bool) (h0 : 0 ≤ V) (hV : V ≤ 65535) (h1 : -V ≤ v) (h2 : v ≤ V) (h3 : -32768 ≤ f)
    (h4 : f ≤ 32768) : ∃ r, scaleIf b v f = .ok r ∧ -V ≤ r ∧ r ≤ V ∧ (0 ≤ v → 0 ≤ f → 0 ≤ r) := by
  unfold scaleIf
  cases b
  · exact ⟨v, rfl, h1, h2, fun h _ => h⟩
  · rw [if_pos rfl]
    have e1 : v * f ≤ V * 32768 := by nlinarith
    have e2 : -(V * 32768) ≤ v * f := by nlinarith
    rw [i32_ok (by omega) (by omega), ok_bind]
    refine ⟨_, rfl, by omega, by omega, fun p q => ?_⟩
    have := Int.mul_nonneg p q
    omega

theorem addIf_fine {v d : Int} (b : Bool) {lo hi : Int} (h1 : lo ≤ v) (h2 : v ≤ hi) (V : Int) (hV : 0 ≤ V)
    (hb : b = true → -V ≤ d ∧ d ≤ V) (h3 : -2147483648 ≤ lo - V) (h4 : hi + V ≤ 2147483647) :
    ∃ r, addIf b v d = .ok r ∧ lo - V ≤ r ∧ r ≤ hi + V := by
  unfold addIf
  cases b
  · exact ⟨v, rfl, by omega, by omega⟩
  · have := hb rfl
    rw [if_pos rfl]
    exact ⟨_, i32_ok (by omega) (by omega), by omega, by omega⟩

theorem Track.Inv.ownVolume {N : Nat} {Z : Prop} {t : Track} (h : t.Inv N Z) :
    ∃ v, t.ownVolume = .ok v ∧ 0 ≤ v ∧ v ≤ 33023 := by
  obtain ⟨v, e, h1, h2⟩ := h.volume.get
  unfold Track.ownVolume
  rw [e, ok_bind]
  refine ⟨_, rfl, ?_, ?_⟩ <;> split <;> omega

theorem Track.Inv.tremoloVolume {N : Nat} {Z : Prop} {t : Track} (h : t.Inv N Z) {v : Int} (h1 : -33023 ≤ v)
    (h2 : v ≤ 33023) : ∃ r, t.tremoloVolume v = .ok r ∧ -33023 ≤ r ∧ r ≤ 33023 := by
  unfold Track.tremoloVolume
  split
  · obtain ⟨x, e, h3, h4⟩ := h.tremolo.get
    have h5 : x ≤ 34048 := by omega
    obtain ⟨a, ea, h6, h7⟩ : ∃ a, cabs x = .ok a ∧ 0 ≤ a ∧ a ≤ 34048 := by
      unfold cabs
      split
      · exact ⟨-x, i32_ok (by omega) (by omega), by omega, by omega⟩
      · exact ⟨x, rfl, by omega, by omega⟩
    have ef : t.tremoloFactor = .ok (32767 - a) := by
      unfold Track.tremoloFactor
      rw [e, ok_bind, ea, ok_bind, i32_ok (by omega) (by omega)]
    rw [ef, ok_bind]
    obtain ⟨r, er, h8, h9, -⟩ := scaleIf_fine (f := 32767 - a) true (V := 33023) (by omega) (by omega) h1 h2 (by omega) (by omega)
    exact ⟨r, er, h8, h9⟩
  · exact ⟨v, rfl, h1, h2⟩

theorem Track.Inv.mix {N n : Nat} {Z : Prop} {t : Track} (h : t.Inv N Z) {x : Nat} {w : IWorld} (hw : w.Good n) :
    ∃ m, t.mix x w = .ok m ∧ 0 ≤ m.1 ∧ m.1 ≤ 32767 := by
  obtain ⟨v, e, h1, h2⟩ := h.ownVolume
  obtain ⟨p, ep, h3, h4⟩ := h.panning.get
  unfold Track.mix
  rw [e, ok_bind, ep, ok_bind]
  have k1 : ∃ r, scaleIf (w.on x && (!t.ignores || w.value x 0 == 0)) v (w.value x 0) = .ok r ∧ -33023 ≤ r ∧ r ≤ 33023 := by
    cases ho : w.on x with
    | false => exact ⟨v, by unfold scaleIf; simp, by omega, by omega⟩
    | true =>
      have hv := hw.value ho (show 0 < 3 by decide)
      have : valLimit 0 = 32768 := rfl
      obtain ⟨r, er, h5, h6, -⟩ := scaleIf_fine (v := v) (f := w.value x 0) (V := 33023)
        (true && (!t.ignores || w.value x 0 == 0)) (by omega) (by omega) (by omega) h2 (by omega) (by omega)
      exact ⟨r, er, h5, h6⟩
  obtain ⟨r, er, h5, h6⟩ := k1
  rw [er, ok_bind]
  obtain ⟨q, eq, -, -⟩ := addIf_fine (v := p) (d := w.value x 1) (w.on x) (lo := -32767) (hi := 33023) h3 (by omega) 32768 (by omega)
    (fun ho => hw.value ho (show 1 < 3 by decide)) (by omega) (by omega)
  rw [eq, ok_bind]
  obtain ⟨s, es, h7, h8⟩ := h.tremoloVolume h5 h6
  rw [es, ok_bind]
  have hc := cclamp_in (x := s) (show (0 : Int) ≤ 32767 by decide)
  have hm := h.masterVolume
  obtain ⟨u, eu, h9, h10, h11⟩ := scaleIf_fine (v := cclamp s 0 32767) (f := t.masterVolume) (V := 32767) true (by omega) (by omega)
    (by omega) hc.2 (by omega) (by omega)
  rw [eu, ok_bind]
  exact ⟨_, rfl, h11 hc.1 hm.1, h10⟩

theorem pan_fine {v p : Int} (h0 : 0 ≤ v) (h1 : v ≤ 32767) :
    ∃ c, pan v p = .ok c ∧ Plain c.1 ∧ Plain c.2 := by
  have hc := cclamp_in (x := p) (show (-32767 : Int) ≤ 32767 by decide)
  unfold pan
  dsimp only
  have key : ∀ (b : Bool) (f : Int), (b = true → -32768 ≤ f ∧ f ≤ 32768) → ∃ r, scaleIf b v f = .ok r ∧ Plain r := by
    intro b f hb
    cases b
    · exact ⟨v, rfl, Plain.of (by omega) (by omega)⟩
    · obtain ⟨r, er, h9, h10, -⟩ := scaleIf_fine (v := v) (f := f) (V := 32767) true (by omega) (by omega)
        (by omega) h1 (hb rfl).1 (hb rfl).2
      exact ⟨r, er, Plain.of (by omega) (by omega)⟩
  obtain ⟨a, ea, ha⟩ := key (decide (cclamp p (-32767) 32767 > 0)) (32767 - cclamp p (-32767) 32767)
    (fun hb => by have := of_decide_eq_true hb; omega)
  obtain ⟨b, eb, hb⟩ := key (decide (cclamp p (-32767) 32767 < 0)) (32767 + cclamp p (-32767) 32767)
    (fun hb => by have := of_decide_eq_true hb; omega)
  rw [ea, ok_bind, eb, ok_bind]
  exact ⟨_, rfl, ha, hb⟩

theorem Track.Inv.updateVolume {N n : Nat} {Z : Prop} {t : Track} (h : t.Inv N Z) {x : Nat} {w : IWorld}
    (hw : w.Good n) : Safe True (t.updateVolume x w) (fun t' => t'.Inv N Z) := by
  obtain ⟨m, e, h1, h2⟩ := h.mix (x := x) hw
  unfold Track.updateVolume
  rw [e, ok_bind]
  split
  · obtain ⟨c, ec, h3, h4⟩ := pan_fine (p := m.2) h1 h2
    rw [ec, ok_bind]
    exact (h.setUnit (a := .volumeOf 0) h3 trivial).bind fun t1 ht1 => ht1.setUnit (a := .volumeOf 1) h4 trivial
  · exact h.setUnit (Plain.of (by omega) (by omega)) trivial

theorem Track.Inv.noteSum {N n : Nat} {Z : Prop} {t : Track} (h : t.Inv N Z) {x : Nat} {w : IWorld}
    (hw : w.Good n) : ∃ s, t.noteSum x w = .ok s ∧ -1800000000 ≤ s ∧ s ≤ 1800000000 := by
  obtain ⟨v, e, h1, h2⟩ := h.note.get
  have hp := h.pitch
  unfold Track.noteSum
  rw [e, ok_bind]
  obtain ⟨a, ea, h3, h4⟩ := addIf_fine (v := v) (d := t.arp.delta) t.arpeggioOn (lo := 0) (hi := 109051904) h1 (by omega) 536870912 (by omega)
    (fun _ => h.arpDelta) (by omega) (by omega)
  rw [ea, ok_bind]
  have k : ∃ b, Track.noteSum.vib t a = .ok b ∧ -536870912 - 545259520 ≤ b ∧ b ≤ 109051904 + 536870912 + 562036736 := by
    unfold Track.noteSum.vib
    split
    · obtain ⟨d, ed, h5, h6⟩ := h.vibrato.get
      rw [ed, ok_bind]
      exact ⟨_, i32_ok (by omega) (by omega), by omega, by omega⟩
    · exact ⟨a, rfl, by omega, by omega⟩
  obtain ⟨b, eb, h5, h6⟩ := k
  rw [eb, ok_bind]
  obtain ⟨c, ec, h7, h8⟩ := addIf_fine (v := b) (d := w.value x 2) (w.on x) h5 h6 536870912 (by omega)
    (fun ho => hw.value ho (show 2 < 3 by decide)) (by omega) (by omega)
  rw [ec, ok_bind]
  exact ⟨_, i32_ok (by omega) (by omega), by omega, by omega⟩

/-- No tone period is 2^31. -/
theorem tonePeriod_ne {tone rate p : Int} (h : tonePeriodLookup tone rate = .ok p) : p ≠ 2147483648 := by
  rw [C19_period_exact] at h
  cases h
  rw [exactPeriod_eq]
  have hr : 16000 ≤ limit 16000 96000 rate ∧ limit 16000 96000 rate ≤ 96000 := by
    unfold limit; omega
  have hL := noteL_range tone
  generalize limit 16000 96000 rate = r at *
  obtain ⟨x, hx, hx1, hx2⟩ : ∃ x : Nat, noteL tone / 262144 = x ∧ 31 ≤ x ∧ x < 8016 :=
    ⟨(noteL tone / 262144).toNat, by omega, by omega, by omega⟩
  rw [hx]
  intro e
  obtain ⟨r', rfl⟩ : ∃ r' : Nat, r = r' := ⟨r.toNat, by omega⟩
  have e' : r' * x = 536870912 := by
    have : ((r' * x : Nat) : Int) = 536870912 := by push_cast; omega
    exact_mod_cast this
  obtain ⟨j, -, hj⟩ := (Nat.dvd_prime_pow Nat.prime_two).1 (show x ∣ 2 ^ 29 from ⟨r', by rw [Nat.mul_comm, e']; rfl⟩)
  have hj' : j ≤ 12 := by
    rcases Nat.lt_or_ge 12 j with hlt | hle
    · have := Nat.pow_le_pow_right (show 0 < 2 by decide) (show 13 ≤ j from hlt)
      have : (2 : Nat) ^ 13 = 8192 := rfl
      omega
    · exact hle
  have h12 := Nat.pow_le_pow_right (show 0 < 2 by decide) hj'
  have h13 : (2 : Nat) ^ 12 = 4096 := rfl
  have h14 : r' * x ≤ 96000 * 4096 := Nat.mul_le_mul (by omega) (by omega)
  omega

theorem log2Period_plain (tone : Int) : ∃ p, log2PeriodLookup tone = .ok p ∧ 0 ≤ p ∧ p ≤ 268435456 := by
  refine ⟨_, pitch_lookup_eq tone, ?_⟩
  have a := pitchL_mono (show min 0 tone ≤ tone by omega)
  have b := pitchL_mono (show tone ≤ max (96 * 1048576) tone by omega)
  have h : ∀ t t', limit 0 (96 * 1048576) t = limit 0 (96 * 1048576) t' → pitchL t = pitchL t' := by
    intro t t' h; unfold pitchL; rw [h]
  have c : pitchL (min 0 tone) = pitchL (0 * 1048576) := h _ _ (by unfold limit; omega)
  have d : pitchL (max (96 * 1048576) tone) = pitchL (96 * 1048576) := h _ _ (by unfold limit; omega)
  have e := pitchL_whole (n := 0) (by omega) (by omega)
  have f := pitchL_whole (n := 96) (by omega) (by omega)
  have g1 : 0 ≤ pitchEntry 0 / 4 * 256 := by decide
  have g2 : pitchEntry 96 / 4 * 256 / 64 ≤ 268435456 := by decide
  omega

theorem Track.Inv.updateNote {N n : Nat} {Z : Prop} {t : Track} (h : t.Inv N Z) {x : Nat} {w : IWorld}
    (hw : w.Good n) : Safe True (t.updateNote x w) (fun t' => t'.Inv N Z) := by
  unfold Track.updateNote
  split
  · exact h
  · rename_i rate k hc
    obtain ⟨s, es, h1, h2⟩ := h.noteSum (x := x) hw
    rw [es, ok_bind]
    split
    · obtain ⟨p, ep, h3, h4, h5⟩ := C19_range s rate
      have h6 := tonePeriod_ne ep
      rw [ep, ok_bind]
      have hcount : 1 ≤ t.unit.count ∧ t.unit.count ≤ 64 := by
        rcases h.unit.count with hz | hz
        · rw [h.off hz] at hc; cases hc
        · exact hz
      obtain ⟨g, eg, g1⟩ : ∃ g, cmin t.unit.count 64 = g ∧ 1 ≤ g := ⟨_, rfl, by unfold cmin; split <;> omega⟩
      have e1 : wrapU32 (wrapI32 p) = p := by
        have := h5.1; have := h5.2
        unfold wrapU32 wrapI32 ; omega
      rw [eg, e1, udiv, if_neg (by omega), ok_bind]
      have q0 : 0 ≤ p / g := Int.ediv_nonneg (by omega) (by omega)
      have q1 : p / g ≤ 4 * 96000 * 8015 := by
        have := Int.ediv_le_self (a := p) g (by omega); omega
      have q2 : p / g ≠ 2147483648 := by
        by_cases hg : g = 1
        · subst hg; rw [Int.ediv_one]; exact h6
        · have a1 := Int.ediv_mul_le p (show g ≠ 0 by omega)
          have a2 : p / g * 2 ≤ p / g * g := Int.mul_le_mul_of_nonneg_left (by omega) q0
          omega
      refine h.setUnit ?_ trivial
      generalize p / g = q at *
      unfold Plain wrapI32 InI32
      omega
    · have hp := h.samplePitch
      rw [i32_ok (by omega) (by omega), ok_bind]
      obtain ⟨p, ep, h3, h4⟩ := log2Period_plain (s + t.samplePitch)
      rw [ep, ok_bind]
      refine h.setUnit ?_ trivial
      unfold Plain wrapI32 InI32
      omega

theorem UCore.setAttr_duty (c : UCore) (v : Int) : c.setAttr .dutyCycle v = c.setAttr .dutyCycle (cclamp v 1 15) := by
  have : cclamp (cclamp v 1 15) 1 15 = cclamp v 1 15 := by
    unfold cclamp; split <;> (try split) <;> omega
  unfold UCore.setAttr
  dsimp only
  rw [this]

theorem UCore.setAttr_duty_fine {N : Nat} {Z : Prop} {c : UCore} (h : c.Fine N Z) (v : Int) :
    Safe True (c.setAttr .dutyCycle v) (fun r => r.2.Fine N Z) := by
  rw [UCore.setAttr_duty]
  have hc := cclamp_in (x := v) (show (1 : Int) ≤ 15 by decide)
  exact UCore.setAttr_safe h ⟨by omega, by omega⟩ (by omega) trivial

theorem Track.Inv.updateDuty {N : Nat} {Z : Prop} {t : Track} (h : t.Inv N Z) (x : Nat) (w : IWorld) :
    Safe True (t.updateDuty x w) (fun t' => t'.Inv N Z) := by
  unfold Track.updateDuty Track.setUnit
  exact (UCore.setAttr_duty_fine h.unit _).bind fun r hr => { h with unit := hr }

theorem Track.Inv.updateUnit {N n : Nat} {Z : Prop} {t : Track} (h : t.Inv N Z) {x : Nat} {w : IWorld}
    (hw : w.Good n) : Safe True (t.updateUnit x w) (fun t' => t'.Inv N Z) := by
  have f1 : ∀ t : Track, t.Inv N Z → Safe True (t.flushVolume x w) (fun t' => t'.Inv N Z) := by
    intro t h
    unfold Track.flushVolume
    split
    · exact (h.updateVolume hw).bind fun t' h' => { h' with }
    · exact h
  have f2 : ∀ t : Track, t.Inv N Z → Safe True (t.flushNote x w) (fun t' => t'.Inv N Z) := by
    intro t h
    unfold Track.flushNote
    split
    · exact (h.updateNote hw).bind fun t' h' => { h' with }
    · exact h
  have f3 : ∀ t : Track, t.Inv N Z → Safe True (t.flushDuty x w) (fun t' => t'.Inv N Z) := by
    intro t h
    unfold Track.flushDuty
    split
    · exact (h.updateDuty x w).bind fun t' h' => { h' with }
    · exact h
  unfold Track.updateUnit
  exact (f1 t h).bind fun a ha => (f2 a ha).bind fun b hb => f3 b hb

end BK
