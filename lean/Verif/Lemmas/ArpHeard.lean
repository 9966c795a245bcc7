import Verif.Spec.ArpHeard
import Verif.Lemmas.AllFx2
import Verif.Props.TrackArp
import Verif.Props.Note
/-!
Arpeggios set on tracks.
-/
namespace BK

/-- The calls that start an arpeggio. -/
theorem Track.arpCalls_ok {N : Nat} {x : Nat} {w : IWorld} {t : Track} (hi : t.Inv N False) (hwf : t.arp.Wf) {d : Nat} (hd : 1 ≤ d)
    (hd2 : d ≤ 2147483647) {ns : List Int} (h1 : 1 ≤ ns.length) (h8 : ns.length ≤ 8) (hns : ∀ n ∈ ns, Notes n) :
    ∃ a, Track.calls x (arpCalls d ns) (w, t) = .ok (w, { t with arpDiv := ⟨d, 0⟩, arp := a, arpeggioOn := true, updNote := true }) ∧
      ({ t with arpDiv := ⟨d, 0⟩, arp := a, arpeggioOn := true, updNote := true } : Track).Inv N False ∧
      a.Wf ∧ a.offset = 0 ∧ a.count = ns.length ∧ a.notes.take ns.length = ns := by
  have i0 : ({ t with arpDiv := ⟨d, 0⟩ } : Track).Inv N False :=
    { hi with arpDiv := ⟨⟨by dsimp only; omega, by dsimp only; omega⟩, show (0 : Int) ≤ 0 ∧ (0 : Int) ≤ 2147483647 by decide⟩ }
  obtain ⟨t1, e1, i1⟩ := (i0.setArpeggio (ws := [1, 0]) ⟨by decide, by decide, fun n hn => by
    rw [List.mem_singleton] at hn; subst hn; unfold Notes; decide⟩).get trivial
  have hmin : cmin (ns.length : Int) 8 = ns.length := by unfold cmin; split <;> omega
  obtain ⟨t2, e2, i2⟩ := (i1.setArpeggio (ws := (ns.length : Int) :: ns) ⟨by omega, by rw [hmin], hns⟩).get trivial
  have hc : Track.calls x (arpCalls d ns) (w, t) = .ok (w, t2) := by
    unfold arpCalls
    simp only [Track.calls, Track.exec, Track.setAttr, ok_bind, pure_eq_ok]
    rw [e1, ok_bind, ok_bind]
    dsimp only
    rw [e2, ok_bind, ok_bind]
  unfold Track.setArpeggio at e1 e2
  obtain ⟨b, hb, e1⟩ := bind_ok_iff.1 e1
  cases e1
  obtain ⟨c, hcc, e2⟩ := bind_ok_iff.1 e2
  cases e2
  have wb : b.Wf := Arp.Wf.set (by exact hwf) hb
  have wc : c.Wf := Arp.Wf.set (by exact wb) hcc
  have bo : b.offset = 0 ∧ b.count = 1 := by
    unfold Arp.set at hb
    dsimp only at hb
    rw [if_neg (by decide)] at hb
    cases hb
    have := hwf.offset.1
    refine ⟨?_, rfl⟩
    show (if t.arp.offset ≥ cmin 1 8 then 0 else t.arp.offset) = 0
    have hm : cmin 1 8 = 1 := by decide
    rw [hm]
    split <;> omega
  have hb8 := wb.len
  have co : c.offset = 0 ∧ c.count = ns.length ∧ c.notes.take ns.length = ns := by
    unfold Arp.set at hcc
    dsimp only at hcc
    rw [hmin, if_neg (by omega)] at hcc
    cases hcc
    refine ⟨?_, rfl, ?_⟩
    · show (if b.offset ≥ (ns.length : Int) then 0 else b.offset) = 0
      rw [bo.1, if_neg (by omega)]
    · show (ns.take (ns.length : Int).toNat ++ b.notes.drop (ns.length : Int).toNat).take ns.length = ns
      rw [Int.toNat_natCast, List.take_length, List.take_append_of_le_length (by omega), List.take_length]
  have hcd : decide (c.count > 0) = true := by rw [decide_eq_true_eq]; omega
  rw [hcd] at hc i2
  exact ⟨c, hc, i2, wc, co⟩

theorem Track.calls_arp {x : Nat} : ∀ (ops : List TOp) {s s' : IWorld × Track}, s.2.ArpInv → Track.calls x ops s = .ok s' → s'.2.ArpInv
  | [], s, s', hi, h => by cases h; exact hi
  | op :: ops, s, s', hi, h => by
    unfold Track.calls at h
    obtain ⟨s1, h1, h⟩ := bind_ok_iff.1 h
    exact Track.calls_arp ops (Track.exec_arp hi h1) h

/-- The interval after some ticks. -/
theorem Track.ticks_arp {x : Nat} {w : IWorld} {t : Track} {d : Nat} (hd : 1 ≤ d) (hd2 : d ≤ 2147483647) (ht : t.arpDiv = ⟨d, 0⟩)
    (hon : t.arpeggioOn = true) {ns : List Int} (h1 : 1 ≤ ns.length) (hw : t.arp.Wf) (ho : t.arp.offset = 0) (hc : t.arp.count = ns.length)
    (hn : t.arp.notes.take ns.length = ns) {k : Nat} {s : IWorld × Track} (h : Track.ticks x (k + 1) (w, t) = .ok s) :
    s.2.arp.delta = intervalAt d ns k := by
  have hf : firings d 0 (k + 1) = k / d + 1 := by
    unfold firings
    rw [show k + 1 + (d - 1) - 0 = k + d by omega, Nat.add_div_right _ (by omega)]
  have := C53_arpeggio_partial x (k + 1) d 0 (by omega) hd2 w t s ht hon h
  rw [Arp.times_tick hw (by omega), hf] at this
  have := congrArg Arp.delta (Except.ok.inj this)
  rw [← this]
  show (if k / d + 1 = 0 then t.arp.delta else (t.arp.notes.take t.arp.count.toNat).getD ((t.arp.offset.toNat + (k / d + 1 - 1)) % t.arp.count.toNat) 0) = _
  rw [if_neg (Nat.succ_ne_zero _), hc, ho, Int.toNat_natCast, hn]
  unfold intervalAt
  rw [show (0 : Int).toNat = 0 from rfl, Nat.zero_add, Nat.add_sub_cancel]

/-- Without portamento the note stays; no update is left pending. -/
theorem Track.ticks_note {x : Nat} {w : IWorld} (hon : w.on x = false) : ∀ (n : Nat) {t : Track} {s : IWorld × Track}, t.portamento = false →
    Track.ticks x n (w, t) = .ok s → s.1 = w ∧ s.2.note = t.note ∧ s.2.portamento = false ∧ (n ≠ 0 → s.2.updNote = false)
  | 0, t, s, hp, h => by
    cases h
    exact ⟨rfl, rfl, hp, fun h => absurd rfl h⟩
  | n + 1, t, s, hp, h => by
    unfold Track.ticks times at h
    obtain ⟨a, ha, h⟩ := bind_ok_iff.1 h
    obtain ⟨i1, i2, i3, -⟩ := Track.ticks_note hon n hp ha
    rw [i1] at h
    obtain ⟨t1, r, t2, g1, gr, g2, g3, e⟩ := Track.tick_stages h
    obtain ⟨a', d, m, rfl⟩ := Track.arpeggioTick_same g1
    obtain ⟨d', -, -, -, hno⟩ := Track.instrTick_same gr
    obtain ⟨rfl, -⟩ := hno hon
    dsimp only at g2 e
    obtain ⟨sb, sn⟩ := Track.updateUnit_same g2
    have hcl := (Track.updateUnit_clean g2).2.1
    have hps2 : t2.portamento = false := sb.portamento.trans i3
    have hnote : s.2.note = t2.note := by
      unfold Track.effectsTick at g3
      split at g3
      · obtain ⟨q, -, g3⟩ := bind_ok_iff.1 g3
        dsimp only at g3
        split at g3
        · unfold Track.effectTick at g3
          dsimp only at g3
          rw [hps2] at g3
          obtain ⟨y1, hy1, g3⟩ := bind_ok_iff.1 g3
          obtain ⟨y2, -, g3⟩ := bind_ok_iff.1 g3
          obtain ⟨y3, hy3, g3⟩ := bind_ok_iff.1 g3
          obtain ⟨y4, -, g3⟩ := bind_ok_iff.1 g3
          obtain ⟨y5, -, g3⟩ := bind_ok_iff.1 g3
          have g3 := Except.ok.inj g3
          cases hy1
          rw [← g3]
        · have g3 := Except.ok.inj g3
          rw [← g3]
      · have g3 := Except.ok.inj g3
        rw [← g3]
    refine ⟨e, ?_, ?_, fun _ => ?_⟩
    · rw [hnote, ← i2]; exact sn.note
    all_goals obtain ⟨b1, b2, b3, b4, b5, b6, b7, b8, b9, b10, g3⟩ := Track.effectsTick_same g3
    · rw [g3]; exact hps2
    · rw [g3]; exact hcl

/-- What is set stays up to date. -/
theorem Track.ticks_ok {m : Nat} {x : Nat} {w : IWorld} (hg : w.Good m) (hon : w.on x = false) : ∀ (n : Nat) {t : Track} {s : IWorld × Track},
    t.Ok x w .note → Track.ticks x n (w, t) = .ok s → s.2.Ok x w .note
  | 0, t, s, hp, h => by
    cases h
    exact hp
  | n + 1, t, s, hp, h => by
    have h0 := h
    unfold Track.ticks times at h
    obtain ⟨a, ha, h⟩ := bind_ok_iff.1 h
    have i := Track.ticks_ok hg hon n hp ha
    rw [(Track.ticks_keep hon n ha).1] at h
    have := Track.Ok.exec (op := .tick) (hg.pointed x) (Or.inr ⟨i, rfl⟩) h
    rw [(Track.ticks_keep hon (n + 1) h0).1] at this
    exact this

/-- The period of a track whose note is up to date. -/
theorem Track.NoteNow.period {N : Nat} {x : Nat} {w : IWorld} {t : Track} (h : t.NoteNow x w) (hi : t.Inv N False) (hv : t.vibratoOn = false)
    {rate chans : Int} (hc : t.ctx = some (rate, chans)) {cnt : Nat} (hw : t.unit.waveform.phases = some cnt) (hwt : t.waveform ≠ 16391)
    {note : Int} (hn : t.note.get = .ok note) :
    t.getAttr (.unit .period) = .ok (some (exactPeriod (t.pitchSet x w note) rate / cnt)) := by
  have hph := hi.unit.inv.phase
  have hcnt : t.unit.count = cnt ∧ 7 ≤ cnt ∧ cnt ≤ 64 := by
    unfold PhaseInv at hph
    unfold Wave.phases at hw
    cases hwv : t.unit.waveform <;> rw [hwv] at hw hph <;> dsimp only at hw hph <;> cases hw <;>
      exact ⟨hph.2, by omega, by omega⟩
  obtain ⟨n, h1, h2, -⟩ := h rate chans hc
  obtain ⟨p, q, v, q1, q2, q3, q4⟩ := h2 hwt
  have e := Track.noteSum_pitch hv hn h1
  subst e
  rw [hcnt.1] at q2
  obtain ⟨k1, k2⟩ := tone_period q1 (by omega) (by omega) (by omega) q2 q3
  have hex : exactPeriod (t.pitchSet x w note) rate / cnt ≤ 2147483647 := by
    obtain ⟨p, e1, e2, e3, e4⟩ := C19_range (t.pitchSet x w note) rate
    rw [C19_period_exact] at e1
    cases e1
    generalize exactPeriod (t.pitchSet x w note) rate = P at *
    have hh : P / cnt ≤ P / 7 := by
      rw [Int.le_ediv_iff_mul_le (by omega)]
      have q1 := Int.ediv_mul_le P (b := (cnt : Int)) (by omega)
      have q2 : 0 ≤ P / cnt := Int.ediv_nonneg (by omega) (by omega)
      have l0 : P / cnt * 7 ≤ P / cnt * cnt := Int.mul_le_mul_of_nonneg_left (by omega) q2
      omega
    omega
  show Except.ok (some (wrapI32 t.unit.period)) = _
  rw [q4, k1]
  refine congrArg (fun z => Except.ok (some z)) ?_
  unfold wrapI32
  omega

end BK
