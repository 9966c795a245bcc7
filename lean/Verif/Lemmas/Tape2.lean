import Verif.Lemmas.Tape
/-!
A track that holds a sample.
-/
namespace BK

variable {N : Nat}

theorem UCore.render_tape {n : Nat} {c : UCore} (hi : c.Inv) (hc : c.SInv n) (hw : c.waveform = .sample) (hlen : 2 ≤ c.length)
    (hm : c.mute = 0) (hper : c.period ≠ 0) {t0 : Int} (h0 : 0 ≤ t0) (h1 : t0 ≤ 2147483647) {e : Int} (he0 : 0 ≤ e) (he : e ≤ 2145386496) :
    ∃ t' c' qs m τ, c.render t0 e n = .ok (t', c', qs) ∧ c.Spun n c' qs t0 τ e m ∧ (c'.mute = 0 → t' = τ) := by
  have hs := hc.1.sample hw
  have hspan := hs.span
  have hl := hs.len
  have hwt : wrapI32 t0 = t0 := by unfold wrapI32; omega
  obtain ⟨τ, c', qs, m, r1, r2⟩ := UCore.sampleLoop_tape (n := n) he 4097 (t := t0) (Playing.of hi hc hw hlen) hw hm h0 (by unfold InI32; omega)
    (adequate_4097 (by omega) (by unfold InI32; omega))
  refine ⟨if wrapU32 τ < e then e else wrapU32 τ, c', qs, m, τ, ?_, r2, fun hg => ?_⟩
  · unfold UCore.render UCore.runAny
    rw [if_neg hper, hw]
    dsimp only
    unfold UCore.runSample
    have e1 : wrapI32 c.stop = c.stop := by unfold wrapI32; omega
    have e2 : wrapI32 c.offset = c.offset := by unfold wrapI32; omega
    have e3 : cabs (c.stop - c.offset) = .ok c.length := by
      unfold cabs
      split
      · rw [i32_ok (by omega) (by omega)]
        congr 1
        omega
      · congr 1
        omega
    rw [if_neg (by omega), e1, e2, i32_ok (by omega) (by omega), ok_bind, e3, ok_bind, if_neg (by omega), hwt, r1]
    rfl
  · obtain ⟨a1, a2, -, -⟩ := r2.going hg
    have hb : τ ≤ 2147483647 + 1048576 := by
      cases m with
      | zero => rw [a1]; push_cast; omega
      | succ m =>
        have := (r2.early m (by omega)).1
        rw [a1]
        push_cast
        omega
    have : wrapU32 τ = τ := by unfold wrapU32; omega
    rw [this, if_neg (by omega)]

theorem UCore.render_muted {n : Nat} {c : UCore} (hw : c.waveform = .sample) (hm : c.mute ≠ 0) (hper : c.period ≠ 0) (t0 e : Int) :
    c.render t0 e n = .ok (e, c, []) := by
  unfold UCore.render UCore.runAny
  rw [if_neg hper, hw]
  dsimp only
  unfold UCore.runSample
  rw [if_pos hm]
  show Except.ok (if e < e then e else e, c, []) = _
  rw [if_neg (by omega)]

/-- A sample that has ended is silent. -/
theorem Track.Inv.held_muted {x : Nat} {w : IWorld} : ∀ (ds : List Int) (T : Int) {t : Track}, t.Inv N False → t.ctx ≠ none → t.Clean →
    t.unit.waveform = .sample → t.unit.mute ≠ 0 → t.unit.period ≠ 0 → ∀ {r}, t.hold x w T ds = .ok r → r.2 = []
  | [], _, t, _, _, _, _, _, _, r, hr => by cases hr; rfl
  | d :: ds, T, t, h, hc, hcl, hw, hm, hper, r, hr => by
    obtain ⟨c, hcc⟩ : ∃ c, t.ctx = some c := by
      cases e : t.ctx with
      | none => exact absurd e hc
      | some c => exact ⟨c, rfl⟩
    have hn := (h.ctx c hcc).2.2
    have hr1 := Track.run_ok (hcl.updateUnit x w) hcc hn (UCore.render_muted (n := N) hw hm hper t.unit.time d)
    unfold Track.hold at hr
    rw [hr1, ok_bind] at hr
    obtain ⟨r', hq, hr⟩ := bind_ok_iff.1 hr
    cases hr
    have ih := Track.Inv.held_muted (x := x) (w := w) ds (T + d)
      (t := Track.sooner d { t with unit := { toUCore := t.unit.toUCore, time := d } }) { h with unit := h.unit } hc hcl hw hm hper hq
    dsimp only
    rw [ih]
    rfl

theorem Tape.step_later (T : Tape) (h0 : Head) (lev : Head → Int) (last : Int) (i : Nat) (t D : Int) (k : Nat) :
    (T.step h0 lev last i t k).map (Pulse.later D) = T.step h0 lev last i (D + t) k := by
  unfold Tape.step
  rw [Option.map_map]
  congr 1
  funext h
  show Pulse.later D _ = _
  unfold Pulse.later
  dsimp only
  congr 1
  omega

theorem Tape.step_none {T : Tape} {h0 : Head} {m k : Nat} (h : T.at h0 m = none) (hk : m ≤ k) (lev : Head → Int) (last : Int) (i : Nat) (t : Int) :
    T.step h0 lev last i t k = none := by
  unfold Tape.step
  rw [show k = m + (k - m) by omega, Tape.at_add, h]
  rfl

/-- A held sample is played from the tape. -/
theorem Track.Inv.held_tape {x : Nat} {w : IWorld} {i : Nat} (hi : i < N) :
    ∀ (ds : List Int) (T : Int) {t : Track}, t.Inv N False → t.ctx ≠ none → t.Clean →
    t.unit.waveform = .sample → t.unit.mute = 0 → t.unit.period ≠ 0 → 2 ≤ t.unit.length →
    0 ≤ t.unit.time → t.unit.time ≤ 2147483647 → (∀ d ∈ ds, 0 ≤ d ∧ d ≤ 1073741824) → ∀ {r}, t.hold x w T ds = .ok r →
    ∀ k : Nat, (onChan i r.2)[k]? = if t.unit.time + k * U20 < ds.sum then
      t.unit.tape.step t.unit.head (t.unit.levAt i) (t.unit.lastPulse i) i (T + t.unit.time) k else none
  | [], _, t, _, _, _, _, _, _, _, h0, _, _, r, hr, k => by
    cases hr
    rw [List.sum_nil, if_neg (by omega)]
    rfl
  | d :: ds, T, t, h, hc, hcl, hw, hm, hper, hlen, h0, h1, hd, r, hr, k => by
    obtain ⟨c, hcc⟩ : ∃ c, t.ctx = some c := by
      cases e : t.ctx with
      | none => exact absurd e hc
      | some c => exact ⟨c, rfl⟩
    have hn := (h.ctx c hcc).2.2
    have hd0 := hd d List.mem_cons_self
    have hs : 0 ≤ ds.sum := sum_nonneg_int ds fun d' h' => (hd d' (List.mem_cons_of_mem _ h')).1
    obtain ⟨τ1, c1, p1, m, τ, a1, a2, a3⟩ := UCore.render_tape (n := N) h.unit.inv h.unit.sinv hw hlen hm hper h0 h1 hd0.1 (e := d) (by omega)
    have huse : t.unit.toUCore.Usable N := ⟨h.unit.inv, h.unit.sinv⟩
    obtain ⟨_, _, _, b1, -, b3, b4, -, -⟩ := huse.render (t0 := t.unit.time) (e := d) (by omega) (by omega) hd0.1 (by omega)
    rw [a1] at b1
    cases b1
    have hfine : c1.Fine N False := by
      obtain ⟨r, e1, e2⟩ := (UCore.render_fine h.unit t.unit.time hd0.1 (by omega)).get trivial
      rw [a1] at e1
      cases e1
      exact e2
    have hr1 := Track.run_ok (hcl.updateUnit x w) hcc hn a1
    unfold Track.hold at hr
    rw [hr1, ok_bind] at hr
    obtain ⟨r', hq, hr⟩ := bind_ok_iff.1 hr
    cases hr
    have hw1 : c1.waveform = .sample := a2.same.setup.waveform.trans hw
    have hper1 : c1.period ≠ 0 := by rw [a2.same.setup.period]; exact hper
    dsimp only
    rw [onChan_append, onChan_later, List.sum_cons]
    have hl1 : ((onChan i p1).map (Pulse.later T)).length = m := by rw [List.length_map, a2.len i hi]
    by_cases hk : k < m
    · rw [List.getElem?_append_left (by omega), List.getElem?_map, a2.steps i hi k hk, Tape.step_later, if_pos]
      have := (a2.early k hk).1
      omega
    · rw [List.getElem?_append_right (by omega), hl1]
      by_cases hm1 : c1.mute = 0
      · obtain ⟨g1, g2, g3, g4⟩ := a2.going hm1
        have e3 := a3 hm1
        have ih := Track.Inv.held_tape (x := x) (w := w) hi ds (T + d)
          (t := Track.sooner d { t with unit := { toUCore := c1, time := τ1 } }) { h with unit := hfine } hc hcl hw1 hm1 hper1
          (by show 2 ≤ c1.length; rw [a2.same.length]; exact hlen)
          (by unfold Track.sooner; dsimp only; omega) (by unfold Track.sooner; dsimp only; omega)
          (fun d' h' => hd d' (List.mem_cons_of_mem _ h')) hq (k - m)
        rw [ih]
        have e1 : (Track.sooner d { t with unit := { toUCore := c1, time := τ1 } }).unit.time = τ1 - d := rfl
        have e2 : (Track.sooner d { t with unit := { toUCore := c1, time := τ1 } }).unit.toUCore = c1 := rfl
        rw [e1, e2, a2.same.tape, a2.same.lev, e3, g1,
          show T + d + (t.unit.time + m * U20 - d) = T + t.unit.time + m * U20 by omega, Tape.step_shift g3 (g4 i hi),
          show m + (k - m) = k by omega]
        congr 1
        rw [eq_iff_iff]
        constructor <;> intro <;> omega
      · have ih := Track.Inv.held_muted (x := x) (w := w) ds (T + d)
          (t := Track.sooner d { t with unit := { toUCore := c1, time := τ1 } }) { h with unit := hfine } hc hcl hw1 hm1 hper1 hq
        rw [ih, Tape.step_none (a2.ended hm1) (by omega)]
        split <;> rfl

/-! What an update of the unit leaves alone. -/

structure UCore.SameTape (c c' : UCore) : Prop where
  waveform : c'.waveform = c.waveform
  pos : c'.pos = c.pos
  tape : c'.tape = c.tape
  numChannels : c'.numChannels = c.numChannels
  sign : c'.samplePeriod < 0 ↔ c.samplePeriod < 0

theorem UCore.SameTape.refl (c : UCore) : c.SameTape c := ⟨rfl, rfl, rfl, rfl, .rfl⟩

theorem UCore.SameTape.trans {a b c : UCore} (h : a.SameTape b) (h' : b.SameTape c) : a.SameTape c :=
  ⟨h'.waveform.trans h.waveform, h'.pos.trans h.pos, h'.tape.trans h.tape, h'.numChannels.trans h.numChannels, h'.sign.trans h.sign⟩

theorem UCore.setAttr_tape {c : UCore} {a : UAttr} {v : Int} {r : Ret × UCore} (ha : a.voice = true)
    (hw : c.waveform = .sample) (h : c.setAttr a v = .ok r) : c.SameTape r.2 := by
  unfold UCore.setAttr at h
  cases a <;> first | (cases ha; done) | skip
  all_goals dsimp only at h
  case dutyCycle =>
    rw [hw] at h
    split at h <;> cases h
    · refine ⟨hw.symm, ?_, rfl, rfl, .rfl⟩
      unfold UCore.pos
      dsimp only
      rw [if_neg (fun k => nomatch k.1)]
    · exact .refl c
  case period =>
    obtain ⟨z, -, h⟩ := bind_ok_iff.1 h
    cases h; exact ⟨rfl, rfl, rfl, rfl, .rfl⟩
  case samplePeriod =>
    obtain ⟨z, -, h⟩ := bind_ok_iff.1 h
    cases h
    refine ⟨rfl, rfl, rfl, rfl, ?_⟩
    dsimp only
    unfold cclamp
    split <;> split <;> (try split) <;> omega
  all_goals (cases h; exact ⟨rfl, rfl, rfl, rfl, .rfl⟩)

theorem Track.setUnit_tape {t t' : Track} {a : UAttr} {v : Int} (ha : a.voice = true) (hw : t.unit.waveform = .sample) (h : t.setUnit a v = .ok t') :
    t.unit.toUCore.SameTape t'.unit.toUCore := by
  obtain ⟨r, hr, rfl⟩ := Track.setUnit_eq h
  exact UCore.setAttr_tape ha hw hr

theorem Track.updateUnit_tape {x : Nat} {w : IWorld} {t t' : Track} (hw : t.unit.waveform = .sample) (h : t.updateUnit x w = .ok t') :
    t.unit.toUCore.SameTape t'.unit.toUCore := by
  unfold Track.updateUnit at h
  obtain ⟨a, ha, h⟩ := bind_ok_iff.1 h
  obtain ⟨b, hb, h⟩ := bind_ok_iff.1 h
  have h1 : t.unit.toUCore.SameTape a.unit.toUCore := by
    unfold Track.flushVolume at ha
    split at ha
    · obtain ⟨u, hu, ha⟩ := bind_ok_iff.1 ha
      cases ha
      unfold Track.updateVolume at hu
      obtain ⟨m, -, hu⟩ := bind_ok_iff.1 hu
      split at hu
      · obtain ⟨c, -, hu⟩ := bind_ok_iff.1 hu
        obtain ⟨t1, h1, hu⟩ := bind_ok_iff.1 hu
        have k1 := Track.setUnit_tape rfl hw h1
        exact k1.trans (Track.setUnit_tape (t' := u) rfl (k1.waveform.trans hw) hu)
      · exact Track.setUnit_tape (t' := u) rfl hw hu
    · cases ha; exact .refl _
  have hwa := h1.waveform.trans hw
  have h2 : a.unit.toUCore.SameTape b.unit.toUCore := by
    unfold Track.flushNote at hb
    split at hb
    · obtain ⟨u, hu, hb⟩ := bind_ok_iff.1 hb
      cases hb
      unfold Track.updateNote at hu
      split at hu
      · cases hu; exact .refl _
      · obtain ⟨n, -, hu⟩ := bind_ok_iff.1 hu
        split at hu
        · obtain ⟨p, -, hu⟩ := bind_ok_iff.1 hu
          obtain ⟨q, -, hu⟩ := bind_ok_iff.1 hu
          exact Track.setUnit_tape (t' := u) rfl hwa hu
        · obtain ⟨p, -, hu⟩ := bind_ok_iff.1 hu
          obtain ⟨q, -, hu⟩ := bind_ok_iff.1 hu
          exact Track.setUnit_tape (t' := u) rfl hwa hu
    · cases hb; exact .refl _
  have hwb := h2.waveform.trans hwa
  have h3 : b.unit.toUCore.SameTape t'.unit.toUCore := by
    unfold Track.flushDuty at h
    split at h
    · obtain ⟨u, hu, h⟩ := bind_ok_iff.1 h
      cases h
      exact Track.setUnit_tape (t' := u) rfl hwb hu
    · cases h; exact .refl _
  exact (h1.trans h2).trans h3

theorem Track.setUnit_period {t t' : Track} {a : UAttr} {v : Int} (ha : a.voice = true) (hp : a ≠ .period) (h : t.setUnit a v = .ok t') :
    t'.unit.period = t.unit.period := by
  obtain ⟨r, hr, rfl⟩ := Track.setUnit_eq h
  dsimp only
  unfold UCore.setAttr at hr
  cases a <;> first | (cases ha; done) | (exact absurd rfl hp) | skip
  all_goals dsimp only at hr
  case dutyCycle => split at hr <;> cases hr <;> rfl
  case samplePeriod =>
    obtain ⟨z, -, hr⟩ := bind_ok_iff.1 hr
    cases hr; rfl
  all_goals (cases hr; rfl)

/-- A track that plays a sample does not set the period. -/
theorem Track.updateUnit_period {x : Nat} {w : IWorld} {t t' : Track} (hw : t.waveform = 16391) (h : t.updateUnit x w = .ok t') :
    t'.unit.period = t.unit.period := by
  unfold Track.updateUnit at h
  obtain ⟨a, ha, h⟩ := bind_ok_iff.1 h
  obtain ⟨b, hb, h⟩ := bind_ok_iff.1 h
  have h1 : a.unit.period = t.unit.period ∧ a.waveform = t.waveform := by
    unfold Track.flushVolume at ha
    split at ha
    · obtain ⟨u, hu, ha⟩ := bind_ok_iff.1 ha
      cases ha
      unfold Track.updateVolume at hu
      obtain ⟨m, -, hu⟩ := bind_ok_iff.1 hu
      split at hu
      · obtain ⟨c, -, hu⟩ := bind_ok_iff.1 hu
        obtain ⟨t1, h1, hu⟩ := bind_ok_iff.1 hu
        exact ⟨(Track.setUnit_period (t' := u) rfl (by intro e; cases e) hu).trans (Track.setUnit_period rfl (by intro e; cases e) h1),
          ((Track.setUnit_same h1).trans (Track.setUnit_same (t' := u) hu)).waveform⟩
      · exact ⟨Track.setUnit_period (t' := u) rfl (by intro e; cases e) hu, (Track.setUnit_same (t' := u) hu).waveform⟩
    · cases ha; exact ⟨rfl, rfl⟩
  have h2 : b.unit.period = a.unit.period := by
    unfold Track.flushNote at hb
    split at hb
    · obtain ⟨u, hu, hb⟩ := bind_ok_iff.1 hb
      cases hb
      unfold Track.updateNote at hu
      split at hu
      · cases hu; rfl
      · obtain ⟨n, -, hu⟩ := bind_ok_iff.1 hu
        rw [if_neg (by rw [h1.2, hw]; exact fun k => k rfl)] at hu
        obtain ⟨p, -, hu⟩ := bind_ok_iff.1 hu
        obtain ⟨q, -, hu⟩ := bind_ok_iff.1 hu
        exact Track.setUnit_period (t' := u) rfl (by intro e; cases e) hu
    · cases hb; rfl
  have h3 : t'.unit.period = b.unit.period := by
    unfold Track.flushDuty at h
    split at h
    · obtain ⟨u, hu, h⟩ := bind_ok_iff.1 h
      cases h
      exact Track.setUnit_period (t' := u) rfl (by intro e; cases e) hu
    · cases h; rfl
  rw [h3, h2, h1.1]

end BK
