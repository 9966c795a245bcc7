import Verif.Lemmas.SampleOps
/-!
Dividing the playback of a sample, and playing it once.
-/
namespace BK

theorem UCore.sampleStep_mute {c : UCore} {cb : Bool} {t : Int} {n : Nat} {r : Bool × UCore × List Pulse}
    (h : c.sampleStep cb t n = .ok r) :
    (r.1 = true → r.2.1.mute = 1) ∧ (r.1 = false → r.2.1.mute = c.mute) := by
  unfold UCore.sampleStep at h
  obtain ⟨x, hx, h⟩ := bind_ok_iff.1 h
  obtain ⟨y, hy, h⟩ := bind_ok_iff.1 h
  obtain ⟨⟨zb, z⟩, hz, h⟩ := bind_ok_iff.1 h
  have h1 : x.1.mute = c.mute := by
    refine foldlM_inv (P := fun st : UCore × List Pulse => st.1.mute = c.mute) ?_ _ rfl hx
    intro st i st' hst hs
    unfold UCore.sampleChan at hs
    obtain ⟨p, -, hs⟩ := bind_ok_iff.1 hs
    obtain ⟨p, -, hs⟩ := bind_ok_iff.1 hs
    obtain ⟨p, -, hs⟩ := bind_ok_iff.1 hs
    obtain ⟨p, -, hs⟩ := bind_ok_iff.1 hs
    cases hs
    exact hst
  have h2 : y.mute = c.mute := by
    unfold UCore.advance at hy
    obtain ⟨p, -, hy⟩ := bind_ok_iff.1 hy
    obtain ⟨p, -, hy⟩ := bind_ok_iff.1 hy
    cases hy
    exact h1
  have h3 : (zb = true → z.mute = 1) ∧ (zb = false → z.mute = c.mute) := by
    unfold UCore.checkRange at hz
    split at hz
    · unfold UCore.resetSample at hz
      obtain ⟨w, -, hz⟩ := bind_ok_iff.1 hz
      split at hz
      · cases hz; exact ⟨fun _ => rfl, fun h => by cases h⟩
      · obtain ⟨q, -, hz⟩ := bind_ok_iff.1 hz
        cases hz
        exact ⟨fun h => (by cases h), fun _ => h2⟩
    · cases hz; exact ⟨fun h => (by cases h), fun _ => h2⟩
  cases zb with
  | true => cases h; exact ⟨fun _ => h3.1 rfl, fun h => by cases h⟩
  | false =>
    rw [if_neg (by simp)] at h
    obtain ⟨v, hv, h⟩ := bind_ok_iff.1 h
    cases h
    refine ⟨fun h => (by cases h), fun _ => ?_⟩
    have h4 : v.mute = z.mute := by
      unfold UCore.checkSustain UCore.sustain at hv
      split at hv
      · split at hv <;> split at hv <;> (cases hv; rfl)
      · cases hv; rfl
    exact h4.trans (h3.2 rfl)

/-- So many passes suffice. -/
def Adequate (e t : Int) (k : Nat) : Prop := wrapU32 t ≥ e ∨ (0 ≤ t ∧ e ≤ t + k * U20)

theorem UCore.sampleLoop_done {cb : Bool} {e t : Int} {n : Nat} (h : wrapU32 t ≥ e) (k : Nat) (c : UCore) :
    UCore.sampleLoop cb e n k t c = .ok (t, c, []) := by
  cases k with
  | zero => rfl
  | succ k => unfold UCore.sampleLoop; rw [if_neg (by omega)]

theorem Adequate.zero {e t : Int} (h : Adequate e t 0) (ht : InI32 t) : wrapU32 t ≥ e := by
  unfold Adequate at h
  unfold InI32 at ht
  rcases h with h | h
  · exact h
  · unfold wrapU32; omega

theorem Adequate.next {e t : Int} {k : Nat} (h : Adequate e t (k + 1)) (ht : InI32 t) (hlt : wrapU32 t < e) :
    Adequate e (t + U20) k := by
  unfold Adequate at *
  unfold InI32 at ht
  rcases h with h | h
  · omega
  · right
    push_cast at h
    omega

theorem UCore.sampleLoop_fuel {cb : Bool} {e : Int} {n : Nat} : ∀ (k k' : Nat) {t : Int} {c : UCore},
    InI32 t → Adequate e t k → Adequate e t k' →
    UCore.sampleLoop cb e n k t c = UCore.sampleLoop cb e n k' t c
  | 0, k', t, c, ht, h, h' => by
    rw [UCore.sampleLoop_done (h.zero ht), UCore.sampleLoop_done (h.zero ht)]
  | k + 1, 0, t, c, ht, h, h' => by
    rw [UCore.sampleLoop_done (h'.zero ht), UCore.sampleLoop_done (h'.zero ht)]
  | k + 1, k' + 1, t, c, ht, h, h' => by
    by_cases hlt : wrapU32 t < e
    · unfold UCore.sampleLoop
      rw [if_pos hlt, if_pos hlt]
      refine bind_congr_C fun r => ?_
      split
      · rfl
      · cases hi : i32 (t + U20) with
        | error f => rfl
        | ok t' =>
          obtain ⟨h1, rfl⟩ := i32_eq_ok_iff.1 hi
          rw [ok_bind, ok_bind, UCore.sampleLoop_fuel k k' h1 (h.next ht hlt) (h'.next ht hlt)]
    · rw [UCore.sampleLoop_done (by omega), UCore.sampleLoop_done (by omega)]

theorem UCore.sampleLoop_split {cb : Bool} {e1 e2 : Int} {n : Nat} (he : e1 ≤ e2) :
    ∀ (k : Nat) {t t1 : Int} {c c1 : UCore} {p1 : List Pulse}, InI32 t → Adequate e2 t k → c.mute = 0 →
    UCore.sampleLoop cb e1 n k t c = .ok (t1, c1, p1) → InI32 t1 ∧
    (c1.mute ≠ 0 → wrapU32 t1 < e1 ∧ UCore.sampleLoop cb e2 n k t c = .ok (t1, c1, p1)) ∧
    (c1.mute = 0 → wrapU32 t1 ≥ e1 ∧ ∀ (k2 : Nat) (r : Int × UCore × List Pulse), Adequate e2 t1 k2 →
      UCore.sampleLoop cb e2 n k2 t1 c1 = .ok r →
      UCore.sampleLoop cb e2 n k t c = .ok (r.1, r.2.1, p1 ++ r.2.2))
  | 0, t, t1, c, c1, p1, ht, ha, hm, h => by
    cases h
    have hz := ha.zero ht
    refine ⟨ht, fun h => absurd hm h, fun _ => ⟨by omega, fun k2 r h2 hr => ?_⟩⟩
    rw [UCore.sampleLoop_done hz] at hr
    cases hr
    rfl
  | k + 1, t, t1, c, c1, p1, ht, ha, hm, h => by
    by_cases hlt : wrapU32 t < e1
    · unfold UCore.sampleLoop at h
      rw [if_pos hlt] at h
      obtain ⟨⟨b, x, q⟩, hx, h⟩ := bind_ok_iff.1 h
      have hmu := UCore.sampleStep_mute hx
      dsimp only at hmu h
      cases b with
      | true =>
        rw [if_pos rfl] at h
        cases h
        refine ⟨ht, fun _ => ⟨hlt, ?_⟩, fun h => ?_⟩
        · unfold UCore.sampleLoop
          rw [if_pos (by omega), hx, ok_bind]
          rfl
        · rw [hmu.1 rfl] at h; exact absurd h (by decide)
      | false =>
        rw [if_neg (by decide)] at h
        obtain ⟨t', hi, h⟩ := bind_ok_iff.1 h
        obtain ⟨ht', rfl⟩ := i32_eq_ok_iff.1 hi
        obtain ⟨⟨a1, a2, a3⟩, hr, h⟩ := bind_ok_iff.1 h
        cases h
        obtain ⟨g1, g2, g3⟩ := UCore.sampleLoop_split he k ht' (ha.next ht (by omega)) ((hmu.2 rfl).trans hm) hr
        have step : ∀ r, UCore.sampleLoop cb e2 n k (t + U20) x = .ok r →
            UCore.sampleLoop cb e2 n (k + 1) t c = .ok (r.1, r.2.1, q ++ r.2.2) := by
          intro r hr
          show (if wrapU32 t < e2 then _ else _) = _
          rw [if_pos (by omega), hx, ok_bind]
          dsimp only
          rw [if_neg (by decide), hi, ok_bind, hr]
          rfl
        refine ⟨g1, fun h => ⟨(g2 h).1, step _ (g2 h).2⟩, fun h => ⟨(g3 h).1, fun k2 r h2 hr' => ?_⟩⟩
        have := step _ ((g3 h).2 k2 r h2 hr')
        rw [this]
        simp only [List.append_assoc]
    · rw [UCore.sampleLoop_done (by omega)] at h
      cases h
      refine ⟨ht, fun h => absurd hm h, fun _ => ⟨by omega, fun k2 r h2 hr => ?_⟩⟩
      rw [UCore.sampleLoop_fuel (k + 1) k2 ht ha h2, hr]
      rfl

theorem adequate_4097 {e t : Int} (he : e ≤ 2147483648) (ht : InI32 t) : Adequate e t 4097 := by
  unfold Adequate
  unfold InI32 at ht
  by_cases h : 0 ≤ t
  · right; omega
  · left; unfold wrapU32; omega

/-- Playing a sample in two parts. -/
theorem UCore.sample_split {c : UCore} {n : Nat} (hi : c.Inv) (hc : c.SInv n) (hw : c.waveform = .sample)
    (t0 : Int) (ht0 : InU32 t0) {e1 e2 : Int} (h0 : 0 ≤ e1) (he : e1 ≤ e2) (he2 : e2 ≤ 2145386496) :
    ∃ t1 c1 p1 t2 c2 p2, c.render t0 e1 n = .ok (t1, c1, p1) ∧ c1.render t1 e2 n = .ok (t2, c2, p2) ∧
      c.render t0 e2 n = .ok (t2, c2, p1 ++ p2) ∧ e1 ≤ t1 ∧ e2 ≤ t2 ∧ InU32 t1 ∧ c1.waveform = .sample ∧
      SInv c1 n ∧ c1.Inv := by
  unfold InU32 at ht0
  have hs := hc.1.sample hw
  have hspan := hs.span
  have hlen := hs.len
  have key : ∀ (d : UCore), d.waveform = .sample → d.period = c.period → d.offset = c.offset → d.stop = c.stop →
      ∀ t e, d.render t e n = if c.period = 0 then .ok (if t < e then e else t, d, []) else
        if d.mute ≠ 0 then .ok (e, d, []) else if c.length < 2 then .ok (e, d, []) else do
          let r ← UCore.sampleLoop (d.sustainRange && !d.release) e n 4097 (wrapI32 t) d
          return (if wrapU32 r.1 < e then e else wrapU32 r.1, r.2) := by
    intro d hdw hdp hdo hds t e
    unfold UCore.render UCore.runAny
    rw [hdp]
    by_cases hp : c.period = 0
    · rw [if_pos hp, if_pos hp]; rfl
    · rw [if_neg hp, if_neg hp, hdw]
      dsimp only
      unfold UCore.runSample
      by_cases hm : d.mute ≠ 0
      · rw [if_pos hm, if_pos hm]
        show Except.ok (if e < e then e else e, d, []) = _
        rw [if_neg (by omega)]
      · rw [if_neg hm, if_neg hm]
        have e1 : wrapI32 c.stop = c.stop := by unfold wrapI32; omega
        have e2 : wrapI32 c.offset = c.offset := by unfold wrapI32; omega
        have e3 : cabs (c.stop - c.offset) = .ok c.length := by
          unfold cabs
          split
          · rw [i32_ok (by omega) (by omega)]
            congr 1
            omega
          · congr 1
            omega
        rw [hdo, hds, e1, e2, i32_ok (by omega) (by omega), ok_bind, e3, ok_bind]
        by_cases h2 : c.length < 2
        · rw [if_pos h2, if_pos h2]
          show Except.ok (if e < e then e else e, d, []) = _
          rw [if_neg (by omega)]
        · rw [if_neg h2, if_neg h2, bind_assoc_C]
          refine bind_congr_C fun r => ?_
          rfl
  by_cases hp : c.period = 0
  · refine ⟨if t0 < e1 then e1 else t0, c, [], if (if t0 < e1 then e1 else t0) < e2 then e2 else
      (if t0 < e1 then e1 else t0), c, [], ?_, ?_, ?_, ?_, ?_, ?_, hw, hc, hi⟩
    · rw [key c hw rfl rfl rfl, if_pos hp]
    · rw [key c hw rfl rfl rfl, if_pos hp]
    · rw [key c hw rfl rfl rfl, if_pos hp]
      congr 2
      repeat' split
      all_goals omega
    · split <;> omega
    · repeat' split
      all_goals omega
    · unfold InU32; split <;> omega
  by_cases hm : c.mute ≠ 0
  · refine ⟨e1, c, [], e2, c, [], ?_, ?_, ?_, by omega, by omega, by unfold InU32; omega, hw, hc, hi⟩ <;>
      rw [key c hw rfl rfl rfl, if_neg hp, if_pos hm]
    rfl
  by_cases h2 : c.length < 2
  · refine ⟨e1, c, [], e2, c, [], ?_, ?_, ?_, by omega, by omega, by unfold InU32; omega, hw, hc, hi⟩ <;>
      rw [key c hw rfl rfl rfl, if_neg hp, if_neg hm, if_pos h2]
    rfl
  obtain ⟨t1, c1, p1, r1, hs1, hp1⟩ := UCore.sampleLoop_ok (n := n) (e := e1) (by omega)
    (cb := c.sustainRange && !c.release) 4097 (t := wrapI32 t0)
    (Playing.of hi hc hw (by omega)) hw (by simp +contextual) (wrapI32_in _)
  have hc1w : c1.waveform = .sample := hs1.setup.waveform.trans hw
  have hc1 : c1.Inv := by
    have := UCore.sampleLoop_inv hi _ ⟨SameSetup.refl c, hi.last⟩ r1
    exact SampleInv.inv hi hw this
  have hc1s : c1.SInv n := ⟨hp1.pre, fun _ => hp1.mod⟩
  obtain ⟨g1, g2, g3⟩ := UCore.sampleLoop_split he 4097 (wrapI32_in t0)
    (adequate_4097 (by omega) (wrapI32_in t0)) (not_not.1 hm) r1
  have hr1 : c.render t0 e1 n = .ok (if wrapU32 t1 < e1 then e1 else wrapU32 t1, c1, p1) := by
    rw [key c hw rfl rfl rfl, if_neg hp, if_neg hm, if_neg h2, r1]
    rfl
  have hu1 : 0 ≤ wrapU32 t1 ∧ wrapU32 t1 ≤ 4294967295 := by unfold wrapU32; omega
  by_cases hm1 : c1.mute = 0
  · obtain ⟨k1, k2⟩ := g3 hm1
    have g1' := g1
    unfold InI32 at g1'
    have hwt : wrapI32 (wrapU32 t1) = t1 := by unfold wrapI32 wrapU32; omega
    obtain ⟨t2, c2, p2, r2, hs2, hp2⟩ := UCore.sampleLoop_ok (n := n) (e := e2) (by omega)
      (cb := c.sustainRange && !c.release) 4097 (t := t1) hp1 hc1w
      (by rw [hs1.sustainRange]; simp +contextual) g1
    refine ⟨_, c1, p1, if wrapU32 t2 < e2 then e2 else wrapU32 t2, c2, p2, hr1, ?_, ?_, ?_, ?_, ?_, hc1w, hc1s, hc1⟩
    · rw [if_neg (by omega), key c1 hc1w hs1.setup.period hs1.offset hs1.stop, if_neg hp,
        if_neg (by omega), if_neg h2, hs1.sustainRange, hs1.release, hwt, r2]
      rfl
    · rw [key c hw rfl rfl rfl, if_neg hp, if_neg hm, if_neg h2,
        k2 4097 _ (adequate_4097 (by omega) g1) r2]
      rfl
    · split <;> omega
    · split <;> omega
    · unfold InU32; split <;> omega
  · obtain ⟨k1, k2⟩ := g2 hm1
    refine ⟨_, c1, p1, e2, c1, [], hr1, ?_, ?_, ?_, ?_, ?_, hc1w, hc1s, hc1⟩
    · rw [key c1 hc1w hs1.setup.period hs1.offset hs1.stop, if_neg hp, if_pos hm1]
    · rw [key c hw rfl rfl rfl, if_neg hp, if_neg hm, if_neg h2, k2]
      show Except.ok (if wrapU32 t1 < e2 then e2 else wrapU32 t1, c1, p1) = _
      rw [if_pos (by omega), List.append_nil]
    · split <;> omega
    · omega
    · unfold InU32; split <;> omega

end BK
