import Verif.Lemmas.Osc
/-!
Slides and oscillators of tracks: the value they report is close to their range.  (It may be
outside because of the rounding bias.)
-/
namespace BK

/-- A slide of shift `k` between `lo` and `hi` with at most 65536 steps. -/
structure Slide.Near (k : Nat) (lo hi : Int) (s : Slide) : Prop where
  inv : s.Inv lo hi
  shift : s.valueShift = k
  steps : s.steps ≤ 65536
  bias : s.roundBias ≤ 8388608

theorem Slide.Near.set {k : Nat} {lo hi v n : Int} {s : Slide} (h : s.Near k lo hi)
    (hk : (2 : Int) ^ k ≤ 8388608) (h1 : lo ≤ v) (h2 : v ≤ hi) (h3 : n ≤ 65536) :
    ∃ s', s.setValueAndSteps v n = .ok s' ∧ s'.Near k lo hi := by
  obtain ⟨s', e, hi', es⟩ := h.inv.set h1 h2 (n := n) (by omega)
  suffices hh : s'.steps ≤ 65536 ∧ s'.roundBias ≤ 8388608 from ⟨s', e, hi', es.trans h.shift, hh.1, hh.2⟩
  by_cases hn : 0 < n
  · obtain ⟨-, he, -, -, -, h5, h6, -, h8⟩ := Slide.set_steps hn e
    have hm : min n 8388608 = n := by omega
    rw [hm] at h5 h6
    have hv := h.inv.value
    have hr := h.inv.range
    have a1 := hr.low
    have a2 := hr.high
    have a3 := hr.width
    rw [Int.sub_mul] at a3
    have b1 : lo * 2 ^ s.valueShift ≤ v * 2 ^ s.valueShift :=
      Int.mul_le_mul_of_nonneg_right h1 (by have := two_pow_pos s.valueShift; omega)
    have b2 : v * 2 ^ s.valueShift ≤ hi * 2 ^ s.valueShift :=
      Int.mul_le_mul_of_nonneg_right h2 (by have := two_pow_pos s.valueShift; omega)
    obtain ⟨rb, e1, r1, r2, -, -, r3⟩ := roundBias_full (delta := s'.endValue - s.value) (steps := n)
      hr.shift (by omega) hn (by omega)
    rw [h5, h6, e1] at h8
    cases h8
    rw [h.shift] at r3
    refine ⟨by omega, ?_⟩
    omega
  · rw [Slide.set_zero (by omega) e]
    exact ⟨show (0 : Int) ≤ 65536 by decide, h.bias⟩

theorem Slide.Near.setSteps {k : Nat} {lo hi n : Int} {s : Slide} (h : s.Near k lo hi)
    (hk : (2 : Int) ^ k ≤ 8388608) (h3 : n ≤ 65536) :
    ∃ s', s.setSteps n = .ok s' ∧ s'.Near k lo hi := by
  obtain ⟨T, h1, h2, e⟩ := h.inv.target
  unfold Slide.setSteps
  rw [e, mul_pow_ediv]
  exact h.set hk h1 h2 h3

theorem Slide.Near.setValue {k : Nat} {lo hi v : Int} {s : Slide} (h : s.Near k lo hi)
    (hk : (2 : Int) ^ k ≤ 8388608) (h1 : lo ≤ v) (h2 : v ≤ hi) :
    ∃ s', s.setValue v = .ok s' ∧ s'.Near k lo hi := h.set hk h1 h2 h.steps

theorem Slide.Near.tick {k : Nat} {lo hi : Int} {s : Slide} (h : s.Near k lo hi) :
    ∃ s', s.tick = .ok s' ∧ s'.Near k lo hi := by
  obtain ⟨s', e, hi', es⟩ := h.inv.tick
  suffices hh : s'.steps ≤ 65536 ∧ s'.roundBias ≤ 8388608 from ⟨s', e, hi', es.trans h.shift, hh.1, hh.2⟩
  unfold Slide.tick at e
  split at e
  · obtain ⟨v, -, e⟩ := bind_ok_iff.1 e
    dsimp only at e
    split at e <;> cases e <;> exact ⟨h.steps, h.bias⟩
  · cases e
    exact ⟨h.steps, h.bias⟩

theorem Slide.Near.tickIf {k : Nat} {lo hi : Int} {s : Slide} (h : s.Near k lo hi) (b : Bool) :
    ∃ s', (if b then s.tick else .ok s) = .ok s' ∧ s'.Near k lo hi := by
  cases b
  · exact ⟨s, rfl, h⟩
  · exact h.tick

theorem Slide.Near.halt {k : Nat} {lo hi : Int} {s : Slide} (h : s.Near k lo hi) (b : Bool) :
    (s.halt b).Near k lo hi := by
  obtain ⟨s', e, hi', es⟩ := h.inv.step1 (op := .halt b) trivial
  cases e
  suffices hh : (s.halt b).steps ≤ 65536 ∧ (s.halt b).roundBias ≤ 8388608 from
    ⟨hi', es.trans h.shift, hh.1, hh.2⟩
  unfold Slide.halt
  cases b <;> exact ⟨h.steps, h.bias⟩

theorem Slide.Near.get {k : Nat} {lo hi : Int} {s : Slide} (h : s.Near k lo hi) :
    ∃ v, s.get = .ok v ∧ lo ≤ v ∧ v * 2 ^ k ≤ hi * 2 ^ k + 8388608 := by
  have hb := h.inv.bias
  have hb' := h.bias
  have hv := h.inv.value
  have hP := two_pow_pos k
  refine ⟨_, h.inv.get, ?_⟩
  rw [h.shift] at hv ⊢
  generalize (2 : Int) ^ k = P at *
  constructor
  · refine (Int.le_ediv_iff_mul_le (by omega)).2 ?_
    omega
  · have := Int.ediv_mul_le (s.value + s.roundBias) (b := P) (by omega)
    omega

theorem Slide.init_near {M lo hi : Int} {k : Nat} (hM : maxValueShift M = k) (h0 : lo ≤ 0) (h1 : 0 ≤ hi)
    (hr : SlideRange k lo hi) : (Slide.init M).Near k lo hi := by
  have hP := two_pow_pos k
  refine ⟨⟨?_, ?_, ⟨0, h0, h1, ?_⟩, ?_, ?_, ?_⟩, hM, ?_, ?_⟩
  · show SlideRange (maxValueShift M) lo hi
    rw [hM]; exact hr
  · show lo * 2 ^ maxValueShift M ≤ 0 ∧ 0 ≤ hi * 2 ^ maxValueShift M
    rw [hM]
    exact ⟨Int.mul_nonpos_of_nonpos_of_nonneg h0 (by omega), Int.mul_nonneg h1 (by omega)⟩
  · simp [Slide.init]
  · simp [Slide.init]
  · simp [Slide.init]
  · simp [Slide.init]
  · simp [Slide.init]
  · simp [Slide.init]

/-- An oscillator of shift `k` and amplitude up to `m` with a small rounding bias. -/
structure Osc.Near (k : Nat) (m : Int) (s : Osc) : Prop where
  inv : s.Inv m
  shift : s.valueShift = k
  bias : s.roundBias ≤ 16777216

theorem Osc.setDelta_bias {s s' : Osc} {d n : Int} (e : s.setDeltaAndSteps d n = .ok s') :
    s'.roundBias = s.roundBias ∨ (0 < cclamp n 0 8388608 ∧
      i32 (d * 2 ^ s.valueShift) = .ok (d * 2 ^ s.valueShift) ∧
      roundBiasOf (d * 2 ^ s.valueShift) (cclamp n 0 8388608)
        ((d * 2 ^ s.valueShift).tdiv (cclamp n 0 8388608)) s.valueShift = .ok s'.roundBias) := by
  unfold Osc.setDeltaAndSteps at e
  dsimp only at e
  split at e
  · rename_i hn
    obtain ⟨d', hd, e⟩ := bind_ok_iff.1 e
    have hd2 := hd
    obtain ⟨-, rfl⟩ := i32_eq_ok_iff.1 hd
    split at e
    · obtain ⟨p, -, e⟩ := bind_ok_iff.1 e
      obtain ⟨rb, hb, e⟩ := bind_ok_iff.1 e
      have e' : s'.roundBias = rb := by
        split at e
        all_goals
          simp only [bind_ok_iff, pure_eq_ok] at e
          repeat obtain ⟨_, _, e⟩ := e
          rfl
      rw [e']
      refine .inr ⟨?_, hd2, hb⟩
      have : 0 ≤ cclamp n 0 8388608 := by unfold cclamp; split <;> (try split) <;> omega
      omega
    · cases e
      exact .inl rfl
  · cases e
    exact .inl rfl

theorem Osc.Near.set {k : Nat} {m d n : Int} {s : Osc} (h : s.Near k m) (hk : (2 : Int) ^ k ≤ 16777216)
    (h1 : -m ≤ d) (h2 : d ≤ m) (h3 : n ≤ 131072) :
    ∃ s', s.setDeltaAndSteps d n = .ok s' ∧ s'.Near k m := by
  obtain ⟨s', e, hi', es⟩ := h.inv.set h1 h2 (n := n) (by omega)
  refine ⟨s', e, hi', es.trans h.shift, ?_⟩
  rcases Osc.setDelta_bias e with hb | ⟨hn, hd, hb⟩
  · rw [hb]; exact h.bias
  · have hd := (i32_eq_ok_iff.1 hd).1
    have hc : cclamp n 0 8388608 ≤ 131072 := by unfold cclamp; split <;> (try split) <;> omega
    obtain ⟨rb, e1, -, -, -, -, r3⟩ := roundBias_full (delta := d * 2 ^ s.valueShift)
      (steps := cclamp n 0 8388608) h.inv.shift hd hn (by omega)
    rw [e1] at hb
    cases hb
    rw [h.shift] at r3
    omega

theorem Osc.Near.tick {k : Nat} {m : Int} {s : Osc} (h : s.Near k m) :
    ∃ s', s.tick = .ok s' ∧ s'.Near k m := by
  obtain ⟨s', e, hi', -, -, es, eb⟩ := h.inv.tick
  exact ⟨s', e, hi', es.trans h.shift, by rw [eb]; exact h.bias⟩

theorem Osc.Near.get {k : Nat} {m : Int} {s : Osc} (h : s.Near k m) :
    ∃ v, s.get = .ok v ∧ -m ≤ v ∧ v * 2 ^ k ≤ m * 2 ^ k + 16777216 := by
  have hb := h.inv.bias
  have hb' := h.bias
  have hv := h.inv.value_bound
  have hd := h.inv.delta_bound
  have hP := two_pow_pos k
  refine ⟨_, h.inv.get, ?_⟩
  rw [h.shift] at hd ⊢
  have : -(m * 2 ^ k) ≤ s.value ∧ s.value ≤ m * 2 ^ k := by
    by_cases h0 : 0 ≤ s.delta
    · have := hv.1 h0; omega
    · have := hv.2 (by omega); omega
  generalize (2 : Int) ^ k = P at *
  constructor
  · refine (Int.le_ediv_iff_mul_le (by omega)).2 ?_
    rw [Int.neg_mul]
    omega
  · have := Int.ediv_mul_le (s.value + s.roundBias) (b := P) (by omega)
    omega

theorem Osc.init_near {M m : Int} {k : Nat} (hM : maxValueShift M - 1 = k) (hm : 0 ≤ m)
    (hr : m * 2 ^ k ≤ 1073741824) (hs : maxValueShift M ≤ 31) : (Osc.init M).Near k m :=
  ⟨Osc.init_inv hm (by rw [hM]; exact hr) hs, hM, by simp [Osc.init]⟩

end BK
