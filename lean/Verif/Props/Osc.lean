import Verif.Lemmas.Osc
/-! C16–C18: the tremolo/vibrato oscillator. -/
namespace BK

/-- C16 for oscillators: legal call sequences never fault.  Partial: the step count must stay
below the documented maximum `2^23`, see `C16_osc_refuted`. -/
theorem C16_osc_partial {M m : Int} (hm : 0 ≤ m) (hs : maxValueShift M ≤ 30)
    (hr : m * 2 ^ (maxValueShift M - 1) ≤ 1073741824) {ops : List OscOp}
    (hops : ∀ op ∈ ops, op.Wf m) : ∃ s, (Osc.init M).run ops = .ok s := by
  obtain ⟨s, h, _⟩ := Osc.run_inv ops (Osc.init_inv hm hr (by omega)) hops
  exact ⟨s, h⟩

/-- C16: the documented amplitude range satisfies the hypotheses for every declared maximum. -/
theorem C16_osc_documented {M : Int} (h0 : 0 < M) (hM : M ≤ 1073741824) :
    maxValueShift M ≤ 30 ∧ M * 2 ^ (maxValueShift M - 1) ≤ 1073741824 := by
  obtain ⟨h1, h2, _⟩ := maxValueShift_spec h0 hM
  refine ⟨h1, ?_⟩
  have : (2 : Int) ^ (maxValueShift M - 1) ≤ 2 ^ maxValueShift M :=
    pow_le_pow_right₀ (by omega) (by omega)
  nlinarith

example : ∀ op ∈ [OscOp.set 32767 1000, .tick, .get, .setDelta (-5), .tick, .setSteps 3, .tick],
    op.Wf 32767 := by simp [OscOp.Wf]

/-- C16 fails for the documented maximum of steps. -/
theorem C16_osc_refuted : (Osc.init 32767).run [.set 1 8388608] = .error .overflow := by
  decide +kernel

/-- C18: in every reachable state the value lies between the amplitude and its negative, and
the position in the phase is below the number of steps. -/
theorem C18_range {M m : Int} (hm : 0 ≤ m) (hs : maxValueShift M ≤ 30)
    (hr : m * 2 ^ (maxValueShift M - 1) ≤ 1073741824) {ops : List OscOp}
    (hops : ∀ op ∈ ops, op.Wf m) {s : Osc} (h : (Osc.init M).run ops = .ok s) :
    Between (-s.delta) s.delta s.value ∧ s.phase < 4 ∧
    (s.steps ≠ 0 → 0 ≤ s.step ∧ s.step < s.steps) ∧ (s.steps = 0 → s.value = 0) := by
  obtain ⟨s', h', hi, _⟩ := Osc.run_inv ops (Osc.init_inv hm hr (by omega)) hops
  rw [h] at h'
  cases h'
  have hv := hi.value_bound
  refine ⟨?_, hi.phase, hi.step, fun h => (hi.off h).1⟩
  unfold Between
  by_cases hd : 0 ≤ s.delta
  · have := hv.1 hd; left; omega
  · have := hv.2 (by omega); right; omega

/-- The amplitude argument of a call, if it has one, is not negative. -/
def OscOp.Pos : OscOp → Prop
  | .set d _ => 0 ≤ d
  | .setDelta d => 0 ≤ d
  | _ => True

theorem Osc.set_bias {m : Int} {s s' : Osc} (h : s.Inv m) {d n : Int} (h1 : -m ≤ d) (h2 : d ≤ m)
    (h0 : 0 ≤ d) (h3 : n < 8388608) (hd : 0 ≤ s.delta) (hb : s.roundBias < 2 ^ s.valueShift)
    (e : s.setDeltaAndSteps d n = .ok s') :
    0 ≤ s'.delta ∧ s'.roundBias < 2 ^ s'.valueShift := by
  have hP := two_pow_pos s.valueShift
  have hr := h.range
  unfold Osc.setDeltaAndSteps at e
  by_cases hn : n ≤ 0
  · have ec : cclamp n 0 8388608 = 0 := by
      unfold cclamp; split
      · rfl
      · split <;> omega
    simp only [ec] at e
    rw [if_neg (by simp)] at e
    cases e
    exact ⟨by simp, hb⟩
  · have ec : cclamp n 0 8388608 = n := by
      unfold cclamp; split
      · omega
      · split <;> omega
    simp only [ec] at e
    have d2 : d * 2 ^ s.valueShift ≤ m * 2 ^ s.valueShift :=
      Int.mul_le_mul_of_nonneg_right h2 (by omega)
    have d0 : 0 ≤ d * 2 ^ s.valueShift := Int.mul_nonneg h0 (by omega)
    rw [if_pos (by omega), i32_ok (by omega) (by omega), ok_bind] at e
    by_cases hsame : n ≠ s.steps ∨ d * 2 ^ s.valueShift ≠ s.delta
    · rw [if_pos hsame] at e
      obtain ⟨p, _, e⟩ := bind_ok_iff.mp e
      obtain ⟨rb, hrb, e⟩ := bind_ok_iff.mp e
      have e : s'.delta = d * 2 ^ s.valueShift ∧ s'.roundBias = rb ∧ s'.valueShift = s.valueShift := by
        split at e <;> simp only [bind_ok_iff, pure_eq_ok, ok_bind] at e
        · obtain ⟨_, _, e⟩ := e; cases e; exact ⟨rfl, rfl, rfl⟩
        · obtain ⟨_, _, _, _, _, _, e⟩ := e; cases e; exact ⟨rfl, rfl, rfl⟩
        · obtain ⟨_, _, _, _, e⟩ := e; cases e; exact ⟨rfl, rfl, rfl⟩
        · obtain ⟨_, _, _, _, _, _, e⟩ := e; cases e; exact ⟨rfl, rfl, rfl⟩
        · cases e; exact ⟨rfl, rfl, rfl⟩
      rw [e.1, e.2.1, e.2.2]
      obtain ⟨rb', e', _, _, e4, _⟩ := roundBias_ok (delta := d * 2 ^ s.valueShift) (steps := n) h.shift (by omega)
        (by omega) h3
      rw [e'] at hrb
      cases hrb
      exact ⟨d0, e4 d0⟩
    · rw [if_neg hsame] at e
      cases e
      exact ⟨hd, hb⟩

/-- C18: the value reported to the caller lies in the range, too, as long as no negative
amplitude is used. -/
theorem C18_report_partial {M m : Int} (hm : 0 ≤ m) (hs : maxValueShift M ≤ 30)
    (hr : m * 2 ^ (maxValueShift M - 1) ≤ 1073741824) {ops : List OscOp}
    (hops : ∀ op ∈ ops, op.Wf m ∧ op.Pos) {s : Osc} (h : (Osc.init M).run ops = .ok s) :
    ∃ D r, s.delta = D * 2 ^ s.valueShift ∧ s.get = .ok r ∧ -D ≤ r ∧ r ≤ D := by
  have key : ∀ (ops : List OscOp) (s s' : Osc), s.Inv m → 0 ≤ s.delta →
      s.roundBias < 2 ^ s.valueShift → (∀ op ∈ ops, op.Wf m ∧ op.Pos) → s.run ops = .ok s' →
      s'.Inv m ∧ 0 ≤ s'.delta ∧ s'.roundBias < 2 ^ s'.valueShift := by
    intro ops
    induction ops with
    | nil => intro s s' hi h1 h2 _ e; cases e; exact ⟨hi, h1, h2⟩
    | cons op ops ih =>
      intro s s' hi h1 h2 ho e
      unfold Osc.run at e
      obtain ⟨s1, e1, e⟩ := bind_ok_iff.mp e
      obtain ⟨hw, hp⟩ := ho op (by simp)
      obtain ⟨s2, e2, hi2, hsh⟩ := hi.step1 hw
      rw [e1] at e2
      cases e2
      have hnext : 0 ≤ s1.delta ∧ s1.roundBias < 2 ^ s1.valueShift := by
        cases op with
        | set d n => exact Osc.set_bias hi hw.1 hw.2.1 hp hw.2.2 h1 h2 e1
        | setDelta d => exact Osc.set_bias hi hw.1 hw.2 hp hi.steps.2 h1 h2 e1
        | setSteps n =>
          obtain ⟨D, q1, q2, q3⟩ := hi.delta
          simp only [Osc.step1, Osc.setSteps] at e1
          rw [q3, mul_pow_ediv] at e1
          have hP := two_pow_pos s.valueShift
          have : 0 ≤ D := by
            by_contra hc
            have hc : D ≤ -1 := by omega
            have := Int.mul_le_mul_of_nonneg_right hc (show (0 : Int) ≤ 2 ^ s.valueShift by omega)
            omega
          exact Osc.set_bias hi q1 q2 this hw h1 h2 e1
        | tick =>
          obtain ⟨s3, e3, _, f1, _, f3, f4⟩ := hi.tick
          simp only [Osc.step1] at e1
          rw [e1] at e3
          cases e3
          rw [f1, f3, f4]; exact ⟨h1, h2⟩
        | get =>
          simp only [Osc.step1] at e1
          obtain ⟨_, _, e1⟩ := bind_ok_iff.mp e1
          cases e1
          exact ⟨h1, h2⟩
      exact ih s1 s' hi2 hnext.1 hnext.2 (fun o hmem => ho o (by simp [hmem])) e
  have hinit := Osc.init_inv hm hr (by omega)
  obtain ⟨hi, h1, h2⟩ := key ops _ s hinit (by simp [Osc.init])
    (by have := two_pow_pos (Osc.init M).valueShift; simp only [Osc.init] at *; omega) hops h
  obtain ⟨D, q1, q2, q3⟩ := hi.delta
  refine ⟨D, _, q3, hi.get, ?_, ?_⟩
  · have hv := hi.value_bound.1 h1
    have hb := hi.bias
    have hP := two_pow_pos s.valueShift
    apply Int.le_ediv_of_mul_le (by omega)
    rw [Int.neg_mul, ← q3]; omega
  · have hv := hi.value_bound.1 h1
    have hP := two_pow_pos s.valueShift
    have : (s.value + s.roundBias) / 2 ^ s.valueShift < D + 1 := by
      apply Int.ediv_lt_of_lt_mul (by omega)
      rw [Int.add_mul, ← q3]; omega
    omega

/-- C18 for reported values needs non-negative amplitudes: amplitude `-10` in 10 steps makes
the pitch oscillator report 128 at its very start. -/
theorem C18_report_refuted : ∃ s, (Osc.init 0).run [.set (-10) 10] = .ok s ∧ s.get = .ok 128 := by
  refine ⟨_, rfl, rfl⟩

theorem Osc.eq_canon_zero {m : Int} {s : Osc} (h : s.Inv m) (h0 : s.steps ≠ 0) (hp : s.phase = 0)
    (hst : s.step = 0) : s = s.canon 0 := by
  have hd := h.dir h0
  have hv := (h.value h0).1 hp
  simp only [hp, true_or, if_true] at hd
  rw [hst] at hv
  unfold Osc.canon triangle
  simp only [Nat.zero_div, Nat.zero_mod]
  obtain ⟨delta, steps, value, stepDelta, roundBias, valueShift, phase, step⟩ := s
  simp only at hp hst hv hd h0
  subst hp hst
  simp only [Int.mul_zero] at hv
  subst hv
  simp [← hd]

/-- C17: started at zero with any amplitude and number of steps, the value after `t` ticks is
the ideal triangle wave, for all `t`, and the position is `t` modulo the phase length. -/
theorem C17_wave {M m : Int} (hm : 0 ≤ m) (hs : maxValueShift M ≤ 30)
    (hr : m * 2 ^ (maxValueShift M - 1) ≤ 1073741824) {ops : List OscOp}
    (hops : ∀ op ∈ ops, op.Wf m) {s : Osc} (h : (Osc.init M).run ops = .ok s)
    (h0 : s.steps ≠ 0) (hp : s.phase = 0) (hst : s.step = 0) (t : Nat) :
    ∃ u, s.ticks t = .ok u ∧
      u.value = triangle s.delta (s.delta.tdiv s.steps) s.steps.toNat t ∧
      u.phase = t / s.steps.toNat % 4 ∧ u.step = (t % s.steps.toNat : Nat) := by
  obtain ⟨s', h', hi, _⟩ := Osc.run_inv ops (Osc.init_inv hm hr (by omega)) hops
  rw [h] at h'
  cases h'
  have e := Osc.eq_canon_zero hi h0 hp hst
  refine ⟨s.canon t, ?_, rfl, rfl, rfl⟩
  have := Osc.canon_ticks hi h0 t 0
  rw [← e] at this
  rw [this, Nat.zero_add]

/-- The shape of the triangle: a quarter, a half and three quarters through the period. -/
theorem C17_quarters (d i : Int) {n : Nat} (hn : 0 < n) :
    triangle d i n 0 = 0 ∧ triangle d i n n = d ∧ triangle d i n (2 * n) = 0 ∧
    triangle d i n (3 * n) = -d := by
  unfold triangle
  have e1 : n / n = 1 := Nat.div_self hn
  have e2 : 2 * n / n = 2 := Nat.mul_div_cancel _ hn
  have e3 : 3 * n / n = 3 := Nat.mul_div_cancel _ hn
  simp [e1, e2, e3]

/-- The triangle is periodic and antisymmetric. -/
theorem C17_shape (d i : Int) {n : Nat} (hn : 0 < n) (t : Nat) :
    triangle d i n (t + 4 * n) = triangle d i n t ∧
    triangle d i n (t + 2 * n) = -triangle d i n t := by
  unfold triangle
  have e1 : (t + 4 * n) / n = t / n + 4 := Nat.add_mul_div_right _ _ hn
  have e2 : (t + 4 * n) % n = t % n := Nat.add_mul_mod_self_right ..
  have e3 : (t + 2 * n) / n = t / n + 2 := Nat.add_mul_div_right _ _ hn
  have e4 : (t + 2 * n) % n = t % n := Nat.add_mul_mod_self_right ..
  have e5 : (t / n + 4) % 4 = t / n % 4 := by omega
  rw [e1, e2, e3, e4, e5]
  refine ⟨rfl, ?_⟩
  have hq : t / n % 4 < 4 := Nat.mod_lt _ (by omega)
  generalize ((t % n : Nat) : Int) = r
  obtain h | h | h | h : t / n % 4 = 0 ∨ t / n % 4 = 1 ∨ t / n % 4 = 2 ∨ t / n % 4 = 3 := by omega
  · have : (t / n + 2) % 4 = 2 := by omega
    simp only [h, this]
  · have : (t / n + 2) % 4 = 3 := by omega
    simp only [h, this]; ring
  · have : (t / n + 2) % 4 = 0 := by omega
    simp only [h, this]; ring
  · have : (t / n + 2) % 4 = 1 := by omega
    simp only [h, this]; ring

theorem Osc.canon_congr {s u : Osc} (h1 : u.delta = s.delta) (h2 : u.steps = s.steps)
    (h3 : u.valueShift = s.valueShift) (h4 : u.roundBias = s.roundBias) (t : Nat) :
    u.canon t = s.canon t := by
  unfold Osc.canon Osc.inc
  rw [h1, h2, h3, h4]

/-- From any reachable state the end of the running phase is a point of the ideal wave. -/
theorem Osc.to_canon {m : Int} (r : Nat) : ∀ {s : Osc}, s.Inv m → s.steps ≠ 0 →
    s.steps - s.step = r → ∃ t, s.ticks r = .ok (s.canon t) := by
  induction r with
  | zero =>
    intro s h h0 e
    have := h.step h0; omega
  | succ r ih =>
    intro s h h0 e
    obtain ⟨u, hu, hi, f1, f2, f3, f4⟩ := h.tick
    have hst := h.step h0
    by_cases hr : r = 0
    · subst hr
      -- last tick of the phase
      refine ⟨(s.phase + 1) * s.steps.toNat, ?_⟩
      unfold Osc.ticks
      have hn : 0 < s.steps := by omega
      have hN : 0 < s.steps.toNat := by omega
      have e1 : (s.phase + 1) * s.steps.toNat / s.steps.toNat = s.phase + 1 := Nat.mul_div_cancel _ hN
      have e2 : (s.phase + 1) * s.steps.toNat % s.steps.toNat = 0 := Nat.mul_mod_left ..
      have hd := h.dir h0
      have hb := h.inc_bound h0
      have hdb := h.delta_bound
      have hrg := h.range
      have hp := h.phase
      unfold Osc.tick
      rw [if_pos h0, if_neg (by omega)]
      obtain hq | hq | hq | hq : s.phase = 0 ∨ s.phase = 1 ∨ s.phase = 2 ∨ s.phase = 3 := by omega
      · simp [hq] at hd e1 e2 ⊢
        rw [hd, i32_ok (by omega) (by omega)]
        simp [Osc.ticks, Osc.canon, triangle, e1, e2]
      · simp [hq] at hd e1 e2 ⊢
        simp [Osc.ticks, Osc.canon, triangle, e1, e2, hd]
      · simp [hq] at hd e1 e2 ⊢
        rw [hd, i32_ok (by omega) (by omega), i32_ok (by omega) (by omega)]
        simp [Osc.ticks, Osc.canon, triangle, e1, e2]
      · simp [hq] at hd e1 e2 ⊢
        simp [Osc.ticks, Osc.canon, triangle, e1, e2, hd]
    · have hstep : u.step = s.step + 1 := by
        unfold Osc.tick at hu
        rw [if_pos h0, if_pos (by omega)] at hu
        obtain ⟨v, _, hu⟩ := bind_ok_iff.mp hu
        cases hu; rfl
      obtain ⟨t, ht⟩ := ih hi (by rw [f2]; exact h0) (by rw [f2, hstep]; omega)
      refine ⟨t, ?_⟩
      unfold Osc.ticks
      rw [hu, ok_bind, ht, Osc.canon_congr f1 f2 f3 f4]

theorem Osc.ticks_add (a : Nat) : ∀ (s : Osc) (b : Nat),
    s.ticks (a + b) = (do let u ← s.ticks a; u.ticks b) := by
  induction a with
  | zero => intro s b; rw [Nat.zero_add]; rfl
  | succ a ih =>
    intro s b
    have : a + 1 + b = (a + b) + 1 := by omega
    rw [this]
    have e : ∀ n, s.ticks (n + 1) = (do let u ← s.tick; u.ticks n) := fun n => rfl
    rw [e, e]
    cases s.tick with
    | error e => rfl
    | ok u => simp only [ok_bind]; exact ih u b

/-- C17: from any reachable state, also after changes in mid-phase, the whole state repeats
with period `4 * steps` from the end of the running phase on. -/
theorem C17_periodic {M m : Int} (hm : 0 ≤ m) (hs : maxValueShift M ≤ 30)
    (hr : m * 2 ^ (maxValueShift M - 1) ≤ 1073741824) {ops : List OscOp}
    (hops : ∀ op ∈ ops, op.Wf m) {s : Osc} (h : (Osc.init M).run ops = .ok s)
    (h0 : s.steps ≠ 0) {t : Nat} (ht : s.steps - s.step ≤ t) :
    s.ticks (t + 4 * s.steps.toNat) = s.ticks t ∧ ∃ u, s.ticks t = .ok u := by
  obtain ⟨s', h', hi, _⟩ := Osc.run_inv ops (Osc.init_inv hm hr (by omega)) hops
  rw [h] at h'
  cases h'
  have hst := hi.step h0
  have hn : 0 < s.steps := by omega
  obtain ⟨t0, ht0⟩ := Osc.to_canon (s.steps - s.step).toNat hi h0 (by omega)
  obtain ⟨j, hj⟩ : ∃ j : Nat, t = (s.steps - s.step).toNat + j := ⟨t - (s.steps - s.step).toNat, by omega⟩
  have key : ∀ b : Nat, s.ticks ((s.steps - s.step).toNat + b) = .ok (s.canon (t0 + b)) := by
    intro b
    rw [Osc.ticks_add, ht0, ok_bind, Osc.canon_ticks hi h0]
  subst hj
  rw [Nat.add_assoc, key, key, ← Nat.add_assoc, Osc.canon_period hn]
  exact ⟨rfl, _, rfl⟩

/-- A reachable state in mid-phase to which C17 and C18 apply: amplitude changed after three
ticks. -/
example : ∃ s, (Osc.init 32767).run [.set 1000 10, .tick, .tick, .tick, .set 500 7] = .ok s ∧
    s.steps ≠ 0 ∧ s.step = 2 ∧ s.value ≠ 0 := by
  refine ⟨_, rfl, ?_⟩
  decide +kernel

end BK
