import Verif.Lemmas.Interp
/-! C12–C16: slides. -/
namespace BK

/-- C12: after a target is accepted, the fixed-point value is exactly the target from the
last step on, whatever the state was before; no step faults.  With `n ≤ 0` this includes
`j = 0`: the target is there immediately. -/
theorem C12_exact_end {s s' : Slide} {v n : Int} (hv : InI32 s.value)
    (h : s.setValueAndSteps v n = .ok s') (j : Nat) (hj : min n 8388608 ≤ j) :
    ∃ t, s'.ticks j = .ok t ∧ Represents s.valueShift t.value v := by
  by_cases hn : 0 < n
  · obtain ⟨h1, h2, h3, h4, h5, _, _, h8, _⟩ := Slide.set_steps hn h
    refine ⟨_, Slide.ticks_at j (by rw [h3]; exact hv) h1 (fun _ => h8), ?_⟩
    unfold Represents Slide.at
    rw [if_neg (by omega), if_neg (by omega), ← h2]
  · have h1 := Slide.set_zero (by omega) h
    have hin : InI32 (v * 2 ^ s.valueShift) := by
      unfold Slide.setValueAndSteps at h
      have ec : cclamp n 0 8388608 = 0 := by
        unfold cclamp; split
        · rfl
        · split <;> omega
      simp only [ec] at h
      rw [if_neg (by simp)] at h
      obtain ⟨e, he, _⟩ := bind_ok_iff.mp h
      exact (i32_eq_ok_iff.mp he).1
    refine ⟨_, Slide.ticks_at j (by rw [h1]; exact hin) (by rw [h1]; exact hin) (by rw [h1]; simp), ?_⟩
    unfold Represents Slide.at
    rw [h1]
    simp

/-- A slide in progress at 100 gets the new target −20000, to be reached in 1001 steps. -/
example : ∃ s s' : Slide, InI32 s.value ∧ s.value ≠ 0 ∧ s.setValueAndSteps (-20000) 1001 = .ok s' := by
  refine ⟨{ Slide.init 32767 with value := 3276800 }, _, by decide, by decide, rfl⟩

/-- C13: every value on the way lies between the start and the target, and later values lie
between earlier ones and the target; no step faults. -/
theorem C13_no_overshoot {s s' : Slide} {v n : Int} (hv : InI32 s.value) (hn : 0 < n)
    (h : s.setValueAndSteps v n = .ok s') {j k : Nat} (hjk : j ≤ k) :
    ∃ t u, s'.ticks j = .ok t ∧ s'.ticks k = .ok u ∧
      Between s.value (v * 2 ^ s.valueShift) t.value ∧
      Between t.value (v * 2 ^ s.valueShift) u.value := by
  obtain ⟨h1, h2, h3, h4, h5, _, _, h8, _⟩ := Slide.set_steps hn h
  have hb := Slide.at_between (s := s') (fun _ => h8) j
  have hst : ¬ s'.step ≤ 0 := by omega
  simp only [if_neg hst, h3, h2] at hb
  exact ⟨_, _, Slide.ticks_at j (by rw [h3]; exact hv) h1 (fun _ => h8),
    Slide.ticks_at k (by rw [h3]; exact hv) h1 (fun _ => h8), hb.1, hb.2 k hjk⟩

/-- C14: setting a target with a non-zero number of steps, changing the target of a slide or
its number of steps leaves the interpolated value where it is. -/
theorem C14_no_jump_partial {s s' : Slide} {v n : Int} (hn : 0 < n)
    (h : s.setValueAndSteps v n = .ok s' ∨ s.setSteps n = .ok s' ∨
      (0 < s.steps ∧ s.setValue v = .ok s')) : s'.value = s.value := by
  rcases h with h | h | ⟨hs, h⟩
  · exact (Slide.set_steps hn h).2.2.1
  · exact (Slide.set_steps hn h).2.2.1
  · exact (Slide.set_steps hs h).2.2.1

/-- C14: the reported value can move by at most one unit when a slide is redirected, provided
both rounding biases are below one unit. -/
theorem C14_report_partial {s s' : Slide} {v n a a' : Int} (hn : 0 < n)
    (h : s.setValueAndSteps v n = .ok s') (ha : s.get = .ok a) (ha' : s'.get = .ok a')
    (hb : 0 ≤ s.roundBias ∧ s.roundBias < 2 ^ s.valueShift)
    (hb' : 0 ≤ s'.roundBias ∧ s'.roundBias < 2 ^ s.valueShift) : -1 ≤ a' - a ∧ a' - a ≤ 1 := by
  obtain ⟨_, _, h3, h4, _⟩ := Slide.set_steps hn h
  unfold Slide.get at ha ha'
  obtain ⟨x, hx, ha⟩ := bind_ok_iff.mp ha
  obtain ⟨x', hx', ha'⟩ := bind_ok_iff.mp ha'
  obtain ⟨_, rfl⟩ := i32_eq_ok_iff.mp hx
  obtain ⟨_, rfl⟩ := i32_eq_ok_iff.mp hx'
  cases ha; cases ha'
  rw [h3, h4]
  have hP := two_pow_pos s.valueShift
  have key : ∀ b : Int, 0 ≤ b → b < 2 ^ s.valueShift →
      s.value / 2 ^ s.valueShift ≤ (s.value + b) / 2 ^ s.valueShift ∧
      (s.value + b) / 2 ^ s.valueShift ≤ s.value / 2 ^ s.valueShift + 1 := by
    intro b h0 h1
    constructor
    · exact Int.ediv_le_ediv (by omega) (by omega)
    · have : (s.value + b) / 2 ^ s.valueShift ≤ (s.value + 2 ^ s.valueShift) / 2 ^ s.valueShift :=
        Int.ediv_le_ediv (by omega) (by omega)
      rw [Int.add_ediv_of_dvd_right (Int.dvd_refl _), Int.ediv_self (by omega)] at this
      exact this
  have k1 := key _ hb.1 hb.2
  have k2 := key _ hb'.1 hb'.2
  omega

/-- Calls used as counterexample: volume 1, then slide to 0 in 1000 steps. -/
def slowFall : List SlideOp := [.set 1 0, .set 0 1000]

/-- C14 fails for the reported value: starting a slow falling slide makes the reported volume
jump from 1 up to 4 before any step is made. -/
theorem C14_report_refuted : ∃ s s' : Slide,
    (Slide.init 32767).run [.set 1 0] = .ok s ∧ s.get = .ok 1 ∧
    s.setValueAndSteps 0 1000 = .ok s' ∧ s'.get = .ok 4 := by
  refine ⟨_, _, rfl, rfl, rfl, rfl⟩

/-- C15 fails: after a volume slide from 1 to 0 in 1000 steps has finished, 3 is reported. -/
theorem C15_refuted : ∃ s : Slide,
    (Slide.init 32767).run (slowFall ++ List.replicate 1000 .tick) = .ok s ∧ s.step = 0 ∧
    s.endValue = 0 ∧ s.value = 0 ∧ s.get = .ok 3 := by
  refine ⟨{ Slide.init 32767 with steps := 1000, stepDelta := -32, roundBias := 128000 }, ?_⟩
  decide +kernel

/-- C15 fails also without a fraction (pitch slides): 10 down to 0 in 10 steps ends at 128. -/
theorem C15_pitch_refuted : ∃ s : Slide,
    (Slide.init 0).run ([.set 10 0, .set 0 10] ++ List.replicate 10 .tick) = .ok s ∧
    s.get = .ok 128 := by
  refine ⟨{ Slide.init 0 with steps := 10, stepDelta := -1, roundBias := 128 }, ?_⟩
  decide +kernel

theorem report_of_inv {lo hi : Int} {s : Slide} (hs : s.Inv lo hi) {S v n : Int}
    (hS : Represents s.valueShift s.value S) (h1 : lo ≤ v) (h2 : v ≤ hi) (hn : 0 < n)
    (hn2 : n < 8388608) (hdir : S ≤ v ∨ 256 * n ≤ (S - v) * 2 ^ s.valueShift) :
    ∃ s', s.setValueAndSteps v n = .ok s' ∧ ∀ j : Nat, ∃ t r, s'.ticks j = .ok t ∧
      t.get = .ok r ∧ Between S v r ∧ (n ≤ j → r = v) := by
  obtain ⟨s', hset, hinv, hsh⟩ := hs.set h1 h2 hn2
  refine ⟨s', hset, ?_⟩
  intro j
  obtain ⟨g1, g2, g3, g4, g5, g6, g7, g8, g9⟩ := Slide.set_steps hn hset
  unfold Represents at hS
  have hP := two_pow_pos s.valueShift
  have hr := hinv.range
  have hvv := hinv.value
  have hlow := hr.low
  have hhigh := hr.high
  have iv : InI32 s'.value := by unfold InI32; omega
  have hticks := Slide.ticks_at j iv g1 (fun _ => g8)
  have hb := (Slide.at_between (s := s') (fun _ => g8) j).1
  have hst : ¬ s'.step ≤ 0 := by omega
  rw [if_neg hst, g3, g2, hS] at hb
  have hmin : min n 8388608 = n := by omega
  -- the bias is below one unit
  have hrange : -2147483648 ≤ s'.endValue - s.value ∧ s'.endValue - s.value ≤ 2147483647 := by
    have he := hinv.end_between
    have hw := hr.width
    rw [Int.sub_mul] at hw
    rw [← g3]
    omega
  obtain ⟨rb, e1, e2, e3, e4, e5⟩ := roundBias_ok (k := s.valueShift) hs.range.shift hrange hn hn2
  rw [g6, g7, hmin, e1] at g9
  have hbias : s'.roundBias = rb := by cases g9; rfl
  have hlt : rb < 2 ^ s.valueShift := by
    rcases hdir with hd | hd
    · apply e4
      rw [g2, hS]
      have := Int.mul_le_mul_of_nonneg_right hd (show (0 : Int) ≤ 2 ^ s.valueShift by omega)
      omega
    · apply e5
      have hneg : s'.endValue - s.value = -((S - v) * 2 ^ s.valueShift) := by rw [g2, hS]; ring
      rw [hneg, Int.neg_tdiv]
      have t := tdiv_nonneg hn (x := (S - v) * 2 ^ s.valueShift) (by omega)
      have : 256 ≤ ((S - v) * 2 ^ s.valueShift).tdiv n := by
        by_contra hc
        have hc : ((S - v) * 2 ^ s.valueShift).tdiv n + 1 ≤ 256 := by omega
        have := Int.mul_le_mul_of_nonneg_right hc hn.le
        linarith
      omega
  have hshift : (s'.at j).valueShift = s.valueShift ∧ (s'.at j).roundBias = rb := by
    unfold Slide.at; split
    · exact ⟨g4, hbias⟩
    · split <;> exact ⟨g4, hbias⟩
  have hget : (s'.at j).get = .ok (((s'.at j).value + rb) / 2 ^ s.valueShift) := by
    unfold Slide.get
    have hb2 := (Slide.at_between (s := s') (fun _ => g8) j).1
    have he := hinv.end_between
    rw [if_neg hst] at hb2
    unfold Between at hb2
    rw [hshift.2, i32_ok (by omega) (by omega), hshift.1]
    rfl
  refine ⟨_, _, hticks, hget, ?_, ?_⟩
  · have ediv1 : ∀ a : Int, (a * 2 ^ s.valueShift + rb) / 2 ^ s.valueShift = a := by
      intro a
      rw [Int.add_comm, Int.add_mul_ediv_right _ _ (by omega), Int.ediv_eq_zero_of_lt e2 hlt]
      omega
    unfold Between at hb ⊢
    rcases hb with ⟨b1, b2⟩ | ⟨b1, b2⟩
    · left
      constructor
      · rw [← ediv1 S]; exact Int.ediv_le_ediv (by omega) (by omega)
      · rw [← ediv1 v]; exact Int.ediv_le_ediv (by omega) (by omega)
    · right
      constructor
      · rw [← ediv1 v]; exact Int.ediv_le_ediv (by omega) (by omega)
      · rw [← ediv1 S]; exact Int.ediv_le_ediv (by omega) (by omega)
  · intro hj
    have : (s'.at j).value = v * 2 ^ s.valueShift := by
      unfold Slide.at
      rw [if_neg hst, if_neg (by omega), ← g2]
    rw [this, Int.add_comm, Int.add_mul_ediv_right _ _ (by omega), Int.ediv_eq_zero_of_lt e2 hlt]
    omega

/-- C16 for slides.  Partial: the step count must be below the documented maximum `2^23` and
the value range must fit (see the two refutations). -/
theorem C16_slide_partial {M lo hi : Int} (hr : SlideRange (maxValueShift M) lo hi)
    (h0 : lo ≤ 0 ∧ 0 ≤ hi) {ops : List SlideOp} (hops : ∀ op ∈ ops, op.Wf lo hi) :
    ∃ s, (Slide.init M).run ops = .ok s ∧ s.Inv lo hi := by
  have hP := two_pow_pos (maxValueShift M)
  have hinit : (Slide.init M).Inv lo hi := by
    refine ⟨hr, ?_, ⟨0, h0.1, h0.2, by simp [Slide.init]⟩, by simp [Slide.init], by simp [Slide.init],
      by simp [Slide.init]⟩
    simp only [Slide.init]
    constructor <;> nlinarith
  have key : ∀ (ops : List SlideOp) (s : Slide), s.Inv lo hi → (∀ op ∈ ops, op.Wf lo hi) →
      ∃ s', s.run ops = .ok s' ∧ s'.Inv lo hi := by
    intro ops
    induction ops with
    | nil => intro s hs _; exact ⟨s, rfl, hs⟩
    | cons op ops ih =>
      intro s hs ho
      obtain ⟨s', e, hs', _⟩ := hs.step1 (ho op (by simp))
      obtain ⟨s'', e2, h2⟩ := ih s' hs' (fun o h => ho o (by simp [h]))
      refine ⟨s'', ?_, h2⟩
      unfold Slide.run
      rw [e, ok_bind, e2]
  exact key ops _ hinit hops

/-- C15.  Partial: for every state reached by legal calls in which the value is a whole number
`S`, holds for rising slides, and for falling slides of at least 256 raw units (1/128 of a
volume unit) per step.  Missing are slower falling slides, see `C15_refuted`. -/
theorem C15_report_partial {M lo hi : Int} (hr : SlideRange (maxValueShift M) lo hi)
    (h0 : lo ≤ 0 ∧ 0 ≤ hi) {ops : List SlideOp} (hops : ∀ op ∈ ops, op.Wf lo hi) {s : Slide}
    (hrun : (Slide.init M).run ops = .ok s) {S v n : Int}
    (hS : Represents s.valueShift s.value S) (h1 : lo ≤ v) (h2 : v ≤ hi) (hn : 0 < n)
    (hn2 : n < 8388608) (hdir : S ≤ v ∨ 256 * n ≤ (S - v) * 2 ^ s.valueShift) :
    ∃ s', s.setValueAndSteps v n = .ok s' ∧ ∀ j : Nat, ∃ t r, s'.ticks j = .ok t ∧
      t.get = .ok r ∧ Between S v r ∧ (n ≤ j → r = v) := by
  obtain ⟨s1, e, hinv⟩ := C16_slide_partial hr h0 hops
  rw [hrun] at e
  cases e
  exact report_of_inv hinv hS h1 h2 hn hn2 hdir

/-- A falling volume slide covered by it: 20000 down to 100 in 500 ticks. -/
example : ∃ s, (Slide.init 32767).run [.set 20000 0] = .ok s ∧
    Represents s.valueShift s.value 20000 ∧ 256 * 500 ≤ (20000 - 100) * 2 ^ s.valueShift := by
  refine ⟨{ Slide.init 32767 with value := 655360000, endValue := 655360000 }, ?_⟩
  unfold Represents
  decide +kernel

/-- C16: the documented value range fits for every declared maximum that is not a power of
two; this includes volume and panning (32767). -/
theorem C16_documented_range {M : Int} (h0 : 0 < M) (hM : M ≤ 1073741824)
    (hp : ∀ k : Nat, M ≠ 2 ^ k) : SlideRange (maxValueShift M) (-M) M := by
  obtain ⟨h1, h2, _⟩ := maxValueShift_spec h0 hM
  refine ⟨by omega, by rw [Int.neg_mul]; omega, h2, ?_, h1⟩
  have hne : M * 2 ^ maxValueShift M ≠ 1073741824 := by
    intro he
    have e : (2 : Int) ^ (30 - maxValueShift M) * 2 ^ maxValueShift M = 1073741824 := by
      rw [← Int.pow_add]
      have : 30 - maxValueShift M + maxValueShift M = 30 := by omega
      rw [this]; decide +kernel
    have := Int.eq_of_mul_eq_mul_right (by have := two_pow_pos (maxValueShift M); omega)
      (he.trans e.symm)
    exact hp _ this
  have : (M - -M) * 2 ^ maxValueShift M = 2 * (M * 2 ^ maxValueShift M) := by ring
  omega

/-- C16: and a non-negative range fits for every maximum (used for step counts). -/
theorem C16_positive_range {M : Int} (h0 : 0 < M) (hM : M ≤ 1073741824) :
    SlideRange (maxValueShift M) 0 M := by
  obtain ⟨h1, h2, _⟩ := maxValueShift_spec h0 hM
  exact ⟨by omega, by omega, h2, by simp only [Int.sub_zero]; omega, h1⟩

example : SlideRange (maxValueShift 32767) (-32767) 32767 ∧
    ∀ op ∈ [SlideOp.set 32767 1000, .tick, .get, .setValue (-32767), .tick, .setSteps 3, .halt false],
      op.Wf (-32767) 32767 := by
  refine ⟨⟨?_, ?_, ?_, ?_, ?_⟩, ?_⟩
  all_goals first | decide +kernel | simp [SlideOp.Wf]

/-- C16 fails for the documented maximum of steps. -/
theorem C16_steps_refuted :
    (Slide.init 32767).run [.set 1 8388608] = .error .overflow := by decide +kernel

/-- C16 fails for a declared maximum that is a power of two: sliding from `-4` to `4`. -/
theorem C16_range_refuted :
    (Slide.init 4).run [.set (-4) 0, .set 4 1] = .error .overflow := by decide +kernel

/-- C16 fails for a negative declared maximum, although the documentation allows it: `-5`
itself does not fit. -/
theorem C16_negative_refuted :
    (Slide.init (-5)).run [.set (-5) 0] = .error .overflow := by decide +kernel

end BK
