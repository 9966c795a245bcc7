import Verif.Spec.Interp
import Mathlib.Tactic.Linarith
import Mathlib.Tactic.Ring
/-! Lemmas on slides and oscillators. -/
namespace BK

theorem tdiv_nonneg {x s : Int} (hs : 0 < s) (hx : 0 ≤ x) :
    0 ≤ x.tdiv s ∧ x.tdiv s * s ≤ x ∧ x < x.tdiv s * s + s := by
  rw [Int.tdiv_eq_ediv_of_nonneg hx]
  refine ⟨Int.ediv_nonneg hx hs.le, Int.ediv_mul_le _ (by omega), ?_⟩
  have := Int.lt_ediv_add_one_mul_self x hs
  linarith

theorem tdiv_nonpos {x s : Int} (hs : 0 < s) (hx : x ≤ 0) :
    x.tdiv s ≤ 0 ∧ x ≤ x.tdiv s * s ∧ x.tdiv s * s - s < x := by
  have h := tdiv_nonneg hs (x := -x) (by omega)
  rw [Int.neg_tdiv] at h
  refine ⟨by linarith, by linarith, by linarith⟩

theorem two_pow_pos (k : Nat) : (1 : Int) ≤ 2 ^ k := by
  have := Int.pow_pos (n := 2) (m := k) (by omega)
  omega

theorem two_pow_le_30 {k : Nat} (h : k ≤ 30) : (2 : Int) ^ k ≤ 1073741824 := by
  have : (2 : Int) ^ k ≤ 2 ^ 30 := pow_le_pow_right₀ (by omega) h
  have e : (2 : Int) ^ 30 = 1073741824 := by decide +kernel
  omega

/-- The rounding bias never overflows and is non-negative.  It is below one unit, as
intended, for rising values and for falling values of at least 256 raw units per step. -/
theorem roundBias_full {delta steps : Int} {k : Nat} (hk : k ≤ 30)
    (hd : -2147483648 ≤ delta ∧ delta ≤ 2147483647) (hs : 0 < steps) (hs2 : steps < 8388608) :
    ∃ rb, roundBiasOf delta steps (delta.tdiv steps) k = .ok rb ∧ 0 ≤ rb ∧ rb ≤ 1073741823 ∧
      (0 ≤ delta → rb < 2 ^ k) ∧ (delta.tdiv steps ≤ -256 → rb < 2 ^ k) ∧
      (rb < 2 ^ k ∨ rb ≤ 128 * steps) := by
  unfold roundBiasOf
  have hP := two_pow_pos k
  have hP2 := two_pow_le_30 hk
  generalize (2 : Int) ^ k = P at *
  by_cases h0 : delta / P = 0
  · rw [if_neg (by simp [h0])]
    exact ⟨0, rfl, by omega, by omega, fun _ => by omega, fun _ => by omega, .inl (by omega)⟩
  rw [if_pos h0, i32_ok (by omega) (by omega), ok_bind]
  have f1 : delta / P * P ≤ delta := Int.ediv_mul_le _ (by omega)
  have f2 : delta < (delta / P + 1) * P := Int.lt_ediv_add_one_mul_self delta (by omega)
  generalize hD : delta / P = D at *
  generalize hsd : delta.tdiv steps = sd at *
  rcases Int.lt_or_lt_of_ne h0 with hneg | hpos
  · -- falling
    have hdneg : delta < 0 := by nlinarith
    obtain ⟨E, rfl⟩ : ∃ E, D = -E := ⟨-D, by omega⟩
    have hE : 0 < E := by omega
    have t := tdiv_nonpos hs (x := delta) (by omega)
    rw [hsd] at t
    obtain ⟨m, rfl⟩ : ∃ m, sd = -m := ⟨-sd, by omega⟩
    have ta := tdiv_nonneg hE (x := steps * 256) (by omega)
    rw [Int.tdiv_neg]
    generalize (steps * 256).tdiv E = A at *
    have tb := tdiv_nonneg (s := 2) (x := A) (by omega) ta.1
    rw [Int.neg_tdiv]
    generalize A.tdiv 2 = a at *
    obtain ⟨c, hc⟩ : ∃ c, -m / 256 = -c := ⟨-(-m / 256), by omega⟩
    rw [hc]
    have hc1 : 256 * c ≤ m + 255 := by omega
    have hc0 : 0 ≤ c := by omega
    have h2 : 2 * (E * a) ≤ 256 * steps := by
      have := Int.mul_le_mul_of_nonneg_left tb.2.1 hE.le
      linarith
    have hEa : 0 ≤ E * a := Int.mul_nonneg (by omega) tb.1
    have hms : m * steps ≤ -delta := by linarith
    have hDel : -delta ≤ E * P := by linarith
    have e : -a * -c = a * c := by ring
    rw [e]
    have hrb0 : 0 ≤ a * c := Int.mul_nonneg tb.1 hc0
    have key : 512 * (E * (a * c)) ≤ 256 * (steps * (m + 255)) := by
      have h3 : 2 * (E * a) * (256 * c) ≤ 256 * steps * (m + 255) :=
        le_trans (Int.mul_le_mul_of_nonneg_left hc1 (by omega))
          (Int.mul_le_mul_of_nonneg_right h2 (by omega))
      linarith
    by_cases hm : 256 ≤ m
    · have hm2 : steps * 256 ≤ steps * m := Int.mul_le_mul_of_nonneg_left hm hs.le
      have hlt : E * (a * c) < E * P := by linarith
      have hrb : a * c < P := lt_of_mul_lt_mul_left hlt (by omega)
      rw [i32_ok (by omega) (by omega)]
      exact ⟨_, rfl, hrb0, by omega, fun h => by omega, fun _ => hrb, .inl hrb⟩
    · have hc1 : c ≤ 1 := by omega
      have hEa2 : a ≤ E * a := by
        have := Int.mul_le_mul_of_nonneg_right (show 1 ≤ E by omega) tb.1
        linarith
      have ha : a ≤ 128 * steps := by linarith
      have hac : a * c ≤ a := by
        have := Int.mul_le_mul_of_nonneg_left hc1 tb.1
        linarith
      rw [i32_ok (by omega) (by omega)]
      exact ⟨_, rfl, hrb0, by omega, fun h => by omega, fun h => by omega, .inr (by omega)⟩
  · -- rising
    have hdpos : 0 < delta := by nlinarith
    have t := tdiv_nonneg hs (x := delta) (by omega)
    rw [hsd] at t
    have ta := tdiv_nonneg hpos (x := steps * 256) (by omega)
    generalize (steps * 256).tdiv D = A at *
    have tb := tdiv_nonneg (s := 2) (x := A) (by omega) ta.1
    generalize A.tdiv 2 = a at *
    have hc1 : 256 * (sd / 256) ≤ sd := by omega
    have hc0 : 0 ≤ sd / 256 := by omega
    generalize sd / 256 = c at *
    have h2 : 2 * (D * a) ≤ 256 * steps := by
      have := Int.mul_le_mul_of_nonneg_left tb.2.1 hpos.le
      linarith
    have hDa : 0 ≤ D * a := Int.mul_nonneg (by omega) tb.1
    have hrb0 : 0 ≤ a * c := Int.mul_nonneg tb.1 hc0
    have key : 2 * (D * (a * c)) ≤ delta := by
      have h3 : 2 * (D * a) * (256 * c) ≤ 256 * steps * sd :=
        le_trans (Int.mul_le_mul_of_nonneg_left hc1 (by omega))
          (Int.mul_le_mul_of_nonneg_right h2 (by omega))
      linarith
    have hDP : P ≤ D * P := by
      have := Int.mul_le_mul_of_nonneg_right (show 1 ≤ D by omega) (show 0 ≤ P by omega)
      linarith
    have hlt : D * (a * c) < D * P := by linarith
    have hrb : a * c < P := lt_of_mul_lt_mul_left hlt (by omega)
    rw [i32_ok (by omega) (by omega)]
    exact ⟨_, rfl, hrb0, by omega, fun _ => hrb, fun _ => hrb, .inl hrb⟩

theorem roundBias_ok {delta steps : Int} {k : Nat} (hk : k ≤ 30)
    (hd : -2147483648 ≤ delta ∧ delta ≤ 2147483647) (hs : 0 < steps) (hs2 : steps < 8388608) :
    ∃ rb, roundBiasOf delta steps (delta.tdiv steps) k = .ok rb ∧ 0 ≤ rb ∧ rb ≤ 1073741823 ∧
      (0 ≤ delta → rb < 2 ^ k) ∧ (delta.tdiv steps ≤ -256 → rb < 2 ^ k) := by
  obtain ⟨rb, h1, h2, h3, h4, h5, -⟩ := roundBias_full hk hd hs hs2
  exact ⟨rb, h1, h2, h3, h4, h5⟩

/-- Remaining steps of a slide lead from the value towards the end value. -/
def Slide.Path (s : Slide) : Prop :=
  (0 ≤ s.stepDelta ∧ s.stepDelta * s.step ≤ s.endValue - s.value) ∨
  (s.stepDelta ≤ 0 ∧ s.endValue - s.value ≤ s.stepDelta * s.step)

/-- Closed form of `j` steps. -/
def Slide.at (s : Slide) (j : Nat) : Slide :=
  if s.step ≤ 0 then s
  else if (j : Int) < s.step then
    { s with value := s.value + j * s.stepDelta, step := s.step - j }
  else { s with value := s.endValue, step := 0 }

theorem Slide.tick_at {s : Slide} (hv : InI32 s.value) (he : InI32 s.endValue)
    (hp : 0 < s.step → s.Path) : s.tick = .ok (s.at 1) := by
  unfold Slide.tick Slide.at
  by_cases h : s.step > 0
  · have hp := hp h
    unfold Slide.Path at hp
    unfold InI32 at *
    have hin : -2147483648 ≤ s.value + s.stepDelta ∧ s.value + s.stepDelta ≤ 2147483647 := by
      rcases hp with ⟨h1, h2⟩ | ⟨h1, h2⟩
      · constructor <;> nlinarith
      · constructor <;> nlinarith
    rw [if_pos h, if_neg (by omega), i32_ok hin.1 hin.2, ok_bind]
    by_cases h1 : s.step - 1 ≤ 0
    · have e : s.step = 1 := by omega
      rw [if_pos h1, if_neg (by omega)]
      simp only [e, pure_eq_ok]
      rfl
    · rw [if_neg h1, if_pos (by omega)]
      simp
  · rw [if_neg h, if_pos (by omega)]
    rfl

theorem Slide.at_path {s : Slide} (hv : InI32 s.value) (he : InI32 s.endValue)
    (hp : 0 < s.step → s.Path) : InI32 (s.at 1).value ∧ (0 < (s.at 1).step → (s.at 1).Path) := by
  unfold Slide.at
  split
  · exact ⟨hv, hp⟩
  · split
    · rename_i h1 h2
      have hp := hp (by omega)
      unfold Slide.Path at *
      unfold InI32 at *
      simp only
      rcases hp with ⟨g1, g2⟩ | ⟨g1, g2⟩
      · refine ⟨⟨by nlinarith, by nlinarith⟩, fun _ => .inl ⟨g1, ?_⟩⟩
        push_cast; nlinarith
      · refine ⟨⟨by nlinarith, by nlinarith⟩, fun _ => .inr ⟨g1, ?_⟩⟩
        push_cast; nlinarith
    · simp only
      exact ⟨he, fun h => by omega⟩

theorem Slide.at_at (s : Slide) (j : Nat) : (s.at 1).at j = s.at (j + 1) := by
  unfold Slide.at
  by_cases h : s.step ≤ 0
  · simp [h]
  · simp only [h, if_false]
    by_cases h1 : ((1 : Nat) : Int) < s.step
    · simp only [h1, if_true]
      have : ¬ s.step - ((1 : Nat) : Int) ≤ 0 := by omega
      simp only [this, if_false]
      by_cases h2 : ((j + 1 : Nat) : Int) < s.step
      · have : (j : Int) < s.step - ((1 : Nat) : Int) := by omega
        simp only [h2, this, if_true]
        congr 1
        · push_cast; ring
        · push_cast; ring
      · have : ¬ (j : Int) < s.step - ((1 : Nat) : Int) := by omega
        simp only [h2, this, if_false]
    · have : ¬ ((j + 1 : Nat) : Int) < s.step := by omega
      simp only [h1, this, if_false]
      rw [if_pos (by omega)]

theorem Slide.ticks_at (j : Nat) : ∀ {s : Slide}, InI32 s.value → InI32 s.endValue →
    (0 < s.step → s.Path) → s.ticks j = .ok (s.at j) := by
  induction j with
  | zero =>
    intro s _ _ _
    unfold Slide.ticks Slide.at
    split
    · rfl
    · rw [if_pos (by omega)]; simp
  | succ j ih =>
    intro s hv he hp
    unfold Slide.ticks
    rw [Slide.tick_at hv he hp, ok_bind]
    have h := Slide.at_path hv he hp
    have he' : (s.at 1).endValue = s.endValue := by
      unfold Slide.at; split
      · rfl
      · split <;> rfl
    rw [ih h.1 (by rw [he']; exact he) h.2, Slide.at_at]

/-- A target set with a non-zero number of steps. -/
theorem Slide.set_steps {s s' : Slide} {v n : Int} (hn : 0 < n)
    (h : s.setValueAndSteps v n = .ok s') :
    InI32 s'.endValue ∧ s'.endValue = v * 2 ^ s.valueShift ∧ s'.value = s.value ∧
    s'.valueShift = s.valueShift ∧ s'.step = min n 8388608 ∧ s'.steps = min n 8388608 ∧
    s'.stepDelta = (s'.endValue - s.value).tdiv (min n 8388608) ∧ s'.Path ∧
    roundBiasOf (s'.endValue - s.value) s'.steps s'.stepDelta s.valueShift = .ok s'.roundBias := by
  unfold Slide.setValueAndSteps at h
  have ec : cclamp n 0 8388608 = min n 8388608 := by unfold cclamp; split <;> try split <;> omega
                                                     omega
  simp only [ec] at h
  rw [if_pos (by omega)] at h
  obtain ⟨e, he, h⟩ := bind_ok_iff.mp h
  obtain ⟨d, hd, h⟩ := bind_ok_iff.mp h
  obtain ⟨rb, hrb, h⟩ := bind_ok_iff.mp h
  obtain ⟨he1, rfl⟩ := i32_eq_ok_iff.mp he
  obtain ⟨hd1, rfl⟩ := i32_eq_ok_iff.mp hd
  cases h
  refine ⟨he1, rfl, rfl, rfl, rfl, rfl, rfl, ?_, hrb⟩
  unfold Slide.Path
  simp only
  have hpos : 0 < min n 8388608 := by omega
  by_cases h0 : 0 ≤ v * 2 ^ s.valueShift - s.value
  · have := tdiv_nonneg hpos h0
    exact .inl ⟨this.1, this.2.1⟩
  · have := tdiv_nonpos hpos (x := v * 2 ^ s.valueShift - s.value) (by omega)
    exact .inr ⟨this.1, this.2.1⟩

theorem Slide.set_zero {s s' : Slide} {v n : Int} (hn : n ≤ 0)
    (h : s.setValueAndSteps v n = .ok s') :
    s' = { s with value := v * 2 ^ s.valueShift, endValue := v * 2 ^ s.valueShift,
                  steps := 0, stepDelta := 0, step := 0 } := by
  unfold Slide.setValueAndSteps at h
  have ec : cclamp n 0 8388608 = 0 := by
    unfold cclamp; split
    · rfl
    · split <;> omega
  simp only [ec] at h
  rw [if_neg (by simp)] at h
  obtain ⟨e, he, h⟩ := bind_ok_iff.mp h
  obtain ⟨_, rfl⟩ := i32_eq_ok_iff.mp he
  cases h
  rfl

/-- Values on the way lie between the value and the end value. -/
theorem Slide.at_between {s : Slide} (hp : 0 < s.step → s.Path) (j : Nat) :
    Between s.value (if s.step ≤ 0 then s.value else s.endValue) (s.at j).value ∧
    ∀ k, j ≤ k → Between (s.at j).value (if s.step ≤ 0 then s.value else s.endValue)
      (s.at k).value := by
  have key : ∀ j k : Nat, j ≤ k → Between (s.at j).value
      (if s.step ≤ 0 then s.value else s.endValue) (s.at k).value := by
    intro j k hjk
    unfold Slide.at Between
    by_cases h : s.step ≤ 0
    · simp [h]
    · have hp := hp (by omega)
      unfold Slide.Path at hp
      simp only [h, if_false]
      have hjk' : (j : Int) ≤ k := by omega
      have hj0 : (0 : Int) ≤ j := by omega
      by_cases h1 : (j : Int) < s.step <;> by_cases h2 : (k : Int) < s.step <;>
        simp only [h1, h2, if_true, if_false]
      · rcases hp with ⟨g1, g2⟩ | ⟨g1, g2⟩
        · left; constructor <;> nlinarith
        · right; constructor <;> nlinarith
      · rcases hp with ⟨g1, g2⟩ | ⟨g1, g2⟩
        · left; constructor <;> nlinarith
        · right; constructor <;> nlinarith
      · omega
      · left; omega
  refine ⟨?_, key j⟩
  have h0 := key 0 j (by omega)
  have e : (s.at 0).value = s.value := by
    unfold Slide.at; split
    · rfl
    · rw [if_pos (by omega)]; simp
  rw [e] at h0
  exact h0

/-- Invariant of a slide used with values in `lo..hi`. -/
structure Slide.Inv (lo hi : Int) (s : Slide) : Prop where
  range : SlideRange s.valueShift lo hi
  value : lo * 2 ^ s.valueShift ≤ s.value ∧ s.value ≤ hi * 2 ^ s.valueShift
  target : ∃ T, lo ≤ T ∧ T ≤ hi ∧ s.endValue = T * 2 ^ s.valueShift
  bias : 0 ≤ s.roundBias ∧ s.roundBias ≤ 1073741823
  steps : 0 ≤ s.steps ∧ s.steps < 8388608
  path : 0 < s.step → s.Path

theorem Slide.Inv.end_between {lo hi : Int} {s : Slide} (h : s.Inv lo hi) :
    lo * 2 ^ s.valueShift ≤ s.endValue ∧ s.endValue ≤ hi * 2 ^ s.valueShift := by
  obtain ⟨T, h1, h2, h3⟩ := h.target
  have := two_pow_pos s.valueShift
  rw [h3]
  exact ⟨Int.mul_le_mul_of_nonneg_right h1 (by omega), Int.mul_le_mul_of_nonneg_right h2 (by omega)⟩

theorem Slide.Inv.tick {lo hi : Int} {s : Slide} (h : s.Inv lo hi) :
    ∃ s', s.tick = .ok s' ∧ s'.Inv lo hi ∧ s'.valueShift = s.valueShift := by
  have hr := h.range
  have hv := h.value
  have he := h.end_between
  have h1 := hr.low
  have h2 := hr.high
  have iv : InI32 s.value := by unfold InI32; omega
  have ie : InI32 s.endValue := by unfold InI32; omega
  refine ⟨_, Slide.tick_at iv ie h.path, ?_, ?_⟩
  · have hb := (Slide.at_between h.path 1).1
    have hp := Slide.at_path iv ie h.path
    have e1 : (s.at 1).valueShift = s.valueShift ∧ (s.at 1).endValue = s.endValue ∧
        (s.at 1).roundBias = s.roundBias ∧ (s.at 1).steps = s.steps := by
      unfold Slide.at; split
      · simp
      · split <;> simp
    obtain ⟨e1, e2, e3, e4⟩ := e1
    refine ⟨by rw [e1]; exact hr, ?_, by rw [e1, e2]; exact h.target, by rw [e3]; exact h.bias,
      by rw [e4]; exact h.steps, hp.2⟩
    rw [e1]
    unfold Between at hb
    split at hb <;> omega
  · unfold Slide.at; split
    · rfl
    · split <;> rfl

theorem Slide.Inv.set {lo hi : Int} {s : Slide} (h : s.Inv lo hi) {v n : Int}
    (h1 : lo ≤ v) (h2 : v ≤ hi) (h3 : n < 8388608) :
    ∃ s', s.setValueAndSteps v n = .ok s' ∧ s'.Inv lo hi ∧ s'.valueShift = s.valueShift := by
  have hr := h.range
  have hv := h.value
  have a1 := hr.low
  have a2 := hr.high
  have a3 := hr.width
  have hP := two_pow_pos s.valueShift
  have b1 : lo * 2 ^ s.valueShift ≤ v * 2 ^ s.valueShift :=
    Int.mul_le_mul_of_nonneg_right h1 (by omega)
  have b2 : v * 2 ^ s.valueShift ≤ hi * 2 ^ s.valueShift :=
    Int.mul_le_mul_of_nonneg_right h2 (by omega)
  have a3' : hi * 2 ^ s.valueShift - lo * 2 ^ s.valueShift ≤ 2147483647 := by
    rw [← Int.sub_mul]; exact a3
  have he1 : i32 (v * 2 ^ s.valueShift) = .ok (v * 2 ^ s.valueShift) := i32_ok (by omega) (by omega)
  by_cases hn : n ≤ 0
  · have ec : cclamp n 0 8388608 = 0 := by
      unfold cclamp; split
      · rfl
      · split <;> omega
    have hres : s.setValueAndSteps v n = .ok
        { s with value := v * 2 ^ s.valueShift, endValue := v * 2 ^ s.valueShift,
                 steps := 0, stepDelta := 0, step := 0 } := by
      unfold Slide.setValueAndSteps
      simp only [ec]
      rw [if_neg (by simp), he1]
      rfl
    refine ⟨_, hres, ⟨hr, ⟨b1, b2⟩, ⟨v, h1, h2, rfl⟩, h.bias, by simp, ?_⟩, rfl⟩
    simp
  · have ec : cclamp n 0 8388608 = n := by
      unfold cclamp; split
      · omega
      · split <;> omega
    obtain ⟨rb, hrb, r1, r2, _, _⟩ := roundBias_ok (delta := v * 2 ^ s.valueShift - s.value) (steps := n)
      hr.shift (by omega) (by omega) (by omega)
    have hres : s.setValueAndSteps v n = .ok
        { s with endValue := v * 2 ^ s.valueShift,
                  stepDelta := (v * 2 ^ s.valueShift - s.value).tdiv n, steps := n, step := n,
                  roundBias := rb } := by
      unfold Slide.setValueAndSteps
      simp only [ec]
      rw [if_pos (by omega), he1, ok_bind, i32_ok (by omega) (by omega), ok_bind, hrb]
      rfl
    have hp := (Slide.set_steps (by omega) hres).2.2.2.2.2.2.2.1
    exact ⟨_, hres, ⟨hr, hv, ⟨v, h1, h2, rfl⟩, ⟨r1, r2⟩, by simp only; omega, fun _ => hp⟩, rfl⟩

theorem Slide.Inv.get {lo hi : Int} {s : Slide} (h : s.Inv lo hi) :
    s.get = .ok ((s.value + s.roundBias) / 2 ^ s.valueShift) := by
  have hr := h.range
  have hv := h.value
  have a1 := hr.low
  have a2 := hr.high
  have b := h.bias
  unfold Slide.get
  rw [i32_ok (by omega) (by omega)]
  rfl

theorem mul_pow_ediv (T : Int) (k : Nat) : T * 2 ^ k / 2 ^ k = T :=
  Int.mul_ediv_cancel _ (by have := two_pow_pos k; omega)

theorem Slide.Inv.step1 {lo hi : Int} {s : Slide} (h : s.Inv lo hi) {op : SlideOp}
    (hop : op.Wf lo hi) : ∃ s', s.step1 op = .ok s' ∧ s'.Inv lo hi ∧ s'.valueShift = s.valueShift := by
  cases op with
  | set v n => exact h.set hop.1 hop.2.1 hop.2.2
  | setValue v => exact h.set hop.1 hop.2 h.steps.2
  | setSteps n =>
    obtain ⟨T, h1, h2, h3⟩ := h.target
    simp only [Slide.step1, Slide.setSteps]
    rw [h3, mul_pow_ediv]
    exact h.set h1 h2 hop
  | halt b =>
    refine ⟨_, rfl, ?_, ?_⟩
    · unfold Slide.halt
      cases b
      · exact ⟨h.range, h.value, h.target, h.bias, h.steps, by simp⟩
      · exact ⟨h.range, h.end_between, h.target, h.bias, h.steps, by simp⟩
    · unfold Slide.halt; cases b <;> rfl
  | tick => exact h.tick
  | get =>
    refine ⟨s, ?_, h, rfl⟩
    simp only [Slide.step1]
    rw [h.get]
    rfl

theorem shiftLoop_spec {M : Int} (hM : M ≤ 1073741824) (fuel shift : Nat) (h : shift + fuel = 30)
    (hlow : shift = 0 ∨ (2 : Int) ^ (shift - 1) < M) :
    shiftLoop M fuel shift ≤ 30 ∧ M ≤ 2 ^ shiftLoop M fuel shift ∧
    (shiftLoop M fuel shift = 0 ∨ (2 : Int) ^ (shiftLoop M fuel shift - 1) < M) := by
  induction fuel generalizing shift with
  | zero =>
    have : shift = 30 := by omega
    subst this
    unfold shiftLoop
    have e : (2 : Int) ^ 30 = 1073741824 := by decide +kernel
    exact ⟨by omega, by omega, hlow⟩
  | succ n ih =>
    unfold shiftLoop
    split
    · exact ih (shift + 1) (by omega) (.inr (by simpa using ‹_›))
    · exact ⟨by omega, by omega, hlow⟩

/-- The shift chosen at initialisation leaves 30 bits for the declared maximum. -/
theorem maxValueShift_spec {M : Int} (h0 : 0 < M) (hM : M ≤ 1073741824) :
    maxValueShift M ≤ 30 ∧ M * 2 ^ maxValueShift M ≤ 1073741824 ∧
    1073741824 < 2 * (M * 2 ^ maxValueShift M) := by
  unfold maxValueShift
  rw [if_pos (by omega)]
  obtain ⟨h1, h2, h3⟩ := shiftLoop_spec hM 30 0 (by omega) (.inl rfl)
  generalize shiftLoop M 30 0 = k at *
  have e : (2 : Int) ^ 30 = 1073741824 := by decide +kernel
  have e2 : (2 : Int) ^ k * 2 ^ (30 - k) = 1073741824 := by
    rw [← Int.pow_add, ← e]; congr 1; omega
  have hp := two_pow_pos (30 - k)
  refine ⟨by omega, by nlinarith, ?_⟩
  rcases h3 with h3 | h3
  · subst h3
    simp only [Nat.sub_zero] at *
    omega
  · have e3 : (2 : Int) ^ k = 2 ^ (k - 1) * 2 := by
      by_cases hk : k = 0
      · subst hk; simp at h2 h3; omega
      · rw [← Int.pow_succ]; congr 1; omega
    nlinarith

theorem maxValueShift_zero : maxValueShift 0 = 0 := rfl

end BK
