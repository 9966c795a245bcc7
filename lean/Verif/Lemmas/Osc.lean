import Verif.Lemmas.Interp
/-! Lemmas on the oscillator. -/
namespace BK

/-- Increment per tick while rising. -/
def Osc.inc (s : Osc) : Int := s.delta.tdiv s.steps

/-- Invariant of an oscillator with amplitudes up to `m`. -/
structure Osc.Inv (m : Int) (s : Osc) : Prop where
  shift : s.valueShift ≤ 30
  range : m * 2 ^ s.valueShift ≤ 1073741824
  delta : ∃ D, -m ≤ D ∧ D ≤ m ∧ s.delta = D * 2 ^ s.valueShift
  steps : 0 ≤ s.steps ∧ s.steps < 8388608
  phase : s.phase < 4
  bias : 0 ≤ s.roundBias ∧ s.roundBias ≤ 1073741823
  off : s.steps = 0 → s.value = 0 ∧ s.delta = 0 ∧ s.phase = 0 ∧ s.step = 0
  step : s.steps ≠ 0 → 0 ≤ s.step ∧ s.step < s.steps
  dir : s.steps ≠ 0 → s.stepDelta = if s.phase = 0 ∨ s.phase = 3 then s.inc else -s.inc
  value : s.steps ≠ 0 →
    (s.phase = 0 → s.value = s.inc * s.step) ∧
    (s.phase = 1 → s.value = s.delta - s.inc * s.step ∨ s.value = s.inc * (s.steps - s.step)) ∧
    (s.phase = 2 → s.value = -(s.inc * s.step)) ∧
    (s.phase = 3 → s.value = -s.delta + s.inc * s.step ∨ s.value = -(s.inc * (s.steps - s.step)))

/-- Multiples of the increment stay within the amplitude. -/
theorem inc_between {d n j : Int} (hn : 0 < n) (h0 : 0 ≤ j) (hj : j ≤ n) :
    (0 ≤ d → 0 ≤ d.tdiv n * j ∧ d.tdiv n * j ≤ d) ∧ (d ≤ 0 → d ≤ d.tdiv n * j ∧ d.tdiv n * j ≤ 0) := by
  constructor
  · intro hd
    have t := tdiv_nonneg hn hd
    generalize d.tdiv n = i at *
    constructor
    · exact Int.mul_nonneg t.1 h0
    · have := Int.mul_le_mul_of_nonneg_left hj t.1
      linarith
  · intro hd
    have t := tdiv_nonpos hn hd
    generalize d.tdiv n = i at *
    constructor
    · have := Int.mul_le_mul_of_nonneg_left hj (show 0 ≤ -i by omega)
      linarith
    · have := Int.mul_nonneg (show 0 ≤ -i by omega) h0
      linarith

theorem Osc.Inv.delta_bound {m : Int} {s : Osc} (h : s.Inv m) :
    -(m * 2 ^ s.valueShift) ≤ s.delta ∧ s.delta ≤ m * 2 ^ s.valueShift := by
  obtain ⟨D, h1, h2, h3⟩ := h.delta
  have hP := two_pow_pos s.valueShift
  rw [h3]
  constructor
  · rw [← Int.neg_mul]; exact Int.mul_le_mul_of_nonneg_right h1 (by omega)
  · exact Int.mul_le_mul_of_nonneg_right h2 (by omega)

/-- The value never exceeds the amplitude. -/
theorem Osc.Inv.value_bound {m : Int} {s : Osc} (h : s.Inv m) :
    (0 ≤ s.delta → -s.delta ≤ s.value ∧ s.value ≤ s.delta) ∧
    (s.delta ≤ 0 → s.delta ≤ s.value ∧ s.value ≤ -s.delta) := by
  by_cases h0 : s.steps = 0
  · obtain ⟨h1, h2, _⟩ := h.off h0
    rw [h1, h2]; simp
  · have hn : 0 < s.steps := by have := h.steps; omega
    have hs := h.step h0
    obtain ⟨v0, v1, v2, v3⟩ := h.value h0
    have hp := h.phase
    have b1 := inc_between (d := s.delta) hn hs.1 (by omega)
    have b2 := inc_between (d := s.delta) hn (j := s.steps - s.step) (by omega) (by omega)
    unfold Osc.inc at *
    obtain hq | hq | hq | hq : s.phase = 0 ∨ s.phase = 1 ∨ s.phase = 2 ∨ s.phase = 3 := by omega
    · have := v0 hq; constructor <;> intro hd <;> (have := b1.1; have := b1.2; omega)
    · have := v1 hq
      rcases this with e | e <;> constructor <;> intro hd <;>
        (have := b1.1; have := b1.2; have := b2.1; have := b2.2; omega)
    · have := v2 hq; constructor <;> intro hd <;> (have := b1.1; have := b1.2; omega)
    · have := v3 hq
      rcases this with e | e <;> constructor <;> intro hd <;>
        (have := b1.1; have := b1.2; have := b2.1; have := b2.2; omega)

theorem Osc.Inv.get {m : Int} {s : Osc} (h : s.Inv m) :
    s.get = .ok ((s.value + s.roundBias) / 2 ^ s.valueShift) := by
  have b := h.bias
  have d := h.delta_bound
  have v := h.value_bound
  have r := h.range
  unfold Osc.get
  have : -1073741824 ≤ s.value ∧ s.value ≤ 1073741824 := by
    by_cases hd : 0 ≤ s.delta
    · have := v.1 hd; omega
    · have := v.2 (by omega); omega
  rw [i32_ok (by omega) (by omega)]
  rfl

theorem Osc.Inv.inc_bound {m : Int} {s : Osc} (h : s.Inv m) (h0 : s.steps ≠ 0) :
    -1073741824 ≤ s.inc ∧ s.inc ≤ 1073741824 := by
  have d := h.delta_bound
  have r := h.range
  have hn : 0 < s.steps := by have := h.steps; omega
  have b := inc_between (d := s.delta) hn (j := 1) (by omega) (by omega)
  unfold Osc.inc
  rw [Int.mul_one] at b
  by_cases hd : 0 ≤ s.delta
  · have := b.1 hd; omega
  · have := b.2 (by omega); omega

theorem Osc.Inv.tick {m : Int} {s : Osc} (h : s.Inv m) :
    ∃ s', s.tick = .ok s' ∧ s'.Inv m ∧ s'.delta = s.delta ∧ s'.steps = s.steps ∧
      s'.valueShift = s.valueShift ∧ s'.roundBias = s.roundBias := by
  by_cases h0 : s.steps = 0
  · refine ⟨s, ?_, h, rfl, rfl, rfl, rfl⟩
    unfold Osc.tick
    rw [if_neg (by simp [h0])]; rfl
  · have hn : 0 < s.steps := by have := h.steps; omega
    have hs := h.step h0
    have hdir := h.dir h0
    obtain ⟨v0, v1, v2, v3⟩ := h.value h0
    have hp := h.phase
    have hi := h.inc_bound h0
    have hd := h.delta_bound
    have hr := h.range
    unfold Osc.tick
    rw [if_pos h0]
    by_cases h1 : s.step < s.steps - 1
    · have hv := h.value_bound
      have hvb : -1073741824 ≤ s.value ∧ s.value ≤ 1073741824 := by
        by_cases hd : 0 ≤ s.delta
        · have := hv.1 hd; omega
        · have := hv.2 (by omega); omega
      have hin : -2147483648 ≤ s.value + s.stepDelta ∧ s.value + s.stepDelta ≤ 2147483647 := by
        -- the next value is again a point of the wave
        have hs1 : 0 ≤ s.step + 1 ∧ s.step + 1 ≤ s.steps := by omega
        have b1 := inc_between (d := s.delta) hn hs1.1 hs1.2
        have b2 := inc_between (d := s.delta) hn (j := s.steps - (s.step + 1)) (by omega) (by omega)
        have e1 : s.inc * (s.step + 1) = s.inc * s.step + s.inc := by ring
        have e2 : s.inc * (s.steps - (s.step + 1)) = s.inc * (s.steps - s.step) - s.inc := by ring
        change (0 ≤ s.delta → 0 ≤ s.inc * _ ∧ s.inc * _ ≤ _) ∧ (_ → _ ≤ s.inc * _ ∧ s.inc * _ ≤ _) at b1 b2
        rw [e1] at b1
        rw [e2] at b2
        have b1a := b1.1
        have b1b := b1.2
        have b2a := b2.1
        have b2b := b2.2
        obtain hq | hq | hq | hq : s.phase = 0 ∨ s.phase = 1 ∨ s.phase = 2 ∨ s.phase = 3 := by omega
        · have := v0 hq; simp [hq] at hdir; omega
        · have := v1 hq; simp [hq] at hdir; omega
        · have := v2 hq; simp [hq] at hdir; omega
        · have := v3 hq; simp [hq] at hdir; omega
      rw [if_pos h1, i32_ok hin.1 hin.2, ok_bind]
      refine ⟨_, rfl, ?_, rfl, rfl, rfl, rfl⟩
      refine ⟨h.shift, hr, h.delta, h.steps, hp, h.bias, fun e => absurd e h0, fun _ => ?_, fun _ => ?_,
        fun _ => ?_⟩
      · simp only; omega
      · exact hdir
      · change (s.phase = 0 → s.value + s.stepDelta = s.inc * (s.step + 1)) ∧
          (s.phase = 1 → s.value + s.stepDelta = s.delta - s.inc * (s.step + 1) ∨
            s.value + s.stepDelta = s.inc * (s.steps - (s.step + 1))) ∧
          (s.phase = 2 → s.value + s.stepDelta = -(s.inc * (s.step + 1))) ∧
          (s.phase = 3 → s.value + s.stepDelta = -s.delta + s.inc * (s.step + 1) ∨
            s.value + s.stepDelta = -(s.inc * (s.steps - (s.step + 1))))
        have e1 : s.inc * (s.step + 1) = s.inc * s.step + s.inc := by ring
        have e2 : s.inc * (s.steps - (s.step + 1)) = s.inc * (s.steps - s.step) - s.inc := by ring
        rw [e1, e2]
        refine ⟨fun hq => ?_, fun hq => ?_, fun hq => ?_, fun hq => ?_⟩
        · have := v0 hq; simp [hq] at hdir; omega
        · have := v1 hq; simp [hq] at hdir; omega
        · have := v2 hq; simp [hq] at hdir; omega
        · have := v3 hq; simp [hq] at hdir; omega
    · rw [if_neg h1]
      obtain hq | hq | hq | hq : s.phase = 0 ∨ s.phase = 1 ∨ s.phase = 2 ∨ s.phase = 3 := by omega
      · simp only [hq, true_or, if_true] at hdir
        simp only [hq]
        norm_num
        rw [i32_ok (by omega) (by omega), ok_bind]
        refine ⟨_, rfl, ?_, rfl, rfl, rfl, rfl⟩
        refine ⟨h.shift, hr, h.delta, h.steps, by simp, h.bias, fun e => absurd e h0, fun _ => ?_,
          fun _ => ?_, fun _ => ?_⟩
        · simp only; omega
        · simp [Osc.inc, hdir]
        · simp [Osc.inc]
      · simp [hq] at hdir
        simp only [hq]
        norm_num
        refine ⟨h.shift, hr, h.delta, h.steps, by simp, h.bias, fun e => absurd e h0, fun _ => ?_,
          fun _ => ?_, fun _ => ?_⟩
        · simp only; omega
        · simp [Osc.inc, hdir]
        · simp [Osc.inc]
      · simp [hq] at hdir
        simp only [hq]
        norm_num
        rw [i32_ok (by omega) (by omega), ok_bind, i32_ok (by omega) (by omega), ok_bind]
        refine ⟨_, rfl, ?_, rfl, rfl, rfl, rfl⟩
        refine ⟨h.shift, hr, h.delta, h.steps, by simp, h.bias, fun e => absurd e h0, fun _ => ?_,
          fun _ => ?_, fun _ => ?_⟩
        · simp only; omega
        · simp [Osc.inc, hdir]
        · simp [Osc.inc]
      · simp [hq] at hdir
        simp only [hq]
        norm_num
        refine ⟨h.shift, hr, h.delta, h.steps, by simp, h.bias, fun e => absurd e h0, fun _ => ?_,
          fun _ => ?_, fun _ => ?_⟩
        · simp only; omega
        · simp [Osc.inc, hdir]
        · simp [Osc.inc]

theorem Osc.Inv.rescale {m : Int} {s : Osc} (h : s.Inv m) {n : Int} (hn : 0 < n) (hn2 : n < 8388608) :
    ∃ p, s.rescale n = .ok p ∧ 0 ≤ p ∧ p < n := by
  unfold Osc.rescale
  by_cases h0 : s.steps = 0
  · rw [if_neg (by simp [h0])]
    exact ⟨0, rfl, by omega, hn⟩
  · have hs := h.step h0
    have h2 := h.steps
    rw [if_pos h0, i32_ok (by omega) (by omega), ok_bind, i32_ok (by omega) (by omega), ok_bind]
    have t := tdiv_nonneg (s := s.steps) (x := s.step * 256 + 128) (by omega) (by omega)
    generalize (s.step * 256 + 128).tdiv s.steps = f at *
    have hf : f ≤ 255 := by
      by_contra hc
      have := Int.mul_le_mul_of_nonneg_right (show 256 ≤ f by omega) (show 0 ≤ s.steps by omega)
      omega
    have hfn := Int.mul_le_mul_of_nonneg_right hf hn.le
    have hfn0 := Int.mul_nonneg t.1 hn.le
    dsimp only
    rw [i32_ok (by omega) (by omega), ok_bind]
    exact ⟨_, rfl, by omega, by omega⟩

theorem Osc.Inv.set {m : Int} {s : Osc} (h : s.Inv m) {d n : Int} (h1 : -m ≤ d) (h2 : d ≤ m)
    (h3 : n < 8388608) : ∃ s', s.setDeltaAndSteps d n = .ok s' ∧ s'.Inv m ∧
      s'.valueShift = s.valueShift := by
  have hP := two_pow_pos s.valueShift
  have hr := h.range
  unfold Osc.setDeltaAndSteps
  by_cases hn : n ≤ 0
  · have ec : cclamp n 0 8388608 = 0 := by
      unfold cclamp; split
      · rfl
      · split <;> omega
    simp only [ec]
    rw [if_neg (by simp)]
    refine ⟨_, rfl, ?_, rfl⟩
    refine ⟨h.shift, hr, ⟨0, by omega, by omega, by simp⟩, by simp, by simp, h.bias, fun _ => by simp,
      by simp, by simp, by simp⟩
  · have ec : cclamp n 0 8388608 = n := by
      unfold cclamp; split
      · omega
      · split <;> omega
    have hn : 0 < n := by omega
    have d1 : -(m * 2 ^ s.valueShift) ≤ d * 2 ^ s.valueShift := by
      rw [← Int.neg_mul]; exact Int.mul_le_mul_of_nonneg_right h1 (by omega)
    have d2 : d * 2 ^ s.valueShift ≤ m * 2 ^ s.valueShift :=
      Int.mul_le_mul_of_nonneg_right h2 (by omega)
    simp only [ec]
    rw [if_pos (by omega), i32_ok (by omega) (by omega), ok_bind]
    by_cases hsame : n ≠ s.steps ∨ d * 2 ^ s.valueShift ≠ s.delta
    · rw [if_pos hsame]
      obtain ⟨p, e1, p1, p2⟩ := h.rescale hn h3
      obtain ⟨rb, e2, r1, r2, _⟩ := roundBias_ok (delta := d * 2 ^ s.valueShift) h.shift (by omega) hn h3
      rw [e1, ok_bind, e2, ok_bind]
      have b1 := inc_between (d := d * 2 ^ s.valueShift) hn p1 (by omega)
      have b2 := inc_between (d := d * 2 ^ s.valueShift) hn (j := n - p) (by omega) (by omega)
      have b3 := inc_between (d := d * 2 ^ s.valueShift) hn (j := 1) (by omega) (by omega)
      have hD : ∃ D, -m ≤ D ∧ D ≤ m ∧ d * 2 ^ s.valueShift = D * 2 ^ s.valueShift := ⟨d, h1, h2, rfl⟩
      generalize d * 2 ^ s.valueShift = X at *
      rw [Int.mul_one] at b3
      have b1a := b1.1
      have b1b := b1.2
      have b2a := b2.1
      have b2b := b2.2
      have b3a := b3.1
      have b3b := b3.2
      clear b1 b2 b3
      have mk : ∀ v sd, (sd = if s.phase = 0 ∨ s.phase = 3 then X.tdiv n else -X.tdiv n) →
          ((s.phase = 0 → v = X.tdiv n * p) ∧
          (s.phase = 1 → v = X - X.tdiv n * p ∨ v = X.tdiv n * (n - p)) ∧
          (s.phase = 2 → v = -(X.tdiv n * p)) ∧
          (s.phase = 3 → v = -X + X.tdiv n * p ∨ v = -(X.tdiv n * (n - p)))) →
          Osc.Inv m { s with delta := X, steps := n, value := v, stepDelta := sd, roundBias := rb, step := p } := by
        intro v sd hsd hv
        refine ⟨h.shift, hr, hD, by simp only; omega, h.phase, ⟨r1, r2⟩, fun e => ?_,
          fun _ => ⟨p1, p2⟩, fun _ => hsd, fun _ => hv⟩
        simp only at e; omega
      obtain hq | hq | hq | hq : s.phase = 0 ∨ s.phase = 1 ∨ s.phase = 2 ∨ s.phase = 3 := by
        have := h.phase; omega
      · refine ⟨_, ?_, mk (X.tdiv n * p) (X.tdiv n) (by simp [hq]) (by simp [hq]), rfl⟩
        simp only [hq]
        rw [i32_ok (by omega) (by omega)]
        rfl
      · refine ⟨_, ?_, mk (X.tdiv n * (n - p)) (-X.tdiv n) (by simp [hq]) (by simp [hq]), rfl⟩
        simp only [hq]
        rw [i32_ok (by omega) (by omega), ok_bind, i32_ok (by omega) (by omega), ok_bind,
          i32_ok (by omega) (by omega)]
        rfl
      · refine ⟨_, ?_, mk (-(X.tdiv n * p)) (-X.tdiv n) (by simp [hq]) (by simp [hq]), rfl⟩
        simp only [hq]
        rw [i32_ok (by omega) (by omega), ok_bind, Int.neg_mul, i32_ok (by omega) (by omega)]
        rfl
      · refine ⟨_, ?_, mk (-(X.tdiv n * (n - p))) (X.tdiv n) (by simp [hq]) (by simp [hq]), rfl⟩
        simp only [hq]
        rw [i32_ok (by omega) (by omega), ok_bind, i32_ok (by omega) (by omega), ok_bind, Int.neg_mul,
          i32_ok (by omega) (by omega)]
        rfl
    · rw [if_neg hsame]
      exact ⟨s, rfl, h, rfl⟩

theorem Osc.Inv.step1 {m : Int} {s : Osc} (h : s.Inv m) {op : OscOp} (hop : op.Wf m) :
    ∃ s', s.step1 op = .ok s' ∧ s'.Inv m ∧ s'.valueShift = s.valueShift := by
  cases op with
  | set d n => exact h.set hop.1 hop.2.1 hop.2.2
  | setDelta d => exact h.set hop.1 hop.2 h.steps.2
  | setSteps n =>
    obtain ⟨D, h1, h2, h3⟩ := h.delta
    simp only [Osc.step1, Osc.setSteps]
    rw [h3, mul_pow_ediv]
    exact h.set h1 h2 hop
  | tick =>
    obtain ⟨s', h1, h2, _, _, h3, _⟩ := h.tick
    exact ⟨s', h1, h2, h3⟩
  | get =>
    refine ⟨s, ?_, h, rfl⟩
    simp only [Osc.step1]
    rw [h.get]
    rfl

theorem Osc.init_inv {M m : Int} (hm : 0 ≤ m) (hr : m * 2 ^ (maxValueShift M - 1) ≤ 1073741824)
    (hs : maxValueShift M ≤ 31) : (Osc.init M).Inv m := by
  refine ⟨by simp only [Osc.init]; omega, hr, ⟨0, by omega, by omega, by simp [Osc.init]⟩, by simp [Osc.init],
    by simp [Osc.init], by simp [Osc.init], by simp [Osc.init], by simp [Osc.init], by simp [Osc.init],
    by simp [Osc.init]⟩

theorem Osc.run_inv {m : Int} (ops : List OscOp) : ∀ {s : Osc}, s.Inv m → (∀ op ∈ ops, op.Wf m) →
    ∃ s', s.run ops = .ok s' ∧ s'.Inv m ∧ s'.valueShift = s.valueShift := by
  induction ops with
  | nil => intro s h _; exact ⟨s, rfl, h, rfl⟩
  | cons op ops ih =>
    intro s h ho
    obtain ⟨s', e, h', e1⟩ := h.step1 (ho op (by simp))
    obtain ⟨s'', e2, h2, e3⟩ := ih h' (fun o hm => ho o (by simp [hm]))
    refine ⟨s'', ?_, h2, e3.trans e1⟩
    unfold Osc.run
    rw [e, ok_bind, e2]

/-- The canonical state `t` ticks after a start at zero. -/
def Osc.canon (s : Osc) (t : Nat) : Osc :=
  { s with
    phase := t / s.steps.toNat % 4
    step := (t % s.steps.toNat : Nat)
    value := triangle s.delta s.inc s.steps.toNat t
    stepDelta := if t / s.steps.toNat % 4 = 0 ∨ t / s.steps.toNat % 4 = 3 then s.inc else -s.inc }

theorem succ_divmod {t n : Nat} (hn : 0 < n) :
    (t % n + 1 < n → (t + 1) / n = t / n ∧ (t + 1) % n = t % n + 1) ∧
    (¬ t % n + 1 < n → (t + 1) / n = t / n + 1 ∧ (t + 1) % n = 0) := by
  have h1 := Nat.div_add_mod t n
  have h2 := Nat.mod_lt t hn
  constructor
  · intro h
    have e : t + 1 = n * (t / n) + (t % n + 1) := by omega
    constructor
    · rw [e, Nat.mul_add_div hn, Nat.div_eq_of_lt h]; omega
    · rw [e, Nat.mul_add_mod, Nat.mod_eq_of_lt h]
  · intro h
    have e : t + 1 = n * (t / n + 1) := by rw [Nat.mul_add]; omega
    constructor
    · rw [e, Nat.mul_div_cancel_left _ hn]
    · rw [e, Nat.mul_mod_right]

theorem Osc.canon_tick {m : Int} {s : Osc} (h : s.Inv m) (h0 : s.steps ≠ 0) (t : Nat) :
    (s.canon t).tick = .ok (s.canon (t + 1)) := by
  have hn : 0 < s.steps := by have := h.steps; omega
  have hN : 0 < s.steps.toNat := by omega
  have hi := h.inc_bound h0
  have hd := h.delta_bound
  have hr := h.range
  have hmod := Nat.mod_lt t hN
  have sd := succ_divmod (t := t) hN
  unfold Osc.tick
  rw [if_pos (by simpa [Osc.canon] using h0)]
  have hstep : (s.canon t).step = ((t % s.steps.toNat : Nat) : Int) := rfl
  have hsteps : (s.canon t).steps = s.steps := rfl
  by_cases hlt : t % s.steps.toNat + 1 < s.steps.toNat
  · obtain ⟨e1, e2⟩ := sd.1 hlt
    rw [if_pos (by rw [hstep, hsteps]; omega)]
    have b1 := inc_between (d := s.delta) hn (j := ((t % s.steps.toNat + 1 : Nat) : Int)) (by omega) (by omega)
    change (0 ≤ s.delta → 0 ≤ s.inc * _ ∧ s.inc * _ ≤ _) ∧ (_ → _ ≤ s.inc * _ ∧ s.inc * _ ≤ _) at b1
    have ei : s.inc * ((t % s.steps.toNat + 1 : Nat) : Int) = s.inc * ((t % s.steps.toNat : Nat) : Int) + s.inc := by
      push_cast; ring
    rw [ei] at b1
    have b1a := b1.1
    have b1b := b1.2
    have key : (s.canon t).value + (s.canon t).stepDelta = (s.canon (t + 1)).value ∧
        -2147483648 ≤ (s.canon (t + 1)).value ∧ (s.canon (t + 1)).value ≤ 2147483647 := by
      simp only [Osc.canon, triangle, e1, e2]
      rw [ei]
      generalize ((t % s.steps.toNat : Nat) : Int) = r at *
      have : t / s.steps.toNat % 4 < 4 := Nat.mod_lt _ (by omega)
      obtain hq | hq | hq | hq : t / s.steps.toNat % 4 = 0 ∨ t / s.steps.toNat % 4 = 1 ∨
        t / s.steps.toNat % 4 = 2 ∨ t / s.steps.toNat % 4 = 3 := by omega
      all_goals simp only [hq]; norm_num; omega
    rw [key.1, i32_ok key.2.1 key.2.2, ok_bind, pure_eq_ok]
    congr 1
    simp only [Osc.canon, e1, e2]
    push_cast
    rfl
  · obtain ⟨e1, e2⟩ := sd.2 hlt
    rw [if_neg (by rw [hstep, hsteps]; omega)]
    have hph : (s.canon t).phase = t / s.steps.toNat % 4 := rfl
    have hq4 : t / s.steps.toNat % 4 < 4 := Nat.mod_lt _ (by omega)
    have hnext : (t / s.steps.toNat + 1) % 4 = (t / s.steps.toNat % 4 + 1) % 4 := by omega
    obtain hq | hq | hq | hq : t / s.steps.toNat % 4 = 0 ∨ t / s.steps.toNat % 4 = 1 ∨
      t / s.steps.toNat % 4 = 2 ∨ t / s.steps.toNat % 4 = 3 := by omega
    · simp only [hph, hq]
      norm_num
      have e : (s.canon t).stepDelta = s.inc := by simp [Osc.canon, hq]
      rw [e, i32_ok (by omega) (by omega), ok_bind]
      simp only [Osc.canon, triangle, e1, e2, hnext, hq]
      norm_num
    · simp only [hph, hq]
      norm_num
      simp only [Osc.canon, triangle, e1, e2, hnext, hq]
      norm_num
    · simp only [hph, hq]
      norm_num
      have e : (s.canon t).stepDelta = -s.inc := by simp [Osc.canon, hq]
      have e' : (s.canon t).delta = s.delta := rfl
      rw [e, e', i32_ok (by omega) (by omega), ok_bind, i32_ok (by omega) (by omega), ok_bind]
      simp only [Osc.canon, triangle, e1, e2, hnext, hq]
      norm_num
    · simp only [hph, hq]
      norm_num
      simp only [Osc.canon, triangle, e1, e2, hnext, hq]
      norm_num

theorem Osc.canon_ticks {m : Int} {s : Osc} (h : s.Inv m) (h0 : s.steps ≠ 0) (n : Nat) : ∀ t : Nat,
    (s.canon t).ticks n = .ok (s.canon (t + n)) := by
  induction n with
  | zero => intro t; rfl
  | succ n ih =>
    intro t
    unfold Osc.ticks
    rw [Osc.canon_tick h h0, ok_bind, ih, Nat.add_assoc, Nat.add_comm 1 n]

theorem Osc.canon_period {s : Osc} (hn : 0 < s.steps) (t : Nat) :
    s.canon (t + 4 * s.steps.toNat) = s.canon t := by
  have hN : 0 < s.steps.toNat := by omega
  have e1 : (t + 4 * s.steps.toNat) / s.steps.toNat = t / s.steps.toNat + 4 := by
    rw [Nat.add_mul_div_right _ _ hN]
  have e2 : (t + 4 * s.steps.toNat) % s.steps.toNat = t % s.steps.toNat := by
    rw [Nat.add_mul_mod_self_right]
  have e3 : (t / s.steps.toNat + 4) % 4 = t / s.steps.toNat % 4 := by omega
  simp only [Osc.canon, triangle, e1, e2, e3]

end BK
