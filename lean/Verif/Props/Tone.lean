import Verif.Lemmas.Tone
/-! C19–C22: pitch lookups. -/
namespace BK

/-- C19: for every pitch and rate the lookup stays inside its table and no intermediate
result wraps, so it returns the exact interpolated period; out-of-range arguments
behave as the nearest supported ones (that is what `limit` in the specification says). -/
theorem C19_period_exact (tone rate : Int) :
    tonePeriodLookup tone rate = .ok (exactPeriod tone rate) := by
  have hp : 0 ≤ limit 0 (96 * 1048576) tone ∧ limit 0 (96 * 1048576) tone ≤ 96 * 1048576 := by
    unfold limit; omega
  have hr : 16000 ≤ limit 16000 96000 rate ∧ limit 16000 96000 rate ≤ 96000 := by
    unfold limit; omega
  have hL := noteL_range tone
  have hL' : noteL tone = noteEntry (limit 0 (96 * 1048576) tone / 1048576) *
      (65536 - limit 0 (96 * 1048576) tone % 1048576 / 16) +
      noteEntry (min (limit 0 (96 * 1048576) tone / 1048576 + 1) 96) *
      (limit 0 (96 * 1048576) tone % 1048576 / 16) := rfl
  rw [exactPeriod_eq]
  unfold tonePeriodLookup
  simp only [cclamp_eq_limit _ 0 (96 * 1048576) (by omega),
    cclamp_eq_limit _ 16000 96000 (by omega), cmin_eq]
  generalize limit 0 (96 * 1048576) tone = p at *
  generalize limit 16000 96000 rate = r at *
  rw [rd_getD (by omega) (by show _ < (97 : Int); omega),
    rd_getD (by omega) (by show _ < (97 : Int); omega)]
  simp only [ok_bind, pure_eq_ok]
  change Except.ok (wrapU32 (wrapU32 (wrapU32 (wrapU32 (noteEntry (p / 1048576) * _) +
    wrapU32 (noteEntry (min (p / 1048576 + 1) 96) * _)) / 262144 * r) * 4)) = _
  have a := note_range (p / 1048576) (by omega) (by omega)
  have b := note_range (min (p / 1048576 + 1) 96) (by omega) (by omega)
  have c := mul_bounds (show 0 ≤ noteEntry (p / 1048576) by omega) a.2
    (show 0 ≤ 65536 - p % 1048576 / 16 by omega)
  have d := mul_bounds (show 0 ≤ noteEntry (min (p / 1048576 + 1) 96) by omega) b.2
    (show 0 ≤ p % 1048576 / 16 by omega)
  have w1 : wrapU32 (noteEntry (p / 1048576) * (65536 - p % 1048576 / 16)) =
      noteEntry (p / 1048576) * (65536 - p % 1048576 / 16) := by unfold wrapU32; omega
  have w2 : wrapU32 (noteEntry (min (p / 1048576 + 1) 96) * (p % 1048576 / 16)) =
      noteEntry (min (p / 1048576 + 1) 96) * (p % 1048576 / 16) := by unfold wrapU32; omega
  rw [w1, w2, ← hL']
  have w3 : wrapU32 (noteL tone) = noteL tone := by unfold wrapU32; omega
  rw [w3]
  have e := mul_bounds (show 0 ≤ noteL tone / 262144 by omega)
    (show noteL tone / 262144 ≤ 8015 by omega) (show 0 ≤ r by omega)
  have w4 : wrapU32 (noteL tone / 262144 * r) = noteL tone / 262144 * r := by
    unfold wrapU32; omega
  rw [w4]
  congr 1
  rw [Int.mul_comm r, Int.mul_comm 4]
  unfold wrapU32; omega

/-- C19: out-of-range pitches and rates behave as the nearest supported one. -/
theorem C19_saturates (tone rate : Int) :
    tonePeriodLookup tone rate =
      tonePeriodLookup (max 0 (min (96 * 1048576) tone)) (max 16000 (min 96000 rate)) := by
  rw [C19_period_exact, C19_period_exact]
  have h1 : limit 0 (96 * 1048576) (max 0 (min (96 * 1048576) tone)) =
    limit 0 (96 * 1048576) tone := by unfold limit; omega
  have h2 : limit 16000 96000 (max 16000 (min 96000 rate)) = limit 16000 96000 rate := by
    unfold limit; omega
  unfold exactPeriod
  rw [h1, h2]

/-- C19: the period is a positive 32-bit value for every input. -/
theorem C19_range (tone rate : Int) :
    ∃ p, tonePeriodLookup tone rate = .ok p ∧ 4 * 16000 * 31 ≤ p ∧ p ≤ 4 * 96000 * 8015 ∧
      InU32 p := by
  refine ⟨_, C19_period_exact tone rate, ?_⟩
  have hr : 16000 ≤ limit 16000 96000 rate ∧ limit 16000 96000 rate ≤ 96000 := by
    unfold limit; omega
  have hL := noteL_range tone
  rw [exactPeriod_eq]
  have h1 : 31 ≤ noteL tone / 262144 := by omega
  have h2 : noteL tone / 262144 ≤ 8015 := by omega
  have a := Int.mul_le_mul hr.1 h1 (by omega) (by omega)
  have b := Int.mul_le_mul hr.2 h2 (by omega) (by omega)
  unfold InU32
  omega

example : tonePeriodLookup (45 * 1048576) 44100 = .ok (4 * (44100 * 595)) := by decide +kernel

/-- C20: raising the pitch never lengthens the period, raising the rate never shortens
it. -/
theorem C20_monotone {tone tone' rate rate' : Int} (h : tone ≤ tone') (h' : rate' ≤ rate) :
    ∃ p p', tonePeriodLookup tone rate = .ok p ∧ tonePeriodLookup tone' rate' = .ok p' ∧
      p' ≤ p := by
  refine ⟨_, _, C19_period_exact _ _, C19_period_exact _ _, ?_⟩
  rw [exactPeriod_eq, exactPeriod_eq]
  have a := noteL_anti h
  have hr : 16000 ≤ limit 16000 96000 rate' ∧ limit 16000 96000 rate' ≤ limit 16000 96000 rate := by
    unfold limit; omega
  have hL := noteL_range tone'
  have := Int.mul_le_mul hr.2 (show noteL tone' / 262144 ≤ noteL tone / 262144 by omega)
    (by omega) (by omega)
  omega

example : ∃ p p', tonePeriodLookup (45 * 1048576) 44100 = .ok p ∧
    tonePeriodLookup (46 * 1048576) 44100 = .ok p' ∧ p' < p := ⟨_, _, rfl, rfl, by decide +kernel⟩

/-- C22: one octave up halves the period; the defect is 0, 4 or 8 times the sample rate,
which is at most one 31st of the period, for every pitch and rate. -/
theorem C22_octave {tone rate : Int} (h0 : 0 ≤ tone) (h1 : tone ≤ 84 * 1048576) :
    ∃ p p', tonePeriodLookup tone rate = .ok p ∧
      tonePeriodLookup (tone + 12 * 1048576) rate = .ok p' ∧
      0 ≤ p - 2 * p' ∧ p - 2 * p' ≤ 8 * max 16000 (min 96000 rate) ∧ 31 * (p - 2 * p') ≤ p := by
  refine ⟨_, _, C19_period_exact _ _, C19_period_exact _ _, ?_⟩
  rw [exactPeriod_eq, exactPeriod_eq]
  have hr : 16000 ≤ limit 16000 96000 rate ∧ limit 16000 96000 rate ≤ 96000 := by
    unfold limit; omega
  have e : limit 16000 96000 rate = max 16000 (min 96000 rate) := rfl
  have a := noteL_octave h0 h1
  have hL := noteL_range (tone + 12 * 1048576)
  rw [← e]
  generalize limit 16000 96000 rate = r at *
  have x0 : 0 ≤ noteL tone / 262144 - 2 * (noteL (tone + 12 * 1048576) / 262144) := by omega
  have x1 : noteL tone / 262144 - 2 * (noteL (tone + 12 * 1048576) / 262144) ≤ 2 := by omega
  have x2 : 31 * (noteL tone / 262144 - 2 * (noteL (tone + 12 * 1048576) / 262144)) ≤
    noteL tone / 262144 := by omega
  generalize noteL tone / 262144 = u at *
  generalize noteL (tone + 12 * 1048576) / 262144 = v at *
  have m0 := Int.mul_nonneg (show 0 ≤ r by omega) x0
  have m1 := Int.mul_le_mul_of_nonneg_left x1 (show 0 ≤ r by omega)
  have m2 := Int.mul_le_mul_of_nonneg_left x2 (show 0 ≤ r by omega)
  have q : r * (u - 2 * v) = r * u - 2 * (r * v) := by
    rw [Int.mul_sub, ← Int.mul_assoc, Int.mul_comm r 2, Int.mul_assoc]
  have q' : r * (31 * (u - 2 * v)) = 31 * (r * (u - 2 * v)) := by
    rw [← Int.mul_assoc, Int.mul_comm r 31, Int.mul_assoc]
  omega

example : tonePeriodLookup (60 * 1048576) 44100 = .ok (4 * (44100 * 250)) ∧
    tonePeriodLookup (48 * 1048576) 44100 = .ok (4 * (44100 * 500)) := by decide +kernel

end BK
