import Verif.Lemmas.Seconds3
/-!
C101: seconds and times.
-/
namespace BK

/-- **C101**: the time is less than 2^-20 samples from the exact one, for up to 24 hours at the highest sample rate. -/
theorem C101_nearest {rate : Int} {s : Dbl} (h0 : 16000 ≤ rate) (h1 : rate ≤ 96000) (hs : 0 ≤ s.val)
    (hx : unitsIn rate s.val ≤ 2 ^ 53) :
    ∃ t, T64.fromSeconds rate s = .ok t ∧ 0 ≤ t ∧ |(t : ℚ) - unitsIn rate s.val| < 1 := by
  obtain ⟨e1, e2⟩ := fromSeconds64_eq (by omega) h1 hs
  have hu0 : 0 ≤ unitsIn rate s.val := by
    unfold unitsIn
    have : (0 : ℚ) ≤ rate := by exact_mod_cast (by omega : (0 : Int) ≤ rate)
    exact mul_nonneg (mul_nonneg this (by norm_num)) hs
  have hn := floor_round (m := s.m * (rate * U20)) (e := s.e) (by rw [units_val]; exact hu0) (by rw [units_val]; exact hx)
  rw [units_val] at hn
  refine ⟨_, e1.trans (if_pos ?_), e2, hn⟩
  have h2 := (abs_lt.mp hn).2
  have h3 : (⌊(Dbl.round (s.m * (rate * U20)) s.e).val⌋ : ℚ) < ((2 ^ 53 + 1 : Int) : ℚ) := by push_cast; linarith
  have h4 : ⌊(Dbl.round (s.m * (rate * U20)) s.e).val⌋ < 2 ^ 53 + 1 := by exact_mod_cast h3
  unfold InI64
  constructor <;> omega

/-- **C101**: what is a whole number of 2^-20 samples is converted exactly. -/
theorem C101_exact {rate n : Int} {s : Dbl} (h0 : 16000 ≤ rate) (h1 : rate ≤ 96000) (hs : 0 ≤ s.val)
    (hx : unitsIn rate s.val = n) (hn : n ≤ 2 ^ 53) : T64.fromSeconds rate s = .ok n := by
  obtain ⟨t, e1, _, e2⟩ := C101_nearest h0 h1 hs (by rw [hx]; exact_mod_cast hn)
  rw [hx] at e2
  have e3 : |((t - n : Int) : ℚ)| < 1 := by push_cast; exact e2
  have e4 : |t - n| < 1 := by exact_mod_cast e3
  have e5 := Int.abs_lt_one_iff.mp e4
  rw [e1]
  congr 1
  omega

/-- **C101**: longer times, as far as they fit, are off by one part in 2^53 more. -/
theorem C101_long {rate : Int} {s : Dbl} (h0 : 16000 ≤ rate) (h1 : rate ≤ 96000) (hs : 0 ≤ s.val)
    (hx : unitsIn rate s.val ≤ 2 ^ 62) :
    ∃ t, T64.fromSeconds rate s = .ok t ∧ 0 ≤ t ∧ |(t : ℚ) - unitsIn rate s.val| < 1 + unitsIn rate s.val / 2 ^ 53 := by
  obtain ⟨e1, e2⟩ := fromSeconds64_eq (by omega) h1 hs
  have hu0 : 0 ≤ unitsIn rate s.val := by
    unfold unitsIn
    have : (0 : ℚ) ≤ rate := by exact_mod_cast (by omega : (0 : Int) ≤ rate)
    exact mul_nonneg (mul_nonneg this (by norm_num)) hs
  have he := round_error (s.m * (rate * U20)) s.e
  have hub := round_le (m := s.m * (rate * U20)) (e := s.e) (n := 1) (f := 62) (by norm_num)
    (by rw [units_val]; exact le_trans hx (by norm_num))
  rw [units_val, abs_of_nonneg hu0] at he
  have hf1 := Int.floor_le (Dbl.round (s.m * (rate * U20)) s.e).val
  have hf2 := Int.sub_one_lt_floor (Dbl.round (s.m * (rate * U20)) s.e).val
  have he2 : |(Dbl.round (s.m * (rate * U20)) s.e).val - unitsIn rate s.val| ≤ unitsIn rate s.val / 2 ^ 53 := by
    rw [le_div_iff₀ (by norm_num)]; exact he
  have he3 := abs_le.mp he2
  refine ⟨_, e1.trans (if_pos ?_), e2, ?_⟩
  · have h3 : (⌊(Dbl.round (s.m * (rate * U20)) s.e).val⌋ : ℚ) ≤ ((2 ^ 62 : Int) : ℚ) := by
      refine le_trans hf1 (le_trans hub ?_)
      norm_num
    have h4 : ⌊(Dbl.round (s.m * (rate * U20)) s.e).val⌋ ≤ 2 ^ 62 := by exact_mod_cast h3
    unfold InI64
    constructor <;> omega
  · rw [abs_lt]
    constructor <;> linarith [he3.1, he3.2]

/-- **C101**: more seconds never give less time. -/
theorem C101_monotone {rate t t' : Int} {s s' : Dbl} (h0 : 16000 ≤ rate) (h1 : rate ≤ 96000) (hs : 0 ≤ s.val)
    (hle : s.val ≤ s'.val) (ht : T64.fromSeconds rate s = .ok t) (ht' : T64.fromSeconds rate s' = .ok t') : t ≤ t' := by
  have e1 := (fromSeconds64_eq (by omega) h1 hs).1
  have e2 := (fromSeconds64_eq (by omega) h1 (le_trans hs hle)).1
  rw [e1] at ht
  rw [e2] at ht'
  have i64_eq : ∀ {a b : Int}, i64 a = .ok b → b = a := by
    intro a b h
    unfold i64 at h
    split at h
    · exact (Except.ok.inj h).symm
    · exact nomatch h
  rw [i64_eq ht, i64_eq ht']
  apply Int.floor_le_floor
  apply round_mono
  rw [units_val, units_val]
  unfold unitsIn
  apply mul_le_mul_of_nonneg_left hle
  have : (0 : ℚ) ≤ rate := by exact_mod_cast (by omega : (0 : Int) ≤ rate)
  exact mul_nonneg this (by norm_num)

/-- **C101**: builds for 32 bits and for 64 bits give the same time, as far as it fits the former. -/
theorem C101_same_builds {rate : Int} {s : Dbl} (h0 : 16000 ≤ rate) (h1 : rate ≤ 96000) (hs : 0 ≤ s.val)
    (hx : rate * s.val ≤ 2147483647) :
    ∃ t u, T64.fromSeconds rate s = .ok t ∧ T32.fromSeconds rate s = .ok u ∧ u.units = t ∧ 0 ≤ u.frac ∧ u.frac < 1048576 := by
  obtain ⟨e1, e2⟩ := fromSeconds64_eq (by omega) h1 hs
  have hrQ : (0 : ℚ) ≤ rate := by exact_mod_cast (by omega : (0 : Int) ≤ rate)
  have hsm := samples_val rate s
  have hx0 : 0 ≤ rate * s.val := mul_nonneg hrQ hs
  -- the rounded number of samples
  have hr0 := le_round (m := s.m * rate) (e := s.e) (n := 0) (f := 0) (by norm_num) (by rw [hsm]; simpa using hx0)
  have hr1 := round_le (m := s.m * rate) (e := s.e) (n := 2147483647) (f := 0) (by norm_num) (by rw [hsm]; simpa using hx)
  rw [Int.cast_zero, zero_mul] at hr0
  rw [zpow_zero, mul_one] at hr1
  have h20 : (Dbl.round (s.m * (rate * U20)) s.e).val = 2 ^ 20 * (Dbl.round (s.m * rate) s.e).val := by
    rw [show s.m * (rate * U20) = s.m * rate * 2 ^ 20 from by rw [mul_assoc]; rfl, round_mul]
  rw [h20] at e1 e2
  have hmant := round_mant (s.m * rate) s.e
  have hm0 : 0 ≤ (Dbl.round (s.m * rate) s.e).m := val_nonneg.mp hr0
  have htr := trunc_floor hm0
  have hsub := subInt_val hm0 hmant
  have hd0 : 0 ≤ ((Dbl.round (s.m * rate) s.e).subInt (Dbl.round (s.m * rate) s.e).trunc).val := by
    rw [hsub, htr]; linarith [Int.floor_le (Dbl.round (s.m * rate) s.e).val]
  have hmul := mulInt_U20 _ (subInt_mant (Dbl.round (s.m * rate) s.e) (Dbl.round (s.m * rate) s.e).trunc)
  have hf0 : 0 ≤ (((Dbl.round (s.m * rate) s.e).subInt (Dbl.round (s.m * rate) s.e).trunc).mulInt U20).val := by
    rw [hmul]; exact mul_nonneg (by norm_num) hd0
  have hft := trunc_floor (val_nonneg.mp hf0)
  rw [hmul, hsub] at hft
  -- the numbers
  have hb : InI32 (Dbl.round (s.m * rate) s.e).trunc := by
    rw [htr]
    have a := Int.floor_nonneg.mpr hr0
    have b : ⌊(Dbl.round (s.m * rate) s.e).val⌋ ≤ 2147483647 := by
      have := Int.floor_le_floor hr1
      rwa [Int.floor_intCast] at this
    unfold InI32; constructor <;> omega
  generalize hR : Dbl.round (s.m * rate) s.e = R at *
  have g1 := Int.floor_le R.val
  have g2 := Int.lt_floor_add_one R.val
  rw [htr] at hft
  have hsum : ⌊(2 : ℚ) ^ 20 * R.val⌋ = ⌊R.val⌋ * 1048576 + ⌊(2 : ℚ) ^ 20 * (R.val - ⌊R.val⌋)⌋ := by
    have : (2 : ℚ) ^ 20 * R.val = 2 ^ 20 * (R.val - ⌊R.val⌋) + ((⌊R.val⌋ * 1048576 : Int) : ℚ) := by push_cast; ring
    conv_lhs => rw [this, Int.floor_add_intCast]
    ring
  have hfr0 : 0 ≤ ⌊(2 : ℚ) ^ 20 * (R.val - ⌊R.val⌋)⌋ := Int.floor_nonneg.mpr (mul_nonneg (by norm_num) (by linarith))
  have hfr1 : ⌊(2 : ℚ) ^ 20 * (R.val - ⌊R.val⌋)⌋ < 1048576 := by
    rw [Int.floor_lt]; push_cast; linarith
  refine ⟨_, ⟨R.trunc, ((R.subInt R.trunc).mulInt U20).trunc⟩, e1.trans (if_pos ?_), ?_, ?_, ?_, ?_⟩
  · rw [htr] at hb
    unfold InI64
    rw [hsum]
    unfold InI32 at hb
    constructor <;> omega
  · unfold T32.fromSeconds
    dsimp only
    rw [show s.mulInt rate = R from hR, show i32 R.trunc = .ok R.trunc from if_pos hb, ok_bind, if_pos]
    · rfl
    · rw [htr, hft]; unfold InU32; constructor <;> omega
  · unfold T32.units
    dsimp only
    rw [htr, hft, hsum]
  · dsimp only; rw [htr, hft]; exact hfr0
  · dsimp only; rw [htr, hft]; exact hfr1

/-- **C101**: a context ticks 240 times a second: the period is a 240th of the sample rate, cut to 2^-20 samples, in both builds. -/
theorem C101_master_clock {rate : Int} (h0 : 16000 ≤ rate) (h1 : rate ≤ 96000) :
    T64.masterPeriod rate = .ok (rate * 1048576 / 240) ∧
    ∃ u, T32.masterPeriod rate = .ok u ∧ u.units = rate * 1048576 / 240 ∧ 0 ≤ u.frac ∧ u.frac < 1048576 := by
  have hp := master_period h0 h1
  refine ⟨hp, ?_⟩
  have hs : 0 ≤ defaultTick.val := val_nonneg.mpr (by decide)
  have hval : defaultTick.val = 4803839602528529 / 1152921504606846976 := by
    show ((4803839602528529 : Int) : ℚ) * 2 ^ (-60 : Int) = _
    norm_num
  have hrate : (rate : ℚ) ≤ 96000 := by exact_mod_cast h1
  obtain ⟨t, u, e1, e2, e3, e4, e5⟩ := C101_same_builds h0 h1 hs (by rw [hval]; linarith)
  have e6 : t = rate * 1048576 / 240 := Except.ok.inj (e1.symm.trans hp)
  exact ⟨u, e2, e3.trans e6, e4, e5⟩

/-- **C101**: after any number of ticks the master clock is behind the exact time by at most 2^-20 samples for each. -/
theorem C101_drift {rate p : Int} (n : Nat) (h0 : 16000 ≤ rate) (h1 : rate ≤ 96000) (hp : T64.masterPeriod rate = .ok p) :
    (n * p : ℚ) ≤ unitsIn rate (n / 240) ∧ unitsIn rate (n / 240) ≤ n * p + n := by
  have e := Except.ok.inj ((master_period h0 h1).symm.trans hp)
  have hq := Int.mul_ediv_add_emod (rate * 1048576) 240
  have hr0 := Int.emod_nonneg (rate * 1048576) (by norm_num : (240 : Int) ≠ 0)
  have hr1 := Int.emod_lt_of_pos (rate * 1048576) (by norm_num : (0 : Int) < 240)
  rw [e] at hq
  generalize rate * 1048576 % 240 = r at *
  have hqQ : (240 : ℚ) * p + r = rate * 1048576 := by exact_mod_cast hq
  have hr0Q : (0 : ℚ) ≤ r := by exact_mod_cast hr0
  have hr1Q : (r : ℚ) ≤ 240 := by exact_mod_cast le_of_lt hr1
  have hn : (0 : ℚ) ≤ n := Nat.cast_nonneg n
  have hu : unitsIn rate (n / 240) = n * (p + r / 240) := by
    unfold unitsIn
    rw [← hqQ]
    ring
  rw [hu]
  constructor
  · have := mul_nonneg hn hr0Q
    nlinarith
  · have : (n : ℚ) * r ≤ n * 240 := mul_le_mul_of_nonneg_left hr1Q hn
    nlinarith

/-- The `double` nearest to 0.1. -/
def tenth : Dbl := ⟨7205759403792794, -56⟩

-- a quarter of a second is exact, a tenth is cut, and an hour is exact
example : T64.fromSeconds 44100 ⟨1, -2⟩ = .ok (11025 * 1048576) ∧ T64.fromSeconds 44100 tenth = .ok (4410 * 1048576)
    ∧ T64.fromSeconds 96000 ⟨3600, 0⟩ = .ok (96000 * 3600 * 1048576) ∧ T64.fromSeconds 44101 tenth = .ok 4624325017 := by decide +kernel
example : T32.fromSeconds 44101 tenth = .ok ⟨4410, 104857⟩ ∧ T32.fromSeconds 44100 ⟨1, -2⟩ = .ok ⟨11025, 0⟩ := by decide +kernel
example : T64.masterPeriod 44100 = .ok 192675840 ∧ T32.masterPeriod 44100 = .ok ⟨183, 786432⟩ := by decide +kernel
-- the hypotheses hold
example : unitsIn 44100 tenth.val ≤ 2 ^ 53 ∧ 0 ≤ tenth.val ∧ 44100 * tenth.val ≤ 2147483647 := by
  have : tenth.val = 7205759403792794 / 72057594037927936 := by
    show ((7205759403792794 : Int) : ℚ) * 2 ^ (-56 : Int) = _
    norm_num
  rw [this]
  unfold unitsIn
  norm_num
-- times before the start can only be given in builds for 64 bits
example : T64.fromSeconds 44100 ⟨-1, -20⟩ = .ok (-44100) ∧ T32.fromSeconds 44100 ⟨-1, -20⟩ = .error .overflow := by decide +kernel
-- in builds for 32 bits, times must be shorter than 2^31 samples
example : T32.fromSeconds 96000 ⟨22370, 0⟩ = .error .overflow := by decide +kernel

end BK
