import Verif.Lemmas.Seconds
/-!
The two conversions of seconds in terms of rounded numbers.
-/
namespace BK

/-- What is rounded by the 64-bit conversion. -/
theorem units_val (rate : Int) (s : Dbl) : ((s.m * (rate * U20) : Int) : ℚ) * 2 ^ s.e = unitsIn rate s.val := by
  unfold unitsIn Dbl.val
  push_cast
  ring

theorem samples_val (rate : Int) (s : Dbl) : ((s.m * rate : Int) : ℚ) * 2 ^ s.e = rate * s.val := by
  unfold Dbl.val
  push_cast
  ring

theorem fromSeconds64_eq {rate : Int} {s : Dbl} (h0 : 0 ≤ rate) (h1 : rate ≤ 96000) (hs : 0 ≤ s.val) :
    T64.fromSeconds rate s = i64 ⌊(Dbl.round (s.m * (rate * U20)) s.e).val⌋ ∧ 0 ≤ ⌊(Dbl.round (s.m * (rate * U20)) s.e).val⌋ := by
  have hu : InI64 (rate * U20) := by unfold InI64; constructor <;> omega
  have hm : 0 ≤ s.m := val_nonneg.mp hs
  have hx : ((0 : Int) : ℚ) * 2 ^ (0 : Int) ≤ ((s.m * (rate * U20) : Int) : ℚ) * 2 ^ s.e := by
    have : 0 ≤ s.m * (rate * U20) := mul_nonneg hm (by omega)
    have h2 : (0 : ℚ) ≤ ((s.m * (rate * U20) : Int) : ℚ) := by exact_mod_cast this
    rw [Int.cast_zero, zero_mul]
    exact mul_nonneg h2 (le_of_lt (two_zpow_pos _))
  have h3 := le_round (by norm_num) hx
  rw [Int.cast_zero, zero_mul] at h3
  refine ⟨?_, Int.floor_nonneg.mpr h3⟩
  unfold T64.fromSeconds Dbl.mulInt
  rw [show i64 (rate * U20) = .ok (rate * U20) from if_pos hu, ok_bind, trunc_floor (val_nonneg.mp h3)]

/-- A rounded number below 2^53 is less than one from the number. -/
theorem floor_round {m e : Int} (h0 : 0 ≤ (m : ℚ) * 2 ^ e) (h1 : (m : ℚ) * 2 ^ e ≤ 2 ^ 53) :
    |(⌊(Dbl.round m e).val⌋ : ℚ) - m * 2 ^ e| < 1 := by
  have hf0 : 0 ≤ ⌊(m : ℚ) * 2 ^ e⌋ := Int.floor_nonneg.mpr h0
  have hf1 : ⌊(m : ℚ) * 2 ^ e⌋ ≤ 2 ^ 53 := by
    have : (⌊(m : ℚ) * 2 ^ e⌋ : ℚ) ≤ 2 ^ 53 := le_trans (Int.floor_le _) h1
    exact_mod_cast this
  have hc1 : ⌈(m : ℚ) * 2 ^ e⌉ ≤ 2 ^ 53 := Int.ceil_le.mpr (by push_cast; exact h1)
  have hc0 : 0 ≤ ⌈(m : ℚ) * 2 ^ e⌉ := Int.ceil_nonneg h0
  have hl := le_round (f := 0) (m := m) (e := e) (n := ⌊(m : ℚ) * 2 ^ e⌋) (by rw [abs_of_nonneg hf0]; exact hf1)
    (by rw [zpow_zero, mul_one]; exact Int.floor_le _)
  have hu := round_le (f := 0) (m := m) (e := e) (n := ⌈(m : ℚ) * 2 ^ e⌉) (by rw [abs_of_nonneg hc0]; exact hc1)
    (by rw [zpow_zero, mul_one]; exact Int.le_ceil _)
  rw [zpow_zero, mul_one] at hl hu
  have hfl : ⌊(m : ℚ) * 2 ^ e⌋ ≤ ⌊(Dbl.round m e).val⌋ := Int.le_floor.mpr hl
  have hflQ : (⌊(m : ℚ) * 2 ^ e⌋ : ℚ) ≤ ⌊(Dbl.round m e).val⌋ := by exact_mod_cast hfl
  have a1 := Int.sub_one_lt_floor ((m : ℚ) * 2 ^ e)
  have a2 := Int.ceil_lt_add_one ((m : ℚ) * 2 ^ e)
  have a3 := Int.floor_le (Dbl.round m e).val
  rw [abs_lt]
  constructor <;> linarith

/-- The fraction of samples in a 32-bit build: nothing is lost. -/
theorem subInt_val {d : Dbl} (hm : 0 ≤ d.m) (hm2 : |d.m| ≤ 2 ^ 53) : (d.subInt d.trunc).val = d.val - d.trunc := by
  unfold Dbl.subInt Dbl.trunc
  split
  · rename_i he
    obtain ⟨j, hj⟩ := Int.eq_ofNat_of_zero_le he
    rw [sub_self, round_exact (n := 0) (f := 0) (by norm_num) (by norm_num)]
    unfold Dbl.val
    rw [hj, zpow_natCast]
    push_cast
    simp
  · rename_i he
    obtain ⟨j, hj⟩ := Int.eq_ofNat_of_zero_le (by omega : 0 ≤ -d.e)
    have hj' : d.e = -(j : Int) := by omega
    have ht : (-d.e).toNat = j := by omega
    rw [ht, Int.tdiv_eq_ediv_of_nonneg hm]
    have hP : (0 : Int) < 2 ^ j := by positivity
    have hq0 : 0 ≤ d.m / 2 ^ j * 2 ^ j := mul_nonneg (Int.ediv_nonneg hm (le_of_lt hP)) (le_of_lt hP)
    have hr : 0 ≤ d.m - d.m / 2 ^ j * 2 ^ j := sub_nonneg.mpr (Int.ediv_mul_le _ (ne_of_gt hP))
    have hb : |d.m - d.m / 2 ^ j * 2 ^ j| ≤ 2 ^ 53 := by
      rw [abs_of_nonneg hr]; rw [abs_of_nonneg hm] at hm2; linarith
    rw [round_exact hb rfl]
    unfold Dbl.val
    have h2 : (2 : ℚ) ^ j * 2 ^ d.e = 1 := by
      rw [hj', zpow_neg, zpow_natCast]
      exact mul_inv_cancel₀ (by positivity)
    push_cast
    rw [sub_mul, mul_assoc, h2, mul_one]

/-- The mantissa of what is left is small enough to be exact again. -/
theorem mulInt_U20 (d : Dbl) (h : |d.m| ≤ 2 ^ 53) : (d.mulInt U20).val = 2 ^ 20 * d.val := by
  unfold Dbl.mulInt
  rw [show d.m * U20 = d.m * 2 ^ 20 from rfl, round_mul, round_exact h rfl]
  rfl

theorem subInt_mant (d : Dbl) (n : Int) : |(d.subInt n).m| ≤ 2 ^ 53 := by
  unfold Dbl.subInt
  split <;> exact round_mant _ _

end BK
