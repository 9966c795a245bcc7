import Verif.Spec.Seconds
import Mathlib.Tactic.Linarith
import Mathlib.Tactic.Ring
import Mathlib.Tactic.Positivity
import Mathlib.Tactic.NormNum
/-!
Rounding to 53 bits gives the nearest number, and what follows from it.
-/
namespace BK

theorem roundShift_near (m : Int) (k : Nat) (c : Int) : |roundShift m k * 2 ^ k - m| ≤ |c * 2 ^ k - m| := by
  unfold roundShift
  have hP : (0 : Int) < 2 ^ k := by positivity
  generalize (2 : Int) ^ k = P at hP ⊢
  have hr0 := Int.emod_nonneg m (ne_of_gt hP)
  have hr1 := Int.emod_lt_of_pos m hP
  have hm := Int.mul_ediv_add_emod m P
  have hm2 : m = m / P * P + m % P := by linarith [mul_comm P (m / P)]
  generalize m / P = q at *
  generalize m % P = r at *
  have hc : c * P ≤ q * P ∨ q * P + P ≤ c * P := by
    rcases le_or_gt c q with h | h
    · exact .inl (mul_le_mul_of_nonneg_right h (le_of_lt hP))
    · right
      have : (q + 1) * P ≤ c * P := mul_le_mul_of_nonneg_right h (le_of_lt hP)
      linarith
  have he : (q + 1) * P = q * P + P := by ring
  dsimp only
  split
  · rename_i h
    rw [he, hm2]
    rcases abs_cases (q * P + P - (q * P + r)) with ⟨h1, _⟩ | ⟨h1, _⟩ <;>
      rcases abs_cases (c * P - (q * P + r)) with ⟨h2, _⟩ | ⟨h2, _⟩ <;> rw [h1, h2] <;> omega
  · rename_i h
    rw [hm2]
    rcases abs_cases (q * P - (q * P + r)) with ⟨h1, _⟩ | ⟨h1, _⟩ <;>
      rcases abs_cases (c * P - (q * P + r)) with ⟨h2, _⟩ | ⟨h2, _⟩ <;> rw [h1, h2] <;> omega

theorem roundShift_zero (m : Int) : roundShift m 0 = m := by
  unfold roundShift
  simp

theorem bitLen_le {n : Nat} (h : n ≠ 0) : 2 ^ (bitLen n - 1) ≤ n := by
  unfold bitLen
  rw [if_neg h]
  exact Nat.log2_self_le h

theorem bitLen_lt (n : Nat) : n < 2 ^ bitLen n := by
  unfold bitLen
  split
  · rename_i h; omega
  · exact Nat.lt_log2_self

theorem two_zpow_pos (e : Int) : (0 : ℚ) < 2 ^ e := zpow_pos (by norm_num) e

theorem zpow_add_nat (e : Int) (k : Nat) : (2 : ℚ) ^ (e + k) = 2 ^ k * 2 ^ e := by
  rw [zpow_add₀ (by norm_num), zpow_natCast, mul_comm]

/-- Rounding gives the nearest number with 53 bits. -/
theorem round_near (m e n f : Int) (hn : |n| ≤ 2 ^ 53) :
    |(Dbl.round m e).val - m * 2 ^ e| ≤ |(n : ℚ) * 2 ^ f - m * 2 ^ e| := by
  have key : ∀ c : Int, |(Dbl.round m e).val - m * 2 ^ e| ≤ |((c * 2 ^ (bitLen m.natAbs - 53) - m : Int) : ℚ)| * 2 ^ e := by
    intro c
    have h1 : (Dbl.round m e).val - m * 2 ^ e
        = ((roundShift m (bitLen m.natAbs - 53) * 2 ^ (bitLen m.natAbs - 53) - m : Int) : ℚ) * 2 ^ e := by
      unfold Dbl.round Dbl.val
      dsimp only
      rw [zpow_add_nat]
      push_cast
      ring
    rw [h1, abs_mul, abs_of_pos (two_zpow_pos e)]
    apply mul_le_mul_of_nonneg_right _ (le_of_lt (two_zpow_pos e))
    have := roundShift_near m (bitLen m.natAbs - 53) c
    exact_mod_cast this
  by_cases hk : bitLen m.natAbs - 53 = 0
  · have h1 : (Dbl.round m e).val - m * 2 ^ e = 0 := by
      unfold Dbl.round Dbl.val
      dsimp only
      rw [hk, roundShift_zero]
      simp
    rw [h1, abs_zero]
    exact abs_nonneg _
  · by_cases hf : e + (bitLen m.natAbs - 53 : Nat) ≤ f
    · obtain ⟨j, hj⟩ := Int.eq_ofNat_of_zero_le (Int.sub_nonneg_of_le hf)
      have hj' : f = (e + (bitLen m.natAbs - 53 : Nat)) + j := by omega
      refine le_trans (key (n * 2 ^ j)) (le_of_eq ?_)
      rw [hj', zpow_add_nat, zpow_add_nat]
      have : (n : ℚ) * (2 ^ j * (2 ^ (bitLen m.natAbs - 53) * 2 ^ e)) - m * 2 ^ e
          = ((n * 2 ^ j * 2 ^ (bitLen m.natAbs - 53) - m : Int) : ℚ) * 2 ^ e := by push_cast; ring
      rw [this, abs_mul, abs_of_pos (two_zpow_pos e)]
    · have hm0 : m.natAbs ≠ 0 := by
        intro h; rw [h] at hk; exact hk rfl
      have hlow := bitLen_le hm0
      generalize hK : bitLen m.natAbs - 53 = K at *
      have hB : bitLen m.natAbs - 1 = 52 + K := by omega
      rw [hB] at hlow
      have hlowZ : (2 : Int) ^ (52 + K) ≤ |m| := by
        rw [Int.abs_eq_natAbs]; exact_mod_cast hlow
      have hlowQ : (2 : ℚ) ^ (52 + K) ≤ |(m : ℚ)| := by exact_mod_cast hlowZ
      have hz : |(n : ℚ) * 2 ^ f| ≤ 2 ^ (52 + K) * 2 ^ e := by
        rw [abs_mul, abs_of_pos (two_zpow_pos f)]
        have hnQ : |(n : ℚ)| ≤ 2 ^ 53 := by exact_mod_cast hn
        calc |(n : ℚ)| * 2 ^ f ≤ 2 ^ 53 * 2 ^ f := mul_le_mul_of_nonneg_right hnQ (le_of_lt (two_zpow_pos f))
          _ = 2 ^ (f + (53 : Nat)) := (zpow_add_nat f 53).symm
          _ ≤ 2 ^ (e + ((52 + K : Nat) : Int)) := zpow_le_zpow_right₀ (by norm_num) (by push_cast; omega)
          _ = 2 ^ (52 + K) * 2 ^ e := zpow_add_nat e (52 + K)
      have hr : (|(m : ℚ)| - 2 ^ (52 + K)) * 2 ^ e ≤ |(n : ℚ) * 2 ^ f - m * 2 ^ e| := by
        have h1 := abs_sub_abs_le_abs_sub ((m : ℚ) * 2 ^ e) ((n : ℚ) * 2 ^ f)
        rw [abs_mul, abs_of_pos (two_zpow_pos e)] at h1
        rw [abs_sub_comm]
        linarith
      refine le_trans ?_ hr
      rcases abs_cases m with ⟨ha, hs⟩ | ⟨ha, hs⟩
      · refine le_trans (key (2 ^ 52)) (le_of_eq ?_)
        congr 1
        rw [ha] at hlowZ
        have e1 : (2 : Int) ^ 52 * 2 ^ K - m = -(m - 2 ^ (52 + K)) := by rw [pow_add]; ring
        rw [e1]
        have e2 : (0 : Int) ≤ m - 2 ^ (52 + K) := by linarith
        have e3 : (0 : ℚ) ≤ ((m - 2 ^ (52 + K) : Int) : ℚ) := by exact_mod_cast e2
        rw [Int.cast_neg, abs_neg, abs_of_nonneg e3]
        have e4 : |(m : ℚ)| = m := abs_of_nonneg (by exact_mod_cast hs)
        rw [e4]; push_cast; rfl
      · refine le_trans (key (-2 ^ 52)) (le_of_eq ?_)
        congr 1
        rw [ha] at hlowZ
        have e1 : -(2 : Int) ^ 52 * 2 ^ K - m = (-m - 2 ^ (52 + K)) := by rw [pow_add]; ring
        rw [e1]
        have e2 : (0 : Int) ≤ -m - 2 ^ (52 + K) := by linarith
        have e3 : (0 : ℚ) ≤ ((-m - 2 ^ (52 + K) : Int) : ℚ) := by exact_mod_cast e2
        rw [abs_of_nonneg e3]
        have e4 : |(m : ℚ)| = -m := abs_of_neg (by exact_mod_cast hs)
        rw [e4]; push_cast; rfl

/-- Numbers with 53 bits stay. -/
theorem round_exact {m e n f : Int} (hn : |n| ≤ 2 ^ 53) (h : (m : ℚ) * 2 ^ e = n * 2 ^ f) :
    (Dbl.round m e).val = m * 2 ^ e := by
  have := round_near m e n f hn
  rw [h, sub_self, abs_zero] at this
  have h0 := abs_nonpos_iff.mp this
  rw [h]; linarith

/-- What is rounded does not pass a number with 53 bits. -/
theorem le_round {m e n f : Int} (hn : |n| ≤ 2 ^ 53) (h : (n : ℚ) * 2 ^ f ≤ m * 2 ^ e) : (n : ℚ) * 2 ^ f ≤ (Dbl.round m e).val := by
  have h1 := round_near m e n f hn
  rw [abs_of_nonpos (by linarith : (n : ℚ) * 2 ^ f - m * 2 ^ e ≤ 0)] at h1
  have h2 := abs_le.mp h1
  linarith [h2.1]

theorem round_le {m e n f : Int} (hn : |n| ≤ 2 ^ 53) (h : (m : ℚ) * 2 ^ e ≤ n * 2 ^ f) : (Dbl.round m e).val ≤ (n : ℚ) * 2 ^ f := by
  have h1 := round_near m e n f hn
  rw [abs_of_nonneg (by linarith : 0 ≤ (n : ℚ) * 2 ^ f - m * 2 ^ e)] at h1
  have h2 := abs_le.mp h1
  linarith [h2.2]

/-- The integer part. -/
theorem trunc_floor {d : Dbl} (h : 0 ≤ d.m) : d.trunc = ⌊d.val⌋ := by
  unfold Dbl.trunc Dbl.val
  split
  · rename_i he
    obtain ⟨j, hj⟩ := Int.eq_ofNat_of_zero_le he
    rw [hj]
    have : ((d.m : ℚ) * 2 ^ ((j : Int))) = ((d.m * 2 ^ j : Int) : ℚ) := by rw [zpow_natCast]; push_cast; ring
    rw [this, Int.floor_intCast]
    rfl
  · rename_i he
    obtain ⟨j, hj⟩ := Int.eq_ofNat_of_zero_le (by omega : 0 ≤ -d.e)
    have hj' : d.e = -(j : Int) := by omega
    rw [hj', neg_neg, Int.tdiv_eq_ediv_of_nonneg h]
    have : ((d.m : ℚ) * 2 ^ (-(j : Int))) = (d.m : ℚ) / ((2 ^ j : Nat) : ℚ) := by
      rw [zpow_neg, zpow_natCast]; push_cast; rfl
    rw [this, Rat.floor_intCast_div_natCast]
    push_cast
    rfl

theorem val_nonneg {d : Dbl} : 0 ≤ d.val ↔ 0 ≤ d.m := by
  unfold Dbl.val
  constructor
  · intro h
    have := nonneg_of_mul_nonneg_left h (two_zpow_pos d.e)
    exact_mod_cast this
  · intro h
    have : (0 : ℚ) ≤ d.m := by exact_mod_cast h
    exact mul_nonneg this (le_of_lt (two_zpow_pos d.e))

/-- The mantissa after rounding. -/
theorem round_mant (m e : Int) : |(Dbl.round m e).m| ≤ 2 ^ 53 := by
  show |roundShift m (bitLen m.natAbs - 53)| ≤ 2 ^ 53
  have hlt := bitLen_lt m.natAbs
  have hlt2 : m.natAbs < 2 ^ (53 + (bitLen m.natAbs - 53)) :=
    lt_of_lt_of_le hlt (Nat.pow_le_pow_right (by norm_num) (by omega))
  generalize bitLen m.natAbs - 53 = K at *
  have h1 : |m| < 2 ^ 53 * 2 ^ K := by
    rw [Int.abs_eq_natAbs, ← pow_add]; exact_mod_cast hlt2
  have h2 := abs_lt.mp h1
  have hP : (0 : Int) < 2 ^ K := by positivity
  have hq1 : m / 2 ^ K < 2 ^ 53 := Int.ediv_lt_of_lt_mul hP h2.2
  have hq2 : -2 ^ 53 ≤ m / 2 ^ K := by
    rw [Int.le_ediv_iff_mul_le hP]; linarith [h2.1]
  unfold roundShift
  dsimp only
  rw [abs_le]
  split <;> constructor <;> omega

theorem bitLen_mul {n : Nat} (h : n ≠ 0) (i : Nat) : bitLen (n * 2 ^ i) = bitLen n + i := by
  induction i with
  | zero => simp
  | succ i ih =>
    have h0 : n * 2 ^ i ≠ 0 := Nat.mul_ne_zero h (by positivity)
    have h1 : n * 2 ^ (i + 1) = 2 * (n * 2 ^ i) := by rw [pow_succ]; ring
    rw [h1]
    unfold bitLen at ih ⊢
    rw [if_neg h0] at ih
    rw [if_neg (by omega), Nat.log2_two_mul h0]
    omega

theorem roundShift_mul (m : Int) (k i : Nat) : roundShift (m * 2 ^ i) (k + i) = roundShift m k := by
  unfold roundShift
  have hI : (0 : Int) < 2 ^ i := by positivity
  have e1 : m * 2 ^ i / 2 ^ (k + i) = m / 2 ^ k := by
    rw [pow_add, Int.mul_ediv_mul_of_pos_left _ _ hI]
  have e2 : m * 2 ^ i % 2 ^ (k + i) = m % 2 ^ k * 2 ^ i := by
    rw [pow_add, mul_comm m, mul_comm ((2 : Int) ^ k), Int.mul_emod_mul_of_pos _ _ hI, mul_comm]
  dsimp only
  rw [e1, e2]
  have e3 : 2 * (m % 2 ^ k * 2 ^ i) > (2 : Int) ^ (k + i) ↔ 2 * (m % 2 ^ k) > 2 ^ k := by
    rw [pow_add, ← mul_assoc]
    exact mul_lt_mul_iff_left₀ hI
  have e4 : 2 * (m % 2 ^ k * 2 ^ i) = (2 : Int) ^ (k + i) ↔ 2 * (m % 2 ^ k) = 2 ^ k := by
    rw [pow_add, ← mul_assoc]
    exact mul_left_inj' (ne_of_gt hI)
  simp only [e3, e4]

theorem round_shift (m e : Int) (i : Nat) : (Dbl.round m (e + i)).val = 2 ^ i * (Dbl.round m e).val := by
  unfold Dbl.round Dbl.val
  dsimp only
  rw [add_right_comm, zpow_add_nat]
  ring

/-- Powers of two only move the exponent. -/
theorem round_mul (m e : Int) (i : Nat) : (Dbl.round (m * 2 ^ i) e).val = 2 ^ i * (Dbl.round m e).val := by
  by_cases hk : bitLen m.natAbs - 53 = 0
  · have hlt := bitLen_lt m.natAbs
    have hb : |m| ≤ 2 ^ 53 := by
      rw [Int.abs_eq_natAbs]
      have : m.natAbs ≤ 2 ^ 53 := le_trans (le_of_lt hlt) (Nat.pow_le_pow_right (by norm_num) (by omega))
      exact_mod_cast this
    have h1 : ((m * 2 ^ i : Int) : ℚ) * 2 ^ e = m * 2 ^ (e + i) := by
      rw [zpow_add_nat]; push_cast; ring
    rw [round_exact hb h1, round_exact hb rfl]
    push_cast
    ring
  · have h0 : m.natAbs ≠ 0 := by
      intro h; rw [h] at hk; exact hk rfl
    have h1 : (m * 2 ^ i).natAbs = m.natAbs * 2 ^ i := by
      rw [Int.natAbs_mul, Int.natAbs_pow]; rfl
    have h2 : bitLen (m * 2 ^ i).natAbs - 53 = (bitLen m.natAbs - 53) + i := by
      rw [h1, bitLen_mul h0]; omega
    unfold Dbl.round Dbl.val
    dsimp only
    rw [h2, roundShift_mul]
    have h3 : e + ((bitLen m.natAbs - 53 + i : Nat) : Int) = (e + (bitLen m.natAbs - 53 : Nat)) + (i : Nat) := by push_cast; ring
    rw [h3, zpow_add_nat]
    ring

/-- Equal numbers are rounded equally. -/
theorem round_congr_le {m e m' e' : Int} (he : e ≤ e') (h : (m : ℚ) * 2 ^ e = m' * 2 ^ e') : (Dbl.round m e).val = (Dbl.round m' e').val := by
  obtain ⟨i, hi⟩ := Int.eq_ofNat_of_zero_le (Int.sub_nonneg_of_le he)
  have he' : e' = e + i := by omega
  subst he'
  rw [zpow_add_nat, ← mul_assoc] at h
  have h1 := mul_right_cancel₀ (ne_of_gt (two_zpow_pos e)) h
  have h2 : m = m' * 2 ^ i := by exact_mod_cast h1
  rw [h2, round_mul, round_shift]

theorem round_congr {m e m' e' : Int} (h : (m : ℚ) * 2 ^ e = m' * 2 ^ e') : (Dbl.round m e).val = (Dbl.round m' e').val := by
  rcases le_total e e' with he | he
  · exact round_congr_le he h
  · exact (round_congr_le he h.symm).symm

/-- Larger numbers are not rounded to smaller ones. -/
theorem round_mono {m e m' e' : Int} (h : (m : ℚ) * 2 ^ e ≤ m' * 2 ^ e') : (Dbl.round m e).val ≤ (Dbl.round m' e').val := by
  rcases eq_or_lt_of_le h with h | h
  · exact le_of_eq (round_congr h)
  · by_contra hc
    have hc' := not_le.mp hc
    have h1 : |(Dbl.round m e).val - m * 2 ^ e| ≤ |(Dbl.round m' e').val - m * 2 ^ e| :=
      round_near m e _ _ (round_mant m' e')
    have h2 : |(Dbl.round m' e').val - m' * 2 ^ e'| ≤ |(Dbl.round m e).val - m' * 2 ^ e'| :=
      round_near m' e' _ _ (round_mant m e)
    generalize (Dbl.round m e).val = b at *
    generalize (Dbl.round m' e').val = a at *
    generalize (m : ℚ) * 2 ^ e = x at *
    generalize (m' : ℚ) * 2 ^ e' = y at *
    have hx : (a + b) / 2 ≤ x := by
      by_contra hx
      have hx' := not_le.mp hx
      rw [abs_of_pos (by linarith : 0 < b - x)] at h1
      rcases abs_cases (a - x) with ⟨k, _⟩ | ⟨k, _⟩ <;> rw [k] at h1 <;> linarith
    have hy : y ≤ (a + b) / 2 := by
      by_contra hy
      have hy' := not_le.mp hy
      rw [abs_of_neg (by linarith : a - y < 0)] at h2
      rcases abs_cases (b - y) with ⟨k, _⟩ | ⟨k, _⟩ <;> rw [k] at h2 <;> linarith
    linarith

/-- The relative error of rounding. -/
theorem round_error (m e : Int) : |(Dbl.round m e).val - m * 2 ^ e| * 2 ^ 53 ≤ |(m : ℚ) * 2 ^ e| := by
  have h1 : (Dbl.round m e).val - m * 2 ^ e
      = ((roundShift m (bitLen m.natAbs - 53) * 2 ^ (bitLen m.natAbs - 53) - m : Int) : ℚ) * 2 ^ e := by
    unfold Dbl.round Dbl.val
    dsimp only
    rw [zpow_add_nat]
    push_cast
    ring
  rw [h1, abs_mul, abs_of_pos (two_zpow_pos e), abs_mul, abs_of_pos (two_zpow_pos e)]
  rw [mul_right_comm]
  apply mul_le_mul_of_nonneg_right _ (le_of_lt (two_zpow_pos e))
  have hz : |roundShift m (bitLen m.natAbs - 53) * 2 ^ (bitLen m.natAbs - 53) - m| * 2 ^ 53 ≤ |m| := by
    by_cases hk : bitLen m.natAbs - 53 = 0
    · rw [hk, roundShift_zero]
      simp
    · have hm0 : m.natAbs ≠ 0 := by
        intro h; rw [h] at hk; exact hk rfl
      have hlow := bitLen_le hm0
      generalize hK : bitLen m.natAbs - 53 = K at *
      have hB : bitLen m.natAbs - 1 = 52 + K := by omega
      rw [hB] at hlow
      have hlowZ : (2 : Int) ^ (52 + K) ≤ |m| := by
        rw [Int.abs_eq_natAbs]; exact_mod_cast hlow
      have n1 := roundShift_near m K (m / 2 ^ K)
      have n2 := roundShift_near m K (m / 2 ^ K + 1)
      have hP : (0 : Int) < 2 ^ K := by positivity
      have hr0 := Int.emod_nonneg m (ne_of_gt hP)
      have hr1 := Int.emod_lt_of_pos m hP
      have hm2 : m / 2 ^ K * 2 ^ K - m = -(m % 2 ^ K) := by linarith [Int.mul_ediv_add_emod m (2 ^ K), mul_comm (2 ^ K) (m / 2 ^ K)]
      have hm3 : (m / 2 ^ K + 1) * 2 ^ K - m = 2 ^ K - m % 2 ^ K := by linarith
      rw [hm2, abs_neg, abs_of_nonneg hr0] at n1
      rw [hm3, abs_of_nonneg (sub_nonneg.mpr (le_of_lt hr1))] at n2
      have h52 : (2 : Int) ^ (52 + K) = 2 ^ 52 * 2 ^ K := pow_add 2 52 K
      rw [h52] at hlowZ
      generalize |roundShift m K * 2 ^ K - m| = E at *
      linarith
  exact_mod_cast hz

end BK
