import Verif.Lemmas.Seconds2
/-!
The period of the master clock.
-/
namespace BK

/-- The period for a sample rate that 15 divides. -/
def masterOk (j : Nat) : Bool := decide (T64.masterPeriod (15 * (j + 1067 : Int)) = .ok (65536 * (j + 1067)))

set_option maxRecDepth 20000 in
theorem masterOk_all : (List.range 5334).all masterOk = true := by decide +kernel

theorem master_multiple {j : Int} (h0 : 1067 ≤ j) (h1 : j ≤ 6400) : T64.masterPeriod (15 * j) = .ok (65536 * j) := by
  have h := List.all_eq_true.mp masterOk_all (j.toNat - 1067) (List.mem_range.mpr (by omega))
  unfold masterOk at h
  have h2 := of_decide_eq_true h
  have e : ((j.toNat - 1067 : Nat) : Int) + 1067 = j := by omega
  rw [e] at h2
  exact h2

theorem master_other {rate : Int} (h0 : 16000 ≤ rate) (h1 : rate ≤ 96000) (hd : rate * 65536 % 15 ≠ 0) :
    T64.masterPeriod rate = .ok (rate * 65536 / 15) := by
  have hs : 0 ≤ defaultTick.val := val_nonneg.mpr (by decide)
  obtain ⟨e1, e2⟩ := fromSeconds64_eq (rate := rate) (s := defaultTick) (by omega) h1 hs
  have he := round_error (defaultTick.m * (rate * U20)) defaultTick.e
  have hq := Int.mul_ediv_add_emod (rate * 65536) 15
  have hr0 := Int.emod_nonneg (rate * 65536) (by norm_num : (15 : Int) ≠ 0)
  have hr1 := Int.emod_lt_of_pos (rate * 65536) (by norm_num : (0 : Int) < 15)
  generalize hY : rate * 65536 / 15 = Y at *
  generalize rate * 65536 % 15 = r at *
  rw [units_val] at he
  have hval : defaultTick.val = 4803839602528529 / 1152921504606846976 := by
    show ((4803839602528529 : Int) : ℚ) * 2 ^ (-60 : Int) = _
    norm_num
  have hqQ : (15 : ℚ) * Y + r = rate * 65536 := by exact_mod_cast hq
  have hr0Q : (1 : ℚ) ≤ r := by exact_mod_cast (by omega : (1 : Int) ≤ r)
  have hr1Q : (r : ℚ) ≤ 14 := by exact_mod_cast (by omega : r ≤ 14)
  have hrate : (rate : ℚ) ≤ 96000 := by exact_mod_cast h1
  have hrate0 : (16000 : ℚ) ≤ rate := by exact_mod_cast h0
  have hx : unitsIn rate defaultTick.val = rate * (1048576 * (4803839602528529 / 1152921504606846976)) := by
    unfold unitsIn; rw [hval]; ring
  have hx0 : 0 ≤ unitsIn rate defaultTick.val := by rw [hx]; exact mul_nonneg (by linarith) (by norm_num)
  rw [abs_of_nonneg hx0] at he
  have he2 : |(Dbl.round (defaultTick.m * (rate * U20)) defaultTick.e).val - unitsIn rate defaultTick.val| ≤ 1 / 1048576 := by
    have : unitsIn rate defaultTick.val ≤ 2 ^ 30 := by rw [hx]; linarith
    have h53 : (0 : ℚ) < 2 ^ 53 := by norm_num
    have h3 := le_trans he this
    rw [← le_div_iff₀ h53] at h3
    exact le_trans h3 (by norm_num)
  have he3 := abs_le.mp he2
  rw [hx] at he3
  have hfl : ⌊(Dbl.round (defaultTick.m * (rate * U20)) defaultTick.e).val⌋ = Y := by
    rw [Int.floor_eq_iff]
    constructor <;> linarith [he3.1, he3.2]
  unfold T64.masterPeriod
  rw [e1, hfl]
  apply if_pos
  unfold InI64
  constructor <;> omega

theorem master_period {rate : Int} (h0 : 16000 ≤ rate) (h1 : rate ≤ 96000) : T64.masterPeriod rate = .ok (rate * 1048576 / 240) := by
  by_cases hd : rate * 65536 % 15 = 0
  · obtain ⟨j, hj⟩ : ∃ j, rate = 15 * j := ⟨rate / 15, by omega⟩
    subst hj
    rw [master_multiple (by omega) (by omega)]
    congr 1
    omega
  · rw [master_other h0 h1 hd]
    congr 1
    omega

end BK
