import Verif.Lemmas.Tone
import Verif.Props.Tone
/-! C21, C69, C70: sample pitch factor, tuning of both tables. -/
namespace BK

/-- Interpolated sample pitch factor before the final shift. -/
def pitchL (pitch : Int) : Int :=
  lerp (fun i => pitchEntry i / 4) 96 256 (limit 0 (96 * 1048576) pitch / 1048576)
    (limit 0 (96 * 1048576) pitch % 1048576 / 4096)

theorem lerp_neg (T : Int → Int) (n M i f : Int) :
    lerp (fun i => - T i) n M i f = - lerp T n M i f := by
  unfold lerp; simp only [Int.neg_mul]; omega

theorem pitchL_mono {p q : Int} (h : p ≤ q) : pitchL p ≤ pitchL q := by
  have a : lerp (fun i => -(pitchEntry i / 4)) 96 256 (limit 0 (96 * 1048576) q / 1048576)
      (limit 0 (96 * 1048576) q % 1048576 / 4096) ≤
    lerp (fun i => -(pitchEntry i / 4)) 96 256 (limit 0 (96 * 1048576) p / 1048576)
      (limit 0 (96 * 1048576) p % 1048576 / 4096) := by
    apply lerp_anti (fun i h0 h1 => by have := pitch_step i h0 h1; omega)
    all_goals unfold limit
    all_goals omega
  rw [lerp_neg (fun i => pitchEntry i / 4), lerp_neg (fun i => pitchEntry i / 4)] at a
  unfold pitchL
  omega

theorem pitch_lookup_eq (tone : Int) : log2PeriodLookup tone = .ok (pitchL tone / 64) := by
  have hp : 0 ≤ limit 0 (96 * 1048576) tone ∧ limit 0 (96 * 1048576) tone ≤ 96 * 1048576 := by
    unfold limit; omega
  unfold log2PeriodLookup pitchL lerp
  simp only [cclamp_eq_limit _ 0 (96 * 1048576) (by omega), cmin_eq]
  generalize limit 0 (96 * 1048576) tone = p at *
  rw [rd_getD (by omega) (by show _ < (97 : Int); omega),
    rd_getD (by omega) (by show _ < (97 : Int); omega)]
  simp only [ok_bind, pure_eq_ok]
  change Except.ok (wrapU32 (wrapU32 (pitchEntry (p / 1048576) / 4 * _) +
    wrapU32 (pitchEntry (min (p / 1048576 + 1) 96) / 4 * _)) / 64) = _
  have a := pitch_range (p / 1048576) (by omega) (by omega)
  have b := pitch_range (min (p / 1048576 + 1) 96) (by omega) (by omega)
  have c := mul_bounds (show 0 ≤ pitchEntry (p / 1048576) / 4 by omega)
    (show pitchEntry (p / 1048576) / 4 ≤ 4194304 by omega)
    (show 0 ≤ 256 - p % 1048576 / 4096 by omega)
  have d := mul_bounds (show 0 ≤ pitchEntry (min (p / 1048576 + 1) 96) / 4 by omega)
    (show pitchEntry (min (p / 1048576 + 1) 96) / 4 ≤ 4194304 by omega)
    (show 0 ≤ p % 1048576 / 4096 by omega)
  have w1 : wrapU32 (pitchEntry (p / 1048576) / 4 * (256 - p % 1048576 / 4096)) =
      pitchEntry (p / 1048576) / 4 * (256 - p % 1048576 / 4096) := by unfold wrapU32; omega
  have w2 : wrapU32 (pitchEntry (min (p / 1048576 + 1) 96) / 4 * (p % 1048576 / 4096)) =
      pitchEntry (min (p / 1048576 + 1) 96) / 4 * (p % 1048576 / 4096) := by unfold wrapU32; omega
  rw [w1, w2]
  congr 2
  unfold wrapU32; omega

theorem pitchL_whole {n : Int} (h0 : 0 ≤ n) (h1 : n ≤ 96) :
    pitchL (n * 1048576) = pitchEntry n / 4 * 256 := by
  have e : limit 0 (96 * 1048576) (n * 1048576) = n * 1048576 := by unfold limit; omega
  unfold pitchL lerp
  rw [e]
  have e1 : n * 1048576 / 1048576 = n := by omega
  have e2 : n * 1048576 % 1048576 / 4096 = 0 := by omega
  rw [e1, e2]
  simp

/-- C21: the factor lookup is total and positive for every pitch. -/
theorem C21_total (tone : Int) :
    ∃ f, log2PeriodLookup tone = .ok f ∧ 65536 ≤ f ∧ f ≤ 16777216 := by
  refine ⟨_, pitch_lookup_eq tone, ?_⟩
  have a := pitchL_mono (show min 0 tone ≤ tone by omega)
  have b := pitchL_mono (show tone ≤ max (96 * 1048576) tone by omega)
  have h : ∀ t t' : Int, limit 0 (96 * 1048576) t = limit 0 (96 * 1048576) t' →
      pitchL t = pitchL t' := by
    intro t t' h; unfold pitchL; rw [h]
  have c : pitchL (min 0 tone) = pitchL (0 * 1048576) := h _ _ (by unfold limit; omega)
  have d : pitchL (max (96 * 1048576) tone) = pitchL (96 * 1048576) := h _ _ (by unfold limit; omega)
  have e := pitchL_whole (n := 0) (by omega) (by omega)
  have f := pitchL_whole (n := 96) (by omega) (by omega)
  have g : pitchEntry 0 = 65536 := by decide +kernel
  have i : pitchEntry 96 = 16777216 := by decide +kernel
  omega

/-- C21: the factor never decreases with pitch. -/
theorem C21_monotone {tone tone' : Int} (h : tone ≤ tone') :
    ∃ f f', log2PeriodLookup tone = .ok f ∧ log2PeriodLookup tone' = .ok f' ∧ f ≤ f' := by
  refine ⟨_, _, pitch_lookup_eq _, pitch_lookup_eq _, ?_⟩
  have := pitchL_mono h
  omega

/-- C21: exactly `2^(k-4)` (scaled by 2^20) at the C of octave `k`; in particular exactly
1.0 at C-4, doubling and halving from C to C. -/
theorem C21_octaves {k : Nat} (h : k ≤ 8) :
    log2PeriodLookup (12 * k * 1048576) = .ok (65536 * 2 ^ k) := by
  rw [pitch_lookup_eq]
  have e : (12 * (k : Int) * 1048576) = (12 * (k : Int)) * 1048576 := rfl
  rw [e, pitchL_whole (by omega) (by omega)]
  have key : ∀ k : Fin 9, log2Periods.getD (12 * k.val) 0 / 4 * 256 / 64 = (65536 * 2 ^ k.val : Int) := by
    decide +kernel
  have := key ⟨k, by omega⟩
  exact congrArg Except.ok this

example : log2PeriodLookup (48 * 1048576) = .ok 1048576 ∧
    log2PeriodLookup (55 * 1048576) = .ok 1571088 := by decide +kernel

theorem noteL_whole {n : Int} (h0 : 0 ≤ n) (h1 : n ≤ 96) :
    noteL (n * 1048576) = noteEntry n * 65536 := by
  have e : limit 0 (96 * 1048576) (n * 1048576) = n * 1048576 := by unfold limit; omega
  unfold noteL lerp
  rw [e]
  have e1 : n * 1048576 / 1048576 = n := by omega
  have e2 : n * 1048576 % 1048576 / 16 = 0 := by omega
  rw [e1, e2]
  simp

/-- C69: tuning of notes.  The period returned for note `n` is the equal-tempered one,
`rate * 2^20 / (440 * 2^((n-45)/12))`, rounded down by less than four sample-rate units.
To stay in the integers both sides are raised to the twelfth power. -/
theorem C69_tuning {n rate : Nat} (hn : n ≤ 96) (hr : 16000 ≤ rate) (hr' : rate ≤ 96000) :
    ∃ p : Nat, tonePeriodLookup (n * 1048576) rate = .ok p ∧
      p ^ 12 * 440 ^ 12 * 2 ^ n ≤ (rate * 2 ^ 20) ^ 12 * 2 ^ 45 ∧
      (rate * 2 ^ 20) ^ 12 * 2 ^ 45 < (p + 4 * rate) ^ 12 * 440 ^ 12 * 2 ^ n := by
  have key : ∀ k : Fin 97,
      (tonePeriods.getD k.val 0).toNat ^ 12 * 440 ^ 12 * 2 ^ k.val ≤ (2 ^ 20) ^ 12 * 2 ^ 45 ∧
      (2 ^ 20) ^ 12 * 2 ^ 45 <
        ((tonePeriods.getD k.val 0).toNat + 1) ^ 12 * 440 ^ 12 * 2 ^ k.val := by
    decide +kernel
  have k := key ⟨n, by omega⟩
  have hT := note_range n (by omega) (by omega)
  have hTe : noteEntry n = tonePeriods.getD n 0 := by unfold noteEntry; simp
  simp only [← hTe] at k
  obtain ⟨T, hTT⟩ : ∃ T : Nat, noteEntry n = T := ⟨(noteEntry n).toNat, by omega⟩
  rw [hTT] at k hT
  simp only [Int.toNat_natCast] at k
  refine ⟨4 * (rate * (T / 4)), ?_, ?_, ?_⟩
  · rw [C19_period_exact, exactPeriod_eq, noteL_whole (by omega) (by omega), hTT]
    have e : limit 16000 96000 (rate : Int) = rate := by unfold limit; omega
    have e2 : (T : Int) * 65536 / 262144 = ((T / 4 : Nat) : Int) := by omega
    rw [e, e2]
    simp
  · calc (4 * (rate * (T / 4))) ^ 12 * 440 ^ 12 * 2 ^ n
        ≤ (rate * T) ^ 12 * 440 ^ 12 * 2 ^ n := by
          apply Nat.mul_le_mul_right
          apply Nat.mul_le_mul_right
          apply Nat.pow_le_pow_left
          have : rate * (4 * (T / 4)) ≤ rate * T := Nat.mul_le_mul_left _ (by omega)
          calc 4 * (rate * (T / 4)) = rate * (4 * (T / 4)) := by
                rw [Nat.mul_left_comm]
            _ ≤ _ := this
      _ = rate ^ 12 * (T ^ 12 * 440 ^ 12 * 2 ^ n) := by
          rw [Nat.mul_pow]; simp only [Nat.mul_assoc]
      _ ≤ rate ^ 12 * ((2 ^ 20) ^ 12 * 2 ^ 45) := Nat.mul_le_mul_left _ k.1
      _ = _ := by rw [Nat.mul_pow]; simp only [Nat.mul_assoc]
  · calc (rate * 2 ^ 20) ^ 12 * 2 ^ 45 = rate ^ 12 * ((2 ^ 20) ^ 12 * 2 ^ 45) := by
          rw [Nat.mul_pow]; simp only [Nat.mul_assoc]
      _ < rate ^ 12 * ((T + 1) ^ 12 * 440 ^ 12 * 2 ^ n) :=
          Nat.mul_lt_mul_of_pos_left k.2 (Nat.pow_pos (by omega))
      _ = (rate * (T + 1)) ^ 12 * 440 ^ 12 * 2 ^ n := by
          rw [Nat.mul_pow]; simp only [Nat.mul_assoc]
      _ ≤ _ := by
          apply Nat.mul_le_mul_right
          apply Nat.mul_le_mul_right
          apply Nat.pow_le_pow_left
          have : rate * (T + 1) ≤ rate * (4 * (T / 4) + 4) := Nat.mul_le_mul_left _ (by omega)
          calc rate * (T + 1) ≤ rate * (4 * (T / 4) + 4) := this
            _ = 4 * (rate * (T / 4)) + 4 * rate := by
                rw [Nat.mul_add, Nat.mul_left_comm, Nat.mul_comm rate 4]

/-- C70: the factor returned for sample pitch `n` is `2^((n-48)/12)` in 12.20 fixed point,
rounded down by less than four units, both sides raised to the twelfth power. -/
theorem C70_sample_tuning {n : Nat} (hn : n ≤ 96) :
    ∃ f : Nat, log2PeriodLookup (n * 1048576) = .ok f ∧
      f ^ 12 * 2 ^ 48 ≤ (2 ^ 20) ^ 12 * 2 ^ n ∧
      (2 ^ 20) ^ 12 * 2 ^ n < (f + 4) ^ 12 * 2 ^ 48 := by
  have key : ∀ k : Fin 97,
      (log2Periods.getD k.val 0 / 4 * 256 / 64).toNat ^ 12 * 2 ^ 48 ≤ (2 ^ 20) ^ 12 * 2 ^ k.val ∧
      (2 ^ 20) ^ 12 * 2 ^ k.val <
        ((log2Periods.getD k.val 0 / 4 * 256 / 64).toNat + 4) ^ 12 * 2 ^ 48 := by
    decide +kernel
  have k := key ⟨n, by omega⟩
  refine ⟨_, ?_, k⟩
  rw [pitch_lookup_eq, pitchL_whole (by omega) (by omega)]
  have := pitch_range n (by omega) (by omega)
  have hTe : pitchEntry n = log2Periods.getD n 0 := by unfold pitchEntry; simp
  simp only [← hTe]
  congr 1
  omega

end BK
