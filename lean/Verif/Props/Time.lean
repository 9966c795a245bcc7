import Verif.Spec.Time
/-! C01, C02: time arithmetic. -/
namespace BK

/-- C01, addition: both builds return the exact sum. -/
theorem C01_add {a b : T32} {m n : Int} (ha : SameTime a m) (hb : SameTime b n)
    (h : FitsT32 (m + n)) :
    SameResult (T32.add a b) (T64.add m n) ∧ T64.add m n = .ok (m + n) := by
  obtain ⟨⟨⟨a1, a2⟩, a3, a4⟩, rfl⟩ := ha
  obtain ⟨⟨⟨b1, b2⟩, b3, b4⟩, rfl⟩ := hb
  obtain ⟨h1, h2⟩ := h
  simp only [T32.val] at h1 h2 ⊢
  have e : T64.add (a.time * 1048576 + a.frac) (b.time * 1048576 + b.frac) =
      .ok (a.time * 1048576 + a.frac + (b.time * 1048576 + b.frac)) := by
    unfold T64.add; exact i64_ok (by omega) (by omega)
  have s : i32 (a.time + b.time) = .ok (a.time + b.time) := i32_ok (by omega) (by omega)
  have r : T32.add a b = .ok ⟨wrapI32 (wrapU32 (a.time + b.time + wrapU32 (a.frac + b.frac) / U20)),
      wrapU32 (a.frac + b.frac) % U20⟩ := by simp only [T32.add, s, ok_bind, pure_eq_ok]
  refine ⟨⟨_, _, r, e, ⟨⟨⟨?_, ?_⟩, ?_, ?_⟩, ?_⟩⟩, e⟩
  all_goals simp only [T32.val, wrapI32, wrapU32] ; omega

example : SameTime ⟨-3, 1048575⟩ (-3 * 1048576 + 1048575) ∧ SameTime ⟨7, 1⟩ (7 * 1048576 + 1) ∧
    FitsT32 (-3 * 1048576 + 1048575 + (7 * 1048576 + 1)) := by
  simp [SameTime, T32.Wf, T32.val, InI32, FitsT32]

/-- C01, subtraction: both builds return the exact difference. -/
theorem C01_sub {a b : T32} {m n : Int} (ha : SameTime a m) (hb : SameTime b n)
    (h : FitsT32 (m - n)) :
    SameResult (T32.sub a b) (T64.sub m n) ∧ T64.sub m n = .ok (m - n) := by
  obtain ⟨⟨⟨a1, a2⟩, a3, a4⟩, rfl⟩ := ha
  obtain ⟨⟨⟨b1, b2⟩, b3, b4⟩, rfl⟩ := hb
  obtain ⟨h1, h2⟩ := h
  simp only [T32.val] at h1 h2 ⊢
  have e : T64.sub (a.time * 1048576 + a.frac) (b.time * 1048576 + b.frac) =
      .ok (a.time * 1048576 + a.frac - (b.time * 1048576 + b.frac)) := by
    unfold T64.sub; exact i64_ok (by omega) (by omega)
  have s : i32 (a.time - b.time) = .ok (a.time - b.time) := i32_ok (by omega) (by omega)
  have t : i32 (a.time - b.time + wrapI32 (wrapU32 (a.frac - b.frac)) / U20) =
      .ok (a.time - b.time + wrapI32 (wrapU32 (a.frac - b.frac)) / U20) :=
    i32_ok (by simp only [wrapI32, wrapU32]; omega) (by simp only [wrapI32, wrapU32]; omega)
  have r : T32.sub a b = .ok ⟨a.time - b.time + wrapI32 (wrapU32 (a.frac - b.frac)) / U20,
      wrapU32 (a.frac - b.frac) % U20⟩ := by simp only [T32.sub, s, t, ok_bind, pure_eq_ok]
  refine ⟨⟨_, _, r, e, ⟨⟨⟨?_, ?_⟩, ?_, ?_⟩, ?_⟩⟩, e⟩
  all_goals simp only [T32.val, wrapI32, wrapU32] ; omega

example : SameTime ⟨3, 5⟩ (3 * 1048576 + 5) ∧ SameTime ⟨7, 9⟩ (7 * 1048576 + 9) ∧
    FitsT32 (3 * 1048576 + 5 - (7 * 1048576 + 9)) := by
  simp [SameTime, T32.Wf, T32.val, InI32, FitsT32]

/-- C01, adding a period.  Partial: the claim is for every 32-bit period; it holds
for periods up to 2^32 - 2^20, beyond that see `C01_addF_refuted`. -/
theorem C01_addF_partial {a : T32} {m p : Int} (ha : SameTime a m) (hp : 0 ≤ p)
    (hp' : p ≤ 4293918720) (h : FitsT32 (m + p)) :
    SameResult (T32.addF a p) (T64.addF m p) ∧ T64.addF m p = .ok (m + p) := by
  obtain ⟨⟨⟨a1, a2⟩, a3, a4⟩, rfl⟩ := ha
  obtain ⟨h1, h2⟩ := h
  simp only [T32.val] at h1 h2 ⊢
  have e : T64.addF (a.time * 1048576 + a.frac) p = .ok (a.time * 1048576 + a.frac + p) := by
    unfold T64.addF; exact i64_ok (by omega) (by omega)
  have r : T32.addF a p = .ok ⟨wrapI32 (wrapU32 (a.time + wrapU32 (a.frac + p) / U20)),
      wrapU32 (a.frac + p) % U20⟩ := by simp only [T32.addF, pure_eq_ok]
  refine ⟨⟨_, _, r, e, ⟨⟨⟨?_, ?_⟩, ?_, ?_⟩, ?_⟩⟩, e⟩
  all_goals simp only [T32.val, wrapI32, wrapU32] ; omega

example : SameTime ⟨-5, 1048575⟩ (-5 * 1048576 + 1048575) ∧
    FitsT32 (-5 * 1048576 + 1048575 + 4293918720) := by
  simp [SameTime, T32.Wf, T32.val, InI32, FitsT32]

/-- C01 fails for the largest periods: the 32-bit build loses the carry. -/
theorem C01_addF_refuted :
    ∃ a m p, SameTime a m ∧ InU32 p ∧ FitsT32 (m + p) ∧
      ¬ SameResult (T32.addF a p) (T64.addF m p) := by
  refine ⟨⟨0, 1⟩, 1, 4294967295, ?_, ?_, ?_, ?_⟩
  · simp [SameTime, T32.Wf, T32.val, InI32]
  · simp [InU32]
  · simp [FitsT32]
  · rintro ⟨t, n, h1, h2, h3⟩
    simp [T32.addF, wrapI32, wrapU32] at h1
    simp [T64.addF, i64, InI64] at h2
    subst h1 h2
    simp [SameTime, T32.val] at h3

/-- C01, subtracting a period.  Partial: holds for periods up to 2^31; see
`C01_subF_refuted`. -/
theorem C01_subF_partial {a : T32} {m p : Int} (ha : SameTime a m) (hp : 0 ≤ p)
    (hp' : p ≤ 2147483648) (h : FitsT32 (m - p)) :
    SameResult (T32.subF a p) (T64.subF m p) ∧ T64.subF m p = .ok (m - p) := by
  obtain ⟨⟨⟨a1, a2⟩, a3, a4⟩, rfl⟩ := ha
  obtain ⟨h1, h2⟩ := h
  simp only [T32.val] at h1 h2 ⊢
  have e : T64.subF (a.time * 1048576 + a.frac) p = .ok (a.time * 1048576 + a.frac - p) := by
    unfold T64.subF; exact i64_ok (by omega) (by omega)
  have t : i32 (a.time + wrapI32 (wrapU32 (a.frac - p)) / U20) =
      .ok (a.time + wrapI32 (wrapU32 (a.frac - p)) / U20) :=
    i32_ok (by simp only [wrapI32, wrapU32]; omega) (by simp only [wrapI32, wrapU32]; omega)
  have r : T32.subF a p = .ok ⟨a.time + wrapI32 (wrapU32 (a.frac - p)) / U20,
      wrapU32 (a.frac - p) % U20⟩ := by simp only [T32.subF, t, ok_bind, pure_eq_ok]
  refine ⟨⟨_, _, r, e, ⟨⟨⟨?_, ?_⟩, ?_, ?_⟩, ?_⟩⟩, e⟩
  all_goals simp only [T32.val, wrapI32, wrapU32] ; omega

example : SameTime ⟨5, 3⟩ (5 * 1048576 + 3) ∧ FitsT32 (5 * 1048576 + 3 - 2147483648) := by
  simp [SameTime, T32.Wf, T32.val, InI32, FitsT32]

/-- C01 fails for subtracting periods above 2^31. -/
theorem C01_subF_refuted :
    ∃ a m p, SameTime a m ∧ InU32 p ∧ FitsT32 (m - p) ∧
      ¬ SameResult (T32.subF a p) (T64.subF m p) := by
  refine ⟨⟨0, 0⟩, 0, 2147483649, ?_, ?_, ?_, ?_⟩
  · simp [SameTime, T32.Wf, T32.val, InI32]
  · simp [InU32]
  · simp [FitsT32]
  · rintro ⟨t, n, h1, h2, h3⟩
    simp [T32.subF, wrapI32, wrapU32, i32, InI32] at h1
    simp [T64.subF, i64, InI64] at h2
    subst h1 h2
    simp [SameTime, T32.val] at h3

/-- C01, comparisons of two times agree and mean what they say. -/
theorem C01_compare {a b : T32} {m n : Int} (ha : SameTime a m) (hb : SameTime b n) :
    (T32.isEqual a b = T64.isEqual m n ∧ (T64.isEqual m n = true ↔ m = n)) ∧
    (T32.isGreater a b = T64.isGreater m n ∧ (T64.isGreater m n = true ↔ m > n)) ∧
    (T32.isGreaterEqual a b = T64.isGreaterEqual m n ∧ (T64.isGreaterEqual m n = true ↔ m ≥ n)) ∧
    (T32.isLess a b = T64.isLess m n ∧ (T64.isLess m n = true ↔ m < n)) ∧
    (T32.isLessEqual a b = T64.isLessEqual m n ∧ (T64.isLessEqual m n = true ↔ m ≤ n)) := by
  obtain ⟨⟨⟨a1, a2⟩, a3, a4⟩, rfl⟩ := ha
  obtain ⟨⟨⟨b1, b2⟩, b3, b4⟩, rfl⟩ := hb
  refine ⟨⟨?_, by simp [T64.isEqual]⟩, ⟨?_, by simp [T64.isGreater]⟩,
    ⟨?_, by simp [T64.isGreaterEqual]⟩, ⟨?_, by simp [T64.isLess]⟩, ⟨?_, by simp [T64.isLessEqual]⟩⟩
  all_goals
    simp only [T32.val]
    rw [Bool.eq_iff_iff]
    simp [T32.isEqual, T64.isEqual, T32.isGreater, T64.isGreater, T32.isGreaterEqual,
      T64.isGreaterEqual, T32.isLess, T64.isLess, T32.isLessEqual, T64.isLessEqual]
    constructor <;> intro h
  · omega
  · constructor <;> omega
  all_goals omega

example : SameTime ⟨-1, 1048575⟩ (-1) ∧ SameTime ⟨0, 0⟩ 0 := by
  simp [SameTime, T32.Wf, T32.val, InI32]

/-- C01, comparison with a period: `less` is exact for every 32-bit period. -/
theorem C01_lessF {a : T32} {m p : Int} (ha : SameTime a m) (hp : InU32 p) :
    T32.isLessF a p = T64.isLessF m p ∧ (T64.isLessF m p = true ↔ m < p) := by
  obtain ⟨⟨⟨a1, a2⟩, a3, a4⟩, rfl⟩ := ha
  obtain ⟨p1, p2⟩ := hp
  refine ⟨?_, by simp [T64.isLessF]⟩
  simp only [T32.val]
  rw [Bool.eq_iff_iff]
  have e : wrapI32 (p / U20) = p / U20 := by unfold wrapI32; omega
  simp [T32.isLessF, T64.isLessF, T32.isLess, e]
  omega

/-- C01, comparison with a period: `greater` is exact below 2^31.  Partial: the claim is
for every 32-bit period; see `C01_greaterF_refuted`. -/
theorem C01_greaterF_partial {a : T32} {m p : Int} (ha : SameTime a m) (hp : 0 ≤ p)
    (hp' : p < 2147483648) :
    T32.isGreaterF a p = T64.isGreaterF m p ∧ (T64.isGreaterF m p = true ↔ m > p) := by
  obtain ⟨⟨⟨a1, a2⟩, a3, a4⟩, rfl⟩ := ha
  refine ⟨?_, by simp [T64.isGreaterF, wrapI32]; omega⟩
  rw [Bool.eq_iff_iff]
  simp [T32.isGreaterF, T64.isGreaterF, T32.isGreater, T32.val, wrapI32]
  omega

/-- C01 fails for `greater` and a period of 2^31: the 64-bit build casts the period to a
negative number. -/
theorem C01_greaterF_refuted :
    ∃ a m p, SameTime a m ∧ InU32 p ∧ T32.isGreaterF a p ≠ T64.isGreaterF m p := by
  refine ⟨⟨0, 0⟩, 0, 2147483648, ?_, ?_, ?_⟩
  · simp [SameTime, T32.Wf, T32.val, InI32]
  · simp [InU32]
  · decide

/-- C01, reading a time: whole samples and fraction agree in both builds. -/
theorem C01_read {a : T32} {m : Int} (ha : SameTime a m) :
    T32.getTime a = T64.getTime m ∧ T32.getFrac a = T64.getFrac m ∧
    (T32.getTime a * 1048576 + T32.getFrac a = m) := by
  obtain ⟨⟨⟨a1, a2⟩, a3, a4⟩, rfl⟩ := ha
  simp only [T32.getTime, T64.getTime, T32.getFrac, T64.getFrac, T32.val, wrapI32]
  refine ⟨?_, ?_, trivial⟩ <;> omega

/-- C01, conversion back to a period, for times that are periods below 2^31. -/
theorem C01_toPeriod {a : T32} {m : Int} (ha : SameTime a m) (h0 : 0 ≤ m) (h1 : m < 2147483648) :
    T32.getFUInt20 a = .ok m ∧ T64.getFUInt20 m = m := by
  obtain ⟨⟨⟨a1, a2⟩, a3, a4⟩, rfl⟩ := ha
  simp only [T32.val] at h0 h1 ⊢
  have s : i32 (a.time * U20) = .ok (a.time * U20) :=
    i32_ok (by omega) (by omega)
  simp only [T32.getFUInt20, s, ok_bind, pure_eq_ok, T64.getFUInt20, wrapU32]
  constructor
  · congr 1; omega
  · omega

/-- C02 fails on 64-bit builds: at 2048 samples the 32-bit shift overflows. -/
theorem C02_refuted : ∃ n, 0 ≤ n ∧ InI32 n ∧ T64.make n 0 = .error .overflow := by
  exact ⟨2048, by decide, by decide, by decide⟩

/-- C02 also fails for the wrapped value a typical compiler produces: 4096 samples
become none (the shift reduced modulo 2^32). -/
theorem C02_wrapped_refuted : wrapU32 (wrapI32 (4096 * U20) + 0) = 0 := by decide

/-- C02.  Partial: the 64-bit build is right below 2048 samples. -/
theorem C02_make64_partial {n f : Int} (h0 : 0 ≤ n) (h1 : n < 2048) (hf : 0 ≤ f)
    (hf' : f < 1048576) :
    ∃ t, T64.make n f = .ok t ∧ T64.getTime t = n ∧ T64.getFrac t = f := by
  refine ⟨n * 1048576 + f, ?_, ?_, ?_⟩
  · have s : i32 (n * U20) = .ok (n * U20) := i32_ok (by omega) (by omega)
    simp only [T64.make, s, ok_bind, pure_eq_ok, wrapU32]
    congr 1; omega
  · simp only [T64.getTime, wrapI32]; omega
  · simp only [T64.getFrac]; omega

/-- C02: exactly the sample counts below 2048 are made without overflow. -/
theorem C02_make64_ok_iff {n f : Int} (h0 : 0 ≤ n) :
    (∃ t, T64.make n f = .ok t) ↔ n < 2048 := by
  constructor
  · rintro ⟨t, h⟩
    simp only [T64.make, bind_ok_iff, i32_eq_ok_iff, InI32] at h
    obtain ⟨_, ⟨⟨_, h⟩, _⟩, _⟩ := h
    omega
  · intro h
    have s : i32 (n * U20) = .ok (n * U20) := i32_ok (by omega) (by omega)
    simp only [T64.make, s, ok_bind, pure_eq_ok]
    exact ⟨_, rfl⟩

/-- C02 holds on 32-bit builds for every sample count and fraction. -/
theorem C02_make32 {n f : Int} (h : InI32 n) (hf : 0 ≤ f) (hf' : f < 1048576) :
    T32.getTime (T32.make n f) = n ∧ T32.getFrac (T32.make n f) = f := by
  obtain ⟨h1, h2⟩ := h
  simp only [T32.getTime, T32.make, T32.getFrac, wrapI32, wrapU32]
  omega

example : T64.make 2047 1048575 = .ok (2047 * 1048576 + 1048575) := by decide

end BK
