import Verif.Lemmas.Buffer
/-! Lemmas on reading the channel buffer. -/
namespace BK

theorem bind_assoc_C {α β γ} (x : C α) (f : α → C β) (g : β → C γ) :
    (x >>= f >>= g) = (x >>= fun a => f a >>= g) := by
  cases x <;> rfl

theorem bind_congr_C {α β} {x : C α} {f g : α → C β} (h : ∀ a, f a = g a) :
    (x >>= f) = (x >>= g) := by
  rw [funext h]

/-- Move the writes of a read by a distance. -/
def moveWrites (d : Int) (ws : List (Int × Int)) : List (Int × Int) :=
  ws.map fun w => (w.1 + d, w.2)

theorem readLoop_append (chk : Bool) (f : Nat → Int) (stride : Int) (m n : Nat) :
    ∀ (i : Nat) (acc : Int), readLoop chk f stride (m + n) i acc = (do
      let r1 ← readLoop chk f stride m i acc
      let r2 ← readLoop chk f stride n (i + m) r1.1
      return (r2.1, r1.2 ++ r2.2)) := by
  induction m with
  | zero =>
    intro i acc
    simp only [Nat.zero_add, readLoop, ok_bind, List.nil_append, Nat.add_zero, pure_eq_ok]
    cases readLoop chk f stride n i acc <;> rfl
  | succ m ih =>
    intro i acc
    have e : m + 1 + n = (m + n) + 1 := by omega
    rw [e]
    simp only [readLoop, bind_assoc_C, pure_eq_ok, ok_bind]
    refine bind_congr_C fun a => ?_
    refine bind_congr_C fun x => ?_
    refine bind_congr_C fun v => ?_
    rw [ih]
    simp only [bind_assoc_C, pure_eq_ok, ok_bind]
    refine bind_congr_C fun r1 => ?_
    have e2 : i + 1 + m = i + (m + 1) := by omega
    rw [e2]
    rfl

theorem readLoop_shift (chk : Bool) {f g : Nat → Int} (stride : Int) (m n : Nat) :
    ∀ (i : Nat) (acc : Int), i + m + n ≤ 4129 →
      (∀ j, i ≤ j → j < i + n → g j = f (j + m)) →
      readLoop chk f stride n (i + m) acc = (do
        let r ← readLoop chk g stride n i acc
        return (r.1, moveWrites (m * stride) r.2)) := by
  induction n with
  | zero => intro i acc _ _; simp [readLoop, moveWrites]
  | succ n ih =>
    intro i acc hb hg
    simp only [readLoop, bind_assoc_C, pure_eq_ok, ok_bind]
    refine bind_congr_C fun a => ?_
    rw [ldF_ok (by omega) (by omega), ldF_ok (by omega) (by omega)]
    simp only [ok_bind, Int.toNat_natCast]
    rw [hg i (by omega) (by omega)]
    refine bind_congr_C fun v => ?_
    have e : i + m + 1 = (i + 1) + m := by omega
    rw [e, ih (i + 1) v (by omega) (fun j h1 h2 => hg j (by omega) (by omega))]
    simp only [bind_assoc_C, pure_eq_ok, ok_bind]
    refine bind_congr_C fun r => ?_
    simp only [moveWrites, List.map_cons]
    congr 3
    simp only [Int.natCast_add, Int.add_mul]

theorem readLoop_length {chk : Bool} {f : Nat → Int} {stride : Int} (n : Nat) :
    ∀ {i : Nat} {acc : Int} {r}, readLoop chk f stride n i acc = .ok r → r.2.length = n := by
  induction n with
  | zero => intro i acc r h; cases h; rfl
  | succ n ih =>
    intro i acc r h
    simp only [readLoop] at h
    obtain ⟨a, _, h⟩ := bind_ok_iff.mp h
    obtain ⟨x, _, h⟩ := bind_ok_iff.mp h
    obtain ⟨v, _, h⟩ := bind_ok_iff.mp h
    obtain ⟨q, hq, h⟩ := bind_ok_iff.mp h
    cases h
    simp [ih hq]

/-- The buffer after reading `sz` samples with final accumulator `a`. -/
def Buf.afterRead (b : Buf) (sz : Nat) (a : Int) : Buf :=
  { b with
    frames := fun (j : Nat) =>
      if (j : Int) < b.capacity + 33 - sz then b.frames (j + sz)
      else if (j : Int) < b.capacity + 33 then 0 else b.frames j
    capacity := b.capacity - sz
    accum := a
    time := wrapU32 (b.time - wrapU32 (sz * U20)) }

theorem read_eq {chk : Bool} {b : Buf} (hc : 0 ≤ b.capacity ∧ b.capacity ≤ 4095) {n s : Int}
    (hn : 0 ≤ n) :
    b.read chk n s = (do
      let r ← readLoop chk b.frames (max s 1) (min n b.capacity).toNat 0 b.accum
      return (b.afterRead (min n b.capacity).toNat r.1, r.2)) := by
  unfold Buf.read
  have hm : cmin n b.capacity = min n b.capacity := by unfold cmin; split <;> omega
  have hx : cmax s 1 = max s 1 := by unfold cmax; split <;> omega
  have e : wrapU32 (b.capacity + 33) = b.capacity + 33 := by unfold wrapU32; omega
  simp only [hm, hx, e]
  refine bind_congr_C fun r => ?_
  rw [if_pos (by unfold bufFrames; omega)]
  simp only [pure_eq_ok]
  unfold Buf.afterRead
  have e2 : ((min n b.capacity).toNat : Int) = min n b.capacity := by omega
  rw [e2]

theorem afterRead_afterRead {b : Buf} (m n : Nat) (a a' : Int) :
    (b.afterRead m a).afterRead n a' = b.afterRead (m + n) a' := by
  unfold Buf.afterRead
  simp only [Buf.mk.injEq, and_true, true_and]
  refine ⟨?_, ?_, ?_⟩
  · unfold wrapU32; omega
  · omega
  · funext j
    by_cases h1 : (j : Int) < b.capacity + 33 - ((m + n : Nat) : Int)
    · rw [if_pos h1, if_pos (by omega), if_pos (by omega)]
      congr 1; omega
    · rw [if_neg h1]
      by_cases h2 : (j : Int) < b.capacity + 33
      · rw [if_pos h2]
        by_cases h3 : (j : Int) < b.capacity - m + 33 - n
        · omega
        · rw [if_neg h3]
          split
          · rfl
          · rw [if_neg (by omega)]
      · rw [if_neg h2, if_neg (by omega), if_neg (by omega), if_neg (by omega)]

theorem readLoop_accums {f : Nat → Int} {stride : Int} (n : Nat) :
    ∀ {i : Nat} {acc : Int} {r}, i + n ≤ 4129 → readLoop true f stride n i acc = .ok r →
      r.2.map (·.2) = (accums acc ((List.range' i n).map f)).map outAmp ∧
      r.1 = ((accums acc ((List.range' i n).map f)).getLast?).getD acc := by
  induction n with
  | zero => intro i acc r _ h; cases h; simp [accums]
  | succ n ih =>
    intro i acc r hb h
    simp only [readLoop] at h
    obtain ⟨a, h1, h⟩ := bind_ok_iff.mp h
    rw [ldF_ok (by omega) (by omega)] at h
    simp only [ok_bind, Int.toNat_natCast] at h
    obtain ⟨v, h2, h⟩ := bind_ok_iff.mp h
    obtain ⟨q, hq, h⟩ := bind_ok_iff.mp h
    cases h
    have h1 := (arith_true_ok h1).2
    have h2 := (arith_true_ok h2).2
    subst h1 h2
    obtain ⟨g1, g2⟩ := ih (by omega) hq
    simp only [List.range'_succ, List.map_cons, accums]
    rw [g1, g2]
    refine ⟨rfl, ?_⟩
    rw [List.getLast?_cons]
    simp

theorem outAmp_saturates {a : Int} (h : InI32 a) : Saturates (a / 16384) (outAmp a) := by
  unfold InI32 at h
  unfold outAmp Saturates
  simp only
  by_cases hin : wrapI16 (a / 16384) ≠ a / 16384
  · rw [if_pos hin]
    unfold wrapI16 at hin
    refine ⟨?_, ?_, ?_⟩
    · intro h'; unfold InI16 at h'; omega
    · intro h'; unfold wrapI16 xor7FFF; omega
    · intro h'; unfold wrapI16 xor7FFF; omega
  · rw [if_neg hin]
    unfold wrapI16 at *
    unfold InI16
    omega

/-- One frame of the high-pass filter without input. -/
def decay (a : Int) : Int := a - a / 512

/-- `n` frames of the high-pass filter without input. -/
def decayN : Nat → Int → Int
  | 0, a => a
  | n + 1, a => decayN n (decay a)

theorem decayN_succ (n : Nat) (a : Int) : decayN (n + 1) a = decay (decayN n a) := by
  induction n generalizing a with
  | zero => rfl
  | succ n ih => rw [decayN, ih]; rfl

theorem decayN_add (m n : Nat) (a : Int) : decayN (m + n) a = decayN n (decayN m a) := by
  induction m generalizing a with
  | zero => simp [decayN]
  | succ m ih =>
    have : m + 1 + n = (m + n) + 1 := by omega
    rw [this, decayN, ih, decayN]

theorem decay_nonneg {a : Int} (h : 0 ≤ a) : 0 ≤ decay a ∧ decay a ≤ a := by
  unfold decay; omega
theorem decay_nonpos {a : Int} (h : a ≤ 0) : a ≤ decay a ∧ decay a ≤ 0 := by
  unfold decay; omega

theorem decayN_nonneg (n : Nat) {a : Int} (h : 0 ≤ a) : 0 ≤ decayN n a ∧ decayN n a ≤ a := by
  induction n generalizing a with
  | zero => exact ⟨h, Int.le_refl _⟩
  | succ n ih =>
    have := decay_nonneg h
    have := ih this.1
    rw [decayN]; omega
theorem decayN_nonpos (n : Nat) {a : Int} (h : a ≤ 0) : a ≤ decayN n a ∧ decayN n a ≤ 0 := by
  induction n generalizing a with
  | zero => exact ⟨Int.le_refl _, h⟩
  | succ n ih =>
    have := decay_nonpos h
    have := ih this.2
    rw [decayN]; omega

theorem decayN_zero (n : Nat) : decayN n 0 = 0 := by
  have := decayN_nonneg n (Int.le_refl 0); omega

/-- Above a level `512 * d` every frame loses at least `d`. -/
theorem decayN_pos_linear (n : Nat) {a d : Int} (ha : 0 ≤ a) :
    decayN n a ≤ max (512 * d) (a - n * d) := by
  induction n generalizing a with
  | zero => simp [decayN]; omega
  | succ n ih =>
    rw [decayN]
    have h1 := decay_nonneg ha
    by_cases h : 512 * d ≤ a
    · have h2 := ih h1.1
      have h3 : decay a ≤ a - d := by unfold decay; omega
      have e : ((n + 1 : Nat) : Int) * d = n * d + d := by
        rw [Int.natCast_add, Int.add_mul]; simp
      omega
    · have := (decayN_nonneg n h1.1).2
      omega

theorem decayN_neg_linear (n : Nat) {a d : Int} (ha : a ≤ 0) :
    min (-(512 * d)) (a + n * d) ≤ decayN n a := by
  induction n generalizing a with
  | zero => simp [decayN]; omega
  | succ n ih =>
    rw [decayN]
    have h1 := decay_nonpos ha
    by_cases h : a ≤ -(512 * d)
    · have h2 := ih h1.2
      have h3 : a + d ≤ decay a := by unfold decay; omega
      have e : ((n + 1 : Nat) : Int) * d = n * d + d := by
        rw [Int.natCast_add, Int.add_mul]; simp
      omega
    · have := (decayN_nonpos n h1.2).1
      omega

/-- 512 frames halve a level that is a multiple of 1024. -/
theorem decay_half_pos {a d : Int} (ha : 0 ≤ a) (hd : 0 ≤ d) (h : a ≤ 1024 * d) :
    0 ≤ decayN 512 a ∧ decayN 512 a ≤ 512 * d := by
  have := decayN_pos_linear (d := d) 512 ha
  have := (decayN_nonneg 512 ha).1
  omega
theorem decay_half_neg {a d : Int} (ha : a ≤ 0) (hd : 0 ≤ d) (h : -(1024 * d) ≤ a) :
    -(512 * d) ≤ decayN 512 a ∧ decayN 512 a ≤ 0 := by
  have := decayN_neg_linear (d := d) 512 ha
  have := (decayN_nonpos 512 ha).2
  omega

theorem decay_pow_pos (k m : Nat) {a : Int} (ha : 0 ≤ a) (h : a ≤ 512 * 2 ^ (k + m)) :
    0 ≤ decayN (512 * k) a ∧ decayN (512 * k) a ≤ 512 * 2 ^ m := by
  induction k generalizing a with
  | zero => simp only [Nat.mul_zero, decayN]; simp at h; omega
  | succ k ih =>
    have e : 512 * (k + 1) = 512 + 512 * k := by omega
    rw [e, decayN_add]
    have hp : (2 : Int) ^ (k + 1 + m) = 2 * 2 ^ (k + m) := by
      have : k + 1 + m = (k + m) + 1 := by omega
      rw [this, Int.pow_succ]; omega
    have h0 : (0 : Int) ≤ 2 ^ (k + m) := Int.pow_nonneg (by omega)
    have := decay_half_pos (d := 2 ^ (k + m)) ha h0 (by omega)
    exact ih this.1 this.2

theorem decay_pow_neg (k m : Nat) {a : Int} (ha : a ≤ 0) (h : -(512 * 2 ^ (k + m)) ≤ a) :
    -(512 * 2 ^ m) ≤ decayN (512 * k) a ∧ decayN (512 * k) a ≤ 0 := by
  induction k generalizing a with
  | zero => simp only [Nat.mul_zero, decayN]; simp at h; omega
  | succ k ih =>
    have e : 512 * (k + 1) = 512 + 512 * k := by omega
    rw [e, decayN_add]
    have hp : (2 : Int) ^ (k + 1 + m) = 2 * 2 ^ (k + m) := by
      have : k + 1 + m = (k + m) + 1 := by omega
      rw [this, Int.pow_succ]; omega
    have h0 : (0 : Int) ≤ 2 ^ (k + m) := Int.pow_nonneg (by omega)
    have := decay_half_neg (d := 2 ^ (k + m)) ha h0 (by omega)
    exact ih this.2 this.1

/-- After 11776 silent frames the accumulator is in `0 … 511`, whatever it was. -/
theorem decay_settled {a : Int} (h : InI32 a) {n : Nat} (hn : 11776 ≤ n) :
    0 ≤ decayN n a ∧ decayN n a < 16384 := by
  unfold InI32 at h
  have e : n = 512 * 22 + (512 + (n - 11776)) := by omega
  rw [e, decayN_add, decayN_add]
  by_cases h0 : 0 ≤ a
  · have h1 := decay_pow_pos 22 0 h0 (by simp; omega)
    have h2 := decayN_nonneg 512 h1.1
    have h3 := decayN_nonneg (n - 11776) h2.1
    simp only [Int.pow_zero, Int.mul_one] at h1
    omega
  · have h1 := decay_pow_neg 22 0 (show a ≤ 0 by omega) (by simp; omega)
    simp only [Int.pow_zero, Int.mul_one] at h1
    have h2 : decayN 512 (decayN (512 * 22) a) = 0 := by
      have key : ∀ (k : Nat) (x : Int), -(k : Int) ≤ x → x ≤ 0 → decayN k x = 0 := by
        intro k
        induction k with
        | zero => intro x h1 h2; simp [decayN]; omega
        | succ k ih =>
          intro x h1 h2
          rw [decayN]
          apply ih
          · unfold decay; omega
          · exact (decay_nonpos h2).2
      exact key 512 _ (by omega) h1.2
    rw [h2, decayN_zero]; omega

theorem outAmp_small {a : Int} (h0 : 0 ≤ a) (h1 : a < 16384) : outAmp a = 0 := by
  have : a / 16384 = 0 := by omega
  unfold outAmp
  simp only [this]
  decide

end BK
