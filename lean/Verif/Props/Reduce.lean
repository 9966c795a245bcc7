import Verif.Model.Reduce
import Verif.Spec.Reduce
/-!
C91: reducing the bits of data.
-/
namespace BK

/-- Cases of a number up to 15. -/
theorem nat_le_15 {n : Nat} (h : n ≤ 15) : n = 0 ∨ n = 1 ∨ n = 2 ∨ n = 3 ∨ n = 4 ∨ n = 5 ∨ n = 6 ∨ n = 7 ∨ n = 8 ∨ n = 9 ∨ n = 10 ∨
    n = 11 ∨ n = 12 ∨ n = 13 ∨ n = 14 ∨ n = 15 := by omega

theorem tdiv_cases (a b : Int) (hb : 0 < b) : (0 ≤ a ∧ a.tdiv b = a / b) ∨ (a ≤ 0 ∧ a.tdiv b = -((-a) / b)) := by
  rcases Int.le_total 0 a with h | h
  · exact .inl ⟨h, Int.tdiv_eq_ediv_of_nonneg h⟩
  · refine .inr ⟨h, ?_⟩
    have : a.tdiv b = -((-a).tdiv b) := by rw [Int.neg_tdiv, Int.neg_neg]
    rw [this, Int.tdiv_eq_ediv_of_nonneg (by omega)]

/-- The number of the step (1 … 2^n, or −2^(n−1)+1 … 2^(n−1)) for a frame with noise. -/
def stepOf (n : Nat) (f : Int) : Int :=
  if n ≤ 8 then -((cclamp (cclamp f (-32767) 32767 / 2 - 16384) (-32767) 32767) / 2 ^ (15 - n))
  else -(cclamp f (-32767) 32767 / 2 ^ (16 - n))

/-- The amplitude of the step. -/
def stepLevel (n : Nat) (k : Int) : Int := if n ≤ 8 then (k * 32767).tdiv (2 ^ n) else (k * 32767).tdiv (2 ^ (n - 1))

theorem cclamp_range (f : Int) : -32767 ≤ cclamp f (-32767) 32767 ∧ cclamp f (-32767) 32767 ≤ 32767 := by
  unfold cclamp
  split <;> (try split) <;> omega

theorem stepOf_range {n : Nat} (hn : n ≤ 15) (f : Int) :
    (n ≤ 8 → 1 ≤ stepOf n f ∧ stepOf n f ≤ 2 ^ n) ∧ (9 ≤ n → 1 - 2 ^ (n - 1) ≤ stepOf n f ∧ stepOf n f ≤ 2 ^ (n - 1)) := by
  unfold stepOf
  obtain ⟨h1, h2⟩ := cclamp_range f
  generalize cclamp f (-32767) 32767 = g at *
  have h3 : -32767 ≤ cclamp (g / 2 - 16384) (-32767) 32767 ∧ cclamp (g / 2 - 16384) (-32767) 32767 ≤ -1 := by
    unfold cclamp
    split <;> (try split) <;> omega
  generalize cclamp (g / 2 - 16384) (-32767) 32767 = e at *
  rcases nat_le_15 hn with rfl | rfl | rfl | rfl | rfl | rfl | rfl | rfl | rfl | rfl | rfl | rfl | rfl | rfl | rfl | rfl <;>
    (simp; omega)

theorem stepLevel_range {n : Nat} (hn : n ≤ 15) {k : Int} (h1 : n ≤ 8 → 1 ≤ k ∧ k ≤ 2 ^ n)
    (h2 : 9 ≤ n → 1 - 2 ^ (n - 1) ≤ k ∧ k ≤ 2 ^ (n - 1)) : -32767 ≤ stepLevel n k ∧ stepLevel n k ≤ 32767 ∧
      -2147483648 ≤ k * 32767 ∧ k * 32767 ≤ 2147483647 := by
  have key : ∀ b : Int, 0 < b → -b ≤ k → k ≤ b → -32767 ≤ (k * 32767).tdiv b ∧ (k * 32767).tdiv b ≤ 32767 := by
    intro b hb h3 h4
    rcases tdiv_cases (k * 32767) b hb with ⟨a, e⟩ | ⟨a, e⟩
    · rw [e]
      have p1 := Int.ediv_nonneg a (Int.le_of_lt hb)
      have p2 : k * 32767 / b ≤ 32767 := by
        rw [Int.ediv_le_iff_le_mul hb]
        omega
      omega
    · rw [e]
      have p1 := Int.ediv_nonneg (a := -(k * 32767)) (by omega) (Int.le_of_lt hb)
      have p2 : -(k * 32767) / b ≤ 32767 := by
        rw [Int.ediv_le_iff_le_mul hb]
        omega
      omega
  unfold stepLevel
  split
  · rename_i h
    have := key (2 ^ n) (Int.pow_pos (by decide)) (by have := h1 h; omega) (h1 h).2
    have : (2 : Int) ^ n ≤ 65536 := by
      rcases nat_le_15 hn with rfl | rfl | rfl | rfl | rfl | rfl | rfl | rfl | rfl | rfl | rfl | rfl | rfl | rfl | rfl | rfl <;> decide
    have := h1 h
    omega
  · rename_i h
    have := key (2 ^ (n - 1)) (Int.pow_pos (by decide)) (by have := h2 (by omega); omega) (h2 (by omega)).2
    have : (2 : Int) ^ (n - 1) ≤ 65536 := by
      rcases nat_le_15 hn with rfl | rfl | rfl | rfl | rfl | rfl | rfl | rfl | rfl | rfl | rfl | rfl | rfl | rfl | rfl | rfl <;> decide
    have := h2 (by omega)
    omega

theorem reduceFrame_eq {n : Nat} (hn : n ≤ 15) {th d f g : Int} (h : ditherFrame n th d f = .ok g) :
    reduceFrame n th d f = .ok (stepLevel n (stepOf n g)) := by
  obtain ⟨r1, r2⟩ := stepOf_range hn g
  obtain ⟨l1, l2, l3, l4⟩ := stepLevel_range hn r1 r2
  have hw : wrapI16 (stepLevel n (stepOf n g)) = stepLevel n (stepOf n g) := by unfold wrapI16; omega
  unfold reduceFrame
  rw [h, ok_bind]
  dsimp only
  by_cases h8 : n ≤ 8
  · have e1 : stepOf n g = -((cclamp (cclamp g (-32767) 32767 / 2 - 16384) (-32767) 32767) / 2 ^ (15 - n)) := if_pos h8
    rw [if_pos h8, ← e1, i32_ok l3 l4, ok_bind, pure_eq_ok, ← hw]
    have : 15 - (15 - n) = n := by omega
    rw [this]
    have e2 : stepLevel n (stepOf n g) = (stepOf n g * 32767).tdiv (2 ^ n) := if_pos h8
    rw [hw, e2]
    rw [e2] at hw
    rw [hw]
  · have e1 : stepOf n g = -(cclamp g (-32767) 32767 / 2 ^ (16 - n)) := if_neg h8
    rw [if_neg h8, ← e1, i32_ok l3 l4, ok_bind, pure_eq_ok]
    have : 15 - (16 - n) = n - 1 := by omega
    rw [this]
    have e2 : stepLevel n (stepOf n g) = (stepOf n g * 32767).tdiv (2 ^ (n - 1)) := if_neg h8
    rw [e2]
    rw [e2] at hw
    rw [hw]

theorem stepLevel_mem {n : Nat} (hn : n ≤ 15) (f : Int) : stepLevel n (stepOf n f) ∈ levels n := by
  obtain ⟨r1, r2⟩ := stepOf_range hn f
  generalize stepOf n f = k at *
  unfold stepLevel levels
  by_cases h8 : n ≤ 8
  · rw [if_pos h8, if_pos h8]
    have := r1 h8
    refine List.mem_map.2 ⟨(k - 1).toNat, List.mem_range.2 ?_, ?_⟩
    · have e : ((2 ^ n : Nat) : Int) = 2 ^ n := by norm_cast
      omega
    · have : (((k - 1).toNat : Nat) : Int) + 1 = k := by omega
      rw [this]
  · rw [if_neg h8, if_neg h8]
    have := r2 (by omega)
    have e : ((2 ^ n : Nat) : Int) = 2 * 2 ^ (n - 1) := by
      have : n = (n - 1) + 1 := by omega
      rw [this, Nat.pow_succ]
      simp [Int.mul_comm]
    refine List.mem_map.2 ⟨(k - 1 + 2 ^ (n - 1)).toNat, List.mem_range.2 ?_, ?_⟩
    · omega
    · have : (((k - 1 + 2 ^ (n - 1)).toNat : Nat) : Int) + 1 - 2 ^ (n - 1) = k := by omega
      rw [this]

theorem levels_length (n : Nat) : (levels n).length = 2 ^ n := by
  unfold levels
  split <;> simp

theorem ditherFrame_ok (n : Nat) {th d f : Int} (hf : InI16 f) (hd : -1073741824 ≤ d ∧ d ≤ 1073741824) :
    ∃ g, ditherFrame n th d f = .ok g := by
  unfold InI16 at hf
  unfold ditherFrame
  generalize (if f < 0 then -f else f) = a
  split
  · split
    · exact ⟨_, i32_ok (by omega) (by omega)⟩
    · exact ⟨_, rfl⟩
  · exact ⟨_, rfl⟩

/-- C91: whatever the frames, the threshold and the noise, converting does not fault, keeps the number of frames, and leaves only
the amplitudes of the number of bits, of which there are `2^n`; they are 16-bit numbers. -/
theorem C91_levels (target : Nat) (th : Int) (l : List (Int × Int))
    (hl : ∀ x ∈ l, InI16 x.1 ∧ -1073741824 ≤ x.2 ∧ x.2 ≤ 1073741824) :
    ∃ out, dataConvert target th l = .ok out ∧ out.length = l.length ∧ (levels (min target 15)).length = 2 ^ min target 15 ∧
      ∀ y ∈ out, y ∈ levels (min target 15) ∧ -32767 ≤ y ∧ y ≤ 32767 := by
  have hb : (if target > 15 then 15 else target) = min target 15 := by split <;> omega
  unfold dataConvert
  rw [hb]
  have hn : min target 15 ≤ 15 := by omega
  generalize min target 15 = n at *
  induction l with
  | nil => exact ⟨[], rfl, rfl, levels_length n, fun y h => by cases h⟩
  | cons x l ih =>
    obtain ⟨f, d⟩ := x
    obtain ⟨h1, h2, h3⟩ := hl _ List.mem_cons_self
    obtain ⟨g, hg⟩ := ditherFrame_ok n (th := th) h1 ⟨h2, h3⟩
    obtain ⟨out, e, len, cnt, mem⟩ := ih fun x hx => hl x (List.mem_cons_of_mem _ hx)
    refine ⟨stepLevel n (stepOf n g) :: out, ?_, by rw [List.length_cons, List.length_cons, len], cnt, ?_⟩
    · unfold reduceFrames
      rw [reduceFrame_eq hn hg, ok_bind, e]
      rfl
    · intro y hy
      rcases List.mem_cons.1 hy with rfl | hy
      · obtain ⟨r1, r2⟩ := stepOf_range hn g
        obtain ⟨l1, l2, -⟩ := stepLevel_range hn r1 r2
        exact ⟨stepLevel_mem hn g, l1, l2⟩
      · exact mem y hy

/-- Frames that are not below the threshold. -/
def Loud (th f : Int) : Prop := th ≤ (if f < 0 then -f else f)

theorem ditherFrame_loud {n : Nat} {th d f : Int} (h : Loud th f) (hf : InI16 f) (hd : -1073741824 ≤ d ∧ d ≤ 1073741824) :
    ditherFrame n th d f = .ok (if n ≤ 8 then f + d else f) := by
  unfold InI16 at hf
  refine (if_pos h).trans ?_
  by_cases h8 : n ≤ 8
  · rw [if_pos h8, if_pos h8]
    exact i32_ok (by omega) (by omega)
  · rw [if_neg h8, if_neg h8]

/-- C91 (partial: the amplitudes are mirrored, and up to 8 bits also halved and moved up).  Apart from this each frame is
changed by at most one step, 2^(16−n), and by the noise. -/
theorem C91_near_partial {n : Nat} (hn : n ≤ 15) {th d f : Int} (h : Loud th f) (hf : InI16 f) (hd : -1073741824 ≤ d ∧ d ≤ 1073741824) :
    ∃ y, reduceFrame n th d f = .ok y ∧
      (9 ≤ n → y + f ≤ 2 ^ (16 - n) + 1 ∧ -(2 ^ (16 - n) + 1) ≤ y + f) ∧
      (n ≤ 8 → 2 * y - (32767 - f) ≤ 2 ^ (16 - n) + 2 + d.natAbs ∧ -(2 ^ (16 - n) + 2 + (d.natAbs : Int)) ≤ 2 * y - (32767 - f)) := by
  refine ⟨_, reduceFrame_eq hn (ditherFrame_loud h hf hd), ?_, ?_⟩
  · intro h9
    rw [if_neg (by omega)]
    unfold InI16 at hf
    unfold stepLevel stepOf
    rw [if_neg (by omega), if_neg (by omega)]
    have hg : cclamp f (-32767) 32767 - f ≤ 1 ∧ 0 ≤ cclamp f (-32767) 32767 - f := by
      unfold cclamp
      split <;> (try split) <;> omega
    obtain ⟨b1, b2⟩ := cclamp_range f
    generalize cclamp f (-32767) 32767 = g at *
    rcases tdiv_cases (-(g / 2 ^ (16 - n)) * 32767) (2 ^ (n - 1)) (Int.pow_pos (by decide)) with ⟨a, e⟩ | ⟨a, e⟩ <;> rw [e] <;>
    rcases nat_le_15 hn with rfl | rfl | rfl | rfl | rfl | rfl | rfl | rfl | rfl | rfl | rfl | rfl | rfl | rfl | rfl | rfl <;>
    simp at h9 a ⊢ <;> omega
  · intro h8
    rw [if_pos h8]
    unfold InI16 at hf
    unfold stepLevel stepOf
    rw [if_pos h8, if_pos h8]
    have hg : (cclamp (f + d) (-32767) 32767 - f).natAbs ≤ d.natAbs + 1 := by
      unfold cclamp
      split <;> (try split) <;> omega
    obtain ⟨b1, b2⟩ := cclamp_range (f + d)
    generalize cclamp (f + d) (-32767) 32767 = g at *
    have he : (cclamp (g / 2 - 16384) (-32767) 32767 = g / 2 - 16384) ∨ (cclamp (g / 2 - 16384) (-32767) 32767 = -32767 ∧ g / 2 = -16384) := by
      unfold cclamp
      split <;> (try split) <;> omega
    have he' : cclamp (g / 2 - 16384) (-32767) 32767 ≤ -1 := by
      unfold cclamp
      split <;> (try split) <;> omega
    generalize cclamp (g / 2 - 16384) (-32767) 32767 = e at *
    have hp : (0 : Int) < 2 ^ n := Int.pow_pos (by decide)
    have hnn : 0 ≤ -(e / 2 ^ (15 - n)) * 32767 := by
      have : e / 2 ^ (15 - n) < 0 := Int.ediv_lt_of_lt_mul (Int.pow_pos (by decide)) (by omega)
      omega
    rw [Int.tdiv_eq_ediv_of_nonneg hnn]
    rcases nat_le_15 hn with rfl | rfl | rfl | rfl | rfl | rfl | rfl | rfl | rfl | rfl | rfl | rfl | rfl | rfl | rfl | rfl <;>
    simp at h8 ⊢ <;> omega

theorem stepLevel_mono {n : Nat} {k j : Int} (h : k ≤ j) : stepLevel n k ≤ stepLevel n j := by
  have key : ∀ b : Int, 0 < b → (k * 32767).tdiv b ≤ (j * 32767).tdiv b := by
    intro b hb
    rcases tdiv_cases (k * 32767) b hb with ⟨a, e⟩ | ⟨a, e⟩ <;> rcases tdiv_cases (j * 32767) b hb with ⟨a', e'⟩ | ⟨a', e'⟩ <;> rw [e, e']
    · exact Int.ediv_le_ediv hb (by omega)
    · have : k = 0 := by omega
      have : j = 0 := by omega
      subst_vars
      simp
    · have p1 := Int.ediv_nonneg (a := -(k * 32767)) (by omega) (Int.le_of_lt hb)
      have p2 := Int.ediv_nonneg a' (Int.le_of_lt hb)
      omega
    · have := Int.ediv_le_ediv hb (a := -(j * 32767)) (b := -(k * 32767)) (by omega)
      omega
  unfold stepLevel
  split
  · exact key _ (Int.pow_pos (by decide))
  · exact key _ (Int.pow_pos (by decide))

theorem cclamp_mono {f g : Int} (h : f ≤ g) : cclamp f (-32767) 32767 ≤ cclamp g (-32767) 32767 := by
  unfold cclamp
  split <;> (try split) <;> (try split) <;> (try split) <;> omega

theorem stepOf_anti {n : Nat} {f g : Int} (h : f ≤ g) : stepOf n g ≤ stepOf n f := by
  have h1 := cclamp_mono h
  unfold stepOf
  split
  · have h2 := cclamp_mono (f := cclamp f (-32767) 32767 / 2 - 16384) (g := cclamp g (-32767) 32767 / 2 - 16384) (by omega)
    have := Int.ediv_le_ediv (c := 2 ^ (15 - n)) (Int.pow_pos (by decide)) h2
    omega
  · have := Int.ediv_le_ediv (c := 2 ^ (16 - n)) (Int.pow_pos (by decide)) h1
    omega

/-- Order of amplitudes is not kept but reversed: of two frames (loud enough, and with equal noise) the larger one gets the smaller
amplitude. -/
theorem C91_refuted_order {n : Nat} (hn : n ≤ 15) {th d f g y z : Int} (hf : Loud th f) (hg : Loud th g) (hfi : InI16 f) (hgi : InI16 g)
    (hd : -1073741824 ≤ d ∧ d ≤ 1073741824) (hy : reduceFrame n th d f = .ok y) (hz : reduceFrame n th d g = .ok z) (h : f ≤ g) :
    z ≤ y := by
  rw [reduceFrame_eq hn (ditherFrame_loud hf hfi hd)] at hy
  rw [reduceFrame_eq hn (ditherFrame_loud hg hgi hd)] at hz
  cases hy
  cases hz
  refine stepLevel_mono (stepOf_anti ?_)
  split <;> omega

/-- Signs are not kept: with 9 to 15 bits, every frame of at least one step becomes negative. -/
theorem C91_refuted_sign {n : Nat} (h9 : 9 ≤ n) (hn : n ≤ 15) {th d f : Int} (hl : Loud th f) (hf : 2 ^ (16 - n) ≤ f) (hf' : f ≤ 32767)
    (hd : -1073741824 ≤ d ∧ d ≤ 1073741824) : ∃ y, reduceFrame n th d f = .ok y ∧ y < 0 := by
  have hp : (0 : Int) < 2 ^ (16 - n) := Int.pow_pos (by decide)
  refine ⟨_, reduceFrame_eq hn (ditherFrame_loud hl ⟨by omega, hf'⟩ hd), ?_⟩
  rw [if_neg (by omega)]
  have hc : cclamp f (-32767) 32767 = f := by
    unfold cclamp
    split <;> (try split) <;> omega
  have hs : stepOf n f ≤ -1 := by
    unfold stepOf
    rw [if_neg (by omega), hc]
    have : 1 ≤ f / 2 ^ (16 - n) := by
      rw [Int.le_ediv_iff_mul_le hp]
      omega
    omega
  have := stepLevel_mono (n := n) hs
  have e : stepLevel n (-1) < 0 := by
    rcases nat_le_15 hn with rfl | rfl | rfl | rfl | rfl | rfl | rfl | rfl | rfl | rfl | rfl | rfl | rfl | rfl | rfl | rfl <;>
      first | (exfalso; omega) | decide
  omega

/-- Silence is not kept: with up to 8 bits, every frame below the threshold gets the amplitude 16383. -/
theorem C91_refuted_silence {n : Nat} (h1 : 1 ≤ n) (h8 : n ≤ 8) {th d f : Int} (hq : ¬ Loud th f) : reduceFrame n th d f = .ok 16383 := by
  have e : ditherFrame n th d f = .ok 0 := if_neg hq
  rw [reduceFrame_eq (by omega) e]
  rcases nat_le_15 (n := n) (by omega) with rfl | rfl | rfl | rfl | rfl | rfl | rfl | rfl | rfl | rfl | rfl | rfl | rfl | rfl | rfl | rfl <;>
    first | (exfalso; omega) | decide

/-- With more than 8 bits quiet frames become silent. -/
theorem C91_quiet {n : Nat} (h9 : 9 ≤ n) (hn : n ≤ 15) {th d f : Int} (hq : ¬ Loud th f) : reduceFrame n th d f = .ok 0 := by
  have e : ditherFrame n th d f = .ok 0 := if_neg hq
  rw [reduceFrame_eq (by omega) e]
  rcases nat_le_15 (n := n) (by omega) with rfl | rfl | rfl | rfl | rfl | rfl | rfl | rfl | rfl | rfl | rfl | rfl | rfl | rfl | rfl | rfl <;>
    first | (exfalso; omega) | decide

/-- Four frames with 2 bits, one of them quiet, one with noise; and with 12 bits. -/
example : dataConvert 2 655 [(32767, 0), (-20000, 1000), (100, 5), (-32768, 0)] = .ok [8191, 32767, 16383, 32767] ∧
    dataConvert 12 655 [(32767, 0), (-20000, 1000), (100, 5), (-32768, 0)] = .ok [-32751, 19999, 0, 32767] := by decide +kernel

/-- 16 bits are reduced to 15. -/
example : dataConvert 16 0 [(1, 0), (2, 0), (3, 0)] = .ok [0, -1, -1] := by decide +kernel

end BK
