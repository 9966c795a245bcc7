import Verif.Spec.Sequence
import Verif.Lemmas.Interp
/-! Helper lemmas about value sequences. -/
namespace BK

theorem wrapI32_id {x : Int} (h1 : -2147483648 ≤ x) (h2 : x ≤ 2147483647) : wrapI32 x = x := by
  unfold wrapI32; omega

theorem clamp_so {len : Nat} {so : Int} (hl : len < 2147483648) (h : InI32 so) :
    cclamp (wrapU32 so) 0 len = sustainBegin len so := by
  unfold cclamp wrapU32 sustainBegin; unfold InI32 at h
  repeat' split
  all_goals omega

theorem clamp_sl {len : Nat} {so sl : Int} (hl : len < 2147483648) (h : InI32 sl) :
    cclamp (wrapU32 sl) 0 (len - sustainBegin len so : Int) = sustainSize len so sl := by
  have hb : sustainBegin len so ≤ len := by unfold sustainBegin; split <;> omega
  unfold cclamp wrapU32 sustainSize; unfold InI32 at h
  repeat' split
  all_goals omega

theorem sustain_le (len : Nat) (so sl : Int) :
    sustainBegin len so + sustainSize len so sl ≤ len := by
  unfold sustainSize sustainBegin
  split <;> split <;> omega

/-- What creation gives for sizes that do not wrap around. -/
theorem SimpleSeq.create_eq {vals : List Int} {so sl : Int} (hl : vals.length < 536870912)
    (hso : InI32 so) (hsl : InI32 sl) :
    SimpleSeq.create vals so sl = .ok (some ⟨vals, vals.length, sustainBegin vals.length so,
      sustainSize vals.length so sl⟩) := by
  have hle := sustain_le vals.length so sl
  have h0 : wrapI32 (4 * (vals.length : Int)) = 4 * vals.length := wrapI32_id (by omega) (by omega)
  have hs : seqAlloc (4 * (vals.length : Int)) = .ok true := by
    unfold seqAlloc; rw [if_pos (by omega)]
  have ht : (4 * (vals.length : Int) / 4).toNat = vals.length := by omega
  unfold SimpleSeq.create
  dsimp only
  rw [clamp_so (by omega) hso, clamp_sl (by omega) hsl, h0, hs]
  simp only [ok_bind, if_true, pure_eq_ok, ht, List.take_length]
  rw [wrapI32_id (by omega) (by omega), wrapI32_id (by omega) (by omega),
    wrapI32_id (by omega) (by omega)]

theorem rd_entry {vals : List Int} {i : Nat} (h : i < vals.length) :
    rd vals (i : Int) = .ok (entry vals i) := by
  unfold rd entry
  simp [h]

theorem succ_mod (m L : Nat) (hL : 0 < L) :
    (m + 1) % L = if m % L + 1 = L then 0 else m % L + 1 := by
  have h := Nat.div_add_mod m L
  have hlt := Nat.mod_lt m hL
  have e : m + 1 = (m % L + 1) + L * (m / L) := by omega
  rw [e, Nat.add_mul_mod_self_left]
  split
  · rename_i h1; simp [h1]
  · exact Nat.mod_eq_of_lt (by omega)

theorem heldIndex_lt {so L k len : Nat} (hL : 0 < L) (h : so + L ≤ len) : heldIndex so L k < len := by
  unfold heldIndex
  have := Nat.mod_lt (k - so) hL
  split <;> omega

/-- One divided step, once the effective offset is known. -/
theorem SimpleSeq.step_play {vals : List Int} {so sl i : Nat} {st : SeqState} (wrap : Bool)
    (hl : vals.length < 536870912) (hle : so + sl ≤ vals.length)
    (ho : st.offset ≠ INT_MAX)
    (hw : (decide (st.phase = .attack) && decide (st.offset ≥ ((so + sl : Nat) : Int))) = wrap)
    (he : (if wrap then (so : Int) else st.offset) = i) (hi : i < vals.length) :
    SimpleSeq.step ⟨vals, vals.length, so, sl⟩ st true =
      .ok (if wrap then .rep else .step, { st with value := entry vals i, offset := (i + 1 : Nat) }) := by
  unfold SimpleSeq.step
  rw [if_neg (by simp), if_neg ho]
  dsimp only
  rw [i32_ok (by omega) (by omega)]
  simp only [ok_bind]
  rw [show ((so : Int) + (sl : Int)) = ((so + sl : Nat) : Int) by simp, hw, he,
    if_pos (by omega), rd_entry hi]
  simp only [ok_bind]
  rw [i32_ok (by omega) (by omega)]
  simp

theorem SimpleSeq.held {vals : List Int} {so sl : Nat}
    (hl : vals.length < 536870912) (hle : so + sl ≤ vals.length) (hso : so < vals.length) :
    ∀ (n k o : Nat) (st : SeqState), st.phase = .attack → st.offset = o → o ≤ vals.length →
      (if so + sl ≤ o then so else o) = heldIndex so (max sl 1) k →
      (so + sl ≤ o ↔ so + sl ≤ k ∧ (k - so) % max sl 1 = 0) →
      ∃ st', SimpleSeq.run ⟨vals, vals.length, so, sl⟩ st (List.replicate n (.step true)) =
        .ok (st', (List.range' k n).map fun j =>
          (if so + sl ≤ j ∧ (j - so) % max sl 1 = 0 then SeqRet.rep else SeqRet.step,
           entry vals (heldIndex so (max sl 1) j))) ∧ st'.phase = .attack := by
  intro n
  induction n with
  | zero => intro k o st hp _ _ _ _; exact ⟨st, rfl, hp⟩
  | succ n ih =>
    intro k o st hp ho hol he hw
    have hL : 0 < max sl 1 := by omega
    have hlt : heldIndex so (max sl 1) k < vals.length := heldIndex_lt hL (by omega)
    have hstep := SimpleSeq.step_play (vals := vals) (so := so) (sl := sl) (st := st)
      (i := heldIndex so (max sl 1) k) (decide (so + sl ≤ o)) hl hle (by omega)
      (by rw [hp, ho]; simp; omega)
      (by rw [← he, ho]; simp only [decide_eq_true_eq]; split <;> rfl) hlt
    have hm := succ_mod (k - so) (max sl 1) hL
    have hmlt := Nat.mod_lt (k - so) hL
    obtain ⟨st', h1, h2⟩ := ih (k + 1) (heldIndex so (max sl 1) k + 1)
      { st with value := entry vals (heldIndex so (max sl 1) k),
                offset := (heldIndex so (max sl 1) k + 1 : Nat) } hp rfl (by omega)
      (by
        unfold heldIndex
        by_cases hk : k < so
        · rw [if_pos hk]
          by_cases hk1 : k + 1 < so
          · rw [if_pos hk1, if_neg (by omega)]
          · have : k + 1 - so = 0 := by omega
            rw [if_neg hk1, this, Nat.zero_mod]; split <;> omega
        · rw [if_neg hk, if_neg (by omega : ¬ k + 1 < so)]
          have : k + 1 - so = k - so + 1 := by omega
          rw [this, hm]; split <;> split <;> omega)
      (by
        unfold heldIndex
        by_cases hk : k < so
        · rw [if_pos hk]
          by_cases hk1 : k + 1 < so
          · constructor <;> intro h <;> omega
          · have : k + 1 - so = 0 := by omega
            rw [this, Nat.zero_mod]; constructor <;> intro h <;> omega
        · rw [if_neg hk]
          have : k + 1 - so = k - so + 1 := by omega
          rw [this, hm]
          constructor
          · intro h
            have : (k - so) % max sl 1 + 1 = max sl 1 := by omega
            rw [if_pos this]
            have := Nat.mod_le (k - so) (max sl 1)
            omega
          · intro h
            by_cases h2 : (k - so) % max sl 1 + 1 = max sl 1
            · omega
            · rw [if_neg h2] at h; omega)
    refine ⟨st', ?_, h2⟩
    rw [List.replicate_succ]
    unfold SimpleSeq.run SimpleSeq.exec
    simp only [hstep, ok_bind]
    rw [h1]
    simp only [ok_bind, pure_eq_ok, List.range'_succ, List.map_cons]
    congr 4
    simp only [decide_eq_true_eq]
    by_cases hc : so + sl ≤ o
    · rw [if_pos hc, if_pos (hw.1 hc)]
    · rw [if_neg hc, if_neg (fun h => hc (hw.2 h))]

/-- A finished state ignores every tick. -/
theorem SimpleSeq.run_finished (q : SimpleSeq) (st : SeqState) (h : st.offset = INT_MAX) (n : Nat) :
    q.run st (List.replicate n (.step true)) = .ok (st, List.replicate n (.none, st.value)) := by
  induction n with
  | zero => rfl
  | succ n ih =>
    rw [List.replicate_succ, List.replicate_succ]
    unfold SimpleSeq.run SimpleSeq.exec SimpleSeq.step
    simp only [Bool.true_eq_false, if_false, h, if_true, pure_eq_ok, ok_bind]
    rw [ih]
    simp

/-- Playing entries one after the other up to the end without a sustain wrap. -/
theorem SimpleSeq.play_out {vals : List Int} {so sl : Nat}
    (hl : vals.length < 536870912) (hle : so + sl ≤ vals.length) :
    ∀ (m o : Nat) (st : SeqState) (n : Nat), st.offset = o → o + m = vals.length →
      (st.phase ≠ .attack ∨ so = vals.length) →
      ∃ st', SimpleSeq.run ⟨vals, vals.length, so, sl⟩ st (List.replicate (m + 1 + n) (.step true)) =
        .ok (st', (List.range' o m).map (fun j => (SeqRet.step, entry vals j)) ++
          (.finish, st'.value) :: List.replicate n (.none, st'.value)) ∧
        st'.value = (if m = 0 then st.value else entry vals (vals.length - 1)) ∧
        st'.offset = INT_MAX ∧ st'.phase = st.phase := by
  intro m
  induction m with
  | zero =>
    intro o st n ho hm hp
    refine ⟨{ st with offset := INT_MAX }, ?_, by simp, rfl, rfl⟩
    have hr : (0 + 1 + n) = n + 1 := by omega
    rw [hr, List.replicate_succ]
    unfold SimpleSeq.run SimpleSeq.exec
    have hs : SimpleSeq.step ⟨vals, vals.length, so, sl⟩ st true =
        .ok (.finish, { st with offset := INT_MAX }) := by
      unfold SimpleSeq.step
      rw [if_neg (by simp), if_neg (by omega)]
      dsimp only
      rw [i32_ok (by omega) (by omega)]
      simp only [ok_bind]
      rw [if_neg]
      · rfl
      · split
        · rename_i hw
          rcases hp with hp | hp
          · simp [hp] at hw
          · omega
        · omega
    simp only [hs, ok_bind]
    rw [SimpleSeq.run_finished _ _ rfl]
    simp
  | succ m ih =>
    intro o st n ho hm hp
    have hstep := SimpleSeq.step_play (vals := vals) (so := so) (sl := sl) (st := st)
      (i := o) false hl hle (by omega)
      (by
        rcases hp with hp | hp
        · simp [hp]
        · have : ¬ (st.offset ≥ ((so + sl : Nat) : Int)) := by omega
          rw [decide_eq_false this, Bool.and_false])
      (by rw [ho]; simp) (by omega)
    obtain ⟨st', h1, h2, h3, h4⟩ := ih (o + 1)
      { st with value := entry vals o, offset := (o + 1 : Nat) } n rfl (by omega) hp
    refine ⟨st', ?_, ?_, h3, h4⟩
    · rw [show m + 1 + 1 + n = (m + 1 + n) + 1 by omega, List.replicate_succ]
      unfold SimpleSeq.run SimpleSeq.exec
      simp only [hstep, ok_bind]
      rw [h1]
      simp [List.range'_succ]
    · rw [h2]
      rw [if_neg (by omega : ¬ m + 1 = 0)]
      split
      · rename_i hm0
        show entry vals o = _
        congr 1; omega
      · rfl

end BK
