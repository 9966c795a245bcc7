import Verif.Lemmas.Sequence
/-! Properties of value sequences: C23, C24 (first half). -/
namespace BK

/-- C23: while attacked, a value sequence with a sustain range yields its values in order and then
repeats the sustain range for ever (reporting `rep` each time it starts it again).  An empty
sustain range inside the sequence holds the value at its beginning.  The state before the attack
does not matter. -/
theorem C23_held (vals : List Int) (so sl : Int) (hl : vals.length < 536870912)
    (hso : InI32 so) (hsl : InI32 sl) (h : sustainBegin vals.length so < vals.length)
    (st : SeqState) (n : Nat) :
    ∃ q st', SimpleSeq.create vals so sl = .ok (some q) ∧
      q.run st (.setPhase .attack :: List.replicate n (.step true)) =
        .ok (st', (.none, entry vals 0) :: (List.range n).map fun k =>
          (if sustainBegin vals.length so + sustainSize vals.length so sl ≤ k ∧
              (k - sustainBegin vals.length so) % max (sustainSize vals.length so sl) 1 = 0
            then .rep else .step,
           entry vals (heldIndex (sustainBegin vals.length so)
             (max (sustainSize vals.length so sl) 1) k))) := by
  have hle := sustain_le vals.length so sl
  refine ⟨⟨vals, vals.length, sustainBegin vals.length so, sustainSize vals.length so sl⟩, ?_⟩
  rw [SimpleSeq.create_eq hl hso hsl]
  generalize sustainBegin vals.length so = b at *
  generalize sustainSize vals.length so sl = z at *
  have hp : SimpleSeq.setPhase ⟨vals, vals.length, b, z⟩ st .attack =
      .ok (.none, { st with offset := 0, value := entry vals 0, phase := .attack }) := by
    have h0 : rd vals 0 = .ok (entry vals 0) := rd_entry (i := 0) (by omega)
    unfold SimpleSeq.setPhase
    simp only [pure_eq_ok, ok_bind]
    rw [if_pos (by omega), h0]
    rfl
  obtain ⟨st', h1, _⟩ := SimpleSeq.held (so := b) (sl := z) hl hle h n 0 0
    { st with offset := 0, value := entry vals 0, phase := .attack } rfl rfl (by omega)
    (by unfold heldIndex
        simp only [Nat.zero_sub, Nat.zero_mod]
        split <;> split <;> omega)
    (by simp)
  refine ⟨st', rfl, ?_⟩
  unfold SimpleSeq.run SimpleSeq.exec
  simp only [hp, ok_bind]
  rw [h1, ← List.range_eq_range']
  rfl

/-- Values 10 20 30 40 with the sustain range 20 30: 10 20 30 20 30 20 … -/
example : SimpleSeq.create [10, 20, 30, 40] 1 2 = .ok (some ⟨[10, 20, 30, 40], 4, 1, 2⟩) ∧
    (SimpleSeq.run ⟨[10, 20, 30, 40], 4, 1, 2⟩ {}
      (.setPhase .attack :: List.replicate 6 (.step true))).map (·.2.map (·.2)) =
      .ok [10, 10, 20, 30, 20, 30, 20] := by decide +kernel

/-- C23: without a sustain range all values are played once while attacked, then the end is
reported exactly once and the last value stays. -/
theorem C23_once (vals : List Int) (so sl : Int) (hl : vals.length < 536870912)
    (hso : InI32 so) (hsl : InI32 sl) (h : sustainBegin vals.length so = vals.length)
    (hne : vals ≠ []) (st : SeqState) (n : Nat) :
    ∃ q st', SimpleSeq.create vals so sl = .ok (some q) ∧
      q.run st (.setPhase .attack :: List.replicate (vals.length + 1 + n) (.step true)) =
        .ok (st', (.none, entry vals 0) ::
          ((List.range vals.length).map (fun k => (SeqRet.step, entry vals k)) ++
          (.finish, entry vals (vals.length - 1)) ::
            List.replicate n (.none, entry vals (vals.length - 1)))) := by
  have hle := sustain_le vals.length so sl
  have hpos : 0 < vals.length := List.length_pos_iff.2 hne
  refine ⟨⟨vals, vals.length, sustainBegin vals.length so, sustainSize vals.length so sl⟩, ?_⟩
  rw [SimpleSeq.create_eq hl hso hsl]
  generalize sustainBegin vals.length so = b at *
  generalize sustainSize vals.length so sl = z at *
  have hp : SimpleSeq.setPhase ⟨vals, vals.length, b, z⟩ st .attack =
      .ok (.none, { st with offset := 0, value := entry vals 0, phase := .attack }) := by
    have h0 : rd vals 0 = .ok (entry vals 0) := rd_entry (i := 0) (by omega)
    unfold SimpleSeq.setPhase
    simp only [pure_eq_ok, ok_bind]
    rw [if_pos (by omega), h0]
    rfl
  obtain ⟨st', h1, h2, _⟩ := SimpleSeq.play_out (so := b) (sl := z) hl hle vals.length 0
    { st with offset := 0, value := entry vals 0, phase := .attack } n rfl (by omega) (.inr h)
  rw [if_neg (by omega)] at h2
  refine ⟨st', rfl, ?_⟩
  unfold SimpleSeq.run SimpleSeq.exec
  simp only [hp, ok_bind]
  rw [h1, h2, ← List.range_eq_range']
  rfl

example : sustainBegin 3 3 = 3 ∧ (SimpleSeq.run ⟨[10, 20, 30], 3, 3, 0⟩ {}
      (.setPhase .attack :: List.replicate 6 (.step true))).map (·.2) =
      .ok [(.none, 10), (.step, 10), (.step, 20), (.step, 30), (.finish, 30), (.none, 30),
        (.none, 30)] := by decide +kernel

/-- C23: whatever the state was, after release the values behind the sustain range are played
once, the end is reported exactly once, and the last value stays. -/
theorem C23_release (vals : List Int) (so sl : Int) (hl : vals.length < 536870912)
    (hso : InI32 so) (hsl : InI32 sl)
    (h : sustainBegin vals.length so + sustainSize vals.length so sl < vals.length)
    (st : SeqState) (n : Nat) :
    ∃ q st', SimpleSeq.create vals so sl = .ok (some q) ∧
      q.run st (.setPhase .release :: List.replicate (vals.length -
          (sustainBegin vals.length so + sustainSize vals.length so sl) + 1 + n) (.step true)) =
        .ok (st', (.none, entry vals (sustainBegin vals.length so + sustainSize vals.length so sl)) ::
          ((List.range' (sustainBegin vals.length so + sustainSize vals.length so sl) (vals.length -
            (sustainBegin vals.length so + sustainSize vals.length so sl))).map
              (fun k => (SeqRet.step, entry vals k)) ++
          (.finish, entry vals (vals.length - 1)) ::
            List.replicate n (.none, entry vals (vals.length - 1)))) := by
  have hle := sustain_le vals.length so sl
  refine ⟨⟨vals, vals.length, sustainBegin vals.length so, sustainSize vals.length so sl⟩, ?_⟩
  rw [SimpleSeq.create_eq hl hso hsl]
  generalize sustainBegin vals.length so = b at *
  generalize sustainSize vals.length so sl = z at *
  have hp : SimpleSeq.setPhase ⟨vals, vals.length, b, z⟩ st .release =
      .ok (.none, { st with offset := (b + z : Nat), value := entry vals (b + z),
                            phase := .release }) := by
    have h0 := rd_entry h
    unfold SimpleSeq.setPhase
    dsimp only
    rw [i32_ok (by omega) (by omega)]
    simp only [ok_bind]
    rw [if_pos (by omega), show ((b : Int) + z) = ((b + z : Nat) : Int) by simp, h0]
    rfl
  obtain ⟨st', h1, h2, _⟩ := SimpleSeq.play_out (so := b) (sl := z) hl hle (vals.length - (b + z))
    (b + z) { st with offset := (b + z : Nat), value := entry vals (b + z), phase := .release }
    n rfl (by omega) (.inl (by simp))
  rw [if_neg (by omega)] at h2
  refine ⟨st', rfl, ?_⟩
  unfold SimpleSeq.run SimpleSeq.exec
  simp only [hp, ok_bind]
  rw [h1, h2]
  rfl

/-- Attack, three ticks, release. -/
example : (SimpleSeq.run ⟨[10, 20, 30, 40, 50], 5, 1, 2⟩ {}
      (.setPhase .attack :: List.replicate 3 (.step true) ++
       .setPhase .release :: List.replicate (5 - 3 + 1 + 1) (.step true))).map (·.2) =
      .ok [(.none, 10), (.step, 10), (.step, 20), (.step, 30),
        (.none, 40), (.step, 40), (.step, 50), (.finish, 50), (.none, 50)] := by decide +kernel

/-- C23: with nothing behind the sustain range the end is reported by the release itself. -/
theorem C23_release_at_end (vals : List Int) (so sl : Int) (hl : vals.length < 536870912)
    (hso : InI32 so) (hsl : InI32 sl)
    (h : sustainBegin vals.length so + sustainSize vals.length so sl = vals.length)
    (st : SeqState) (n : Nat) :
    ∃ q st', SimpleSeq.create vals so sl = .ok (some q) ∧
      q.run st (.setPhase .release :: List.replicate n (.step true)) =
        .ok (st', (.finish, st.value) :: List.replicate n (.none, st.value)) := by
  refine ⟨⟨vals, vals.length, sustainBegin vals.length so, sustainSize vals.length so sl⟩, ?_⟩
  rw [SimpleSeq.create_eq hl hso hsl]
  generalize sustainBegin vals.length so = b at *
  generalize sustainSize vals.length so sl = z at *
  have hp : SimpleSeq.setPhase ⟨vals, vals.length, b, z⟩ st .release =
      .ok (.finish, { st with offset := INT_MAX, phase := .release }) := by
    unfold SimpleSeq.setPhase
    dsimp only
    rw [i32_ok (by omega) (by omega)]
    simp only [ok_bind]
    rw [if_neg (by omega)]
    rfl
  refine ⟨{ st with offset := INT_MAX, phase := .release }, rfl, ?_⟩
  unfold SimpleSeq.run SimpleSeq.exec
  simp only [hp, ok_bind]
  rw [SimpleSeq.run_finished _ _ rfl]
  rfl

example : sustainBegin 2 0 + sustainSize 2 0 2 = 2 := by decide

/-- C23: only the ticks meant for value sequences count; the ticks in between change nothing. -/
theorem C23_divided (q : SimpleSeq) (st : SeqState) (ops : List SeqOp) :
    (q.run st ops).map (·.1) = (q.run st (ops.filter (· ≠ .step false))).map (·.1) := by
  induction ops generalizing st with
  | nil => rfl
  | cons op ops ih =>
    by_cases h : op = .step false
    · subst h
      have : q.run st (.step false :: ops) = (do
          let t ← q.run st ops
          return (t.1, (.none, st.value) :: t.2)) := rfl
      rw [this]
      have hf : (SeqOp.step false :: ops).filter (· ≠ .step false) =
          ops.filter (· ≠ .step false) := by simp
      rw [hf, ← ih st]
      cases q.run st ops <;> rfl
    · have hf : (op :: ops).filter (· ≠ .step false) = op :: ops.filter (· ≠ .step false) := by
        simp [h]
      rw [hf]
      unfold SimpleSeq.run
      cases q.exec st op with
      | error e => rfl
      | ok r =>
        have := ih r.2
        simp only [ok_bind]
        revert this
        cases q.run r.2 ops <;> cases q.run r.2 (ops.filter (· ≠ .step false)) <;>
          simp [Except.map]

example : (SimpleSeq.run ⟨[10, 20], 2, 0, 2⟩ {}
      [.setPhase .attack, .step false, .step true, .step false, .step true]).map (·.1.value) =
      .ok 20 := by decide +kernel

theorem SimpleSeq.exec_ok {vals : List Int} {b z : Nat} (hl : vals.length < 536870912) (hle : b + z ≤ vals.length) {st : SeqState}
    {op : SeqOp} (ho : 0 ≤ st.offset ∨ ∃ p, op = .setPhase p) :
    ∃ r, SimpleSeq.exec ⟨vals, vals.length, b, z⟩ st op = .ok r ∧ 0 ≤ r.2.offset := by
  have hrd : ∀ i : Int, 0 ≤ i → i < vals.length → ∃ v, rd vals i = .ok v := by
    intro i h1 h2
    obtain ⟨m, rfl⟩ := Int.eq_ofNat_of_zero_le h1
    exact ⟨_, rd_entry (by omega)⟩
  cases op with
  | setPhase p =>
    have hph : ∀ o : Int, 0 ≤ o → ∃ r : SeqRet × SeqState,
        (if o < (vals.length : Int) then do
          let v ← rd vals o
          return (.none, { st with offset := o, value := v, phase := p })
        else return (.finish, { st with offset := INT_MAX, phase := p }) : C _) = .ok r ∧
        0 ≤ r.2.offset := by
      intro o h1
      split
      · rename_i h2
        obtain ⟨v, hv⟩ := hrd o h1 h2
        rw [hv]
        exact ⟨_, rfl, h1⟩
      · exact ⟨_, rfl, by simp⟩
    unfold SimpleSeq.exec SimpleSeq.setPhase
    cases p with
    | mute => simp only [pure_eq_ok, ok_bind]; exact hph _ (by omega)
    | attack => simp only [pure_eq_ok, ok_bind]; exact hph _ (by omega)
    | release =>
      dsimp only
      rw [i32_ok (by omega) (by omega)]
      simp only [ok_bind]; exact hph _ (by omega)
  | step d =>
    have ho' : 0 ≤ st.offset := by rcases ho with h | ⟨p, h⟩; exact h; cases h
    unfold SimpleSeq.exec SimpleSeq.step
    dsimp only
    split
    · exact ⟨_, rfl, ho'⟩
    · split
      · exact ⟨_, rfl, ho'⟩
      · rw [i32_ok (by omega) (by omega)]
        simp only [ok_bind]
        generalize hof : (if (decide (st.phase = .attack) &&
          decide (st.offset ≥ (b : Int) + z)) = true then (b : Int) else st.offset) = o
        have h1 : 0 ≤ o := by rw [← hof]; split <;> omega
        split
        · rename_i h2
          obtain ⟨v, hv⟩ := hrd o h1 h2
          rw [hv]
          simp only [ok_bind]
          rw [i32_ok (by omega) (by omega)]
          refine ⟨_, rfl, ?_⟩
          show 0 ≤ o + 1
          omega
        · exact ⟨_, rfl, by simp⟩
  | setValue v =>
    rcases ho with h | ⟨p, h⟩
    · exact ⟨_, rfl, h⟩
    · cases h

/-- C24 (value sequences): with fewer than 2^29 values, whatever the sustain arguments and
whatever calls are made in whatever order, only existing values are read and nothing else goes
wrong. -/
theorem C24_simple_partial (vals : List Int) (so sl : Int) (hl : vals.length < 536870912)
    (hso : InI32 so) (hsl : InI32 sl) (ops : List SeqOp) :
    ∃ q r, SimpleSeq.create vals so sl = .ok (some q) ∧ q.run {} ops = .ok r := by
  have hle := sustain_le vals.length so sl
  refine ⟨⟨vals, vals.length, sustainBegin vals.length so, sustainSize vals.length so sl⟩, ?_⟩
  rw [SimpleSeq.create_eq hl hso hsl]
  generalize sustainBegin vals.length so = b at *
  generalize sustainSize vals.length so sl = z at *
  suffices H : ∀ st : SeqState, 0 ≤ st.offset →
      ∃ r, SimpleSeq.run ⟨vals, vals.length, b, z⟩ st ops = .ok r by
    obtain ⟨r, hr⟩ := H {} (Int.le_refl 0)
    exact ⟨r, rfl, hr⟩
  induction ops with
  | nil => intro st _; exact ⟨_, rfl⟩
  | cons op ops ih =>
    intro st ho
    obtain ⟨r, hr, ho2⟩ := SimpleSeq.exec_ok hl hle (op := op) (.inl ho)
    obtain ⟨t, ht⟩ := ih r.2 ho2
    refine ⟨(t.1, (r.1, r.2.value) :: t.2), ?_⟩
    unfold SimpleSeq.run
    simp only [hr, ok_bind]
    rw [ht]
    rfl

/-- Negative sustain arguments and an odd order of calls. -/
example : (∃ q, SimpleSeq.create [7, 8, 9] (-5) (-1) = .ok (some q) ∧
    (q.run {} [.step true, .setPhase .release, .step true, .setPhase .mute, .step true,
      .setPhase .attack, .step true]).toOption.isSome = true) :=
  ⟨⟨[7, 8, 9], 3, 3, 0⟩, by decide +kernel, by decide +kernel⟩

/-- C24 fails for very long value sequences: with 2^30 values the size computation wraps around
to 0, creation succeeds without copying anything, and the first attack reads outside. -/
theorem C24_simple_refuted :
    ∃ (vals : List Int) (q : SimpleSeq), vals.length = 1073741824 ∧
      SimpleSeq.create vals 0 0 = .ok (some q) ∧
      q.run {} [.setPhase .attack] = .error .oob := by
  refine ⟨List.replicate 1073741824 0, ⟨[], 1073741824, 0, 0⟩, List.length_replicate, ?_, ?_⟩
  · unfold SimpleSeq.create
    rw [List.length_replicate]
    have h0 : wrapI32 (4 * ((1073741824 : Nat) : Int)) = 0 := by decide +kernel
    have h1 : ((0 : Int) / 4).toNat = 0 := by decide
    simp only [h0, seqAlloc, h1, List.take_zero]
    decide +kernel
  · decide +kernel

end BK
