import Verif.Lemmas.SeqSlot
import Verif.Lemmas.Adsr
/-!
One instrument state: phases and ticks.
-/
namespace BK

theorem Safe.range {α : Type} {B : Prop} {f : α → Nat → C α} {I : Nat → α → Prop} (n : Nat)
    (h : ∀ i a, i < n → I i a → Safe B (f a i) (I (i + 1))) (a : α) (h0 : I 0 a) :
    Safe B ((List.range n).foldlM f a) (I n) := by
  induction n with
  | zero => exact h0
  | succ n ih =>
    rw [List.range_succ, List.foldlM_append]
    refine (ih fun i b hi => h i b (by omega)).bind fun b hb => ?_
    simp only [List.foldlM_cons, List.foldlM_nil]
    exact (h n b (by omega) hb).bind fun c hc => hc

/-- A slot that still has something to play. -/
def ISlot.active (s : ISlot) : Bool := s.seq.isSome && decide (s.st.offset ≠ INT_MAX)

/-- Number of active slots below `n`. -/
def IState.cnt (x : IState) : Nat → Int
  | 0 => 0
  | n + 1 => x.cnt n + if (x.slots n).active then 1 else 0

theorem IState.cnt_bounds (x : IState) (n : Nat) : 0 ≤ x.cnt n ∧ x.cnt n ≤ n := by
  induction n with
  | zero => simp [IState.cnt]
  | succ n ih => unfold IState.cnt; split <;> omega

theorem IState.cnt_congr {x y : IState} {n : Nat} (h : ∀ k, k < n → (x.slots k).active = (y.slots k).active) :
    x.cnt n = y.cnt n := by
  induction n with
  | zero => rfl
  | succ n ih =>
    unfold IState.cnt
    rw [ih fun k hk => h k (by omega), h n (by omega)]

theorem IState.cnt_setSlot (x : IState) (i : Nat) (s : ISlot) (n : Nat) :
    (x.setSlot i s).cnt n = x.cnt n + if i < n then (if s.active then 1 else 0) -
      (if (x.slots i).active then 1 else 0) else 0 := by
  induction n with
  | zero => simp [IState.cnt]
  | succ n ih =>
    unfold IState.cnt
    rw [ih]
    by_cases hn : n = i
    · subst hn
      have : (x.setSlot n s).slots n = s := upd_self _ _ _
      rw [this, if_neg (show ¬ n < n by omega), if_pos (show n < n + 1 by omega)]
      omega
    · have : (x.setSlot i s).slots n = x.slots n := upd_ne _ _ hn
      rw [this]
      by_cases h : i < n
      · rw [if_pos h, if_pos (show i < n + 1 by omega)]; omega
      · rw [if_neg h, if_neg (show ¬ i < n + 1 by omega)]; omega

theorem IState.cnt_zero_iff (x : IState) (n : Nat) :
    x.cnt n = 0 ↔ ∀ k, k < n → (x.slots k).active = false := by
  induction n with
  | zero => simp [IState.cnt]
  | succ n ih =>
    unfold IState.cnt
    have hb := x.cnt_bounds n
    cases e : (x.slots n).active
    · simp only [Bool.false_eq_true, if_false, Int.add_zero, ih]
      constructor
      · intro h k hk
        by_cases hkn : k = n
        · subst hkn; exact e
        · exact h k (by omega)
      · intro h k hk; exact h k (by omega)
    · simp only [if_true]
      constructor
      · intro h; omega
      · intro h; rw [h n (by omega)] at e; cases e

theorem IState.cnt_all {x : IState} {m n : Nat} (hmn : m ≤ n)
    (h : ∀ k, m ≤ k → k < n → (x.slots k).active = false) : x.cnt n = x.cnt m := by
  induction n with
  | zero => rw [show m = 0 by omega]
  | succ n ih =>
    by_cases hm : m = n + 1
    · subst hm; rfl
    · show x.cnt n + _ = _
      rw [ih (by omega) fun k h1 h2 => h k h1 (by omega), h n (by omega) (by omega)]
      simp

theorem numSeqs_le (f : Nat → Option Nat) : numSeqs f ≤ 4 := by
  unfold numSeqs
  simp only [List.foldl]
  repeat' split
  all_goals omega

theorem numSeqs_lt {f : Nat → Option Nat} {k : Nat} (hk : k < 4) (h : f k ≠ none) : k < numSeqs f := by
  unfold numSeqs
  simp only [List.foldl]
  have : k = 0 ∨ k = 1 ∨ k = 2 ∨ k = 3 := by omega
  rcases this with rfl | rfl | rfl | rfl <;> simp only [h, if_false] <;> (repeat' split) <;> omega

/-- Instrument whose sequences exist. -/
structure Instr.Ok (B : Prop) (heap : SeqHeap) (ins : Instr) : Prop where
  num : ins.numSequences = numSeqs ins.sequences
  live : ∀ k id, k < 4 → ins.sequences k = some id → ∃ q, heap id = some q ∧ q.Ok B

/-- The value of slot `k` is one of its sequence: the default value without one, 0 or one of the
values given for a value sequence, between 0 and the points for an envelope. -/
def SlotV (B : Prop) (heap : SeqHeap) (k : Nat) (s : ISlot) : Prop :=
  (s.seq = none → s.st.value = seqDefault k) ∧
  (∀ id q, s.seq = some id → heap id = some (.simple q) → s.st.value = 0 ∨ s.st.value ∈ q.values) ∧
  ∀ id e, s.seq = some id → heap id = some (.env e) → B → ∀ lo hi, lo ≤ 0 → 0 ≤ hi →
    (∀ p ∈ e.points, lo ≤ p.value ∧ p.value ≤ hi) → InHull e lo hi s.st

/-- State whose four slots point to the sequences of the instrument and satisfy `P`.  The value of
the last one, the duty cycle, is also set by the track. -/
structure IState.Has (P : Sequence → SeqState → Prop) (B : Prop) (heap : SeqHeap) (ins : Instr)
    (x : IState) : Prop where
  pt : ∀ k, k < 4 → (x.slots k).seq = ins.sequences k
  weak : ∀ k, k < 4 → Weak B (x.slots k).st
  slot : ∀ k id q, k < 4 → ins.sequences k = some id → heap id = some q → P q (x.slots k).st
  val : ∀ k, k < 3 → SlotV B heap k (x.slots k)

/-- Count of running sequences. -/
structure IState.Cnt (x : IState) : Prop where
  act : x.phase ≠ .mute → x.numActive = x.cnt 4
  mt : x.phase = .mute → x.numActive ≤ 0 ∧ -4 ≤ x.numActive - x.cnt 4

/-- Invariant of an attached state. -/
structure IState.Inv (B : Prop) (heap : SeqHeap) (ins : Instr) (x : IState) : Prop where
  has : x.Has (SlotInv B) B heap ins
  cnt : x.Cnt

theorem IState.Has.ready {B : Prop} {heap : SeqHeap} {ins : Instr} {x : IState}
    (h : x.Has (SlotInv B) B heap ins) : x.Has (Ready B) B heap ins :=
  ⟨h.pt, h.weak, fun k id q hk hi hq => (h.slot k id q hk hi hq).ready, h.val⟩

/-- A slot after a phase change. -/
structure Phased (B : Prop) (heap : SeqHeap) (p : SeqPhase) (s s' : ISlot) : Prop where
  seq : s'.seq = s.seq
  idle : s.seq = none → s' = s
  go : ∀ id q, s.seq = some id → heap id = some q →
    ∃ r, q.setPhase s.st p = .ok (r, s'.st) ∧ SlotInv B q s'.st ∧ PhaseRes p (r, s'.st)

/-- A slot after a step. -/
structure Stepped (B : Prop) (heap : SeqHeap) (d : Bool) (s s' : ISlot) : Prop where
  seq : s'.seq = s.seq
  idle : s.seq = none → s' = s
  go : ∀ id q, s.seq = some id → heap id = some q →
    ∃ r, q.step s.st d = .ok (r, s'.st) ∧ SlotInv B q s'.st ∧ StepRes s.st (r, s'.st)

theorem rd_ok_mem {a : List Int} {i v : Int} (h : rd a i = .ok v) : v ∈ a := by
  unfold rd at h
  split at h
  · split at h
    · rename_i x hx
      cases h
      exact List.mem_of_getElem? hx
    · cases h
  · cases h

theorem SimpleSeq.setPhase_value {q : SimpleSeq} {st : SeqState} {p : SeqPhase} {r : SeqRet × SeqState}
    (h : q.setPhase st p = .ok r) : r.2.value = st.value ∨ r.2.value ∈ q.values := by
  have key : ∀ offset : Int,
      (if offset < q.length then (do
        let v ← rd q.values offset
        pure (SeqRet.none, { st with offset := offset, value := v, phase := p }))
      else pure (SeqRet.finish, { st with offset := INT_MAX, phase := p }) : C (SeqRet × SeqState)) = .ok r →
      r.2.value = st.value ∨ r.2.value ∈ q.values := by
    intro offset h
    by_cases c : offset < q.length
    · rw [if_pos c] at h
      obtain ⟨v, hv, h⟩ := bind_ok_iff.1 h
      cases h
      exact .inr (rd_ok_mem hv)
    · rw [if_neg c] at h
      cases h; exact .inl rfl
  unfold SimpleSeq.setPhase at h
  cases p
  · exact key _ h
  · exact key _ h
  · obtain ⟨o, -, h⟩ := bind_ok_iff.1 h
    exact key _ h

theorem SimpleSeq.step_value {q : SimpleSeq} {st : SeqState} {d : Bool} {r : SeqRet × SeqState}
    (h : q.step st d = .ok r) : r.2.value = st.value ∨ r.2.value ∈ q.values := by
  have key : ∀ (offset : Int) (res : SeqRet),
      (if offset < q.length then (do
        let v ← rd q.values offset
        let o ← i32 (offset + 1)
        pure (res, { st with value := v, offset := o }))
      else pure (SeqRet.finish, { st with offset := INT_MAX }) : C (SeqRet × SeqState)) = .ok r →
      r.2.value = st.value ∨ r.2.value ∈ q.values := by
    intro offset res h
    by_cases c : offset < q.length
    · rw [if_pos c] at h
      obtain ⟨v, hv, h⟩ := bind_ok_iff.1 h
      obtain ⟨o, -, h⟩ := bind_ok_iff.1 h
      cases h
      exact .inr (rd_ok_mem hv)
    · rw [if_neg c] at h
      cases h; exact .inl rfl
  unfold SimpleSeq.step at h
  split at h
  · cases h; exact .inl rfl
  split at h
  · cases h; exact .inl rfl
  obtain ⟨o, -, h⟩ := bind_ok_iff.1 h
  exact key _ _ h

theorem EnvInv.yes {B : Prop} {q : EnvSeq} {st : SeqState} (h : EnvInv B q st) (b : B) : EnvInv True q st :=
  ⟨h.off, fun _ => h.num b⟩

/-- A phase change keeps the value between the points. -/
theorem EnvSeq.setPhase_hull {q : EnvSeq} {so sl : Nat} {lo hi : Int} (hq : q.W so sl)
    (hp : ∀ p ∈ q.points, lo ≤ p.value ∧ p.value ≤ hi) {st : SeqState} (hn : StNum q st)
    (hst : InHull q lo hi st) {ph : SeqPhase} {r : SeqRet × SeqState}
    (h : q.setPhase st ph = .ok r) : InHull q lo hi r.2 := by
  have hlt := hq.lt
  have hle := hq.le
  unfold EnvSeq.setPhase at h
  cases ph with
  | mute =>
    obtain ⟨s, hs, h⟩ := bind_ok_iff.1 h
    injection h with h
    subst h
    have hs := (i32_eq_ok_iff.1 hs).2
    show lo * 2 ^ q.fracShift ≤ s ∧ s ≤ hi * 2 ^ q.fracShift
    rw [hs, hn.eq]
    have h2 : (0 : Int) < 2 ^ q.fracShift := two_pow_pos _
    unfold InHull at hst
    have a1 : lo ≤ st.shiftedValue / 2 ^ q.fracShift := (Int.le_ediv_iff_mul_le h2).2 hst.1
    have a2 : st.shiftedValue / 2 ^ q.fracShift * 2 ^ q.fracShift ≤ st.shiftedValue :=
      Int.ediv_mul_le _ (by omega)
    have a3 := Int.mul_le_mul_of_nonneg_right a1 (Int.le_of_lt h2)
    omega
  | attack =>
    refine EnvSeq.step_hull hp ?_ ?_ r h
    · refine ⟨by show (0 : Int) ≤ 0 ∧ (0 : Int) ≤ 2147483647; omega, fun b => ?_⟩
      refine ⟨⟨hn.sh, hn.en, hn.eq⟩, Int.le_refl 0, by show (0 : Int) < 2147483648; omega, fun h0 => absurd h0 (by simp)⟩
    · exact hst
  | release =>
    obtain ⟨o, ho, h⟩ := bind_ok_iff.1 h
    have ho := (i32_eq_ok_iff.1 ho).2
    rw [hq.hso, hq.hsl] at ho
    refine EnvSeq.step_hull hp ?_ ?_ r h
    · refine ⟨?_, fun b => ?_⟩
      · show 0 ≤ o ∧ o ≤ 2147483647
        omega
      refine ⟨⟨hn.sh, hn.en, hn.eq⟩, Int.le_refl 0, by show (0 : Int) < 2147483648; omega, fun h0 => absurd h0 (by simp)⟩
    · exact hst

theorem SlotV.phased {B : Prop} {heap : SeqHeap} {p : SeqPhase} {s s' : ISlot} {k : Nat}
    (h : SlotV B heap k s) (hs : Phased B heap p s s')
    (hr : ∀ id q, s.seq = some id → heap id = some q → q.Ok B ∧ Ready B q s.st) : SlotV B heap k s' := by
  refine ⟨fun e => ?_, fun id q e hq => ?_, fun id q e hq b lo hi h1 h2 hp => ?_⟩
  · rw [hs.seq] at e
    rw [hs.idle e]; exact h.1 e
  · rw [hs.seq] at e
    obtain ⟨r, hr, -⟩ := hs.go id _ e hq
    rcases SimpleSeq.setPhase_value hr with e1 | e1
    · rw [show s'.st.value = s.st.value from e1]; exact h.2.1 id q e hq
    · exact .inr e1
  · rw [hs.seq] at e
    obtain ⟨r, hr', -⟩ := hs.go id _ e hq
    obtain ⟨⟨⟨so, sl, hW⟩, -⟩, k2⟩ := hr id _ e hq
    exact EnvSeq.setPhase_hull hW hp (k2.num q rfl b) (h.2.2 id q e hq b lo hi h1 h2 hp) hr'

theorem SlotV.stepped {B : Prop} {heap : SeqHeap} {d : Bool} {s s' : ISlot} {k : Nat}
    (h : SlotV B heap k s) (hs : Stepped B heap d s s')
    (hr : ∀ id q, s.seq = some id → heap id = some q → SlotInv B q s.st) : SlotV B heap k s' := by
  refine ⟨fun e => ?_, fun id q e hq => ?_, fun id q e hq b lo hi h1 h2 hp => ?_⟩
  · rw [hs.seq] at e
    rw [hs.idle e]; exact h.1 e
  · rw [hs.seq] at e
    obtain ⟨r, hr, -⟩ := hs.go id _ e hq
    rcases SimpleSeq.step_value hr with e1 | e1
    · rw [show s'.st.value = s.st.value from e1]; exact h.2.1 id q e hq
    · exact .inr e1
  · rw [hs.seq] at e
    obtain ⟨r, hr', -⟩ := hs.go id _ e hq
    exact EnvSeq.step_hull hp (((hr id _ e hq).env q rfl).yes b) (h.2.2 id q e hq b lo hi h1 h2 hp) _ hr'

theorem Phased.has {B : Prop} {heap : SeqHeap} {ins : Instr} {x y : IState} {p : SeqPhase}
    (h : x.Has (Ready B) B heap ins) (hi : ins.Ok B heap)
    (hy : ∀ k, k < 4 → Phased B heap p (x.slots k) (y.slots k)) : y.Has (SlotInv B) B heap ins := by
  refine ⟨?_, ?_, ?_, fun k hk => (h.val k hk).phased (hy k (by omega)) fun id q e hq => ?_⟩
  rotate_left 3
  · rw [h.pt k (by omega)] at e
    obtain ⟨q', hq', ok⟩ := hi.live k id (by omega) e
    rw [hq] at hq'; cases hq'
    exact ⟨ok, h.slot k id q (by omega) e hq⟩
  · intro k hk; rw [(hy k hk).seq]; exact h.pt k hk
  · intro k hk
    cases e : ins.sequences k with
    | none =>
      rw [(hy k hk).idle (by rw [h.pt k hk]; exact e)]
      exact h.weak k hk
    | some id =>
      obtain ⟨q, hq, _⟩ := hi.live k id hk e
      obtain ⟨r, _, h2, _⟩ := (hy k hk).go id q (by rw [h.pt k hk]; exact e) hq
      exact h2.weak
  · intro k id q hk hid hq
    obtain ⟨r, _, h2, _⟩ := (hy k hk).go id q (by rw [h.pt k hk]; exact hid) hq
    exact h2

theorem Stepped.has {B : Prop} {heap : SeqHeap} {ins : Instr} {x y : IState} {d : Bool}
    (h : x.Has (SlotInv B) B heap ins) (hi : ins.Ok B heap)
    (hy : ∀ k, k < 4 → Stepped B heap d (x.slots k) (y.slots k)) : y.Has (SlotInv B) B heap ins := by
  refine ⟨?_, ?_, ?_, fun k hk => (h.val k hk).stepped (hy k (by omega)) fun id q e hq =>
    h.slot k id q (by omega) (by rw [← h.pt k (by omega)]; exact e) hq⟩
  · intro k hk; rw [(hy k hk).seq]; exact h.pt k hk
  · intro k hk
    cases e : ins.sequences k with
    | none =>
      rw [(hy k hk).idle (by rw [h.pt k hk]; exact e)]
      exact h.weak k hk
    | some id =>
      obtain ⟨q, hq, _⟩ := hi.live k id hk e
      obtain ⟨r, _, h2, _⟩ := (hy k hk).go id q (by rw [h.pt k hk]; exact e) hq
      exact h2.weak
  · intro k id q hk hid hq
    obtain ⟨r, _, h2, _⟩ := (hy k hk).go id q (by rw [h.pt k hk]; exact hid) hq
    exact h2

theorem ISlot.setPhase_inv {B : Prop} {heap : SeqHeap} {s : ISlot} {p : SeqPhase}
    (h : ∀ id, s.seq = some id → ∃ q, heap id = some q ∧ q.Ok B ∧ Ready B q s.st) :
    Safe B (s.setPhase heap p) (fun r => Phased B heap p s r.2 ∧ (s.seq = none → r.1 = none) ∧
      (s.seq ≠ none → p ≠ .mute → (r.1 = some .finish ↔ r.2.active = false)) ∧
      (s.seq ≠ none → p = .mute → r.1 = some .finish)) := by
  unfold ISlot.setPhase
  cases e : s.seq with
  | none =>
    dsimp only
    refine Safe.ok ⟨⟨rfl, fun _ => rfl, ?_⟩, fun _ => rfl, fun h => absurd rfl h, fun h => absurd rfl h⟩
    intro id q h1; rw [e] at h1; cases h1
  | some id =>
    obtain ⟨q, h1, h2, h3⟩ := h id e
    dsimp only
    unfold SeqHeap.get
    rw [h1]
    simp only [ok_bind]
    refine ((Sequence.setPhase_inv h2 h3 p).and_ok (Q := fun r => q.setPhase s.st p = .ok r)
      fun a ha => ha).bind fun r hr => ?_
    refine Safe.ok ⟨⟨e.symm, ?_, ?_⟩, ?_, ?_, ?_⟩
    · intro h4; rw [e] at h4; cases h4
    · intro id' q' h4 h5
      rw [e] at h4
      cases h4
      rw [h1] at h5
      cases h5
      exact ⟨r.1, hr.2, hr.1.1, hr.1.2⟩
    · intro h4; cases h4
    · intro _ h4
      have := hr.1.2.fin h4
      simp only [Option.some.injEq, this, ISlot.active, e, Option.isSome_some, Bool.true_and, ne_eq,
        decide_not, Bool.not_eq_false', decide_eq_true_eq]
    · intro _ h4
      rw [hr.1.2.mute h4]

theorem ISlot.step_inv {B : Prop} {heap : SeqHeap} {s : ISlot} {d : Bool}
    (h : ∀ id, s.seq = some id → ∃ q, heap id = some q ∧ q.Ok B ∧ SlotInv B q s.st) :
    Safe B (s.step heap d) (fun r => Stepped B heap d s r.2 ∧
      (r.1 = some .finish → s.active = true ∧ r.2.active = false) ∧
      (r.1 ≠ some .finish → r.2.active = s.active)) := by
  unfold ISlot.step
  cases e : s.seq with
  | none =>
    dsimp only
    refine Safe.ok ⟨⟨rfl, fun _ => rfl, ?_⟩, ⟨fun h => by simp at h, fun _ => rfl⟩⟩
    intro id q h1; rw [e] at h1; cases h1
  | some id =>
    obtain ⟨q, h1, h2, h3⟩ := h id e
    dsimp only
    unfold SeqHeap.get
    rw [h1]
    simp only [ok_bind]
    refine ((Sequence.step_inv h2 h3 d).and_ok (Q := fun r => q.step s.st d = .ok r)
      fun a ha => ha).bind fun r hr => ?_
    obtain ⟨⟨hr1, hr2⟩, hr3⟩ := hr
    have hover := hr2.over
    have hfin := hr2.fin
    refine Safe.ok ⟨⟨e.symm, ?_, ?_⟩, ?_, ?_⟩
    · intro h4; rw [e] at h4; cases h4
    · intro id' q' h4 h5
      rw [e] at h4
      cases h4
      rw [h1] at h5
      cases h5
      exact ⟨r.1, hr3, hr1, hr2⟩
    · intro h4
      simp only [Option.some.injEq] at h4
      have h5 : s.st.offset ≠ INT_MAX := by
        intro h5
        rw [hover h5] at h4; cases h4
      have h6 := (hfin h5).1 h4
      simp [ISlot.active, e, h5, h6]
    · intro h4
      simp only [ne_eq, Option.some.injEq] at h4
      by_cases h5 : s.st.offset = INT_MAX
      · have := hover h5
        simp [ISlot.active, this, e]
      · have : r.2.offset ≠ INT_MAX := fun h6 => h4 ((hfin h5).2 h6)
        simp [ISlot.active, h5, this, e]

/-- The loop of the phase change. -/
theorem IState.phaseLoop_inv {B : Prop} {heap : SeqHeap} {ins : Instr} {x : IState} {p : SeqPhase}
    (hi : ins.Ok B heap) (h : x.Has (Ready B) B heap ins) :
    Safe B ((List.range ins.numSequences).foldlM (IState.phaseStep heap ins p) { x with numActive := 0 })
      (fun y => y.phase = x.phase ∧ (∀ k, k < 4 → Phased B heap p (x.slots k) (y.slots k)) ∧
        (p ≠ .mute → y.numActive = y.cnt 4) ∧ (p = .mute → y.numActive = 0)) := by
  have hn4 : ins.numSequences ≤ 4 := by rw [hi.num]; exact numSeqs_le _
  have key := Safe.range (B := B) (f := IState.phaseStep heap ins p)
    (I := fun i y => y.phase = x.phase ∧ (∀ k, k < i → Phased B heap p (x.slots k) (y.slots k)) ∧
      (∀ k, i ≤ k → y.slots k = x.slots k) ∧ (p ≠ .mute → y.numActive = y.cnt i) ∧
      (p = .mute → y.numActive = 0)) ins.numSequences ?_ { x with numActive := 0 }
      ⟨rfl, by simp, fun _ _ => rfl, fun _ => rfl, fun _ => rfl⟩
  · refine key.mono ?_
    rintro y ⟨h1, h2, h3, h4, h5⟩
    have hrest : ∀ k, ins.numSequences ≤ k → k < 4 → (x.slots k).seq = none := by
      intro k hk hk4
      rw [h.pt k hk4]
      by_contra hc
      have := numSeqs_lt hk4 hc
      rw [← hi.num] at this
      omega
    refine ⟨h1, ?_, ?_, h5⟩
    · intro k hk
      by_cases hkn : k < ins.numSequences
      · exact h2 k hkn
      · have hs := hrest k (by omega) hk
        rw [h3 k (by omega)]
        exact ⟨rfl, fun _ => rfl, fun id q h6 => by rw [hs] at h6; cases h6⟩
    · intro hp
      rw [h4 hp]
      refine (IState.cnt_all hn4 ?_).symm
      intro k hk hk4
      rw [h3 k hk, ISlot.active, hrest k hk hk4]
      rfl
  · rintro i y hin ⟨h1, h2, h3, h4, h5⟩
    have hi4 : i < 4 := by omega
    unfold IState.phaseStep chk4
    rw [if_pos hi4]
    simp only [ok_bind]
    have hsl : y.slots i = x.slots i := h3 i (Nat.le_refl i)
    cases e : ins.sequences i with
    | none =>
      have hs : (x.slots i).seq = none := by rw [h.pt i hi4]; exact e
      refine Safe.ok ⟨h1, ?_, fun k hk => h3 k (by omega), ?_, h5⟩
      · intro k hk
        by_cases hki : k = i
        · subst hki
          rw [hsl]
          exact ⟨rfl, fun _ => rfl, fun id q h6 => by rw [hs] at h6; cases h6⟩
        · exact h2 k (by omega)
      · intro hp
        rw [h4 hp]
        show _ = y.cnt i + _
        rw [hsl, ISlot.active, hs]
        simp
    | some id =>
      dsimp only
      have hseq : (y.slots i).seq = some id := by rw [hsl, h.pt i hi4]; exact e
      have hslot : ∀ id, (y.slots i).seq = some id → ∃ q, heap id = some q ∧ q.Ok B ∧
          Ready B q (y.slots i).st := by
        intro id' h6
        rw [hseq] at h6; cases h6
        obtain ⟨q, hq, hok⟩ := hi.live i id hi4 e
        refine ⟨q, hq, hok, ?_⟩
        rw [hsl]
        exact h.slot i id q hi4 e hq
      refine (ISlot.setPhase_inv (p := p) hslot).bind ?_
      rintro r ⟨hr1, -, hr3, hr4⟩
      have hne : (y.slots i).seq ≠ none := by rw [hseq]; simp
      have hc0 := y.cnt_bounds i
      have hph : ∀ k, k < i + 1 → Phased B heap p (x.slots k) ((y.setSlot i r.2).slots k) := by
        intro k hk
        by_cases hki : k = i
        · subst hki
          rw [show (y.setSlot k r.2).slots k = r.2 from upd_self _ _ _, ← hsl]
          exact hr1
        · rw [show (y.setSlot i r.2).slots k = y.slots k from upd_ne _ _ hki]
          exact h2 k (by omega)
      have hkeep : ∀ k, i + 1 ≤ k → (y.setSlot i r.2).slots k = x.slots k := by
        intro k hk
        rw [show (y.setSlot i r.2).slots k = y.slots k from upd_ne _ _ (by omega)]
        exact h3 k (by omega)
      have hcnt : (y.setSlot i r.2).cnt (i + 1) = y.cnt i + if r.2.active then 1 else 0 := by
        show (y.setSlot i r.2).cnt i + _ = _
        rw [IState.cnt_setSlot, if_neg (by omega),
          show (y.setSlot i r.2).slots i = r.2 from upd_self _ _ _]
        omega
      split
      · rename_i hf
        refine Safe.ok ⟨h1, hph, hkeep, ?_, h5⟩
        intro hp
        rw [hcnt, (hr3 hne hp).1 hf]
        show y.numActive = _
        rw [h4 hp]; simp
      · rename_i hf
        by_cases hp : p = .mute
        · exact absurd (hr4 hne hp) hf
        · have hact : r.2.active = true := by
            cases e2 : r.2.active
            · exact absurd ((hr3 hne hp).2 e2) hf
            · rfl
          have hnum : (y.setSlot i r.2).numActive = y.cnt i := h4 hp
          rw [hnum, i32_ok (by omega) (by omega)]
          refine Safe.ok ⟨h1, hph, hkeep, ?_, fun h => absurd h hp⟩
          intro _
          refine Eq.trans ?_ (IState.cnt_congr (x := y.setSlot i r.2) fun _ _ => rfl)
          rw [hcnt, hact]
          simp

/-- Everything about a phase change from a prepared state. -/
structure SetPhaseRes (B : Prop) (heap : SeqHeap) (p : SeqPhase) (x : IState)
    (r : List InstrEvent × IState) : Prop where
  /-- attack and release start all sequences -/
  go : ∃ y : IState, (∀ k, k < 4 → Phased B heap p (x.slots k) (y.slots k)) ∧
    (p = .attack → r = ([], { y with phase := .attack, numActive := y.cnt 4 })) ∧
    (p = .release → y.cnt 4 ≠ 0 → r = ([], { y with phase := .release, numActive := y.cnt 4 })) ∧
    (p = .release → y.cnt 4 = 0 → r.2.phase = .mute ∧ r.1 = if x.phase = .mute then [] else [.mute])
  mute : p = .mute → r.2.phase = .mute ∧ r.1 = if x.phase = .mute then [] else [.mute]

theorem IState.Cnt.mute {y : IState} (h0 : y.numActive = 0) (hp : y.phase = .mute) : y.Cnt := by
  have := y.cnt_bounds 4
  refine ⟨fun h => absurd hp h, fun _ => ?_⟩
  omega

theorem IState.Has.congr {P : Sequence → SeqState → Prop} {B : Prop} {heap : SeqHeap} {ins : Instr}
    {x y : IState} (h : x.Has P B heap ins) (e : ∀ k, k < 4 → y.slots k = x.slots k) :
    y.Has P B heap ins :=
  ⟨fun k hk => by rw [e k hk]; exact h.pt k hk, fun k hk => by rw [e k hk]; exact h.weak k hk,
   fun k id q hk h1 h2 => by rw [e k hk]; exact h.slot k id q hk h1 h2,
   fun k hk => by rw [e k (by omega)]; exact h.val k hk⟩

theorem IState.muteCore_inv {B : Prop} {heap : SeqHeap} {ins : Instr} {x : IState}
    (hi : ins.Ok B heap) (h : x.Has (Ready B) B heap ins) :
    Safe B (x.setPhaseCore heap ins .mute) (fun r => r.2.Inv B heap ins ∧ r.2.phase = .mute ∧
      r.1 = decide (x.phase ≠ .mute)) := by
  unfold IState.setPhaseCore
  rw [if_neg (by simp)]
  refine (IState.phaseLoop_inv (p := .mute) hi h).bind ?_
  rintro y ⟨h1, h2, -, h4⟩
  have hhas := Phased.has h hi h2
  dsimp only
  rw [if_neg (by simp)]
  dsimp only
  split
  · rename_i hm
    exact Safe.ok ⟨⟨hhas, IState.Cnt.mute (h4 rfl) hm⟩, hm, by simp [← h1, hm]⟩
  · rename_i hm
    exact Safe.ok ⟨⟨hhas.congr fun _ _ => rfl, IState.Cnt.mute (h4 rfl) rfl⟩, rfl, by simp [← h1, hm]⟩

theorem IState.setPhase_inv {B : Prop} {heap : SeqHeap} {ins : Instr} {x : IState} {p : SeqPhase}
    (hi : ins.Ok B heap) (h : x.Has (Ready B) B heap ins)
    (hp : ¬ (x.phase = .release ∧ p = .release)) :
    Safe B (x.setPhase heap ins p) (fun r => r.2.Inv B heap ins ∧ SetPhaseRes B heap p x r) := by
  unfold IState.setPhase
  cases p with
  | mute =>
    -- keep the loop result for the statement about the slots
    have hloop := IState.phaseLoop_inv (p := .mute) hi h
    cases eloop : (List.range ins.numSequences).foldlM (IState.phaseStep heap ins .mute)
        { x with numActive := 0 } with
    | error e =>
      rw [eloop] at hloop
      unfold IState.setPhaseCore
      rw [if_neg hp, eloop]
      exact hloop
    | ok y0 =>
      rw [eloop] at hloop
      have hloop' : _ ∧ _ := hloop
      obtain ⟨-, hy0, -⟩ := hloop'
      refine (IState.muteCore_inv hi h).bind ?_
      rintro r ⟨h1, h2, h3⟩
      split
      · rename_i hr
        rw [hr] at h3
        have hm : x.phase ≠ .mute := by simpa using h3.symm
        refine (IState.muteCore_inv hi h1.has.ready).bind ?_
        rintro r' ⟨h4, h5, h6⟩
        refine Safe.ok ⟨h4, ⟨y0, hy0, by simp, by simp, by simp⟩, fun _ => ⟨h5, ?_⟩⟩
        rw [if_neg hm]
      · rename_i hr
        have hm : x.phase = .mute := by
          rw [h3] at hr
          simpa using hr
        refine Safe.ok ⟨h1, ⟨y0, hy0, by simp, by simp, by simp⟩, fun _ => ⟨h2, ?_⟩⟩
        rw [if_pos hm]
  | attack =>
    unfold IState.setPhaseCore
    rw [if_neg hp, LawfulMonad.bind_assoc]
    refine (IState.phaseLoop_inv (p := .attack) hi h).bind ?_
    rintro y ⟨h1, h2, h3, -⟩
    have hhas := Phased.has h hi h2
    dsimp only
    rw [if_neg (by simp)]
    simp only [pure_eq_ok, ok_bind, Bool.false_eq_true, if_false]
    have e := h3 (by simp)
    refine Safe.ok ⟨⟨hhas.congr fun _ _ => rfl, ⟨fun _ => e, fun hm => by cases hm⟩⟩, ⟨y, h2, fun _ => ?_, by simp, by simp⟩, by simp⟩
    rw [← e]
  | release =>
    unfold IState.setPhaseCore
    rw [if_neg hp, LawfulMonad.bind_assoc]
    refine (IState.phaseLoop_inv (p := .release) hi h).bind ?_
    rintro y ⟨h1, h2, h3, -⟩
    have hhas := Phased.has h hi h2
    have e := h3 (by simp)
    dsimp only
    by_cases h0 : y.numActive = 0
    · rw [if_pos ⟨h0, rfl⟩]
      dsimp only
      have hc : y.cnt 4 = 0 := by omega
      by_cases hm : y.phase = .mute
      · rw [if_pos hm]
        simp only [pure_eq_ok, ok_bind, Bool.false_eq_true, if_false]
        refine Safe.ok ⟨⟨hhas, IState.Cnt.mute h0 hm⟩, ⟨y, h2, by simp, fun _ hn => absurd hc hn, fun _ _ => ⟨hm, ?_⟩⟩, by simp⟩
        rw [if_pos (by rw [← h1]; exact hm)]
      · rw [if_neg hm]
        simp only [pure_eq_ok, ok_bind, if_true]
        have hhas' : ({ y with phase := .mute } : IState).Has (Ready B) B heap ins :=
          hhas.ready.congr fun _ _ => rfl
        refine (IState.muteCore_inv hi hhas').bind ?_
        rintro r' ⟨h4, h5, h6⟩
        refine Safe.ok ⟨h4, ⟨y, h2, by simp, fun _ hn => absurd hc hn, fun _ _ => ⟨h5, ?_⟩⟩, by simp⟩
        rw [if_neg (by rw [← h1]; exact hm)]
    · rw [if_neg (by simp [h0])]
      simp only [pure_eq_ok, ok_bind, Bool.false_eq_true, if_false]
      refine Safe.ok ⟨⟨hhas.congr fun _ _ => rfl, ⟨fun _ => e, fun hm => by cases hm⟩⟩,
        ⟨y, h2, by simp, fun _ _ => ?_, fun _ hn => absurd hn (by omega)⟩, by simp⟩
      rw [← e]

/-- Everything about a tick. -/
inductive TickRes (B : Prop) (heap : SeqHeap) (d : Bool) (x : IState) :
    List InstrEvent × IState → Prop
  /-- nothing to tell: every sequence made its step -/
  | go (y : IState) (hs : ∀ k, k < 4 → Stepped B heap d (x.slots k) (y.slots k))
      (hp : y.phase = x.phase) (hn : x.phase ≠ .mute → x.cnt 4 = 0 ∨ y.cnt 4 ≠ 0) : TickRes B heap d x ([], y)
  /-- the last active sequence has come to its end -/
  | mute (y z : IState) (hs : ∀ k, k < 4 → Stepped B heap d (x.slots k) (z.slots k)) (hz : z.cnt 4 = 0)
      (hx : x.cnt 4 ≠ 0) (hp : x.phase ≠ .mute) (hy : y.phase = .mute) : TickRes B heap d x ([.mute], y)

theorem Stepped.refl {B : Prop} {heap : SeqHeap} {ins : Instr} {x : IState} (d : Bool)
    (h : x.Has (SlotInv B) B heap ins) {k : Nat} (hk : k < 4)
    (ha : (x.slots k).active = false) : Stepped B heap d (x.slots k) (x.slots k) := by
  refine ⟨rfl, fun _ => rfl, ?_⟩
  intro id q h1 h2
  have hs : ins.sequences k = some id := by rw [← h.pt k hk]; exact h1
  have hinv := h.slot k id q hk hs h2
  have hoff : (x.slots k).st.offset = INT_MAX := by
    simpa [ISlot.active, h1] using ha
  have hstep : q.step (x.slots k).st d = .ok (.none, (x.slots k).st) := by
    cases q with
    | simple q =>
      show SimpleSeq.step q _ d = _
      unfold SimpleSeq.step
      by_cases hd : d = false
      · rw [if_pos hd]; rfl
      · rw [if_neg hd, if_pos hoff]; rfl
    | env q =>
      show EnvSeq.step q _ = _
      unfold EnvSeq.step
      rw [if_pos hoff]; rfl
  exact ⟨.none, hstep, hinv, rfl, fun _ => rfl, fun hn => absurd hoff hn⟩

theorem IState.tick_inv {B : Prop} {heap : SeqHeap} {ins : Instr} {x : IState} {d : Bool}
    (hi : ins.Ok B heap) (h : x.Inv B heap ins) :
    Safe B (x.tick heap ins d) (fun r => r.2.Inv B heap ins ∧ TickRes B heap d x r) := by
  have hn4 : ins.numSequences ≤ 4 := by rw [hi.num]; exact numSeqs_le _
  unfold IState.tick
  have key := Safe.range (B := B) (f := IState.tickStep heap ins d)
    (I := fun i a =>
      (a.1 = [] ∧ a.2.phase = x.phase ∧ (∀ k, k < i → Stepped B heap d (x.slots k) (a.2.slots k)) ∧
        (∀ k, i ≤ k → a.2.slots k = x.slots k) ∧ a.2.Cnt ∧
        (x.phase ≠ .mute → x.cnt 4 = 0 ∨ a.2.cnt 4 ≠ 0) ∧ a.2.cnt 4 ≤ x.cnt 4) ∨
      (a.2.Inv B heap ins ∧ TickRes B heap d x a ∧ a.1 = [.mute])) ins.numSequences ?_ ([], x)
      (.inl ⟨rfl, rfl, by simp, fun _ _ => rfl, h.cnt, fun _ => ?_, Int.le_refl _⟩)
  · refine key.mono ?_
    rintro a (⟨h1, h2, h3, h4, h5, h6, -⟩ | ⟨h1, h2, -⟩)
    · have hst : ∀ k, k < 4 → Stepped B heap d (x.slots k) (a.2.slots k) := by
        intro k hk
        by_cases hkn : k < ins.numSequences
        · exact h3 k hkn
        · rw [h4 k (by omega)]
          have hs : ins.sequences k = none := by
            by_contra hc
            have := numSeqs_lt hk hc
            rw [← hi.num] at this
            omega
          refine ⟨rfl, fun _ => rfl, fun id q h7 => ?_⟩
          rw [h.has.pt k hk, hs] at h7; cases h7
      refine ⟨⟨Stepped.has h.has hi hst, h5⟩, ?_⟩
      have : a = ([], a.2) := by rw [← h1]
      rw [this]
      exact .go a.2 hst h2 h6
    · exact ⟨h1, h2⟩
  rotate_left
  · show x.cnt 4 = 0 ∨ x.cnt 4 ≠ 0
    omega
  · rintro i a hin hI
    have hi4 : i < 4 := by omega
    unfold IState.tickStep chk4
    rw [if_pos hi4]
    simp only [ok_bind]
    have hinva : a.2.Has (SlotInv B) B heap ins := by
      rcases hI with ⟨h1, h2, h3, h4, h5, h6, -⟩ | ⟨h1, h2, -⟩
      · refine ⟨?_, ?_, ?_, ?_⟩
        · intro k hk
          by_cases hki : k < i
          · rw [(h3 k hki).seq]; exact h.has.pt k hk
          · rw [h4 k (by omega)]; exact h.has.pt k hk
        · intro k hk
          by_cases hki : k < i
          · cases e : ins.sequences k with
            | none =>
              rw [(h3 k hki).idle (by rw [h.has.pt k hk]; exact e)]
              exact h.has.weak k hk
            | some id =>
              obtain ⟨q, hq, _⟩ := hi.live k id hk e
              obtain ⟨r, _, h2, _⟩ := (h3 k hki).go id q (by rw [h.has.pt k hk]; exact e) hq
              exact h2.weak
          · rw [h4 k (by omega)]; exact h.has.weak k hk
        · intro k id q hk hid hq
          by_cases hki : k < i
          · obtain ⟨r, _, h2, _⟩ := (h3 k hki).go id q (by rw [h.has.pt k hk]; exact hid) hq
            exact h2
          · rw [h4 k (by omega)]; exact h.has.slot k id q hk hid hq
        · intro k hk
          by_cases hki : k < i
          · exact (h.has.val k hk).stepped (h3 k hki) fun id q e hq =>
              h.has.slot k id q (by omega) (by rw [← h.has.pt k (by omega)]; exact e) hq
          · rw [h4 k (by omega)]; exact h.has.val k hk
      · exact h1.has
    have hslot : ∀ id, (a.2.slots i).seq = some id → ∃ q, heap id = some q ∧ q.Ok B ∧
        SlotInv B q (a.2.slots i).st := by
      intro id h6
      rw [hinva.pt i hi4] at h6
      obtain ⟨q, hq, hok⟩ := hi.live i id hi4 h6
      exact ⟨q, hq, hok, hinva.slot i id q hi4 h6 hq⟩
    refine (ISlot.step_inv (d := d) hslot).bind ?_
    rintro r ⟨hr1, hr2, hr3⟩
    have hcnt := IState.cnt_setSlot a.2 i r.2 4
    rw [if_pos hi4] at hcnt
    have hc0 := a.2.cnt_bounds 4
    have hc1 := (a.2.setSlot i r.2).cnt_bounds 4
    have hhas : (a.2.setSlot i r.2).Has (SlotInv B) B heap ins := by
      refine ⟨?_, ?_, ?_, ?_⟩
      · intro k hk
        by_cases hki : k = i
        · subst hki
          rw [show (a.2.setSlot k r.2).slots k = r.2 from upd_self _ _ _, hr1.seq]
          exact hinva.pt k hk
        · rw [show (a.2.setSlot i r.2).slots k = a.2.slots k from upd_ne _ _ hki]
          exact hinva.pt k hk
      · intro k hk
        by_cases hki : k = i
        · subst hki
          rw [show (a.2.setSlot k r.2).slots k = r.2 from upd_self _ _ _]
          cases e : (a.2.slots k).seq with
          | none => rw [hr1.idle e]; exact hinva.weak k hk
          | some id =>
            obtain ⟨q, hq, _⟩ := hslot id e
            obtain ⟨_, _, h2, _⟩ := hr1.go id q e hq
            exact h2.weak
        · rw [show (a.2.setSlot i r.2).slots k = a.2.slots k from upd_ne _ _ hki]
          exact hinva.weak k hk
      · intro k id q hk hid hq
        by_cases hki : k = i
        · subst hki
          rw [show (a.2.setSlot k r.2).slots k = r.2 from upd_self _ _ _]
          obtain ⟨_, _, h2, _⟩ := hr1.go id q (by rw [hinva.pt k hk]; exact hid) hq
          exact h2
        · rw [show (a.2.setSlot i r.2).slots k = a.2.slots k from upd_ne _ _ hki]
          exact hinva.slot k id q hk hid hq
      · intro k hk
        by_cases hki : k = i
        · subst hki
          rw [show (a.2.setSlot k r.2).slots k = r.2 from upd_self _ _ _]
          exact (hinva.val k hk).stepped hr1 fun id q e hq =>
            hinva.slot k id q (by omega) (by rw [← hinva.pt k (by omega)]; exact e) hq
        · rw [show (a.2.setSlot i r.2).slots k = a.2.slots k from upd_ne _ _ hki]
          exact hinva.val k hk
    rcases hI with ⟨h1, h2, h3, h4, h5, h6, h7⟩ | ⟨h1, h2, h3⟩
    · have hai : a.2.slots i = x.slots i := h4 i (Nat.le_refl i)
      have hst : ∀ k, k < i + 1 → Stepped B heap d (x.slots k) ((a.2.setSlot i r.2).slots k) := by
        intro k hk
        by_cases hki : k = i
        · subst hki
          rw [show (a.2.setSlot k r.2).slots k = r.2 from upd_self _ _ _, ← hai]
          exact hr1
        · rw [show (a.2.setSlot i r.2).slots k = a.2.slots k from upd_ne _ _ hki]
          exact h3 k (by omega)
      have hkeep : ∀ k, i + 1 ≤ k → (a.2.setSlot i r.2).slots k = x.slots k := by
        intro k hk
        rw [show (a.2.setSlot i r.2).slots k = a.2.slots k from upd_ne _ _ (by omega)]
        exact h4 k (by omega)
      by_cases hf : r.1 = some .finish
      · rw [if_pos hf]
        obtain ⟨ha1, ha2⟩ := hr2 hf
        rw [ha1, ha2] at hcnt
        simp only [Bool.false_eq_true, if_false, if_true] at hcnt
        have hnum : (a.2.setSlot i r.2).numActive = a.2.numActive := rfl
        rw [hnum]
        have hb : -4 ≤ a.2.numActive ∧ a.2.numActive ≤ 4 := by
          by_cases hm : a.2.phase = .mute
          · have := h5.mt hm; omega
          · have := h5.act hm; omega
        rw [i32_ok (by omega) (by omega)]
        simp only [ok_bind]
        by_cases h0 : a.2.numActive - 1 = 0
        · rw [if_pos h0]
          have hm : a.2.phase ≠ .mute := by
            intro hm; have := h5.mt hm; omega
          have hz := h5.act hm
          have hhas' : ({ a.2.setSlot i r.2 with numActive := a.2.numActive - 1 } : IState).Has
              (SlotInv B) B heap ins := hhas.congr fun _ _ => rfl
          refine (IState.setPhase_inv (p := .mute) hi hhas'.ready (by simp)).bind ?_
          rintro t ⟨ht1, ht2⟩
          obtain ⟨ht3, ht4⟩ := ht2.mute rfl
          rw [if_neg (show ({ a.2.setSlot i r.2 with numActive := a.2.numActive - 1 } : IState).phase
            ≠ .mute from hm)] at ht4
          have e1 : a.1 ++ t.1 = [.mute] := by rw [h1, ht4]; rfl
          refine Safe.ok (.inr ⟨ht1, ?_, e1⟩)
          rw [e1]
          refine TickRes.mute t.2 (a.2.setSlot i r.2) ?_ (by omega) (by omega) (by rw [← h2]; exact hm) ht3
          intro k hk
          by_cases hki : k < i + 1
          · exact hst k hki
          · have hkz := ((a.2.setSlot i r.2).cnt_zero_iff 4).1 (by omega) k hk
            rw [hkeep k (by omega)] at hkz ⊢
            exact Stepped.refl d h.has hk hkz
        · rw [if_neg h0]
          refine Safe.ok (.inl ⟨h1, h2, hst, hkeep, ⟨?_, ?_⟩, ?_, ?_⟩)
          · intro hm
            have := h5.act hm
            show a.2.numActive - 1 = (a.2.setSlot i r.2).cnt 4
            omega
          · intro hm
            have := h5.mt hm
            show a.2.numActive - 1 ≤ 0 ∧ -4 ≤ a.2.numActive - 1 - (a.2.setSlot i r.2).cnt 4
            omega
          · intro hm
            have h8 := h5.act (by rw [h2]; exact hm)
            show x.cnt 4 = 0 ∨ (a.2.setSlot i r.2).cnt 4 ≠ 0
            omega
          · show (a.2.setSlot i r.2).cnt 4 ≤ x.cnt 4
            omega
      · rw [if_neg hf]
        have ha := hr3 hf
        rw [ha] at hcnt
        have hcnt' : (a.2.setSlot i r.2).cnt 4 = a.2.cnt 4 := by omega
        refine Safe.ok (.inl ⟨h1, h2, hst, hkeep, ⟨?_, ?_⟩, ?_, ?_⟩)
        · intro hm; rw [hcnt']; exact h5.act hm
        · intro hm; rw [hcnt']; exact h5.mt hm
        · intro hm; show _ ∨ (a.2.setSlot i r.2).cnt 4 ≠ 0; rw [hcnt']; exact h6 hm
        · show (a.2.setSlot i r.2).cnt 4 ≤ _; rw [hcnt']; exact h7
    · -- already muted in this tick
      have hmut : a.2.phase = .mute := by
        cases h2 with
        | go y _ _ _ => cases h3
        | mute y z _ _ _ _ hy => exact hy
      have h5 := h1.cnt
      have hres : ∀ y : IState, y.phase = .mute → TickRes B heap d x (a.1, y) := by
        intro y hy
        cases h2 with
        | go y _ _ _ => cases h3
        | mute y' z h6 h7 h8 h9 _ => exact TickRes.mute y z h6 h7 h8 h9 hy
      have := h5.mt hmut
      by_cases hf : r.1 = some .finish
      · rw [if_pos hf]
        obtain ⟨ha1, ha2⟩ := hr2 hf
        rw [ha1, ha2] at hcnt
        simp only [Bool.false_eq_true, if_false, if_true] at hcnt
        have hnum : (a.2.setSlot i r.2).numActive = a.2.numActive := rfl
        rw [hnum, i32_ok (by omega) (by omega)]
        simp only [ok_bind]
        rw [if_neg (by omega)]
        refine Safe.ok (.inr ⟨⟨hhas.congr fun _ _ => rfl, ⟨fun hm => absurd hmut hm, fun _ => ?_⟩⟩, hres _ hmut, h3⟩)
        show a.2.numActive - 1 ≤ 0 ∧ -4 ≤ a.2.numActive - 1 - (a.2.setSlot i r.2).cnt 4
        omega
      · rw [if_neg hf]
        have ha := hr3 hf
        rw [ha] at hcnt
        refine Safe.ok (.inr ⟨⟨hhas, ⟨fun hm => absurd hmut hm, fun _ => ?_⟩⟩, hres _ hmut, h3⟩)
        show a.2.numActive ≤ 0 ∧ -4 ≤ a.2.numActive - (a.2.setSlot i r.2).cnt 4
        omega

end BK
