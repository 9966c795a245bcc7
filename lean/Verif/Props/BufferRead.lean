import Verif.Lemmas.BufferRead
import Verif.Props.Buffer
/-! C08–C11: reading the channel buffer. -/
namespace BK

/-- C08: reading `m` and then `n` frames is reading `m + n` frames: same samples at the same
places, same state afterwards (and the same faults, in both arithmetic modes). -/
theorem C08_chunked_read {chk : Bool} {b : Buf} (h : b.Wf) {m n s : Int} (hm : 0 ≤ m)
    (hn : 0 ≤ n) :
    b.read chk (m + n) s = (do
      let r1 ← b.read chk m s
      let r2 ← r1.1.read chk n s
      return (r2.1, r1.2 ++ r2.2.map fun w => (w.1 + r1.2.length * max s 1, w.2))) := by
  have hc := h.capacity
  rw [read_eq hc (by omega), read_eq hc hm]
  simp only [bind_assoc_C, pure_eq_ok, ok_bind]
  generalize hM : (min m b.capacity).toNat = M
  obtain ⟨N, hN⟩ : ∃ N, N = (min n (b.capacity - M)).toNat := ⟨_, rfl⟩
  have e : (min (m + n) b.capacity).toNat = M + N := by omega
  rw [e, readLoop_append]
  simp only [bind_assoc_C, pure_eq_ok, ok_bind]
  have key : ∀ x : C (Int × List (Int × Int)), x = readLoop chk b.frames (max s 1) M 0 b.accum →
      (do
        let r1 ← x
        let r2 ← readLoop chk b.frames (max s 1) N (0 + M) r1.1
        (Except.ok (b.afterRead (M + N) r2.1, r1.2 ++ r2.2) : C _)) =
      (do
        let r ← x
        let r2 ← (b.afterRead M r.1).read chk n s
        Except.ok (r2.1, r.2 ++ r2.2.map fun w => (w.1 + r.2.length * max s 1, w.2))) := by
    intro x hx
    cases x with
    | error e => rfl
    | ok r1 =>
      simp only [ok_bind]
      have hlen := readLoop_length M hx.symm
      rw [read_eq (b := b.afterRead M r1.1) (by simp only [Buf.afterRead]; omega) hn]
      simp only [bind_assoc_C, pure_eq_ok, ok_bind]
      have ec : (b.afterRead M r1.1).capacity = b.capacity - M := rfl
      have ea : (b.afterRead M r1.1).accum = r1.1 := rfl
      rw [ec, ea, ← hN]
      rw [readLoop_shift chk (f := b.frames) (g := (b.afterRead M r1.1).frames) (max s 1) M N 0 r1.1
        (by omega) (by
          intro j _ h2
          simp only [Buf.afterRead]
          rw [if_pos (by omega)])]
      simp only [bind_assoc_C, pure_eq_ok, ok_bind]
      refine bind_congr_C fun r => ?_
      rw [afterRead_afterRead, hlen]
      rfl
  exact key _ rfl

/-- Read with a list of sizes, one call after the other, into one output array. -/
def Buf.readMany (chk : Bool) (b : Buf) (s : Int) : List Int → C (Buf × List (Int × Int))
  | [] => .ok (b, [])
  | n :: ns => do
    let r1 ← b.read chk n s
    let r2 ← r1.1.readMany chk s ns
    return (r2.1, r1.2 ++ r2.2.map fun w => (w.1 + r1.2.length * max s 1, w.2))

theorem read_zero {chk : Bool} {b : Buf} (h : b.Wf) (s : Int) : b.read chk 0 s = .ok (b, []) := by
  have hc := h.capacity
  rw [read_eq hc (by omega)]
  have e : (min 0 b.capacity).toNat = 0 := by omega
  rw [e]
  simp only [readLoop, ok_bind, pure_eq_ok]
  congr 2
  unfold Buf.afterRead
  have ht := h.time
  unfold InU32 at ht
  have e1 : (fun (j : Nat) => if (j : Int) < b.capacity + 33 - (0 : Nat) then b.frames (j + 0)
      else if (j : Int) < b.capacity + 33 then 0 else b.frames j) = b.frames := by
    funext j
    split
    · rfl
    · rw [if_neg (by omega)]
  have e2 : wrapU32 (b.time - wrapU32 ((0 : Nat) * U20)) = b.time := by unfold wrapU32; omega
  rw [e1, e2]
  simp

/-- Sum of a list. -/
def isum : List Int → Int
  | [] => 0
  | x :: xs => x + isum xs

/-- C08, any division: reading in any number of pieces of any sizes gives the same frames and
the same final state as one read of the total. -/
theorem C08_any_division {chk : Bool} (s : Int) (ns : List Int) :
    ∀ {b : Buf}, b.Wf → (∀ n ∈ ns, 0 ≤ n ∧ n ≤ 4294967295) →
    b.readMany chk s ns = b.read chk (isum ns) s := by
  induction ns with
  | nil => intro b h _; rw [isum, read_zero h]; rfl
  | cons n ns ih =>
    intro b h hn
    have hpos : 0 ≤ isum ns := by
      have : ∀ l : List Int, (∀ n ∈ l, 0 ≤ n ∧ n ≤ 4294967295) → 0 ≤ isum l := by
        intro l
        induction l with
        | nil => intro _; simp [isum]
        | cons a l ih =>
          intro hl
          have := ih (fun n hn => hl n (by simp [hn]))
          have := hl a (by simp)
          simp only [isum]; omega
      exact this ns (fun n h => hn n (by simp [h]))
    have h1 := hn n (by simp)
    rw [isum, C08_chunked_read h h1.1 hpos, Buf.readMany]
    have g := read_good (chk := chk) h (s := s) (n := n) ⟨h1.1, h1.2⟩
    cases e : b.read chk n s with
    | error f => rfl
    | ok r =>
      rw [e] at g
      simp only [ok_bind]
      rw [ih g.1 (fun n h => hn n (by simp [h]))]

example : ∀ n ∈ [3, 0, 512, 4000], 0 ≤ n ∧ n ≤ 4294967295 := by simp

/-- C09: what is written.  The k-th frame is the k-th value of the ideal high-pass
accumulator scaled to 16 bits if that fits, and otherwise a full-scale value of the same
sign. -/
theorem C09_saturation {b : Buf} (h : b.Wf) {n s : Int} (hn : InU32 n)
    {r : Buf × List (Int × Int)} (hr : b.read true n s = .ok r) (k : Nat) (hk : k < r.2.length) :
    ∃ a, (accums b.accum ((List.range r.2.length).map b.frames))[k]? = some a ∧
      Saturates (a / 16384) (r.2[k]).2 := by
  have hc := h.capacity
  unfold InU32 at hn
  rw [read_eq hc (by omega)] at hr
  obtain ⟨q, hq, hr⟩ := bind_ok_iff.mp hr
  cases hr
  have hlen := readLoop_length _ hq
  have hacc := (readLoop_accums _ (by omega) hq).1
  simp only at hk ⊢
  rw [hlen]
  rw [List.range_eq_range']
  have hk2 : k < (accums b.accum ((List.range' 0 (min n b.capacity).toNat).map b.frames)).length := by
    have := congrArg List.length hacc
    simp only [List.length_map] at this
    omega
  refine ⟨_, List.getElem?_eq_getElem hk2, ?_⟩
  have h2 : (q.2[k]).2 = outAmp ((accums b.accum
      ((List.range' 0 (min n b.capacity).toNat).map b.frames))[k]) := by
    have : (q.2.map (·.2))[k]? = ((accums b.accum
      ((List.range' 0 (min n b.capacity).toNat).map b.frames)).map outAmp)[k]? := by rw [hacc]
    rw [List.getElem?_map, List.getElem?_map, List.getElem?_eq_getElem hk,
      List.getElem?_eq_getElem hk2] at this
    simpa using this
  rw [h2]
  apply outAmp_saturates
  -- every accumulator of a successful checked read is a 32-bit value
  have key : ∀ (m : Nat) (i : Nat) (acc : Int) (q : Int × List (Int × Int)), i + m ≤ 4129 →
      readLoop true b.frames (max s 1) m i acc = .ok q →
      ∀ a ∈ accums acc ((List.range' i m).map b.frames), InI32 a := by
    intro m
    induction m with
    | zero => intro i acc q _ _; simp [accums]
    | succ m ih =>
      intro i acc q hb h
      simp only [readLoop] at h
      obtain ⟨a, h1, h⟩ := bind_ok_iff.mp h
      rw [ldF_ok (by omega) (by omega)] at h
      simp only [ok_bind, Int.toNat_natCast] at h
      obtain ⟨v, h2, h⟩ := bind_ok_iff.mp h
      obtain ⟨q', hq', h⟩ := bind_ok_iff.mp h
      have h1 := (arith_true_ok h1).2
      have h2' := (arith_true_ok h2)
      subst h1
      rw [h2'.2] at hq'
      simp only [List.range'_succ, List.map_cons, accums, List.mem_cons]
      rintro a (rfl | ha)
      · exact h2'.1
      · exact ih _ _ _ (by omega) hq' a ha
  exact key _ _ _ _ (by omega) hq _ (List.getElem_mem hk2)

/-- C09: in particular an overload never flips the sign. -/
theorem C09_sign {v out : Int} (h : Saturates v out) : (0 ≤ v → 0 ≤ out) ∧ (v < 0 → out < 0) := by
  obtain ⟨h1, h2, h3⟩ := h
  unfold InI16 at h1
  constructor
  · intro hv
    by_cases h : v ≤ 32767
    · rw [h1 (by omega)]; exact hv
    · have := h2 (by omega); omega
  · intro hv
    by_cases h : -32768 ≤ v
    · rw [h1 (by omega)]; exact hv
    · have := h3 (by omega); omega

example : Saturates 70000 32766 ∧ Saturates (-40000) (-32768) ∧ Saturates 123 123 := by
  simp [Saturates, InI16]

/-- Calls after which nothing new is mixed. -/
def BufOp.isQuiet : BufOp → Bool
  | .endAt _ => true
  | .shift _ => true
  | .read .. => true
  | _ => false

/-- All frames written by a run, in order. -/
def outputs (rs : List (List (Int × Int))) : List Int := rs.flatten.map (·.2)

theorem readLoop_silent {f : Nat → Int} {stride : Int} (n : Nat) :
    ∀ (i : Nat) (acc : Int), i + n ≤ 4129 → (∀ j, f j = 0) → InI32 acc →
      ∃ out, readLoop true f stride n i acc = .ok (decayN n acc, out) ∧
        out.map (·.2) = (List.range n).map (fun k => outAmp (decayN (k + 1) acc)) := by
  induction n with
  | zero => intro i acc _ _ _; exact ⟨[], rfl, rfl⟩
  | succ n ih =>
    intro i acc hb hf hacc
    unfold InI32 at hacc
    simp only [readLoop]
    have hd : InI32 (acc - acc / 512) := by unfold InI32; omega
    rw [arith_ok true hd, ldF_ok (by omega) (by omega)]
    simp only [ok_bind, hf, Int.add_zero]
    rw [arith_ok true hd]
    simp only [ok_bind]
    obtain ⟨out, h1, h2⟩ := ih (i + 1) (acc - acc / 512) (by omega) hf hd
    rw [h1]
    refine ⟨_, rfl, ?_⟩
    simp only [List.map_cons, h2, List.range_succ_eq_map, List.map_map]
    rfl

/-- A silent run: its outputs are the decaying accumulator. -/
theorem silent_run (ops : List BufOp) : ∀ {b : Buf}, b.Wf → (∀ i, b.frames i = 0) →
    (∀ op ∈ ops, op.Wf ∧ op.isQuiet = true) →
    ∃ r, b.run true ops = .ok r ∧ r.1.accum = decayN (outputs r.2).length b.accum ∧
      outputs r.2 = (List.range (outputs r.2).length).map (fun k => outAmp (decayN (k + 1) b.accum)) := by
  induction ops with
  | nil => intro b _ _ _; exact ⟨_, rfl, rfl, rfl⟩
  | cons op ops ih =>
    intro b hb hf hop
    obtain ⟨hw, hq⟩ := hop op (by simp)
    have hrest : ∀ o ∈ ops, o.Wf ∧ o.isQuiet = true := fun o ho => hop o (by simp [ho])
    have plain : ∀ b' : Buf, b'.Wf → b'.frames = b.frames → b'.accum = b.accum →
        b.step true op = .ok (b', []) →
        ∃ r, b.run true (op :: ops) = .ok r ∧ r.1.accum = decayN (outputs r.2).length b.accum ∧
          outputs r.2 =
            (List.range (outputs r.2).length).map (fun k => outAmp (decayN (k + 1) b.accum)) := by
      intro b' hw' hf' ha hs
      obtain ⟨r, h1, h2, h3⟩ := ih (b := b') hw' (by intro i; rw [hf']; exact hf i) hrest
      refine ⟨(r.1, [] :: r.2), ?_, ?_⟩
      · unfold Buf.run; rw [hs]; simp only [ok_bind]; rw [h1]; rfl
      · rw [ha] at h2 h3
        exact ⟨h2, h3⟩
    cases op with
    | endAt t =>
      exact plain (b.endAt t) (endAt_wf hb t) (by unfold Buf.endAt; simp only; split <;> rfl)
        (by unfold Buf.endAt; simp only; split <;> rfl) rfl
    | shift t => exact plain (b.shift t) (shift_wf hb t) rfl rfl rfl
    | read n s =>
      have hc := hb.capacity
      have hn : InU32 n := hw.1
      have hn' := hn
      unfold InU32 at hn'
      obtain ⟨out, e1, e2⟩ := readLoop_silent (f := b.frames) (stride := max s 1)
        (min n b.capacity).toNat 0 b.accum (by omega) hf hb.accum
      generalize hN : (min n b.capacity).toNat = N at *
      have er : b.read true n s = .ok (b.afterRead N (decayN N b.accum), out) := by
        rw [read_eq hc (by omega), hN, e1]; rfl
      have g := read_good (chk := true) hb (s := s) hn
      rw [er] at g
      have gw : (b.afterRead N (decayN N b.accum)).Wf := g.1
      obtain ⟨r, h1, h2, h3⟩ := ih (b := b.afterRead N (decayN N b.accum)) gw
        (by
          intro i
          simp only [Buf.afterRead, hf]
          split
          · rfl
          · split <;> rfl) hrest
      have ea : (b.afterRead N (decayN N b.accum)).accum = decayN N b.accum := rfl
      rw [ea] at h2 h3
      have hlo : out.length = N := by
        have := congrArg List.length e2; simpa using this
      have ho : outputs (out :: r.2) = out.map (·.2) ++ outputs r.2 := by
        simp [outputs]
      refine ⟨(r.1, out :: r.2), ?_, ?_, ?_⟩
      · unfold Buf.run
        simp only [Buf.step]
        rw [er]
        simp only [ok_bind]
        rw [h1]
        rfl
      · simp only
        rw [ho, List.length_append, List.length_map, hlo, decayN_add]
        exact h2
      · simp only
        have el : (out.map (·.2) ++ outputs r.2).length = N + (outputs r.2).length := by
          rw [List.length_append, List.length_map, hlo]
        rw [ho, el, e2, List.range_add, List.map_append, List.map_map]
        congr 1
        refine h3.trans ?_
        apply List.map_congr_left
        intro k _
        simp only [Function.comp]
        rw [Nat.add_assoc, decayN_add N (k + 1)]
    | _ => cases hq

/-- C10: with nothing mixed any more, every frame from the 11776th on is exactly 0,
whatever the state of the filter was and however the reads are divided. -/
theorem C10_silence {b : Buf} (h : b.Wf) (hf : ∀ i, b.frames i = 0) {ops : List BufOp}
    (hop : ∀ op ∈ ops, op.Wf ∧ op.isQuiet = true) :
    ∃ r, b.run true ops = .ok r ∧ ∀ k (hk : k < (outputs r.2).length), 11775 ≤ k →
      (outputs r.2)[k] = 0 := by
  obtain ⟨r, h1, _, h3⟩ := silent_run ops h hf hop
  refine ⟨r, h1, ?_⟩
  intro k hk hk2
  have : (outputs r.2)[k]? = some 0 := by
    rw [h3, List.getElem?_map, List.getElem?_range hk]
    simp only [Option.map_some]
    have := decay_settled h.accum (n := k + 1) (by omega)
    rw [outAmp_small this.1 this.2]
  rw [List.getElem?_eq_getElem hk] at this
  exact Option.some.inj this

/-- C10: if the output is not overloaded it approaches zero monotonically and never crosses
it. -/
theorem C10_monotone {b : Buf} (h : b.Wf) (hf : ∀ i, b.frames i = 0)
    (hload : -536870912 ≤ b.accum ∧ b.accum < 536870912) {ops : List BufOp}
    (hop : ∀ op ∈ ops, op.Wf ∧ op.isQuiet = true) :
    ∃ r, b.run true ops = .ok r ∧ ∀ k (hk : k + 1 < (outputs r.2).length),
      (0 ≤ b.accum → 0 ≤ (outputs r.2)[k + 1] ∧ (outputs r.2)[k + 1] ≤ (outputs r.2)[k]) ∧
      (b.accum ≤ 0 → (outputs r.2)[k] ≤ (outputs r.2)[k + 1] ∧ (outputs r.2)[k + 1] ≤ 0) := by
  obtain ⟨r, h1, _, h3⟩ := silent_run ops h hf hop
  refine ⟨r, h1, ?_⟩
  intro k hk
  have get : ∀ j (hj : j < (outputs r.2).length), (outputs r.2)[j] = outAmp (decayN (j + 1) b.accum) := by
    intro j hj
    have : (outputs r.2)[j]? = some (outAmp (decayN (j + 1) b.accum)) := by
      rw [h3, List.getElem?_map, List.getElem?_range hj]; rfl
    rw [List.getElem?_eq_getElem hj] at this
    exact Option.some.inj this
  rw [get (k + 1) hk, get k (by omega), decayN_succ (k + 1)]
  have fits : ∀ a : Int, -536870912 ≤ a → a < 536870912 → outAmp a = a / 16384 := by
    intro a h1 h2
    have := (outAmp_saturates (a := a) (by unfold InI32; omega)).1
    exact this (by unfold InI16; omega)
  constructor
  · intro h0
    have a1 := decayN_nonneg (k + 1) h0
    have a2 := decay_nonneg a1.1
    rw [fits _ (by omega) (by omega), fits _ (by omega) (by omega)]
    omega
  · intro h0
    have a1 := decayN_nonpos (k + 1) h0
    have a2 := decay_nonpos a1.2
    rw [fits _ (by omega) (by omega), fits _ (by omega) (by omega)]
    omega

/-- A buffer to which C10 applies non-trivially: filter charged, no samples pending. -/
example : ({ Buf.init with accum := -400000000, capacity := 100 } : Buf).Wf ∧
    ∀ op ∈ [BufOp.read 60 1, .endAt 1048576000, .read 5000 2], op.Wf ∧ op.isQuiet = true := by
  refine ⟨⟨by simp [InU32, Buf.init], by simp, by simp [InI32], by simp [InI32, Buf.init], .inr rfl⟩, ?_⟩
  simp [BufOp.Wf, BufOp.isQuiet, InU32]

/-- C11 fails: three full-scale pulses at the same instant overflow a sample. -/
theorem C11_refuted : ∃ ops : List BufOp, (∀ op ∈ ops, op.Wf) ∧ ops.length = 3 ∧
    Buf.init.run true ops = .error .overflow := by
  refine ⟨[.pulse 524288 32767, .pulse 524288 32767, .pulse 524288 32767], ?_, rfl, ?_⟩
  · simp [BufOp.Wf, InU32, InI16]
  · have : (match Buf.init.run true [.pulse 524288 32767, .pulse 524288 32767, .pulse 524288 32767] with
      | .error .overflow => true | _ => false) = true := by decide +kernel
    split at this
    · assumption
    · cases this

theorem kernel_bound {b : Buf} (h : b.Builtin) : ∀ row ∈ b.kernel, ∀ p ∈ row, -32762 ≤ p ∧ p ≤ 32762 := by
  have h1 : ∀ row ∈ kernelSinc, ∀ p ∈ row, (-32762 : Int) ≤ p ∧ p ≤ 32762 := by decide +kernel
  have h2 : ∀ row ∈ kernelHarm, ∀ p ∈ row, (-32762 : Int) ≤ p ∧ p ≤ 32762 := by decide +kernel
  rcases h with h | h <;> rw [h]
  · exact h1
  · exact h2

theorem mul_abs_le {p a m : Int} (hp : -m ≤ p ∧ p ≤ m) (hm : 0 ≤ m) :
    -(m * a.natAbs) ≤ p * a ∧ p * a ≤ m * a.natAbs := by
  have h1 : (p * a).natAbs ≤ (m * a).natAbs := by
    rw [Int.natAbs_mul, Int.natAbs_mul]
    exact Nat.mul_le_mul_right _ (by omega)
  have h2 : ((m * a).natAbs : Int) = m * a.natAbs := by
    rw [Int.natAbs_mul]
    simp only [Int.natCast_mul]
    congr 1
    omega
  omega

theorem pulseStep_fits {row : List Int} {pulse : Int} {offset : Nat} {f : Nat → Int} {i : Nat}
    {B M : Int} (hrow : row.length = 32) (hi : i < 32) (ho : offset ≤ 4095)
    (hp : ∀ p ∈ row, -M ≤ p ∧ p ≤ M) (hM : 0 ≤ M)
    (hf : ∀ j, offset + i ≤ j → -B ≤ f j ∧ f j ≤ B)
    (hB : B + M * pulse.natAbs ≤ 2147483647) (hB0 : 0 ≤ B) :
    ∃ g, pulseStep true row pulse offset f i = .ok g ∧
      (∀ j, j ≠ offset + i → g j = f j) := by
  unfold pulseStep
  have hlt : i < row.length := by omega
  have e1 : rd row (i : Int) = .ok (row[i]) := by
    rw [rd_ok (by omega) (by omega)]; simp
  rw [e1]
  simp only [ok_bind]
  have hb := mul_abs_le (a := pulse) (hp row[i] (List.getElem_mem hlt)) hM
  rw [arith_ok true (by unfold InI32; omega)]
  rw [ok_bind, ldF_ok (by omega) (by omega)]
  have e : ((offset : Int) + (i : Int)).toNat = offset + i := by omega
  simp only [ok_bind, e]
  have hfj := hf (offset + i) (by omega)
  rw [arith_ok true (by unfold InI32; omega)]
  simp only [ok_bind]
  rw [stF_ok (by omega) (by omega)]
  refine ⟨_, rfl, ?_⟩
  intro j hj
  rw [e]
  simp [hj]

theorem foldlM_range_fits {row : List Int} {pulse : Int} {offset : Nat} {f : Nat → Int}
    {B M : Int} (hrow : row.length = 32) (ho : offset ≤ 4095)
    (hp : ∀ p ∈ row, -M ≤ p ∧ p ≤ M) (hM : 0 ≤ M)
    (hf : ∀ j, -B ≤ f j ∧ f j ≤ B)
    (hB : B + M * pulse.natAbs ≤ 2147483647) (hB0 : 0 ≤ B) (n : Nat) (hn : n ≤ 32) :
    ∃ g, (List.range n).foldlM (pulseStep true row pulse offset) f = .ok g ∧
      ∀ j, offset + n ≤ j → g j = f j := by
  induction n with
  | zero => exact ⟨f, rfl, fun _ _ => rfl⟩
  | succ n ih =>
    obtain ⟨g, h1, h2⟩ := ih (by omega)
    obtain ⟨g', h3, h4⟩ := pulseStep_fits (f := g) (B := B) (i := n) hrow (by omega) ho hp hM
      (fun j hj => by rw [h2 j (by omega)]; exact hf j) hB hB0
    refine ⟨g', ?_, ?_⟩
    · rw [List.range_succ, List.foldlM_append, h1]
      simp only [ok_bind, List.foldlM_cons, List.foldlM_nil, h3]
      rfl
    · intro j hj
      rw [h4 j (by omega), h2 j (by omega)]

theorem contrib_abs {b : Buf} (h : b.Builtin) (op : BufOp) (j : Nat) :
    -(32767 * (op.amp.natAbs : Int)) ≤ b.contrib op j ∧
      b.contrib op j ≤ 32767 * (op.amp.natAbs : Int) := by
  cases op with
  | pulse t a =>
    simp only [Buf.contrib, rowContrib, BufOp.amp]
    have hr := rowAt_mem h.shape t
    have hs := h.shape.2 _ hr
    split
    · have hlt : j - b.offsetOf t < (b.kernel.getD (b.phaseOf t) []).length := by omega
      generalize b.kernel.getD (b.phaseOf t) [] = row at *
      have : row.getD (j - b.offsetOf t) 0 ∈ row := by
        simp [List.getD_eq_getElem?_getD, List.getElem?_eq_getElem hlt]
      exact mul_abs_le (hs.2 _ this) (by omega)
    · omega
  | frame t a =>
    simp only [Buf.contrib, BufOp.amp]
    split <;> omega
  | _ => simp [Buf.contrib, BufOp.amp]

/-- C11.  Partial: the claim is that no set of tracks overflows; what holds is that mixing is
free of overflow as long as the samples present plus 32767 times the sum of the absolute
amplitudes fit in 32 bits. -/
theorem C11_mix_partial (ops : List BufOp) : ∀ {b : Buf} {B : Int}, b.Builtin →
    (∀ op ∈ ops, op.isMix = true) → (∀ j, -B ≤ b.frames j ∧ b.frames j ≤ B) →
    B + 32767 * absAmpSum ops ≤ 2147483647 →
    ∃ r, b.run true ops = .ok r := by
  induction ops with
  | nil => intro b B _ _ _ _; exact ⟨_, rfl⟩
  | cons op ops ih =>
    intro b B hk hm hf hB
    have hB0 : 0 ≤ B := by have := hf 0; omega
    have hnn : 0 ≤ absAmpSum ops := by
      clear ih hB hm
      induction ops with
      | nil => simp [absAmpSum]
      | cons o os ih => simp only [absAmpSum]; omega
    simp only [absAmpSum] at hB
    have step : ∃ b', b.step true op = .ok (b', []) := by
      cases op with
      | pulse t a =>
        have hp := phaseOf_lt b t
        have ho := offsetOf_le b t
        have hr := rowAt_mem hk.shape t
        have hrow := (hk.shape.2 _ hr)
        have e0 : (b.offsetOf t : Int) = wrapU32 (b.time + t) / U20 := by
          unfold Buf.offsetOf wrapU32; omega
        have e1 : rd b.kernel (wrapU32 (b.time + t) % U20 / 32768) =
            .ok (b.kernel.getD (b.phaseOf t) []) := by
          have hl : b.phaseOf t < b.kernel.length := by rw [hk.shape.1]; exact hp
          rw [rd_ok (by unfold wrapU32; omega) hl]
          simp only [List.getD_eq_getElem?_getD, List.getElem?_eq_getElem hl, Option.getD_some]
          rfl
        have hBa : B + 32767 * (a.natAbs : Int) ≤ 2147483647 := by
          have : (BufOp.pulse t a).amp = a := rfl
          rw [this] at hB; omega
        obtain ⟨g, h1, _⟩ := foldlM_range_fits (f := b.frames) (B := B) (M := 32767) hrow.1 ho
          hrow.2 (by omega) hf hBa hB0 32 (by omega)
        refine ⟨{ b with frames := g }, ?_⟩
        simp only [Buf.step, Buf.addPulse, e1, ok_bind, ← e0, h1, pure_eq_ok]
      | frame t a =>
        have ho := offsetOf_le b t
        have e0 : (b.offsetOf t : Int) = wrapU32 (b.time + t) / U20 := by
          unfold Buf.offsetOf wrapU32; omega
        have hBa : B + 32767 * (a.natAbs : Int) ≤ 2147483647 := by
          have : (BufOp.frame t a).amp = a := rfl
          rw [this] at hB; omega
        have := hf (b.offsetOf t)
        simp only [Buf.step, Buf.addFrame, ← e0]
        rw [arith_ok true (by unfold InI32; omega)]
        rw [ok_bind, ldF_ok (by omega) (by omega)]
        simp only [ok_bind, Int.toNat_natCast]
        rw [arith_ok true (by unfold InI32; omega)]
        simp only [ok_bind]
        rw [stF_ok (by omega) (by omega)]
        exact ⟨_, rfl⟩
      | _ => cases hm _ (List.mem_cons_self)
    obtain ⟨b', hs⟩ := step
    have hb' := mix_exact hk.shape (hm op (by simp)) hs
    simp only [Prod.mk.injEq, and_true] at hb'
    subst hb'
    obtain ⟨r, hr⟩ := ih (b := { b with frames := fun j => b.frames j + b.contrib op j })
      (B := B + 32767 * op.amp.natAbs) hk (fun o ho => hm o (by simp [ho]))
      (fun j => by
        have h1 := hf j
        have h2 := contrib_abs hk op j
        simp only; omega) (by omega)
    refine ⟨(r.1, [] :: r.2), ?_⟩
    unfold Buf.run
    rw [hs]
    simp only [ok_bind]
    rw [hr]
    rfl

example : ∃ r, Buf.init.run true [.pulse 524288 32767, .pulse 524288 32767] = .ok r :=
  C11_mix_partial _ (B := 0) (.inr rfl) (by simp [BufOp.isMix]) (by simp [Buf.init]) (by decide)

/-- C11, reading.  Partial in the same sense: if the ideal, unfiltered signal `L + Σ frames`
stays within ±S and the accumulator starts within S + 1 of its level, reading does not
overflow, and the accumulator stays within S + 1 of the level, so the bound persists over any
number of reads. -/
theorem C11_read_partial {b : Buf} (h : b.Wf) {n s S L : Int} (hn : InU32 n)
    (hS : S ≤ 1073741822)
    (hd : -S - 1 ≤ b.accum - L ∧ b.accum - L ≤ S + 1)
    (hp : ∀ k : Nat, (k : Int) ≤ min n b.capacity →
      -S ≤ L + sumTo b.frames k ∧ L + sumTo b.frames k ≤ S) :
    ∃ r, b.read true n s = .ok r ∧
      -S - 1 ≤ r.1.accum - (L + sumTo b.frames (min n b.capacity).toNat) ∧
      r.1.accum - (L + sumTo b.frames (min n b.capacity).toNat) ≤ S + 1 := by
  have hc := h.capacity
  unfold InU32 at hn
  rw [read_eq hc (by omega)]
  have key : ∀ (m i : Nat) (acc : Int), (i + m : Int) ≤ min n b.capacity →
      -S - 1 ≤ acc - (L + sumTo b.frames i) → acc - (L + sumTo b.frames i) ≤ S + 1 →
      ∃ q, readLoop true b.frames (max s 1) m i acc = .ok q ∧
        -S - 1 ≤ q.1 - (L + sumTo b.frames (i + m)) ∧ q.1 - (L + sumTo b.frames (i + m)) ≤ S + 1 := by
    intro m
    induction m with
    | zero => intro i acc _ h1 h2; exact ⟨_, rfl, h1, h2⟩
    | succ m ih =>
      intro i acc hm h1 h2
      have p1 := hp i (by omega)
      have p2 := hp (i + 1) (by omega)
      have es : sumTo b.frames (i + 1) = sumTo b.frames i + b.frames i := rfl
      simp only [readLoop]
      rw [arith_ok true (by unfold InI32; omega)]
      rw [ok_bind, ldF_ok (by omega) (by omega)]
      simp only [ok_bind, Int.toNat_natCast]
      rw [arith_ok true (by unfold InI32; omega)]
      simp only [ok_bind]
      obtain ⟨q, hq, g1, g2⟩ := ih (i + 1) (acc - acc / 512 + b.frames i) (by omega) (by omega) (by omega)
      rw [hq]
      have e : i + 1 + m = i + (m + 1) := by omega
      rw [e] at g1 g2
      exact ⟨_, rfl, g1, g2⟩
  have hs0 : sumTo b.frames 0 = 0 := rfl
  obtain ⟨q, hq, g1, g2⟩ := key (min n b.capacity).toNat 0 b.accum (by omega) (by omega) (by omega)
  rw [hq]
  rw [Nat.zero_add] at g1 g2
  exact ⟨_, rfl, g1, g2⟩

/-- The hypotheses hold for a signal that really moves: samples 5, −8, 4 on level 0 visit
5, −3 and 1, with the accumulator at 4. -/
example : ∃ (b : Buf) (S L n : Int), b.Wf ∧ S = 5 ∧ b.accum = 4 ∧ b.capacity = 3 ∧ InU32 n ∧
    (-S - 1 ≤ b.accum - L ∧ b.accum - L ≤ S + 1) ∧
    (∀ k : Nat, (k : Int) ≤ min n b.capacity →
      -S ≤ L + sumTo b.frames k ∧ L + sumTo b.frames k ≤ S) ∧
    sumTo b.frames 1 = 5 ∧ sumTo b.frames 2 = -3 := by
  refine ⟨{ Buf.init with
    accum := 4, capacity := 3,
    frames := fun i => if i = 0 then 5 else if i = 1 then -8 else if i = 2 then 4 else 0 },
    5, 0, 100, ?_, rfl, rfl, rfl, by simp [InU32], by simp, ?_, by decide, by decide⟩
  · refine ⟨by simp [InU32, Buf.init], by simp, by simp [InI32], ?_, .inr rfl⟩
    intro i
    dsimp only
    unfold InI32
    repeat' split
    all_goals omega
  · intro k hk
    have hk3 : k ≤ 3 := by dsimp only at hk; omega
    have : k = 0 ∨ k = 1 ∨ k = 2 ∨ k = 3 := by omega
    rcases this with rfl | rfl | rfl | rfl <;> decide

end BK
