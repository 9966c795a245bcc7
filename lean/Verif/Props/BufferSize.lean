import Verif.Props.Buffer
/-!
C72: the size a channel buffer reports is always available.
-/
namespace BK

/-- The calls never ask for more frames than the buffer reports at that moment. -/
def Buf.Polite : Buf → List BufOp → Prop
  | _, [] => True
  | b, op :: ops => (∀ n s, op = .read n s → n ≤ b.size) ∧
      ∀ r, b.step false op = .ok r → Buf.Polite r.1 ops

/-- The current position is not behind the last ended sample. -/
def Buf.Behind (b : Buf) : Prop := b.time ≤ b.capacity * U20

theorem mix_keeps {b : Buf} {op : BufOp} (h : op.isMix = true) {r : Buf × List (Int × Int)}
    (hr : b.step false op = .ok r) : r.1.time = b.time ∧ r.1.capacity = b.capacity := by
  cases op with
  | pulse t a =>
    simp only [Buf.step, Buf.addPulse, bind_ok_iff, pure_eq_ok] at hr
    obtain ⟨c, ⟨p, -, fr, -, h1⟩, h2⟩ := hr
    simp only [Except.ok.injEq] at h1 h2
    subst h1; subst h2; simp
  | frame t a =>
    simp only [Buf.step, Buf.addFrame, bind_ok_iff, pure_eq_ok] at hr
    obtain ⟨c, ⟨p, -, q, -, v, -, fr, -, h1⟩, h2⟩ := hr
    simp only [Except.ok.injEq] at h1 h2
    subst h1; subst h2; simp
  | _ => simp [BufOp.isMix] at h

/-- C72: a shift never passes the last ended sample, whatever time is given, and is exact as
long as it stays before it. -/
theorem C72_shift {b : Buf} (h : b.Wf) (t : Int) :
    (b.shift t).Behind ∧ (b.shift t).capacity = b.capacity ∧
    (0 ≤ t → b.time + t ≤ b.capacity * U20 → (b.shift t).time = b.time + t) := by
  have hc := h.capacity
  have ht := h.time
  unfold InU32 at ht
  unfold Buf.Behind Buf.shift
  have e : wrapU32 (b.capacity * U20) = b.capacity * U20 := by unfold wrapU32; omega
  simp only [e]
  refine ⟨?_, trivial, ?_⟩
  · split
    · unfold wrapU32; omega
    · omega
  · intro h0 h1
    rw [if_neg (by unfold wrapU32; omega)]
    unfold wrapU32; omega

theorem read_behind {b : Buf} (h : b.Wf) (hb : b.Behind) {chk : Bool} {n s : Int} (hn : InU32 n)
    (hle : n ≤ b.size) {r : Buf × List (Int × Int)} (hr : b.read chk n s = .ok r) :
    r.1.Behind ∧ r.1.time = b.time - n * U20 ∧ r.1.capacity = b.capacity - n := by
  have hc := h.capacity
  have ht := h.time
  unfold InU32 at ht hn
  unfold Buf.size at hle
  unfold Buf.Behind at hb ⊢
  have hm : cmin n b.capacity = n := by unfold cmin; split <;> omega
  unfold Buf.read at hr
  simp only [hm, bind_ok_iff] at hr
  obtain ⟨q, -, hr⟩ := hr
  split at hr
  · simp only [pure_eq_ok, Except.ok.injEq] at hr
    subst hr
    dsimp only
    unfold wrapU32
    omega
  · cases hr

/-- C72: a read of at most the reported size delivers all requested frames, and the reported
size goes down by exactly that number. -/
theorem C72_read {b : Buf} (h : b.Wf) (hb : b.Behind) {chk : Bool} {n s : Int} (hn : InU32 n)
    (hle : n ≤ b.size) {r : Buf × List (Int × Int)} (hr : b.read chk n s = .ok r) :
    (r.2.length : Int) = n ∧ r.1.size = b.size - n := by
  obtain ⟨-, e1, -⟩ := read_behind h hb hn hle hr
  have hl := (C05_read_count h hn hr).1
  unfold Buf.size Buf.Behind at *
  unfold InU32 at hn
  have hc := h.capacity
  rw [e1]
  omega

/-- C72: in any use that asks for no more than the reported size, the reported size never
exceeds what can be read. -/
theorem C72_size {ops : List BufOp} : ∀ {b : Buf}, b.Wf → b.Behind → (∀ op ∈ ops, op.Wf) →
    b.Polite ops → ∃ r, b.run false ops = .ok r ∧ r.1.Behind ∧ r.1.size ≤ r.1.capacity := by
  induction ops with
  | nil =>
    intro b h hb _ _
    refine ⟨_, rfl, hb, ?_⟩
    unfold Buf.Behind at hb; unfold Buf.size
    dsimp only; omega
  | cons op ops ih =>
    intro b h hb hop hp
    have g := step_good (chk := false) h (hop op (by simp))
    obtain ⟨hp1, hp2⟩ := hp
    unfold Buf.run
    cases e : b.step false op with
    | error f => rw [e] at g; exact absurd g.2 (by simp)
    | ok r =>
      rw [e] at g
      have hb' : r.1.Behind := by
        cases op with
        | pulse t a =>
          obtain ⟨e1, e2⟩ := mix_keeps (by rfl) e
          unfold Buf.Behind at *; rw [e1, e2]; exact hb
        | frame t a =>
          obtain ⟨e1, e2⟩ := mix_keeps (by rfl) e
          unfold Buf.Behind at *; rw [e1, e2]; exact hb
        | endAt t =>
          simp only [Buf.step, Except.ok.injEq] at e
          subst e
          unfold Buf.Behind Buf.endAt at *
          dsimp only
          split
          · dsimp only; omega
          · exact hb
        | shift t =>
          simp only [Buf.step, Except.ok.injEq] at e
          subst e
          exact (C72_shift h t).1
        | read n s =>
          have w : (BufOp.read n s).Wf := hop _ (by simp)
          exact (read_behind h hb w.1 (hp1 n s rfl) e).1
        | clear =>
          simp only [Buf.step, Except.ok.injEq] at e
          subst e
          simp [Buf.Behind, Buf.clear]
      obtain ⟨r', h1, h2⟩ := ih g.1 hb' (fun o ho => hop o (by simp [ho])) (hp2 r e)
      refine ⟨(r'.1, r.2 :: r'.2), ?_, h2⟩
      simp only [ok_bind, h1, pure_eq_ok]

/-- A use as a context makes it: end and shift by three and a half samples, then read two of
the three reported frames. -/
example : Buf.init.Behind ∧
    Buf.init.Polite [.endAt 3670016, .shift 3670016, .read 2 1, .read 1 1] ∧
    ((Buf.init.endAt 3670016).shift 3670016).size = 3 := by
  refine ⟨by simp [Buf.Behind, Buf.init], ?_, by decide⟩
  refine ⟨by simp, ?_⟩
  intro r hr
  simp only [Buf.step, Except.ok.injEq] at hr
  subst hr
  refine ⟨by simp, ?_⟩
  intro r hr
  simp only [Buf.step, Except.ok.injEq] at hr
  subst hr
  have w := shift_wf (endAt_wf init_wf 3670016) 3670016
  have hb := (C72_shift (endAt_wf init_wf 3670016) 3670016).1
  have e : ((Buf.init.endAt 3670016).shift 3670016).size = 3 := by decide
  refine ⟨?_, ?_⟩
  · intro n s hn
    have : n = 2 := by simpa using (congrArg (fun o => match o with | BufOp.read n _ => n | _ => 0) hn).symm
    rw [this, e]; decide
  · intro r hr
    have := (C72_read w hb (n := 2) (by simp [InU32]) (by rw [e]; decide) hr).2
    refine ⟨?_, fun _ _ => trivial⟩
    intro n s hn
    have h1 : n = 1 := by simpa using (congrArg (fun o => match o with | BufOp.read n _ => n | _ => 0) hn).symm
    rw [h1, this, e]; decide

end BK
