import Verif.Lemmas.Buffer
/-! C05, C06, C07: memory safety and mixing of the channel buffer. -/
namespace BK

/-- One call keeps the buffer legal; the only possible fault is a signed overflow of a
sample in checked mode. -/
theorem step_good {chk : Bool} {b : Buf} (h : b.Wf) {op : BufOp} (hop : op.Wf) :
    Good chk (b.step chk op) (fun r => r.1.Wf ∧
      (∀ n s, op = .read n s → r.2.length = (min n b.capacity).toNat ∧
        ∀ k (h : k < r.2.length), (r.2[k]).1 = (k : Int) * max s 1) ∧
      ((∀ n s, op ≠ .read n s) → r.2 = [])) := by
  cases op with
  | pulse t a =>
    refine (mix_good (chk := chk) h.kernel.shape h.frames (op := .pulse t a) rfl).mono ?_
    intro r hr; subst hr
    exact ⟨⟨h.time, h.capacity, h.accum, fun j => wrapI32_in _, h.kernel⟩, by simp⟩
  | frame t a =>
    refine (mix_good (chk := chk) h.kernel.shape h.frames (op := .frame t a) rfl).mono ?_
    intro r hr; subst hr
    exact ⟨⟨h.time, h.capacity, h.accum, fun j => wrapI32_in _, h.kernel⟩, by simp⟩
  | endAt t => exact Good.ok ⟨endAt_wf h t, by simp⟩
  | shift t => exact Good.ok ⟨shift_wf h t, by simp⟩
  | read n s =>
    refine (read_good (chk := chk) h hop.1).mono ?_
    intro r hr
    refine ⟨hr.1, ?_, by simp⟩
    intro n' s' e
    cases e
    exact ⟨hr.2.1, hr.2.2.1⟩
  | clear => exact Good.ok ⟨clear_wf h, by simp⟩

theorem run_good {chk : Bool} (ops : List BufOp) : ∀ {b : Buf}, b.Wf → (∀ op ∈ ops, op.Wf) →
    Good chk (b.run chk ops) (fun r => r.1.Wf) := by
  induction ops with
  | nil => intro b h _; exact Good.ok h
  | cons op ops ih =>
    intro b h hop
    unfold Buf.run
    refine (step_good (chk := chk) h (hop op (by simp))).bind ?_
    intro r hr
    refine (ih hr.1 (fun o ho => hop o (by simp [ho]))).bind ?_
    intro r' hr'
    exact Good.ok hr'

/-- C05: with two's complement samples, every sequence of calls on a legal buffer with
arbitrary legal argument values runs to the end: no access outside the sample array or the
kernel, for any times and sizes. -/
theorem C05_memory_safe {b : Buf} (h : b.Wf) {ops : List BufOp} (hop : ∀ op ∈ ops, op.Wf) :
    ∃ r, b.run false ops = .ok r ∧ r.1.Wf := by
  have := run_good (chk := false) ops h hop
  cases e : b.run false ops with
  | ok r => rw [e] at this; exact ⟨r, rfl, this⟩
  | error f => rw [e] at this; exact absurd this.2 (by simp)

/-- C05: with checked samples the only thing that can go wrong is sample overflow. -/
theorem C05_memory_safe_checked {b : Buf} (h : b.Wf) {ops : List BufOp}
    (hop : ∀ op ∈ ops, op.Wf) :
    (∃ r, b.run true ops = .ok r ∧ r.1.Wf) ∨ b.run true ops = .error .overflow := by
  have := run_good (chk := true) ops h hop
  cases e : b.run true ops with
  | ok r => rw [e] at this; exact .inl ⟨r, rfl, this⟩
  | error f => rw [e] at this; rw [this.1]; exact .inr rfl

/-- C05: a read writes exactly `min size available` frames, at multiples of the stride. -/
theorem C05_read_count {chk : Bool} {b : Buf} (h : b.Wf) {n s : Int} (hn : InU32 n)
    {r : Buf × List (Int × Int)} (hr : b.read chk n s = .ok r) :
    r.2.length = (min n b.capacity).toNat ∧
    (∀ k (h : k < r.2.length), (r.2[k]).1 = (k : Int) * max s 1) ∧ ∀ w ∈ r.2, InI16 w.2 := by
  have := read_good (chk := chk) h (s := s) hn
  rw [hr] at this
  exact this.2

/-- A fresh buffer is legal, so the theorems apply to every use from `BKBufferInit` on. -/
example : Buf.init.Wf := init_wf
example : ∀ op ∈ [BufOp.pulse 4294967295 (-32768), .endAt 4294967295, .shift 17, .read 4294967295 2,
    .frame 3 5, .clear], op.Wf := by
  simp [BufOp.Wf, InU32, InI16]

/-- C06: mixing calls commute.  Whenever two orders of the same calls both complete, they
leave identical buffers (so everything read later is identical), in both arithmetic modes. -/
theorem C06_order_independent {chk : Bool} {b : Buf} (h : b.Wf) {ops ops' : List BufOp}
    (hm : ∀ op ∈ ops, op.isMix = true) (hp : ops.Perm ops')
    {r r' : Buf × List (List (Int × Int))}
    (hr : b.run chk ops = .ok r) (hr' : b.run chk ops' = .ok r') : r.1 = r'.1 := by
  have g := mixRun_good (chk := chk) ops h.kernel.shape h.frames hm
  have g' := mixRun_good (chk := chk) ops' h.kernel.shape h.frames
    (fun op ho => hm op (hp.mem_iff.mpr ho))
  rw [hr] at g
  rw [hr'] at g'
  rw [show r = _ from g, show r' = _ from g']
  simp only
  have : (fun j => wrapI32 (b.frames j + b.contribs ops j)) =
      fun j => wrapI32 (b.frames j + b.contribs ops' j) := by
    funext j; rw [contribs_perm b hp]
  rw [this]

/-- C06: with two's complement samples both orders always complete, and every later
sequence of calls gives the same results. -/
theorem C06_same_audio {b : Buf} (h : b.Wf) {ops ops' later : List BufOp}
    (hm : ∀ op ∈ ops, op.isMix = true) (hp : ops.Perm ops') :
    ∃ r r', b.run false ops = .ok r ∧ b.run false ops' = .ok r' ∧
      r.1.run false later = r'.1.run false later := by
  have g := mixRun_good (chk := false) ops h.kernel.shape h.frames hm
  have g' := mixRun_good (chk := false) ops' h.kernel.shape h.frames
    (fun op ho => hm op (hp.mem_iff.mpr ho))
  cases e : b.run false ops with
  | error f => rw [e] at g; exact absurd g.2 (by simp)
  | ok r =>
    cases e' : b.run false ops' with
    | error f => rw [e'] at g'; exact absurd g'.2 (by simp)
    | ok r' =>
      exact ⟨r, r', rfl, rfl, by rw [C06_order_independent h hm hp e e']⟩

example : (∀ op ∈ [BufOp.pulse 100 5, .pulse 1048576 (-7), .frame 5 3], op.isMix = true) ∧
    [BufOp.pulse 100 5, .pulse 1048576 (-7), .frame 5 3].Perm
      [.frame 5 3, .pulse 100 5, .pulse 1048576 (-7)] := by
  refine ⟨by simp [BufOp.isMix], ?_⟩
  exact List.perm_append_comm (l₁ := [BufOp.pulse 100 5, .pulse 1048576 (-7)])
    (l₂ := [BufOp.frame 5 3])

/-- C07: every mixing call of amplitude `a` adds exactly `32767 * a` to the sum of the
channel's samples, for both built-in kernels and every time. -/
theorem C07_exact_gain {b : Buf} (h : b.Builtin) {ops : List BufOp}
    (hm : ∀ op ∈ ops, op.isMix = true) {r : Buf × List (List (Int × Int))}
    (hr : b.run true ops = .ok r) : r.1.total = b.total + 32767 * ampSum ops := by
  rw [mixRun_exact ops h.shape hm hr]
  unfold Buf.total
  simp only
  rw [sumTo_add]
  rw [← sum_contribs h ops hm]

/-- C07: pulses whose amplitudes cancel leave the total unchanged (no DC offset). -/
theorem C07_no_dc {b : Buf} (h : b.Builtin) {ops : List BufOp}
    (hm : ∀ op ∈ ops, op.isMix = true) (h0 : ampSum ops = 0)
    {r : Buf × List (List (Int × Int))} (hr : b.run true ops = .ok r) :
    r.1.total = b.total := by
  rw [C07_exact_gain h hm hr, h0]; omega

example : ampSum [.pulse 5 100, .pulse 1000000 (-60), .frame 3000000 (-40)] = 0 ∧
    ∃ r, Buf.init.run true [.pulse 5 100, .pulse 1000000 (-60), .frame 3000000 (-40)] = .ok r := by
  refine ⟨by decide, ?_⟩
  have : (match Buf.init.run true [.pulse 5 100, .pulse 1000000 (-60), .frame 3000000 (-40)] with
    | .ok _ => true | _ => false) = true := by decide +kernel
  split at this
  · exact ⟨_, by assumption⟩
  · cases this

end BK
