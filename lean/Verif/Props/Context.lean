import Verif.Lemmas.Live
import Verif.Props.Clock
/-!
C39 to C42: generating frames.
-/
namespace BK

variable {σ : Type} {n : Nat} {cb : ClockCb σ}

/-- C39 for contexts that have had a unit since they were set up, clocks attached before, and up to
2^40 frames: generating `k` frames returns `k` and writes exactly the positions `0` to `k * n - 1`, each
once.  Buffer arithmetic wraps (`chk = false`). -/
theorem C39_exact_partial (hcb : CbFine n cb) {T : Int} {x : Ctx σ} (h : Live n cb T x) {k : Nat} (hk : k ≤ 2147483647)
    (hT : T + k ≤ 1099511627776) :
    ∃ x' w s, x.generate false cb k = .ok ((k : Int), x', w) ∧ s.length = k * n ∧ w.Perm (placed 0 s) := by
  obtain ⟨h0, hr⟩ := h.rest hcb
  obtain ⟨x', s, ws, a1, a2, a3, -⟩ := generate_ok (r := k) reached_stable hcb.ok hr (by omega) hk
  exact ⟨x', ws, s, a1, a3, a2⟩

/-- C40 for the same contexts: `m` frames and then `k` frames are the same samples, and leave the context
in the same state, as `m + k` frames. -/
theorem C40_block_size_partial (hcb : CbFine n cb) {T : Int} {x : Ctx σ} (h : Live n cb T x) {m k : Nat}
    (hk : m + k ≤ 2147483647) (hT : T + (m + k : Nat) ≤ 1099511627776) :
    ∃ x1 x2 w1 w2 w s1 s2, x.generate false cb m = .ok ((m : Int), x1, w1) ∧
      x1.generate false cb k = .ok ((k : Int), x2, w2) ∧ x.generate false cb (m + k : Nat) = .ok (((m + k : Nat) : Int), x2, w) ∧
      s1.length = m * n ∧ s2.length = k * n ∧
      w1.Perm (placed 0 s1) ∧ w2.Perm (placed 0 s2) ∧ w.Perm (placed 0 (s1 ++ s2)) := by
  obtain ⟨h0, hr⟩ := h.rest hcb
  push_cast at hT
  obtain ⟨x1, s1, w1, a1, a2, a3, a4, a5, -⟩ := generate_ok (r := m) reached_stable hcb.ok hr (by omega) (by omega)
  obtain ⟨x2, s2, w2, b1, b2, b3, -, -, b6⟩ := generate_ok (r := k) reached_stable hcb.ok a4 (by omega) (by omega)
  obtain ⟨x3, s3, w3, c1, c2, c3, -, c5, -⟩ := generate_ok (r := m + k) reached_stable hcb.ok hr (by push_cast; omega) hk
  obtain ⟨rfl, rfl⟩ := Ones.det _ (b6 _ m x s1 hr (by push_cast; omega) a5) c5
  exact ⟨x1, x2, w1, w2, w3, s1, s2, a1, b1, c1, a3, b3, a2, b2, c2⟩

/-! Witnesses. -/

/-- A square wave of one frame per phase. -/
def tone1 : List UOp := [.attr .period 1048576, .attr .volume 32767, .attr .mute 0]

def toneCore : C UCore := do
  let c ← UCore.init 16385
  let r ← BUnit.runs 1 { toUCore := c, time := 0 } tone1
  return r.1.toUCore

theorem toneCore_reached : ∃ c, toneCore = .ok c ∧ Reached 1 c ∧ c.mute = 0 ∧ c.period = 1048576 := by
  have h0 : Reach 1 (SampleGentle 1) _ _ := Reach.init (w := 16385) rfl
  have h1 := Reach.step h0 (op := .attr .period 1048576) (by show InI32 _; decide)
    ⟨(by intro v h; cases h), by intro r h hw; cases h; cases hw⟩ rfl
  have h2 := Reach.step h1 (op := .attr .volume 32767) (by show InI32 _; decide)
    ⟨(by intro v h; cases h), by intro r h hw; cases h; cases hw⟩ rfl
  have h3 := Reach.step h2 (op := .attr .mute 0) (by show InI32 _; decide)
    ⟨(by intro v h; cases h), by intro r h hw; cases h; cases hw⟩ rfl
  exact ⟨_, rfl, ⟨_, _, h3⟩, rfl, rfl⟩

theorem noCb_fine (n : Nat) : CbFine n noCb := by
  refine ⟨?_, fun _ _ => rfl⟩
  intro k t s us ht hu
  exact ⟨_, rfl, ht, rfl, hu⟩

/-- A context with two clocks and a unit, as in the hypotheses of `C39_exact_partial` and
`C40_block_size_partial`. -/
example : ∃ c, toneCore = .ok c ∧ Live 1 noCb 0 (twoClocks.attachUnit c) := by
  obtain ⟨c, h1, h2, -⟩ := toneCore_reached
  refine ⟨c, h1, .start (.unit (.clock (.clock (.init (by decide) (by decide)) ?_ ?_) ?_ ?_) h2) (by simp [Ctx.attachUnit])⟩ <;> decide

/-- A clock of 682 frames. -/
def longClock : Ctx Unit := (Ctx.init () 1 44100).attachClock { period := 715128832 }

/-- C39 does not hold: a context with a clock is asked for 100 frames before it has a unit, which gives
none but lets the clock run ahead by 682 frames.  A unit attached then is not rendered before the next
tick, and asking for 100 frames again gives none, though there is a unit. -/
theorem C39_refuted : (do
    let c ← toneCore
    let a ← longClock.generate false noCb 100
    let b ← (a.2.1.attachUnit c).generate false noCb 100
    return [a.1, b.1] : C (List Int)) = .ok [0, 0] := by decide +kernel

/-- A clock of 512 frames. -/
def halfClock : Ctx Unit := (Ctx.init () 1 44100).attachClock { period := 536870912 }

/-- C40 does not hold without units: asking for 2048 frames gives none and lets the clocks run for 1024
frames only, while asking twice for 1024 lets them run for 2048. -/
theorem C40_refuted : (do
    let a ← halfClock.generate false noCb 2048
    let b ← halfClock.generate false noCb 1024
    let b ← b.2.1.generate false noCb 1024
    return (a.2.1.ticksOf 0, b.2.1.ticksOf 0) : C (List Int × List Int)) =
    .ok ([0, 536870912], [0, 536870912, 1073741824, 1610612736]) := by decide +kernel

/-- C41 for contexts with clocks: a unit attached at any time starts at the time up to which the clocks
have run, at most 683 frames ahead, and makes there the pulses that it would make from time 0. -/
theorem C41_clocked_partial (hcb : CbFine n cb) {T : Int} {x : Ctx σ} (h : Live n cb T x) (hc : x.clocks ≠ []) {c : UCore}
    (hr : Reached n c) :
    (x.attachUnit c).units.getLast? = some { toUCore := c, time := x.deltaTime } ∧
    0 ≤ x.deltaTime ∧ x.deltaTime ≤ 715827882 ∧
    ∀ e, x.deltaTime ≤ e → e ≤ 2145386496 → ∃ t c' ps, c.render 0 (e - x.deltaTime) n = .ok (t, c', ps.map (Pulse.earlier x.deltaTime)) ∧
      c.render x.deltaTime e n = .ok (t + x.deltaTime, c', ps) := by
  obtain ⟨h0, hrest⟩ := h.rest hcb
  rcases hrest with ⟨hl, hd⟩ | ⟨hn, -⟩
  · have hd0 := hl.ctx.t0
    refine ⟨by simp [Ctx.attachUnit], hd0, hd, ?_⟩
    intro e he1 he2
    obtain ⟨t, c', ps, g1, -, -, -, -, g6⟩ := hr.usable.render (t0 := x.deltaTime) (e := e) hd0 (by omega) (by omega) he2
    have := g6 x.deltaTime hd0 (Int.le_refl _) he1
    rw [Int.sub_self] at this
    exact ⟨_, c', ps, this, by rw [g1, show t - x.deltaTime + x.deltaTime = t by omega]⟩
  · exact absurd hn hc

example : ∃ c, toneCore = .ok c ∧ Live 1 noCb 0 (twoClocks.attachUnit c) ∧ (twoClocks.attachUnit c).clocks ≠ [] := by
  obtain ⟨c, h1, h2, -⟩ := toneCore_reached
  refine ⟨c, h1, .start (.unit (.clock (.clock (.init (by decide) (by decide)) ?_ ?_) ?_ ?_) h2) (by simp [Ctx.attachUnit]),
    by simp [Ctx.attachUnit, twoClocks, Ctx.attachClock]⟩ <;> decide

/-- The time of a context without clocks is what was rendered, negative. -/
theorem bare_delta (hcb : CbFine n cb) {T : Int} {x : Ctx σ} (h : Live n cb T x) (hc : x.clocks = []) :
    x.deltaTime = wrapU32 (-(T * U20)) := by
  induction h with
  | start hs hu => rw [hs.ok.delta]; rfl
  | change h _ _ ih => exact ih hc
  | unit h _ ih => exact ih hc
  | generate h hk hT hg ih =>
    rename_i T x x' k r w
    obtain ⟨h0, hrest⟩ := h.rest hcb
    obtain ⟨x'', s, ws, a1, -, -, a4, a5, -⟩ := generate_ok (r := k) reached_stable hcb.ok hrest (by omega) hk
    rw [hg] at a1
    cases a1
    have hd : InU32 x'.deltaTime := by
      rcases a4 with ⟨h, -⟩ | ⟨-, -, h⟩
      · exact absurd hc h.ne
      · exact h
    obtain ⟨c1, c2⟩ := Ones.clocks reached_stable hcb.ok k hrest (by omega) a5
    by_cases hx : x.clocks = []
    · have h1 := ih hx
      have h2 := (c2 hx).2
      unfold wrapU32 at *
      unfold InU32 at hd
      omega
    · exact absurd hc (c1 hx)

/-- C41 does not hold for contexts without clocks: whatever unit is attached after `T` frames
(0 < T < 4096), it makes no pulse before frame `4096 - T`. -/
theorem C41_refuted (hcb : CbFine n cb) {T : Int} {x : Ctx σ} (h : Live n cb T x) (hc : x.clocks = []) (hT0 : 0 < T)
    (hT : T < 4096) {c : UCore} (hr : Reached n c) :
    ∃ u, (x.attachUnit c).units.getLast? = some u ∧ u.toUCore = c ∧ ∀ e, 0 ≤ e → e ≤ 2145386496 →
      ∃ t c' ps, c.render u.time e n = .ok (t, c', ps) ∧ ∀ p ∈ ps, (4096 - T) * U20 ≤ p.time := by
  have hd := bare_delta hcb h hc
  have hd2 : x.deltaTime = (4096 - T) * U20 := by rw [hd]; unfold wrapU32; omega
  refine ⟨{ toUCore := c, time := x.deltaTime }, by simp [Ctx.attachUnit], rfl, ?_⟩
  intro e he0 he
  obtain ⟨t, c', ps, g1, -, -, -, g5, -⟩ := hr.usable.render (t0 := x.deltaTime) (e := e) (by omega) (by omega) he0 he
  exact ⟨t, c', ps, g1, fun p hp => by have := (g5 p hp).2.1; omega⟩

example : ∃ (x : Ctx Unit) (c : UCore), Live 1 noCb 1 x ∧ x.clocks = [] ∧ Reached 1 c := by
  obtain ⟨c, h1, h2, -⟩ := toneCore_reached
  have hl : Live 1 noCb 0 ((Ctx.init () 1 44100).attachUnit c) :=
    .start (.unit (.init (by decide) (by decide)) h2) (by simp [Ctx.attachUnit])
  obtain ⟨x', w, s, g, -⟩ := C39_exact_partial (noCb_fine 1) hl (k := 1) (by omega) (by decide)
  refine ⟨x', c, hl.generate (k := 1) (by omega) (by decide) g, ?_, h2⟩
  obtain ⟨-, hr⟩ := hl.rest (noCb_fine 1)
  obtain ⟨x'', s, ws, a1, -, -, -, a5, -⟩ := generate_ok (r := 1) reached_stable (noCb_fine 1).ok hr (by decide) (by omega)
  rw [g] at a1
  cases a1
  exact ((Ones.clocks reached_stable (noCb_fine 1).ok 1 hr (by decide) a5).2 rfl).1

/-- The same heard: 24 frames from a unit that was attached before or after a frame was generated. -/
theorem C41_refuted_heard : (do
    let c ← toneCore
    let x := Ctx.init () 1 44100
    let a ← (x.attachUnit c).generate false noCb 24
    let b ← x.generate false noCb 1
    let b ← (b.2.1.attachUnit c).generate false noCb 24
    return [a.2.2.any fun w => decide (w.2 > 32000), b.2.2.any fun w => decide (w.2 ≠ 0)] : C (List Bool)) =
    .ok [true, false] := by decide +kernel

/-- C42: the number of channels and the sample rate of a new context are the values nearest to those asked for that are
allowed, and are what the attributes say. -/
theorem C42_sanitised (user : σ) {chans rate : Int} (_hc : InU32 chans) (_hr : InU32 rate) :
    ∃ c r, (Ctx.init user chans rate).getAttr .numChannels = some c ∧ (Ctx.init user chans rate).getAttr .sampleRate = some r ∧
      c = max 1 (min 8 chans) ∧ r = max 16000 (min 96000 rate) ∧
      ((Ctx.init user chans rate).chans.length : Int) = c ∧ (Ctx.init user chans rate).sampleRate = r := by
  unfold Ctx.getAttr Ctx.init
  dsimp only
  rw [List.length_replicate]
  refine ⟨_, _, rfl, rfl, ?_, ?_, ?_, ?_⟩ <;> (unfold cclamp wrapI32; split <;> (try split) <;> omega)

/-- C42: no attribute of a context can be changed afterwards. -/
theorem C42_fixed (x : Ctx σ) (a : CtxAttr) (v : Int) : (x.setAttr a v).1 = .invalidAttribute ∧ (x.setAttr a v).2 = x :=
  ⟨rfl, rfl⟩

example : (Ctx.init () 0 4294967295).getAttr .numChannels = some 1 ∧ (Ctx.init () 0 4294967295).getAttr .sampleRate = some 96000 := by
  decide

end BK
