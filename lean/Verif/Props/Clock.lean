import Verif.Lemmas.Clock
/-!
C37 and C38: clocks of a context.
-/
namespace BK

variable {σ : Type}

/-- C37: whatever a program does with a context, clock `i` has ticked exactly at the multiples of its
period that lie before the context's time, once each and in order.  The other clocks have any positive
periods, their callbacks may choose new ones, and all callbacks may change units. -/
theorem C37_no_drift {chk : Bool} {cb : ClockCb σ} {x x' : Ctx σ} (hx : x.Fresh) {i : Nat} {c : Clk}
    (hi : x.clocks[i]? = some c) (hcb : CbPlain cb i) {ops : List (CtxOp σ)}
    (h : x.steps chk cb ops = .ok x') :
    ∃ m : Nat, x'.ticksOf i = multiples c.period m ∧
      ∀ j : Nat, j < m ↔ (j : Int) * c.period < x'.currentTime := by
  have hp := (hx.clocks c (List.mem_of_getElem? hi)).2.2
  have hinv := ClockLaw.steps (hcb.law c.period) ops (hx.clockInv hi) h
  obtain ⟨d, d1, ⟨d2, m, d3, d4⟩, d5⟩ := hinv.one
  refine ⟨m, d4, fun j => ⟨fun hj => d5 _ ?_, fun hj => ?_⟩⟩
  · rw [d4]; exact List.mem_map.2 ⟨j, by simp [hj], rfl⟩
  have h1 := (hinv.all d (List.mem_of_getElem? d1)).2.1
  rw [d3] at h1
  have : (j : Int) * c.period < m * c.period := by omega
  have := Int.lt_of_mul_lt_mul_right this (by omega)
  omega

/-- Times given to a context by calls of `BKContextEnd`. -/
def endTimes : List Int → List (CtxOp σ) := List.map .endAt

theorem ClockLaw.loop_time {i : Nat} {Q : List Int → Int → Int → Prop} {chk : Bool} {cb : ClockCb σ} (hcb : LawOk cb i Q) {e : Int}
    (he : e ≤ 2147483647) :
    ∀ (n : Nat) {t : Int} {x : Ctx σ} {r : Int × Ctx σ}, ClockLaw i Q x → 0 ≤ t → t ≤ e + maxStep →
      Ctx.runLoop chk cb e n t x = .ok r →
      r.2.currentTime - r.1 = x.currentTime - t ∧ e ≤ r.1 ∧ t ≤ r.1 ∧ r.1 ≤ e + maxStep
  | 0, t, x, r, h, h0, h1, hr => by
    unfold Ctx.runLoop at hr
    split at hr
    · cases hr
    · cases hr; exact ⟨rfl, by dsimp only; omega, Int.le_refl _, h1⟩
  | n + 1, t, x, r, h, h0, h1, hr => by
    unfold Ctx.runLoop at hr
    split at hr
    · obtain ⟨y, hy, hr⟩ := bind_ok_iff.1 hr
      obtain ⟨g1, d, g2, g3, g4, g5⟩ := h.runStep hcb hy
      unfold maxStep at g3
      have ht : y.1 = t + d := by rw [g4]; unfold wrapU32; omega
      obtain ⟨k1, k2, k3, k4⟩ := ClockLaw.loop_time hcb he n g1 (by omega) (by unfold maxStep; omega) hr
      exact ⟨by omega, k2, by omega, k4⟩
    · cases hr; exact ⟨rfl, by dsimp only; omega, Int.le_refl _, h1⟩

/-- C37: the context's time is the rendered time plus a lead of at most one step, so that all ticks
due in the rendered time have happened. -/
theorem C37_in_step {chk : Bool} {cb : ClockCb σ} {i : Nat} {p : Int} (hcb : CbPlain cb i) (es : List Int) :
    ∀ {x x' : Ctx σ}, ClockInv i p x → 0 ≤ x.deltaTime → x.deltaTime ≤ maxStep →
      (∀ e ∈ es, 0 ≤ e ∧ e ≤ 2147483647) → x.steps chk cb (endTimes es) = .ok x' →
      x'.currentTime - x'.deltaTime = x.currentTime - x.deltaTime + es.sum ∧
      0 ≤ x'.deltaTime ∧ x'.deltaTime ≤ maxStep := by
  induction es with
  | nil => intro x x' h h0 h1 _ hr; cases hr; simp [h0, h1]
  | cons e es ih =>
    intro x x' h h0 h1 he hr
    obtain ⟨he0, he1⟩ := he e (by simp)
    unfold endTimes at hr
    rw [List.map_cons] at hr
    unfold Ctx.steps at hr
    obtain ⟨y, hy, hr⟩ := bind_ok_iff.1 hr
    have hy2 := h.step (hcb.law p) hy
    have hy1 : y.currentTime - y.deltaTime = x.currentTime - x.deltaTime + e ∧ 0 ≤ y.deltaTime ∧
        y.deltaTime ≤ maxStep := by
      unfold Ctx.step Ctx.endAt at hy
      dsimp only at hy
      obtain ⟨z, hz, hy⟩ := bind_ok_iff.1 hy
      rw [if_neg (show ¬ wrapI32 e < 0 by unfold wrapI32; omega)] at hy
      cases hy
      unfold Ctx.run at hz
      have hne : x.clocks ≠ [] := by
        obtain ⟨c, hc, -⟩ := h.one
        intro e0; rw [e0] at hc; simp at hc
      rw [if_pos hne] at hz
      obtain ⟨w, hw, hz⟩ := bind_ok_iff.1 hz
      cases hz
      obtain ⟨k1, k2, k3, k4⟩ := ClockLaw.loop_time (hcb.law p) he1 _ h h0 (by omega) hw
      dsimp only
      unfold maxStep at *
      have : wrapU32 (w.1 - e) = w.1 - e := by unfold wrapU32; omega
      rw [this]
      omega
    obtain ⟨k1, k2, k3⟩ := ih hy2 hy1.2.1 hy1.2.2 (fun a ha => he a (by simp [ha])) hr
    refine ⟨?_, k2, k3⟩
    rw [List.sum_cons]
    omega

/-- A program without callbacks. -/
def noCb : ClockCb Unit where
  tick _ t s us := .ok (t, s, us)

theorem noCb_plain (i : Nat) : CbPlain noCb i := by
  constructor
  · intro k t s us r ht h; cases h; exact ht
  · intro t s us r h; cases h; exact Int.le_refl _

/-- A context without channels of interest: two clocks of 3 and 5 frames. -/
def twoClocks : Ctx Unit :=
  (((Ctx.init () 1 44100).attachClock { period := 3145728 }).attachClock { period := 5242880 })

example : twoClocks.Fresh ∧ twoClocks.clocks[1]? = some { period := 5242880 } ∧
    (twoClocks.steps false noCb [.endAt 1048577, .generate 9, .endAt 3000000]).map (·.ticksOf 1) =
      .ok (multiples 5242880 3) := by
  refine ⟨⟨rfl, rfl, rfl, by decide⟩, rfl, by decide +kernel⟩

/-- Passes that change nothing and take no time never end. -/
theorem stuck_loop {chk : Bool} {cb : ClockCb σ} {e t : Int} {x : Ctx σ} (ht : t < e)
    (h : x.runStep chk cb t = .ok (t, x)) : ∀ n : Nat, Ctx.runLoop chk cb e n t x = .error .endless
  | 0 => by unfold Ctx.runLoop; rw [if_pos ht]
  | n + 1 => by
    unfold Ctx.runLoop
    rw [if_pos ht, h, ok_bind]
    exact stuck_loop ht h n

/-- A context with a clock of one frame. -/
def oneClock : Ctx Unit := (Ctx.init () 1 44100).attachClock { period := 1048576 }

/-- The same after rendering a frame. -/
def oneClockLater : Ctx Unit :=
  { Ctx.init () 1 44100 with
    currentTime := 1048576
    clocks := [{ period := 1048576, time := 1048576, nextTime := 1048576, counter := 1 }]
    ticks := [(0, 0)] }

/-- After a second clock of one frame was attached and one pass was made. -/
def stuckCtx : Ctx Unit :=
  { Ctx.init () 1 44100 with
    currentTime := 1048576
    clocks := [{ period := 1048576, time := 1048576, nextTime := 2097152, counter := 2 },
      { period := 1048576, time := 0, nextTime := 1048576, counter := 1 }]
    ticks := [(0, 0), (0, 1048576), (1, 1048576)] }

/-- C38 does not hold: the times of clocks count from when they were attached, but are compared with
the time of the context.  A context with one clock renders a frame, a second clock of the same period
is attached, and rendering another frame never ends, however many passes are allowed. -/
theorem C38_refuted_endless : oneClock.Fresh ∧ oneClock.endAt false noCb 1048576 = .ok oneClockLater ∧
    ∀ n : Nat, Ctx.runLoop false noCb 1048576 n 0 (oneClockLater.attachClock { period := 1048576 }) =
      .error .endless := by
  refine ⟨⟨rfl, rfl, rfl, by decide⟩, rfl, ?_⟩
  intro n
  cases n with
  | zero => rfl
  | succ n =>
    unfold Ctx.runLoop
    rw [if_pos (by decide)]
    have h1 : (oneClockLater.attachClock { period := 1048576 }).runStep false noCb 0 = .ok (0, stuckCtx) := rfl
    rw [h1, ok_bind]
    exact stuck_loop (by decide) rfl n

/-- C38 does not hold: if the new clock's period is shorter than the time already rendered, it ticks
once and is then silent, and so is the clock attached before. -/
theorem C38_refuted_silent :
    ((do
      let x ← (twoClocks.endAt false noCb 20971520)
      (x.attachClock { period := 5242880 }).steps false noCb [.endAt 1048576000, .endAt 1048576000]) :
        C (Ctx Unit)).map (fun x => (x.ticksOf 2, (x.ticksOf 0).length)) = .ok ([20971520], 7) := by
  decide +kernel

/-- C38 as far as it holds: a clock attached to a context that was reset (or has not rendered yet)
ticks at the multiples of its period, whatever clocks there are and whatever happens afterwards.
Missing: clocks attached after rendering (the statement is false for them). -/
theorem C38_attach_partial {chk : Bool} {cb : ClockCb σ} {x y x' : Ctx σ} (hr : x.reset = .ok y)
    (hp : ∀ d ∈ x.clocks, 0 < d.period) {c : Clk} (hc : 0 < c.period)
    (hcb : CbPlain cb x.clocks.length) {ops : List (CtxOp σ)}
    (h : ({ y with ticks := [] }.attachClock c).steps chk cb ops = .ok x') :
    ∃ m : Nat, x'.ticksOf x.clocks.length = multiples c.period m ∧
      ∀ j : Nat, j < m ↔ (j : Int) * c.period < x'.currentTime := by
  unfold Ctx.reset at hr
  obtain ⟨us, -, hr⟩ := bind_ok_iff.1 hr
  cases hr
  refine C37_no_drift (c := c.reset) ⟨rfl, rfl, rfl, ?_⟩ ?_ hcb h
  · intro d hd
    rcases List.mem_append.1 hd with hd | hd
    · obtain ⟨e, he, rfl⟩ := List.mem_map.1 hd
      exact ⟨rfl, rfl, hp e he⟩
    · rw [List.mem_singleton] at hd
      subst hd
      exact ⟨rfl, rfl, hc⟩
  · show (x.clocks.map Clk.reset ++ [c.reset])[x.clocks.length]? = some c.reset
    rw [List.getElem?_append_right (by simp)]
    simp

example : ((do
    let x ← twoClocks.endAt false noCb 20971520
    let y ← x.reset
    ({ y with ticks := [] }.attachClock { period := 7340032 }).steps false noCb [.endAt 20971520]) :
      C (Ctx Unit)).map (·.ticksOf 2) = .ok (multiples 7340032 3) := by
  decide +kernel

end BK
