import Verif.Lemmas.Clock
import Verif.Lemmas.Chunk
/-!
A pass over the clocks succeeds.
-/
namespace BK

variable {σ : Type}

/-- What is known of all units, and of the state of the program and the number of units. -/
structure Kept (σ : Type) where
  core : UCore → Prop
  user : Nat → σ → Prop

instance : CoeFun (Kept σ) fun _ => UCore → Prop := ⟨Kept.core⟩

/-- A set of unit states that rendering does not leave. -/
structure Stable (n : Nat) (Q : Kept σ) : Prop where
  usable : ∀ c, Q c → c.Usable n
  render : ∀ c t0 e t c' ps, Q c → InU32 t0 → 0 ≤ e → e ≤ 2145386496 → c.render t0 e n = .ok (t, c', ps) → Q c'

/-- Callbacks that do not fail and keep `Q`.  Bringing units up to date twice is bringing them up to
date once, even if they were rendered between. -/
structure CbOk (Q : Kept σ) (cb : ClockCb σ) : Prop where
  tick : ∀ k t s us, InI64 t → Q.user us.length s → (∀ c ∈ us, Q c) → ∃ r, cb k t s us = .ok r ∧ InI64 r.1 ∧
    r.2.2.length = us.length ∧ Q.user us.length r.2.1 ∧ ∀ c ∈ r.2.2, Q c
  flush : ∀ s us, Q.user us.length s → (∀ c ∈ us, Q c) → ∃ r, cb.flush s us = .ok r ∧ Q.user us.length r.1 ∧
    r.2.length = us.length ∧ (∀ c ∈ r.2, Q c) ∧ ∀ us' : List UCore, us'.length = us.length → cb.flush r.1 us' = .ok (r.1, us')

/-- A clock at time `now`. -/
structure ClkOk (now : Int) (c : Clk) : Prop where
  time : c.time = now
  next : now ≤ c.nextTime
  pos : 0 < c.period
  typed : InI64 c.nextTime
  small : c.period ≤ 4611686018427387904 ∨ c.period ≤ c.nextTime

/-- All clocks of a context. -/
structure ClocksOk (x : Ctx σ) : Prop where
  now : 0 ≤ x.currentTime
  all : ∀ c ∈ x.clocks, ClkOk x.currentTime c

theorem ClkOk.afterTick {now : Int} {c : Clk} (h : ClkOk now c) (h0 : 0 ≤ now) (h1 : now ≤ 2305843009213693952)
    (he : c.time = c.nextTime) {next : Int} (hn : InI64 next) :
    ∃ c', c.afterTick next = .ok c' ∧ ClkOk now c' ∧ now < c'.nextTime := by
  have ht := h.time
  have hp := h.pos
  have hs := h.small
  unfold Clk.afterTick T64.isGreater
  by_cases hg : next > c.time
  · have : T64.sub next c.time = .ok (next - c.time) := by
      unfold T64.sub; unfold InI64 at hn; exact i64_ok (by omega) (by omega)
    rw [if_pos (by simpa using hg), this]
    refine ⟨_, rfl, ⟨ht, ?_, ?_, hn, ?_⟩, ?_⟩ <;> dsimp only <;> omega
  · have hi : InI64 (c.time + c.period) := by unfold InI64 at *; omega
    have : T64.add c.time c.period = .ok (c.time + c.period) := by
      unfold T64.add; exact i64_ok hi.1 hi.2
    rw [if_neg (by simpa using hg), this]
    refine ⟨_, rfl, ⟨ht, ?_, hp, hi, ?_⟩, ?_⟩ <;> dsimp only <;> omega

theorem setCores_time {us : List BUnit} {cs : List UCore} (h : cs.length = us.length) :
    (setCores us cs).map (·.time) = us.map (·.time) ∧ (setCores us cs).map (·.toUCore) = cs := by
  unfold setCores
  induction us generalizing cs with
  | nil =>
    cases cs with
    | nil => exact ⟨rfl, rfl⟩
    | cons c cs => simp at h
  | cons u us ih =>
    cases cs with
    | nil => simp at h
    | cons c cs =>
      obtain ⟨h1, h2⟩ := ih (cs := cs) (by simpa using h)
      simp only [List.zipWith_cons_cons, List.map_cons, h1, h2]
      exact ⟨trivial, trivial⟩

theorem setCores_earlier (us : List BUnit) (cs : List UCore) (a : Int) :
    setCores (us.map (BUnit.earlier a)) cs = (setCores us cs).map (BUnit.earlier a) := by
  unfold setCores
  induction us generalizing cs with
  | nil => rfl
  | cons u us ih =>
    cases cs with
    | nil => rfl
    | cons c cs =>
      simp only [List.map_cons, List.zipWith_cons_cons, ih]
      rfl

theorem cores_earlier (us : List BUnit) (a : Int) :
    (us.map (BUnit.earlier a)).map (·.toUCore) = us.map (·.toUCore) := by
  rw [List.map_map]; rfl

theorem tickAll_ok {Q : Kept σ} {cb : ClockCb σ} (hcb : CbOk Q cb) {now : Int} (h0 : 0 ≤ now)
    (h1 : now ≤ 2305843009213693952) : ∀ (cs : List Clk) (k : Nat) (s : Ticked σ), (∀ c ∈ cs, ClkOk now c) →
    Q.user s.units.length s.user → (∀ u ∈ s.units, Q u.toUCore) → (∀ c ∈ s.clocks, ClkOk now c ∧ s.next ≤ c.nextTime) → now < s.next → s.next ≤ timeMax →
    ∃ s', tickAll cb now k cs s = .ok s' ∧ s'.clocks.length = s.clocks.length + cs.length ∧
      (∀ c ∈ s'.clocks, ClkOk now c ∧ s'.next ≤ c.nextTime) ∧ now < s'.next ∧ s'.next ≤ timeMax ∧
      s'.units.map (·.time) = s.units.map (·.time) ∧ (∀ u ∈ s'.units, Q u.toUCore) ∧ Q.user s'.units.length s'.user
  | [], k, s, _, hv, hu, hs, hn, hm => ⟨s, rfl, rfl, hs, hn, hm, rfl, hu, hv⟩
  | c :: cs, k, s, hc, hv, hu, hs, hn, hm => by
    have hck := hc c (by simp)
    -- what is common to both cases
    have key : ∀ (c' : Clk) (user : σ) (us : List BUnit) (tk : List (Nat × Int)), ClkOk now c' → now < c'.nextTime →
        us.map (·.time) = s.units.map (·.time) → Q.user us.length user → (∀ u ∈ us, Q u.toUCore) →
        ∃ s', tickAll cb now (k + 1) cs { clocks := s.clocks ++ [c']
                                          next := if T64.isLess c'.nextTime s.next then c'.nextTime else s.next
                                          user := user, units := us, ticks := tk } = .ok s' ∧
          s'.clocks.length = s.clocks.length + (c :: cs).length ∧
          (∀ c ∈ s'.clocks, ClkOk now c ∧ s'.next ≤ c.nextTime) ∧ now < s'.next ∧ s'.next ≤ timeMax ∧
          s'.units.map (·.time) = s.units.map (·.time) ∧ (∀ u ∈ s'.units, Q u.toUCore) ∧ Q.user s'.units.length s'.user := by
      intro c' user us tk k1 k2 k3 k5 k4
      have hmin : (if T64.isLess c'.nextTime s.next then c'.nextTime else s.next) = min c'.nextTime s.next := by
        unfold T64.isLess
        by_cases hl : c'.nextTime < s.next
        · simp [hl]; omega
        · simp [hl]; omega
      rw [hmin]
      obtain ⟨s', g1, g2, g3, g4, g5, g6, g7⟩ := tickAll_ok hcb h0 h1 cs (k + 1)
        { clocks := s.clocks ++ [c'], next := min c'.nextTime s.next, user := user, units := us, ticks := tk }
        (fun d hd => hc d (by simp [hd])) k5 k4 (by
          intro d hd
          rcases List.mem_append.1 hd with hd | hd
          · obtain ⟨d1, d2⟩ := hs d hd
            exact ⟨d1, by dsimp only; omega⟩
          · rw [List.mem_singleton] at hd
            subst hd
            exact ⟨k1, by dsimp only; omega⟩) (by dsimp only; omega) (by dsimp only; omega)
      refine ⟨s', g1, ?_, g3, g4, g5, g6.trans k3, g7⟩
      rw [g2]; simp only [List.length_append, List.length_cons, List.length_nil]; omega
    unfold tickAll Ticked.step
    by_cases he : c.time = c.nextTime
    · rw [if_pos (by simpa [T64.isEqual] using he)]
      have hci : InI64 c.time := by rw [he]; exact hck.typed
      obtain ⟨r, r1, r2, r3, r5, r4⟩ := hcb.tick k c.time s.user (s.units.map (·.toUCore)) hci (by rw [List.length_map]; exact hv) (by
        intro d hd
        obtain ⟨u, hu', rfl⟩ := List.mem_map.1 hd
        exact hu u hu')
      obtain ⟨c', q1, q2, q3⟩ := hck.afterTick h0 h1 he r2
      rw [r1, ok_bind, q1, ok_bind]
      have hsc := setCores_time (us := s.units) (cs := r.2.2) (by simpa using r3)
      exact key c' _ _ _ q2 q3 hsc.1 (by
        have := congrArg List.length hsc.1
        rw [List.length_map, List.length_map] at this
        rw [List.length_map] at r5
        rw [this]; exact r5) (by
        intro u hu'
        exact r4 _ (hsc.2 ▸ List.mem_map.2 ⟨u, hu', rfl⟩))
    · rw [if_neg (by simpa [T64.isEqual] using he)]
      have hlt : now < c.nextTime := by have := hck.time; have := hck.next; omega
      exact key c s.user s.units s.ticks hck hlt rfl hv hu

theorem advance_ok {cs : List Clk} {q : Int} (h : ∀ c ∈ cs, InI64 (c.time + q)) :
    cs.mapM (fun c => c.advance q) = .ok (cs.map fun c => { c with time := c.time + q }) := by
  induction cs with
  | nil => rfl
  | cons c cs ih =>
    rw [List.mapM_cons, ih fun d hd => h d (by simp [hd])]
    unfold Clk.advance T64.addF
    rw [i64_ok (h c (by simp)).1 (h c (by simp)).2]
    rfl

/-- A pass over the clocks. -/
theorem clocksAdvance_ok {Q : Kept σ} {cb : ClockCb σ} (hcb : CbOk Q cb) {x : Ctx σ} (hx : ClocksOk x)
    (hnow : x.currentTime ≤ 2305843009213693952) (hv : Q.user x.units.length x.user) (hu : ∀ u ∈ x.units, Q u.toUCore) :
    ∃ d y, x.clocksAdvance cb = .ok (d, y) ∧ 0 < d ∧ d ≤ maxStep ∧ ClocksOk y ∧
      y.currentTime = x.currentTime + d ∧ y.clocks.length = x.clocks.length ∧ y.deltaTime = x.deltaTime ∧
      y.chans = x.chans ∧ y.units.map (·.time) = x.units.map (·.time) ∧ (∀ u ∈ y.units, Q u.toUCore) ∧ Q.user y.units.length y.user := by
  have h0 := hx.now
  obtain ⟨s, g1, g2, g3, g4, g5, g6, g7⟩ := tickAll_ok hcb h0 hnow x.clocks 0
    { clocks := [], next := timeMax, user := x.user, units := x.units, ticks := x.ticks } hx.all hv hu (by simp)
    (by unfold timeMax; dsimp only; omega) (Int.le_refl _)
  unfold timeMax at g5
  have hl := limitStep_pos (d := s.next - x.currentTime) (by omega)
  have hm : maxStep = 715827882 := rfl
  have e1 : T64.sub s.next x.currentTime = .ok (s.next - x.currentTime) := i64_ok (by omega) (by omega)
  have e2 : T64.addF x.currentTime (limitStep (s.next - x.currentTime)) =
      .ok (x.currentTime + limitStep (s.next - x.currentTime)) := i64_ok (by omega) (by omega)
  have e3 : s.clocks.mapM (fun c => c.advance (limitStep (s.next - x.currentTime))) =
      .ok (s.clocks.map fun c => { c with time := c.time + limitStep (s.next - x.currentTime) }) :=
    advance_ok fun c hc => by have := (g3 c hc).1.time; unfold InI64; omega
  have e4 : x.clocksAdvance cb = .ok (limitStep (s.next - x.currentTime),
      { x with clocks := s.clocks.map fun c => { c with time := c.time + limitStep (s.next - x.currentTime) }
               currentTime := x.currentTime + limitStep (s.next - x.currentTime)
               units := s.units, user := s.user, ticks := s.ticks }) := by
    unfold Ctx.clocksAdvance
    rw [g1, ok_bind, e1, ok_bind]
    dsimp only
    rw [e3, ok_bind, e2, ok_bind]
    rfl
  refine ⟨_, _, e4, hl.1, hl.2.2, ⟨?_, ?_⟩, rfl, ?_, rfl, rfl, g6, g7⟩
  · dsimp only; omega
  · intro c hc
    obtain ⟨d, hd, rfl⟩ := List.mem_map.1 hc
    obtain ⟨k1, k2⟩ := g3 d hd
    have := k1.time
    exact ⟨by dsimp only; omega, by dsimp only; omega, k1.pos, k1.typed, k1.small⟩
  · dsimp only
    rw [List.length_map, g2]; simp

end BK
