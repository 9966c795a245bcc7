import Verif.Spec.Context
import Verif.Lemmas.UnitOps
/-!
Clocks in a context.
-/
namespace BK

variable {σ : Type}

/-- The times in the list at which clock `i` ticked. -/
def ticksAt (l : List (Nat × Int)) (i : Nat) : List Int := (l.filter fun t => t.1 == i).map (·.2)

/-- Callbacks return a value of their type, and the one of clock `i` does not choose its next time. -/
structure CbPlain (cb : ClockCb σ) (i : Nat) : Prop where
  typed : ∀ k t s us r, InI64 t → cb k t s us = .ok r → InI64 r.1
  plain : ∀ t s us r, cb i t s us = .ok r → r.1 ≤ t

/-- `Q` relates the past ticks of a clock, its next time and its period, and ticks of clock `i` keep it
so. -/
structure LawOk (cb : ClockCb σ) (i : Nat) (Q : List Int → Int → Int → Prop) : Prop where
  typed : ∀ k t s us r, InI64 t → cb k t s us = .ok r → InI64 r.1
  own : ∀ tks t p, Q tks t p → ∀ s us r, cb i t s us = .ok r →
    (t < r.1 → Q (tks ++ [t]) r.1 (r.1 - t)) ∧ (r.1 ≤ t → Q (tks ++ [t]) (t + p) p)

/-- State of the clocks between passes: clock `i` obeys `Q`. -/
structure ClockLaw (i : Nat) (Q : List Int → Int → Int → Prop) (x : Ctx σ) : Prop where
  all : ∀ c ∈ x.clocks, c.time = x.currentTime ∧ x.currentTime ≤ c.nextTime ∧ 0 < c.period ∧ InI64 c.nextTime
  one : ∃ c, x.clocks[i]? = some c ∧ Q (ticksAt x.ticks i) c.nextTime c.period ∧
    ∀ t ∈ ticksAt x.ticks i, t < x.currentTime

/-- State of the clocks within a pass: `k` clocks are done. -/
structure PassLaw (i : Nat) (Q : List Int → Int → Int → Prop) (now : Int) (k : Nat) (rest : List Clk) (s : Ticked σ) : Prop where
  len : s.clocks.length = k
  done : ∀ c ∈ s.clocks, c.time = now ∧ now < c.nextTime ∧ 0 < c.period ∧ InI64 c.nextTime ∧ s.next ≤ c.nextTime
  next : k ≠ 0 → now < s.next
  max : s.next ≤ timeMax
  first : k = 0 → s.next = timeMax
  todo : ∀ c ∈ rest, c.time = now ∧ now ≤ c.nextTime ∧ 0 < c.period ∧ InI64 c.nextTime
  before : k ≤ i → ∃ c, rest[i - k]? = some c ∧ Q (ticksAt s.ticks i) c.nextTime c.period ∧
    ∀ t ∈ ticksAt s.ticks i, t < now
  after : i < k → ∃ c, s.clocks[i]? = some c ∧ Q (ticksAt s.ticks i) c.nextTime c.period ∧
    ∀ t ∈ ticksAt s.ticks i, t ≤ now

theorem ticksAt_append (l l' : List (Nat × Int)) (i : Nat) :
    ticksAt (l ++ l') i = ticksAt l i ++ ticksAt l' i := by
  unfold ticksAt; simp

theorem i64_eq_ok_iff {x y : Int} : i64 x = .ok y ↔ InI64 x ∧ y = x := by
  unfold i64; split <;> simp_all [eq_comm]

theorem Clk.afterTick_ok {c c' : Clk} {next : Int} (h : c.afterTick next = .ok c') (hp : 0 < c.period)
    (hn : InI64 next) :
    c'.time = c.time ∧ c.time < c'.nextTime ∧ 0 < c'.period ∧ InI64 c'.nextTime ∧
    (next ≤ c.time → c'.period = c.period ∧ c'.nextTime = c.time + c.period) ∧
    (c.time < next → c'.period = next - c.time ∧ c'.nextTime = next) := by
  unfold Clk.afterTick T64.isGreater at h
  split at h
  · rename_i hg
    have hg : next > c.time := by simpa using hg
    obtain ⟨q, hq, h⟩ := bind_ok_iff.1 h
    obtain ⟨h1, rfl⟩ := i64_eq_ok_iff.1 hq
    cases h
    refine ⟨rfl, hg, ?_, hn, fun hle => ?_, fun _ => ⟨rfl, rfl⟩⟩
    · show 0 < next - c.time; omega
    · omega
  · rename_i hg
    have hg : ¬ next > c.time := by simpa using hg
    obtain ⟨q, hq, h⟩ := bind_ok_iff.1 h
    obtain ⟨h1, rfl⟩ := i64_eq_ok_iff.1 hq
    cases h
    exact ⟨rfl, by show c.time < c.time + c.period; omega, hp, h1, fun _ => ⟨rfl, rfl⟩, fun h => absurd h hg⟩

theorem PassLaw.push {i : Nat} {Q : List Int → Int → Int → Prop} {now : Int} {k : Nat} {c : Clk} {cs : List Clk} {s s' : Ticked σ}
    {cb : ClockCb σ} (hcb : LawOk cb i Q) (h : PassLaw i Q now k (c :: cs) s)
    (hs : s.step cb now k c = .ok s') : PassLaw i Q now (k + 1) cs s' := by
  obtain ⟨c1, c2, c3, c4⟩ := h.todo c (by simp)
  -- a clock with a later next time, and the log
  have key : ∀ (c' : Clk) (tk : List (Nat × Int)) (s' : Ticked σ), s'.clocks = s.clocks ++ [c'] →
      s'.next = (if T64.isLess c'.nextTime s.next then c'.nextTime else s.next) → s'.ticks = s.ticks ++ tk →
      (c'.time = now ∧ now < c'.nextTime ∧ 0 < c'.period ∧ InI64 c'.nextTime) →
      (k < i → ticksAt tk i = []) → (i < k → ticksAt tk i = []) →
      (k = i → Q (ticksAt (s.ticks ++ tk) i) c'.nextTime c'.period ∧
        ∀ t ∈ ticksAt (s.ticks ++ tk) i, t ≤ now) →
      PassLaw i Q now (k + 1) cs s' := by
    intro c' tk s' e1 e2 e3 hc' t1 t2 t3
    have hmin : s'.next ≤ c'.nextTime ∧ s'.next ≤ s.next ∧ (s'.next = c'.nextTime ∨ s'.next = s.next) := by
      rw [e2]; unfold T64.isLess
      by_cases hl : c'.nextTime < s.next
      · simp [hl]; omega
      · simp [hl]; omega
    have i4 := hc'.2.2.2
    unfold InI64 at i4
    refine ⟨?_, ?_, ?_, ?_, fun h => absurd h (by omega), ?_, ?_, ?_⟩
    · rw [e1, List.length_append, h.len]; rfl
    · intro d hd
      rw [e1] at hd
      rcases List.mem_append.1 hd with hd | hd
      · obtain ⟨d1, d2, d3, d4, d5⟩ := h.done d hd
        exact ⟨d1, d2, d3, d4, by omega⟩
      · rw [List.mem_singleton] at hd
        subst hd
        exact ⟨hc'.1, hc'.2.1, hc'.2.2.1, hc'.2.2.2, hmin.1⟩
    · intro _
      by_cases hk : k = 0
      · have h0 := h.first hk
        have := hc'.2.1
        unfold timeMax at h0
        rw [e2]; unfold T64.isLess
        by_cases hl : c'.nextTime < s.next
        · simp [hl]; omega
        · simp [hl]; omega
      · have := h.next hk
        have := hc'.2.1
        omega
    · have := h.max; omega
    · intro d hd; exact h.todo d (by simp [hd])
    · intro hk
      obtain ⟨d, d1, d2, d3⟩ := h.before (by omega)
      have et : ticksAt s'.ticks i = ticksAt s.ticks i := by
        rw [e3, ticksAt_append, t1 (by omega), List.append_nil]
      rw [et]
      refine ⟨d, ?_, d2, d3⟩
      · have : i - k = (i - (k + 1)) + 1 := by omega
        rw [this, List.getElem?_cons_succ] at d1
        exact d1
    · intro hk
      by_cases hki : k = i
      · obtain ⟨g1, g2⟩ := t3 hki
        rw [e3]
        refine ⟨c', ?_, g1, g2⟩
        rw [e1, ← hki, List.getElem?_append_right (by have := h.len; omega), h.len]; simp
      · obtain ⟨d, d1, d2, d3⟩ := h.after (by omega)
        have et : ticksAt s'.ticks i = ticksAt s.ticks i := by
          rw [e3, ticksAt_append, t2 (by omega), List.append_nil]
        rw [et]
        refine ⟨d, ?_, d2, d3⟩
        rw [e1, List.getElem?_append_left (by have := h.len; omega)]; exact d1
  unfold Ticked.step at hs
  split at hs
  · rename_i he
    have he : c.time = c.nextTime := by simpa [T64.isEqual] using he
    obtain ⟨r, hr, hs⟩ := bind_ok_iff.1 hs
    obtain ⟨c', hc', hs⟩ := bind_ok_iff.1 hs
    cases hs
    obtain ⟨g1, g2, g3, g4, g5, g6⟩ := Clk.afterTick_ok hc' c3 (hcb.typed _ _ _ _ _ (he ▸ c4) hr)
    refine key c' [(k, now)] _ rfl rfl rfl ⟨by omega, by omega, g3, g4⟩ ?_ ?_ ?_
    · intro hk
      have : ¬ k = i := by omega
      simp [ticksAt, this]
    · intro hk
      have : ¬ k = i := by omega
      simp [ticksAt, this]
    · intro hk
      subst hk
      obtain ⟨d, d1, d2, d3⟩ := h.before (Nat.le_refl _)
      rw [Nat.sub_self, List.getElem?_cons_zero] at d1
      cases d1
      have et : ticksAt (s.ticks ++ [(k, now)]) k = ticksAt s.ticks k ++ [now] := by
        rw [ticksAt_append]; simp [ticksAt]
      rw [et]
      have en : c.nextTime = now := by omega
      rw [en] at d2
      rw [c1] at hr
      obtain ⟨q1, q2⟩ := hcb.own _ _ _ d2 _ _ _ hr
      constructor
      · by_cases hle : r.1 ≤ now
        · obtain ⟨f1, f2⟩ := g5 (by omega)
          rw [f1, f2, c1]; exact q2 hle
        · obtain ⟨f1, f2⟩ := g6 (by omega)
          rw [f1, f2, c1]; exact q1 (by omega)
      · intro t ht
        rcases List.mem_append.1 ht with ht | ht
        · have := d3 t ht; omega
        · rw [List.mem_singleton] at ht; omega
  · rename_i he
    have he : c.time ≠ c.nextTime := by simpa [T64.isEqual] using he
    cases hs
    refine key c [] _ rfl rfl (List.append_nil _).symm ⟨c1, by omega, c3, c4⟩ (fun _ => rfl) (fun _ => rfl) ?_
    intro hk
    subst hk
    obtain ⟨d, d1, d2, d3⟩ := h.before (Nat.le_refl _)
    rw [Nat.sub_self, List.getElem?_cons_zero] at d1
    cases d1
    rw [List.append_nil]
    exact ⟨d2, fun t ht => by have := d3 t ht; omega⟩

theorem PassLaw.all {i : Nat} {Q : List Int → Int → Int → Prop} {now : Int} {cb : ClockCb σ} (hcb : LawOk cb i Q) :
    ∀ (cs : List Clk) {k : Nat} {s s' : Ticked σ}, PassLaw i Q now k cs s →
      tickAll cb now k cs s = .ok s' → PassLaw i Q now (k + cs.length) [] s'
  | [], k, s, s', h, hs => by cases hs; exact h
  | c :: cs, k, s, s', h, hs => by
    unfold tickAll at hs
    obtain ⟨y, hy, hs⟩ := bind_ok_iff.1 hs
    have := PassLaw.all hcb cs (h.push hcb hy) hs
    rw [List.length_cons, show k + (cs.length + 1) = k + 1 + cs.length by omega]
    exact this

theorem limitStep_pos {d : Int} (h : 0 < d) : 0 < limitStep d ∧ limitStep d ≤ d ∧ limitStep d ≤ maxStep := by
  unfold limitStep T64.isLessF T64.getFUInt20 maxStep
  by_cases hl : d < 715827882
  · simp only [hl, decide_true, if_true]
    unfold wrapU32; omega
  · simp only [hl, decide_false]
    simp; omega

theorem advance_all {cs cs' : List Clk} {q : Int} (h : cs.mapM (fun c => c.advance q) = .ok cs') :
    cs' = cs.map fun c => { c with time := c.time + q } := by
  induction cs generalizing cs' with
  | nil => cases h; rfl
  | cons c cs ih =>
    rw [List.mapM_cons] at h
    obtain ⟨a, ha, h⟩ := bind_ok_iff.1 h
    obtain ⟨b, hb, h⟩ := bind_ok_iff.1 h
    cases h
    unfold Clk.advance at ha
    obtain ⟨t, ht, ha⟩ := bind_ok_iff.1 ha
    obtain ⟨-, rfl⟩ := i64_eq_ok_iff.1 ht
    cases ha
    rw [ih hb]; rfl

/-- A pass over the clocks keeps them regular; it takes a positive time, at most `maxStep`. -/
theorem ClockLaw.advance {i : Nat} {Q : List Int → Int → Int → Prop} {cb : ClockCb σ} (hcb : LawOk cb i Q) {x : Ctx σ}
    (h : ClockLaw i Q x) {r : Int × Ctx σ} (hr : x.clocksAdvance cb = .ok r) :
    ClockLaw i Q r.2 ∧ 0 < r.1 ∧ r.1 ≤ maxStep ∧ r.2.currentTime = x.currentTime + r.1 := by
  unfold Ctx.clocksAdvance at hr
  obtain ⟨s, hs, hr⟩ := bind_ok_iff.1 hr
  obtain ⟨d, hd, hr⟩ := bind_ok_iff.1 hr
  obtain ⟨cs, hcs, hr⟩ := bind_ok_iff.1 hr
  obtain ⟨nw, hnw, hr⟩ := bind_ok_iff.1 hr
  obtain ⟨-, rfl⟩ := i64_eq_ok_iff.1 hd
  obtain ⟨hn, rfl⟩ := i64_eq_ok_iff.1 hnw
  cases hr
  obtain ⟨c0, a1, a2, a3⟩ := h.one
  have hp0 : PassLaw i Q x.currentTime 0 x.clocks
      { clocks := [], next := timeMax, user := x.user, units := x.units, ticks := x.ticks } :=
    ⟨rfl, by simp, fun h => absurd rfl h, Int.le_refl _, fun _ => rfl, h.all,
      fun _ => ⟨c0, by simpa using a1, a2, a3⟩, fun h => absurd h (by omega)⟩
  have hp := PassLaw.all hcb _ hp0 hs
  rw [Nat.zero_add] at hp
  have hi : i < x.clocks.length := by
    rw [List.getElem?_eq_some_iff] at a1; exact a1.1
  have hnext := hp.next (by omega)
  have hl := limitStep_pos (d := s.next - x.currentTime) (by omega)
  have hcs := advance_all hcs
  dsimp only
  refine ⟨⟨?_, ?_⟩, hl.1, hl.2.2, rfl⟩
  · intro c hc
    dsimp only at hc ⊢
    rw [hcs] at hc
    obtain ⟨d, hd, rfl⟩ := List.mem_map.1 hc
    obtain ⟨d1, d2, d3, d4, d5⟩ := hp.done d hd
    dsimp only
    exact ⟨by rw [d1], by omega, d3, d4⟩
  · obtain ⟨c, b1, b2, b3⟩ := hp.after hi
    refine ⟨{ c with time := c.time + limitStep (s.next - x.currentTime) }, ?_, b2, ?_⟩
    · dsimp only
      rw [hcs, List.getElem?_map, b1]; rfl
    · intro t ht
      have := b3 t ht
      dsimp only
      omega

/-- Nothing about clocks changed. -/
def SameClocks (x y : Ctx σ) : Prop :=
  y.clocks = x.clocks ∧ y.currentTime = x.currentTime ∧ y.ticks = x.ticks

theorem ClockLaw.same {i : Nat} {Q : List Int → Int → Int → Prop} {x y : Ctx σ} (h : ClockLaw i Q x) (hs : SameClocks x y) :
    ClockLaw i Q y := by
  obtain ⟨h1, h2, h3⟩ := hs
  constructor
  · rw [h1, h2]; exact h.all
  · rw [h1, h2, h3]; exact h.one

theorem flush_sameClocks {cb : ClockCb σ} {x y : Ctx σ} (h : x.flush cb = .ok y) : SameClocks x y := by
  unfold Ctx.flush at h
  obtain ⟨r, -, h⟩ := bind_ok_iff.1 h
  cases h
  exact ⟨rfl, rfl, rfl⟩

theorem ClockLaw.runStep {i : Nat} {Q : List Int → Int → Int → Prop} {chk : Bool} {cb : ClockCb σ} (hcb : LawOk cb i Q) {x : Ctx σ}
    (h : ClockLaw i Q x) {t : Int} {r : Int × Ctx σ} (hr : x.runStep chk cb t = .ok r) :
    ClockLaw i Q r.2 ∧ ∃ d, 0 < d ∧ d ≤ maxStep ∧ r.1 = wrapU32 (t + d) ∧
      r.2.currentTime = x.currentTime + d := by
  unfold Ctx.runStep at hr
  obtain ⟨y, hy, hr⟩ := bind_ok_iff.1 hr
  obtain ⟨z, hz, hr⟩ := bind_ok_iff.1 hr
  obtain ⟨s, hs, hr⟩ := bind_ok_iff.1 hr
  cases hr
  obtain ⟨h1, h2, h3, h4⟩ := h.advance hcb hy
  have hf := flush_sameClocks hz
  exact ⟨h1.same ⟨hf.1, hf.2.1, hf.2.2⟩, y.1, h2, h3, rfl, hf.2.1.trans h4⟩

theorem ClockLaw.runLoop {i : Nat} {Q : List Int → Int → Int → Prop} {chk : Bool} {cb : ClockCb σ} (hcb : LawOk cb i Q) {e : Int} :
    ∀ (n : Nat) {t : Int} {x : Ctx σ} {r : Int × Ctx σ}, ClockLaw i Q x →
      Ctx.runLoop chk cb e n t x = .ok r → ClockLaw i Q r.2
  | 0, t, x, r, h, hr => by
    unfold Ctx.runLoop at hr
    split at hr
    · cases hr
    · cases hr; exact h
  | n + 1, t, x, r, h, hr => by
    unfold Ctx.runLoop at hr
    split at hr
    · obtain ⟨y, hy, hr⟩ := bind_ok_iff.1 hr
      exact ClockLaw.runLoop hcb n (h.runStep hcb hy).1 hr
    · cases hr; exact h

theorem ClockLaw.endAt {i : Nat} {Q : List Int → Int → Int → Prop} {chk : Bool} {cb : ClockCb σ} (hcb : LawOk cb i Q) {e : Int}
    {x x' : Ctx σ} (h : ClockLaw i Q x) (hr : x.endAt chk cb e = .ok x') : ClockLaw i Q x' := by
  unfold Ctx.endAt at hr
  obtain ⟨y, hy, hr⟩ := bind_ok_iff.1 hr
  have hy' : ClockLaw i Q y := by
    unfold Ctx.run at hy
    split at hy
    · obtain ⟨z, hz, hy⟩ := bind_ok_iff.1 hy
      cases hy
      exact (ClockLaw.runLoop hcb _ h hz).same ⟨rfl, rfl, rfl⟩
    · obtain ⟨w, hw, hy⟩ := bind_ok_iff.1 hy
      obtain ⟨z, hz, hy⟩ := bind_ok_iff.1 hy
      cases hy
      have hf := flush_sameClocks hw
      exact h.same ⟨hf.1, hf.2.1, hf.2.2⟩
  split at hr
  · cases hr; exact hy'
  · cases hr; exact hy'.same ⟨rfl, rfl, rfl⟩

theorem read_sameClocks {chk : Bool} {x : Ctx σ} {n : Int} {r : Int × Ctx σ × List (Int × Int)}
    (h : x.read chk n = .ok r) : SameClocks x r.2.1 := by
  unfold Ctx.read at h
  obtain ⟨y, hy, h⟩ := bind_ok_iff.1 h
  cases h
  exact ⟨rfl, rfl, rfl⟩

theorem ClockLaw.genLoop {i : Nat} {Q : List Int → Int → Int → Prop} {chk : Bool} {cb : ClockCb σ} (hcb : LawOk cb i Q) :
    ∀ (k : Nat) {a b c : Int} {x : Ctx σ} {r : Int × Ctx σ × List (Int × Int)}, ClockLaw i Q x →
      Ctx.genLoop chk cb k a b c x = .ok r → ClockLaw i Q r.2.1
  | 0, a, b, c, x, r, h, hr => by cases hr
  | k + 1, a, b, c, x, r, h, hr => by
    unfold Ctx.genLoop at hr
    obtain ⟨y, hy, hr⟩ := bind_ok_iff.1 hr
    obtain ⟨z, hz, hr⟩ := bind_ok_iff.1 hr
    have hz' := (h.endAt hcb hy).same (read_sameClocks hz)
    dsimp only at hr
    generalize (if z.1 = 0 then a else z.1) = skip at hr
    by_cases hd : a - skip = 0
    · rw [if_pos hd] at hr; cases hr; exact hz'
    · rw [if_neg hd] at hr
      obtain ⟨w, hw, hr⟩ := bind_ok_iff.1 hr
      cases hr
      have := ClockLaw.genLoop hcb k hz' hw
      exact this

theorem ClockLaw.step {i : Nat} {Q : List Int → Int → Int → Prop} {chk : Bool} {cb : ClockCb σ} (hcb : LawOk cb i Q)
    {x x' : Ctx σ} (h : ClockLaw i Q x) {op : CtxOp σ} (hr : x.step chk cb op = .ok x') :
    ClockLaw i Q x' := by
  cases op <;> unfold Ctx.step at hr <;> dsimp only at hr
  case endAt e => exact h.endAt hcb hr
  case read n =>
    obtain ⟨y, hy, hr⟩ := bind_ok_iff.1 hr
    cases hr
    exact h.same (read_sameClocks hy)
  case generate n =>
    obtain ⟨y, hy, hr⟩ := bind_ok_iff.1 hr
    cases hr
    unfold Ctx.generate at hy
    obtain ⟨z, hz, hy⟩ := bind_ok_iff.1 hy
    cases hy
    have := ClockLaw.genLoop hcb _ h hz
    exact this
  case change f => cases hr; exact h.same ⟨rfl, rfl, rfl⟩
  case attach c => cases hr; exact h.same ⟨rfl, rfl, rfl⟩

theorem ClockLaw.steps {i : Nat} {Q : List Int → Int → Int → Prop} {chk : Bool} {cb : ClockCb σ} (hcb : LawOk cb i Q) :
    ∀ (ops : List (CtxOp σ)) {x x' : Ctx σ}, ClockLaw i Q x → x.steps chk cb ops = .ok x' →
      ClockLaw i Q x'
  | [], x, x', h, hr => by cases hr; exact h
  | op :: ops, x, x', h, hr => by
    unfold Ctx.steps at hr
    obtain ⟨y, hy, hr⟩ := bind_ok_iff.1 hr
    exact ClockLaw.steps hcb ops (h.step hcb hy) hr

/-- The first ticks of a clock at the multiples of `p`. -/
def Regular (p : Int) (tks : List Int) (next q : Int) : Prop :=
  q = p ∧ ∃ m : Nat, next = m * p ∧ tks = multiples p m

/-- The clocks of a context, of which clock `i` ticks at the multiples of `p`. -/
abbrev ClockInv (i : Nat) (p : Int) (x : Ctx σ) : Prop := ClockLaw i (Regular p) x

theorem CbPlain.law {cb : ClockCb σ} {i : Nat} (h : CbPlain cb i) (p : Int) : LawOk cb i (Regular p) := by
  refine ⟨h.typed, ?_⟩
  rintro tks t q ⟨rfl, m, rfl, rfl⟩ s us r hr
  have := h.plain _ _ _ _ hr
  refine ⟨fun h => absurd h (by omega), fun _ => ⟨rfl, m + 1, ?_, ?_⟩⟩
  · push_cast; ring
  · unfold multiples
    rw [List.range_succ, List.map_append]
    rfl

theorem Ctx.Fresh.clockInv {x : Ctx σ} (h : x.Fresh) {i : Nat} {c : Clk} (hi : x.clocks[i]? = some c) :
    ClockInv i c.period x := by
  constructor
  · intro d hd
    obtain ⟨h1, h2, h3⟩ := h.clocks d hd
    rw [h.now, h1, h2]
    exact ⟨rfl, Int.le_refl _, h3, by decide⟩
  · refine ⟨c, hi, ⟨rfl, 0, ?_, ?_⟩, ?_⟩
    · have := (h.clocks c (List.mem_of_getElem? hi)).2.1
      rw [this]; simp
    · rw [h.ticks]; rfl
    · rw [h.ticks]; simp [ticksAt]

end BK
