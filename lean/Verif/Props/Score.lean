import Verif.Lemmas.Concert
import Verif.Props.SongSound
/-!
C86: the sound of a song follows from its calls and their times.
-/
namespace BK

variable {υ ξ : Type} {N : Nat} {p : Program υ} {q : Program ξ}

/-- C86: a song in a context with clocks is a performance of its calls: each call is made at its time,
between calls all attached tracks play on, and what was delivered are the steps that they made up to
then.  The context has been rendered at least up to the frames that were delivered. -/
theorem C86_performance_partial (hp : p.Plays N) {T : Nat} {x : Ctx (Band υ)} {S : List Int} (h : Concert N p T x S) :
    ∃ P, Performance N x.currentTime (x.world.pass x.deltaTime) P x.user.score ∧ T * U20 ≤ x.currentTime ∧ S = soundOf N T P := by
  obtain ⟨P, k⟩ := h.gives hp
  have hb := (h.recording.song.ok hp).band.1
  refine ⟨P, ?_, ?_, k.sound⟩
  · unfold Ctx.world
    rw [TWorld.withUnits_pass k.loose hb.len.symm (fun x hx => (hb.ins x hx).imp fun t h => ⟨h.1, h.2.ctx⟩)]
    exact k.perf
  · have := h.future hp
    have := k.now
    omega

/-- C86: calls have times in order, and none lies in the future. -/
theorem C86_order_partial {t : Int} {s : TWorld} {P : List Pulse} {L : List (Int × List WOp)} (h : Performance N t s P L) :
    L.Pairwise (fun a b => a.1 ≤ b.1) ∧ ∀ e ∈ L, 0 ≤ e.1 ∧ e.1 ≤ t := by
  have hs := h.sane.2
  refine ⟨?_, fun e he => ⟨?_, hs.2 e he⟩⟩
  · clear hs
    induction h with
    | start => exact List.Pairwise.nil
    | calls h hq hl hr ih =>
      rw [List.pairwise_append]
      refine ⟨ih, List.pairwise_singleton _ _, fun a ha b hb => ?_⟩
      rw [List.mem_singleton] at hb
      subst hb
      exact h.sane.2.2 a ha
    | wait h _ _ _ _ ih => exact ih
  · clear hs
    induction h with
    | start => cases he
    | calls h hq hl hr ih =>
      rcases List.mem_append.1 he with he | he
      · exact ih he
      · rw [List.mem_singleton] at he
        subst he
        exact h.sane.2.1
    | wait h _ _ _ _ ih => exact ih he

/-- C86: a performance follows from its calls and their times: the state at the end, and the sound.
How time was divided, and how calls were grouped, does not matter. -/
theorem C86_unique_partial {t : Int} {s s' : TWorld} {P P' : List Pulse} {L L' : List (Int × List WOp)} (h : Performance N t s P L)
    (h' : Performance N t s' P' L') (e : timedCalls L = timedCalls L') : s = s' ∧ ∀ T, soundOf N T P = soundOf N T P' := by
  obtain ⟨Q, a1, a2⟩ := h.steady
  obtain ⟨Q', b1, b2⟩ := h'.steady
  obtain ⟨c1, c2⟩ := a1.follows b1 e
  refine ⟨c1, fun T => ?_⟩
  rw [← soundOf_alike a2, ← soundOf_alike b2]
  exact soundOf_alike c2 N T

/-- What is heard up to frame `T` follows from the calls before. -/
theorem Performance.sound {T : Nat} {t t' : Int} {s s' : TWorld} {P P' : List Pulse} {L L' : List (Int × List WOp)} (h : Performance N t s P L)
    (h' : Performance N t' s' P' L') (ht : T * U20 ≤ t) (ht' : T * U20 ≤ t') (e : callsBefore (T * U20) L = callsBefore (T * U20) L') :
    soundOf N T P = soundOf N T P' := by
  obtain ⟨Q, a1, a2⟩ := h.steady
  obtain ⟨Q', b1, b2⟩ := h'.steady
  obtain ⟨s0, P0, R, c1, c2, c3⟩ := a1.cut (by omega) ht
  obtain ⟨s0', P0', R', d1, d2, d3⟩ := b1.cut (by omega) ht'
  obtain ⟨-, k⟩ := c1.follows d1 (by rw [timedCalls_filter, timedCalls_filter, e])
  rw [← soundOf_alike a2, ← soundOf_alike b2, c2, d2, soundOf_later c3, soundOf_later d3]
  exact soundOf_alike k N T

/-- C86: what was delivered follows from the calls and their times alone: take two contexts with the
same number of channels, driven by any programs, with any clocks, asked for frames in any portions; if the
same calls were made at the same times before frame `T`, then the first `T` frames are the same.  Calls
made later, and calls made at the end of frame `T`, do not matter. -/
theorem C86_follows_partial (hp : p.Plays N) (hq : q.Plays N) {T T' : Nat} {x : Ctx (Band υ)} {x' : Ctx (Band ξ)} {S S' : List Int}
    (h : Concert N p T x S) (h' : Concert N q T' x' S') (hT : T ≤ T')
    (e : callsBefore (T * U20) x.user.score = callsBefore (T * U20) x'.user.score) : S = S'.take (T * N) := by
  obtain ⟨P, a1, a2, a3⟩ := C86_performance_partial hp h
  obtain ⟨P', b1, b2, b3⟩ := C86_performance_partial hq h'
  obtain ⟨k, rfl⟩ := Nat.exists_eq_add_of_le hT
  have := a1.sound b1 a2 (by push_cast at b2; omega) e
  rw [a3, this, b3, soundOf_add, List.take_left' (soundOf_length N T P')]

/-- C86: tracks too: two contexts that have been rendered up to the same time, with the same calls at the
same times, have their tracks in the same state. -/
theorem C86_state_partial (hp : p.Plays N) (hq : q.Plays N) {T T' : Nat} {x : Ctx (Band υ)} {x' : Ctx (Band ξ)} {S S' : List Int}
    (h : Concert N p T x S) (h' : Concert N q T' x' S') (ht : x.currentTime = x'.currentTime)
    (e : timedCalls x.user.score = timedCalls x'.user.score) :
    x.world.pass x.deltaTime = x'.world.pass x'.deltaTime := by
  obtain ⟨P, a1, -⟩ := C86_performance_partial hp h
  obtain ⟨P', b1, -⟩ := C86_performance_partial hq h'
  rw [ht] at a1
  exact (C86_unique_partial a1 b1 e).1

/-- Whether two calls are the same, for some calls. -/
def WOp.same : WOp → WOp → Bool
  | .init x a, .init y b => decide (x = y ∧ a = b)
  | .track x .tick, .track y .tick => decide (x = y)
  | .track x (.attr a v), .track y (.attr b w) => decide (x = y ∧ a = b ∧ v = w)
  | .track x (.instrument a), .track y (.instrument b) => decide (x = y ∧ a = b)
  | .track x (.attach a b c), .track y (.attach d e f) => decide (x = y ∧ a = d ∧ b = e ∧ c = f)
  | .setSequence i a n, .setSequence j b m => decide (i = j ∧ a = b ∧ n = m)
  | _, _ => false

theorem WOp.same_eq {a b : WOp} (h : a.same b = true) : a = b := by
  unfold WOp.same at h
  split at h <;> simp only [decide_eq_true_eq, Bool.false_eq_true] at h <;>
    first | (obtain ⟨rfl, rfl, rfl, rfl⟩ := h; rfl) | (obtain ⟨rfl, rfl, rfl⟩ := h; rfl) | (obtain ⟨rfl, rfl⟩ := h; rfl) | (cases h; rfl)

/-- Whether two lists of calls are the same. -/
def sameCalls : List (Int × WOp) → List (Int × WOp) → Bool
  | [], [] => true
  | a :: l, b :: m => decide (a.1 = b.1) && a.2.same b.2 && sameCalls l m
  | _, _ => false

theorem sameCalls_eq : ∀ {l m : List (Int × WOp)}, sameCalls l m = true → l = m
  | [], [], _ => rfl
  | (t, a) :: l, (u, b) :: m, h => by
    unfold sameCalls at h
    simp only [Bool.and_eq_true, decide_eq_true_eq] at h
    obtain ⟨⟨rfl, h2⟩, h3⟩ := h
    rw [WOp.same_eq h2, sameCalls_eq h3]

/-- The song of C83 with another clock and program: the clock ticks at every frame, and the program passes
every other tick on to the track. -/
def evenTrack : Program Bool := fun _ t b _ => (t, !b, if b then [] else [.track 0 .tick])

theorem evenTrack_plays : evenTrack.Plays 2 := by
  constructor
  · intro k t u s h; exact h
  · intro k t u s op h
    unfold evenTrack at h
    dsimp only at h
    split at h
    · cases h
    · rw [List.mem_singleton] at h
      subst h
      exact trivial
  · intro k t u s fuel
    refine TWorld.LegalRun.of_all _ _ ?_
    intro op h s
    unfold evenTrack at h
    dsimp only at h
    split at h
    · cases h
    · rw [List.mem_singleton] at h
      subst h
      exact fun t _ => trivial

/-- The track of C83 in a context with some clock. -/
def beepOn {υ : Type} (u : υ) (period : Int) : C (Ctx (Band υ)) := do
  let x ← ((Ctx.init { user := u } 2 44100).attachClock { period := period }).perform beepCalls
  x.attachTrack 0

theorem beepOn_concert (p : Program υ) (u : υ) {period : Int} (h1 : 0 < period) (h2 : period ≤ 4611686018427387904) {x : Ctx (Band υ)}
    (e : beepOn u period = .ok x) : Concert 2 p 0 x [] := by
  unfold beepOn at e
  obtain ⟨y, e1, e2⟩ := bind_ok_iff.1 e
  have h0 : Concert 2 p 0 ((Ctx.init { user := u } 2 44100).attachClock { period := period }) [] :=
    .clock (.init (by decide) (by rfl)) rfl rfl h1 h2
  refine .attach (.calls h0 ?_ ?_ e1) e2
  · intro op hop
    unfold beepCalls at hop
    simp only [List.mem_cons, List.not_mem_nil, or_false] at hop
    rcases hop with rfl | rfl | rfl | rfl | rfl <;> trivial
  · refine TWorld.LegalRun.of_all _ _ ?_
    intro op hop s
    unfold beepCalls at hop
    have hp : ∀ v : Int, -2147483647 ≤ v → v ≤ 2147483647 → Plain v := fun v => Plain.of
    simp only [List.mem_cons, List.not_mem_nil, or_false] at hop
    rcases hop with rfl | rfl | rfl | rfl | rfl
    · exact hp _ (by decide) (by decide)
    · exact fun t _ => ⟨hp _ (by decide) (by decide), trivial⟩
    · refine ⟨?_, ?_, ?_⟩ <;> simp [NewSeq.Short, NewSeq.Usual, NewSeq.Modest, seqLimit, InI32]
    · exact fun t _ => trivial
    · exact fun t _ => ⟨hp _ (by decide) (by decide), trivial⟩

/-- 6 frames of the one and 9 of the other. -/
def twoBeeps : C ((Ctx (Band Unit) × Ctx (Band Unit)) × Ctx (Band Bool) × Ctx (Band Bool)) := do
  let x ← beepOn () 2097152
  let a ← x.generate false tickTrack.cb (6 : Nat)
  let y ← beepOn false 1048576
  let b ← y.generate false evenTrack.cb (9 : Nat)
  return ((x, a.2.1), y, b.2.1)

/-- Scores before a time, and whether there is something to render. -/
def twoBeepsSame : Bool :=
  match twoBeeps with
  | .ok ((x, a), y, b) => sameCalls (callsBefore (6 * U20) a.user.score) (callsBefore (6 * U20) b.user.score) &&
      decide (x.clocks.length = 1 ∧ x.units.length = 1 ∧ y.clocks.length = 1 ∧ y.units.length = 1)
  | .error _ => false

theorem twoBeeps_same : twoBeepsSame = true := by decide +kernel

/-- Both songs deliver the same 6 frames: the same calls are made at the same times. -/
example : ∃ x y x' y' S S', Concert 2 tickTrack 6 x S ∧ Concert 2 evenTrack 9 y S' ∧ S = S'.take 12 ∧
    twoBeeps = .ok ((x', x), y', y) := by
  have h := twoBeeps_same
  unfold twoBeepsSame at h
  split at h
  · rename_i x a y b e
    simp only [Bool.and_eq_true, decide_eq_true_eq] at h
    obtain ⟨hs, h1, h2, h3, h4⟩ := h
    have hs := sameCalls_eq hs
    have e' := e
    unfold twoBeeps at e'
    obtain ⟨x0, e1, e'⟩ := bind_ok_iff.1 e'
    obtain ⟨a0, e2, e'⟩ := bind_ok_iff.1 e'
    obtain ⟨y0, e3, e'⟩ := bind_ok_iff.1 e'
    obtain ⟨b0, e4, e'⟩ := bind_ok_iff.1 e'
    cases e'
    have ne : ∀ {α : Type} {l : List α}, l.length = 1 → l ≠ [] := by
      intro α l h h'
      rw [h'] at h
      cases h
    have cx := beepOn_concert tickTrack () (by decide) (by decide) e1
    have cy := beepOn_concert evenTrack false (by decide) (by decide) e3
    obtain ⟨-, rx⟩ := cx.recording.song.rest tickTrack_plays (ne h2)
    obtain ⟨-, ry⟩ := cy.recording.song.rest evenTrack_plays (ne h4)
    obtain ⟨x'', s, ws, k1, k2, -⟩ := generate_ok band_stable tickTrack_plays.ok rx (r := 6) (by decide) (by decide)
    obtain ⟨y'', s', ws', l1, l2, -⟩ := generate_ok band_stable evenTrack_plays.ok ry (r := 9) (by decide) (by decide)
    have gx := Concert.generate cx (ne h1) (ne h2) (k := 6) (by decide) (by decide) k1 k2
    have gy := Concert.generate cy (ne h3) (ne h4) (k := 9) (by decide) (by decide) l1 l2
    rw [e2] at k1
    rw [e4] at l1
    cases k1
    cases l1
    exact ⟨_, _, _, _, _, _, gx, gy, C86_follows_partial tickTrack_plays evenTrack_plays gx gy (by decide) hs, e⟩
  · cases h

/-- The note is heard there, and the two contexts have had different numbers of ticks. -/
example : (do
    let x ← beepOn () 2097152
    let a ← x.generate false tickTrack.cb (24 : Nat)
    let y ← beepOn false 1048576
    let b ← y.generate false evenTrack.cb (24 : Nat)
    return (a.2.2.isPerm b.2.2, a.2.2.any fun w => decide (8000 < w.2), a.2.1.user.score.length, b.2.1.user.score.length) :
      C (Bool × Bool × Nat × Nat)) = .ok (true, true, 14, 26) := by decide +kernel

end BK
