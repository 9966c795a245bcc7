import Verif.Lemmas.Mixdown
import Verif.Props.Score
import Verif.Props.SongDetach
/-!
C96: a song is the sum of its tracks played alone.
-/
namespace BK

variable {υ ξ : Type} {N : Nat} {p : Program υ} {q : Program ξ}

/-- C96: take all samples that a context has delivered in a song, and let `K` be all tracks
that were initialised.
There are changes `F y` of the level for each track `y` such that what was delivered is what is heard if
all of them are added; and any context that plays only track `y`, with the same calls on it and on the
instruments at the same times, delivers what is heard of `F y`. -/
theorem C96_stems_partial (hp : p.Plays N) {T : Nat} {x : Ctx (Band υ)} {S : List Int} (h : Concert N p T x S) {K : List Nat}
    (hK : K.Nodup) (hin : ∀ e ∈ x.user.score, ∀ y wf, .init y wf ∈ e.2 → y ∈ K) :
    ∃ F : Nat → Nat → Nat → Int, S = heardOf N T (fun c m => (K.map fun y => F y c m).sum) ∧
      ∀ y, (∃ s P, Performance N x.currentTime s P (solo y x.user.score) ∧ soundOf N T P = heardOf N T (F y)) ∧
        ∀ R, StemOf N T x.user.score y R → R = heardOf N T (F y) := by
  obtain ⟨P, a1, a2, a3⟩ := C86_performance_partial hp h
  obtain ⟨r, s, b1, b2⟩ := a1.stems
  refine ⟨fun y c m => stepsAt (s y) c m, ?_, fun y => ⟨⟨r y, s y, (b1 y).perf, rfl⟩, ?_⟩⟩
  · rw [a3, soundOf_heard]
    exact heardOf_congr (b2 K hK fun y hy => by
      obtain ⟨e, he, wf, h⟩ := a1.born hy
      exact hin e he y wf h)
  · rintro R ⟨ξ, q, T', x', S', hq, hT, hc, he, rfl⟩
    obtain ⟨P', c1, c2, c3⟩ := C86_performance_partial hq hc
    obtain ⟨k, rfl⟩ := Nat.exists_eq_add_of_le hT
    have := (b1 y).perf.sound c1 a2 (by push_cast at c2; omega) he.symm
    rw [c3, soundOf_add, List.take_left' (soundOf_length N T P'), ← this]
    rfl

/-- C96: the samples add up: every sample of the song is the sum of the samples of its tracks played
alone, up to rounding (one less to one more per track), as long as these are not so loud that they might
be clipped. -/
theorem C96_sum_partial (hp : p.Plays N) {T : Nat} {x : Ctx (Band υ)} {S : List Int} (h : Concert N p T x S) {K : List Nat}
    (hK : K.Nodup) (hin : ∀ e ∈ x.user.score, ∀ y wf, .init y wf ∈ e.2 → y ∈ K) (hk : K.length ≤ 32) {R : Nat → List Int}
    (hR : ∀ y ∈ K, StemOf N T x.user.score y (R y)) {n c : Nat} (hn : n < T) (hc : c < N)
    (hq : ∀ m, m ≤ n → (K.map fun y => (sampleAt N (R y) m c).natAbs).sum + K.length ≤ 32765) :
    -1 ≤ sampleAt N S n c - (K.map fun y => sampleAt N (R y) n c).sum ∧
    sampleAt N S n c - (K.map fun y => sampleAt N (R y) n c).sum ≤ K.length := by
  obtain ⟨F, e, hF⟩ := C96_stems_partial hp h hK hin
  have hs : ∀ y ∈ K, ∀ m, m ≤ n → sampleAt N (R y) m c = outAmp (levelAt (fun i => wrapI32 (F y c i)) (m + 1)) := by
    intro y hy m hm
    rw [(hF y).2 (R y) (hR y hy), heardOf_sample (F y) (by omega) hc]
  have h1 : (K.map fun y => sampleAt N (R y) n c) = K.map fun y => outAmp (levelAt (fun i => wrapI32 (F y c i)) (n + 1)) :=
    List.map_congr_left fun y hy => hs y hy n (Nat.le_refl n)
  rw [h1, e, heardOf_sample _ hn hc]
  refine samples_near (f := fun y i => F y c i) hk n fun m hm => ?_
  have h2 : (K.map fun y => (sampleAt N (R y) m c).natAbs) =
      K.map fun y => (outAmp (levelAt (fun i => wrapI32 (F y c i)) (m + 1))).natAbs :=
    List.map_congr_left fun y hy => by rw [hs y hy m hm]
  rw [← h2]
  exact hq m hm

/-- C96: what a track is and does depends only on calls on it and on instruments: two songs that have been
rendered up to the same time, in which the same calls were made on track `y` and on instruments at the
same times, have track `y` in the same state, whatever other tracks do. -/
theorem C96_own_partial (hp : p.Plays N) (hq : q.Plays N) {T T' : Nat} {x : Ctx (Band υ)} {x' : Ctx (Band ξ)} {S S' : List Int}
    (h : Concert N p T x S) (h' : Concert N q T' x' S') (ht : x.currentTime = x'.currentTime) (y : Nat)
    (e : timedCalls (solo y x.user.score) = timedCalls (solo y x'.user.score)) :
    (x.world.pass x.deltaTime).tracks y = (x'.world.pass x'.deltaTime).tracks y ∧
    x.world.iw.states y = x'.world.iw.states y ∧ x.world.iw.links.owner y = x'.world.iw.links.owner y := by
  obtain ⟨P, a1, -⟩ := C86_performance_partial hp h
  obtain ⟨P', b1, -⟩ := C86_performance_partial hq h'
  rw [ht] at a1
  obtain ⟨r, s, c1, -⟩ := a1.stems
  obtain ⟨r', s', d1, -⟩ := b1.stems
  have k := (C86_unique_partial (c1 y).perf (d1 y).perf e).1
  obtain ⟨n, c2, c3⟩ := (c1 y).same
  obtain ⟨n', d2, d3⟩ := (d1 y).same
  rw [k] at c2 c3
  refine ⟨?_, ?_, ?_⟩
  · rw [← c3, d3]
  · exact c2.states.symm.trans d2.states
  · exact c2.owner.symm.trans d2.owner

/-- A program that does nothing at ticks. -/
def noTick : Program Unit := fun _ t u _ => (t, u, [])

theorem noTick_plays : noTick.Plays 2 :=
  ⟨fun _ _ _ _ h => h, fun _ _ _ _ _ h => absurd h List.not_mem_nil, fun _ _ _ _ _ => trivial⟩

/-- Some calls, and tracks that are attached. -/
def softPart (ops : List WOp) (ids : List Nat) : C (Ctx (Band Unit)) := do
  let x ← beepCtx.perform ops
  ids.foldlM Ctx.attachTrack x

theorem attach_concert {p : Program υ} {T : Nat} {S : List Int} : ∀ (ids : List Nat) {x x' : Ctx (Band υ)}, Concert N p T x S →
    ids.foldlM Ctx.attachTrack x = .ok x' → Concert N p T x' S
  | [], x, x', h, e => by cases e; exact h
  | id :: ids, x, x', h, e => by
    rw [List.foldlM_cons] at e
    obtain ⟨y, e1, e⟩ := bind_ok_iff.1 e
    exact attach_concert ids (h.attach e1) e

/-- The tracks of C95 with less volume. -/
def softCalls : List WOp := duoCalls ++ [.track 0 (.attr .masterVolume 8192), .track 1 (.attr .masterVolume 6144)]

theorem softCalls_legal {op : WOp} (hop : op ∈ softCalls) : op.Quiet ∧ ∀ s, op.Legal 2 s := by
  unfold softCalls duoCalls beepCalls at hop
  have hp : ∀ v : Int, -2147483647 ≤ v → v ≤ 2147483647 → Plain v := fun v => Plain.of
  simp only [List.mem_cons, List.cons_append, List.nil_append, List.not_mem_nil, or_false] at hop
  rcases hop with rfl | rfl | rfl | rfl | rfl | rfl | rfl | rfl | rfl | rfl
  · exact ⟨trivial, fun s => hp _ (by decide) (by decide)⟩
  · exact ⟨trivial, fun s t _ => ⟨hp _ (by decide) (by decide), trivial⟩⟩
  · refine ⟨trivial, fun s => ⟨?_, ?_, ?_⟩⟩ <;> simp [NewSeq.Short, NewSeq.Usual, NewSeq.Modest, seqLimit, InI32]
  · exact ⟨trivial, fun s t _ => trivial⟩
  · exact ⟨trivial, fun s t _ => ⟨hp _ (by decide) (by decide), trivial⟩⟩
  · exact ⟨trivial, fun s => hp _ (by decide) (by decide)⟩
  · exact ⟨trivial, fun s t _ => ⟨hp _ (by decide) (by decide), trivial⟩⟩
  · exact ⟨trivial, fun s t _ => ⟨hp _ (by decide) (by decide), trivial⟩⟩
  · exact ⟨trivial, fun s t _ => ⟨hp _ (by decide) (by decide), trivial⟩⟩
  · exact ⟨trivial, fun s t _ => ⟨hp _ (by decide) (by decide), trivial⟩⟩

/-- What is played there is a concert. -/
theorem softPart_concert {p : Program Unit} (hp : p.Plays 2) {ops : List WOp} (ho : ∀ op ∈ ops, op ∈ softCalls) {ids : List Nat}
    {x x' : Ctx (Band Unit)} {k : Nat} {r : Int} {w : List (Int × Int)} (hk : k ≤ 1000) (e : softPart ops ids = .ok x)
    (h1 : x.clocks.length = 1) (h2 : x.units.length = ids.length) (h3 : ids ≠ []) (g : x.generate false p.cb k = .ok (r, x', w)) :
    ∃ S, w.Perm (placed 0 S) ∧ Concert 2 p k x' S := by
  unfold softPart at e
  obtain ⟨y, e1, e2⟩ := bind_ok_iff.1 e
  have h0 : Concert 2 p 0 beepCtx [] := .clock (.init (by decide) (by rfl)) rfl rfl (by decide) (by decide)
  have c := attach_concert ids (.calls h0 (fun op h => (softCalls_legal (ho op h)).1)
    (TWorld.LegalRun.of_all _ _ fun op h => (softCalls_legal (ho op h)).2) e1) e2
  have n1 : x.clocks ≠ [] := by intro h; rw [h] at h1; cases h1
  have n2 : x.units ≠ [] := by
    intro h
    rw [h] at h2
    exact h3 (List.length_eq_zero_iff.1 h2.symm)
  obtain ⟨-, rx⟩ := c.recording.song.rest hp n2
  obtain ⟨x'', S, w', k1, k2, -⟩ := generate_ok band_stable hp.ok rx (r := k) (by show (0 : Int) * 1048576 + k * 1048576 ≤ _; omega) (by omega)
  have gx := Concert.generate c n1 n2 (k := k) (by omega) (by omega) k1 k2
  rw [g] at k1
  cases k1
  rw [Nat.zero_add] at gx
  exact ⟨S, k2, gx⟩

/-- Both tracks, and each of them alone. -/
def softStems (k : Nat) : C (List (Ctx (Band Unit) × Ctx (Band Unit) × List (Int × Int))) := do
  let x ← softPart softCalls [0, 1]
  let a ← x.generate false tickTrack.cb k
  let y ← softPart (softCalls.filter (WOp.reaches 0)) [0]
  let b ← y.generate false tickTrack.cb k
  let z ← softPart (softCalls.filter (WOp.reaches 1)) [1]
  let c ← z.generate false noTick.cb k
  return [(x, a.2.1, a.2.2), (y, b.2.1, b.2.2), (z, c.2.1, c.2.2)]


/-- Whether only tracks 0 and 1 are initialised. -/
def bornIn (L : List (Int × List WOp)) : Bool := L.all fun e => e.2.all fun o => match o with
  | .init y _ => decide (y = 0 ∨ y = 1)
  | _ => true

/-- What is needed of them. -/
def softStemsOk : Bool :=
  match softStems 30 with
  | .ok [(x, a, _), (y, b, v), (z, c, w)] =>
      sameCalls (callsBefore (30 * U20) b.user.score) (callsBefore (30 * U20) (solo 0 a.user.score)) &&
      sameCalls (callsBefore (30 * U20) c.user.score) (callsBefore (30 * U20) (solo 1 a.user.score)) &&
      bornIn a.user.score && v.all (fun e => decide (e.2.natAbs ≤ 16000)) && w.all (fun e => decide (e.2.natAbs ≤ 6000)) &&
      decide (x.clocks.length = 1 ∧ x.units.length = 2 ∧ y.clocks.length = 1 ∧ y.units.length = 1 ∧ z.clocks.length = 1 ∧ z.units.length = 1)
  | _ => false

theorem softStems_ok : softStemsOk = true := by decide +kernel

theorem sampleAt_le {S : List Int} {w : List (Int × Int)} {b : Nat} (h : w.Perm (placed 0 S)) (hw : w.all (fun e => decide (e.2.natAbs ≤ b)) = true)
    (n c : Nat) : (sampleAt N S n c).natAbs ≤ b := by
  have key : ∀ (S : List Int) (k : Int), (∀ e ∈ placed k S, e.2.natAbs ≤ b) → ∀ i, (S.getD i 0).natAbs ≤ b := by
    intro S
    induction S with
    | nil => intro k _ i; simp
    | cons v S ih =>
      intro k h i
      cases i with
      | zero => exact h (k, v) (List.mem_cons_self ..)
      | succ i => exact ih (k + 1) (fun e he => h e (List.mem_cons_of_mem _ he)) i
  refine key S 0 (fun e he => ?_) _
  have := List.all_eq_true.1 hw e (h.symm.subset he)
  simpa using this

/-- Two tracks and each of them alone: the samples add up. -/
example : ∃ x S, ∃ R : Nat → List Int, Concert 2 tickTrack 30 x S ∧ (∀ y ∈ [0, 1], StemOf 2 30 x.user.score y (R y)) ∧
    ∀ n c, n < 30 → c < 2 → -1 ≤ sampleAt 2 S n c - (sampleAt 2 (R 0) n c + sampleAt 2 (R 1) n c) ∧
      sampleAt 2 S n c - (sampleAt 2 (R 0) n c + sampleAt 2 (R 1) n c) ≤ 2 := by
  have h := softStems_ok
  unfold softStemsOk at h
  split at h
  · rename_i x a u y b v z c w e
    simp only [Bool.and_eq_true, decide_eq_true_eq] at h
    obtain ⟨⟨⟨⟨⟨h1, h2⟩, h3⟩, h4⟩, h5⟩, h6, h7, h8, h9, h10, h11⟩ := h
    unfold softStems at e
    obtain ⟨x0, e1, e⟩ := bind_ok_iff.1 e
    obtain ⟨⟨r0, a0, u0⟩, g1, e⟩ := bind_ok_iff.1 e
    obtain ⟨y0, e2, e⟩ := bind_ok_iff.1 e
    obtain ⟨⟨r1, b0, v0⟩, g2, e⟩ := bind_ok_iff.1 e
    obtain ⟨z0, e3, e⟩ := bind_ok_iff.1 e
    obtain ⟨⟨r2, c0, w0⟩, g3, e⟩ := bind_ok_iff.1 e
    cases e
    obtain ⟨S, -, cS⟩ := softPart_concert tickTrack_plays (fun op h => h) (by decide) e1 h6 h7 (by decide) g1
    obtain ⟨R0, p0, c0⟩ := softPart_concert tickTrack_plays (fun op h => (List.mem_filter.1 h).1) (by decide) e2 h8 h9 (by decide) g2
    obtain ⟨R1, p1, c1⟩ := softPart_concert noTick_plays (fun op h => (List.mem_filter.1 h).1) (by decide) e3 h10 h11 (by decide) g3
    have l0 : R0.length = 30 * 2 := C85_count_partial tickTrack_plays c0.recording
    have l1 : R1.length = 30 * 2 := C85_count_partial noTick_plays c1.recording
    have hR : ∀ y ∈ [0, 1], StemOf 2 30 a0.user.score y (if y = 0 then R0 else R1) := by
      intro y hy
      rcases List.mem_cons.1 hy with rfl | hy
      · exact ⟨Unit, tickTrack, 30, _, R0, tickTrack_plays, by decide, c0, sameCalls_eq h1, by rw [if_pos rfl, ← l0, List.take_length]⟩
      · rw [List.mem_singleton] at hy
        subst hy
        exact ⟨Unit, noTick, 30, _, R1, noTick_plays, by decide, c1, sameCalls_eq h2, by rw [if_neg (by decide), ← l1, List.take_length]⟩
    refine ⟨a0, S, fun y => if y = 0 then R0 else R1, cS, hR, fun n c hn hc => ?_⟩
    have k := C96_sum_partial (K := [0, 1]) tickTrack_plays cS (by decide) ?_ (by decide) hR hn hc ?_
    · simpa using k
    · intro e he y wf h
      have := List.all_eq_true.1 (List.all_eq_true.1 h3 e he) _ h
      simp only [decide_eq_true_eq] at this
      simp [this]
    · intro m _
      have q0 := sampleAt_le (N := 2) p0 h4 m c
      have q1 := sampleAt_le (N := 2) p1 h5 m c
      simp only [List.map_cons, List.map_nil, List.sum_cons, List.sum_nil, List.length_cons, List.length_nil, if_true, if_neg (show ¬(1 : Nat) = 0 by decide)]
      omega
  · cases h

/-- They are heard, and not in the same way. -/
example : (do
    let l ← softStems 30
    return l.map fun e => e.2.2.any fun w => decide (5000 < w.2 ∧ w.2 < 6000) : C (List Bool)) = .ok [true, true, false] := by decide +kernel

/-- C96 does not say that samples always add up: what is louder than a sample can be is clipped. -/
theorem C96_refuted : (do
    let x ← duoSong
    let a ← x.generate false tickTrack.cb 17
    let y ← softPart (duoCalls.filter (WOp.reaches 0)) [0]
    let b ← y.generate false tickTrack.cb 17
    let z ← softPart (duoCalls.filter (WOp.reaches 1)) [1]
    let c ← z.generate false noTick.cb 17
    return [a.2.2, b.2.2, c.2.2].map fun w => w.lookup 33 : C (List (Option Int))) =
      .ok [some 32767, some 32767, some 5849] := by decide +kernel

end BK
