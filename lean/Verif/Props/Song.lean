import Verif.Lemmas.Song
import Verif.Props.TrackSafe
/-!
C83: whole songs.
-/
namespace BK

variable {υ : Type} {N : Nat} {p : Program υ}

/-- C83: a context with tracks, on which a program makes calls whenever a clock ticks and between, renders
exactly the frames asked for, each sample is written once, and nothing faults.  Callbacks do not attach,
detach or reset tracks (see `C83_refuted`); calls stay within the limits of C80. -/
theorem C83_exact_partial (hp : p.Plays N) {T : Int} {x : Ctx (Band υ)} (h : Song N p T x) (hne : x.units ≠ []) {k : Nat}
    (hk : k ≤ 2147483647) (hT : T + k ≤ 1099511627776) :
    ∃ x' w s, x.generate false p.cb k = .ok ((k : Int), x', w) ∧ s.length = k * N ∧ w.Perm (placed 0 s) ∧ Song N p (T + k) x' := by
  obtain ⟨h0, hr⟩ := h.rest hp hne
  obtain ⟨x', s, ws, a1, a2, a3, -⟩ := generate_ok (r := k) band_stable hp.ok hr (by omega) hk
  exact ⟨x', ws, s, a1, a3, a2, h.generate hne hk hT a1⟩

/-- C83: `m` frames and then `k` frames are the same samples, and leave context, tracks, instruments and
the data of the program in the same state, as `m + k` frames. -/
theorem C83_block_size_partial (hp : p.Plays N) {T : Int} {x : Ctx (Band υ)} (h : Song N p T x) (hne : x.units ≠ []) {m k : Nat}
    (hk : m + k ≤ 2147483647) (hT : T + (m + k : Nat) ≤ 1099511627776) :
    ∃ x1 x2 w1 w2 w s1 s2, x.generate false p.cb m = .ok ((m : Int), x1, w1) ∧
      x1.generate false p.cb k = .ok ((k : Int), x2, w2) ∧ x.generate false p.cb (m + k : Nat) = .ok (((m + k : Nat) : Int), x2, w) ∧
      s1.length = m * N ∧ s2.length = k * N ∧
      w1.Perm (placed 0 s1) ∧ w2.Perm (placed 0 s2) ∧ w.Perm (placed 0 (s1 ++ s2)) := by
  obtain ⟨h0, hr⟩ := h.rest hp hne
  push_cast at hT
  obtain ⟨x1, s1, w1, a1, a2, a3, a4, a5, -⟩ := generate_ok (r := m) band_stable hp.ok hr (by omega) (by omega)
  obtain ⟨x2, s2, w2, b1, b2, b3, -, -, b6⟩ := generate_ok (r := k) band_stable hp.ok a4 (by omega) (by omega)
  obtain ⟨x3, s3, w3, c1, c2, c3, -, c5, -⟩ := generate_ok (r := m + k) band_stable hp.ok hr (by push_cast; omega) hk
  obtain ⟨rfl, rfl⟩ := Ones.det _ (b6 _ m x s1 hr (by push_cast; omega) a5) c5
  exact ⟨x1, x2, w1, w2, w3, s1, s2, a1, b1, c1, a3, b3, a2, b2, c2⟩

/-- C83: calls between do not fault either, and tracks can be attached at any time. -/
theorem C83_calls_partial (hp : p.Plays N) {T : Int} {x : Ctx (Band υ)} (h : Song N p T x) :
    (∀ ops : List WOp, (∀ op ∈ ops, op.Quiet) →
      (x.user.world.load x.user.ids (x.units.map (·.toUCore))).LegalRun N (x.user.log.length + ops.length) ops →
      ∃ x', x.perform ops = .ok x' ∧ Song N p T x' ∧ x'.units.length = x.units.length) ∧
    ∀ id, ∃ x', x.attachTrack id = .ok x' ∧ Song N p T x' := by
  have k := h.ok hp
  refine ⟨fun ops hq hl => ?_, fun id => ?_⟩
  · obtain ⟨x', e, -⟩ := k.perform hq hl
    refine ⟨x', e, h.calls hq hl e, ?_⟩
    unfold Ctx.perform Band.perform at e
    obtain ⟨r, h1, e⟩ := bind_ok_iff.1 e
    obtain ⟨s, -, h1⟩ := bind_ok_iff.1 h1
    cases h1
    cases e
    simp [setCores, TWorld.cores_length]
  · obtain ⟨x', e, -⟩ := k.attachTrack id
    exact ⟨x', e, h.attach e⟩

/-- A program that ticks track 0 with the clock. -/
def tickTrack : Program Unit := fun _ t u _ => (t, u, [.track 0 .tick])

theorem tickTrack_plays : tickTrack.Plays 2 := by
  refine ⟨fun _ t _ _ h => h, ?_, ?_⟩
  · intro k t u s op h
    unfold tickTrack at h
    rw [List.mem_singleton] at h
    subst h
    exact trivial
  · intro k t u s fuel
    refine TWorld.LegalRun.of_all _ _ ?_
    intro op hop s
    unfold tickTrack at hop
    rw [List.mem_singleton] at hop
    subst hop
    exact fun t _ => trivial

/-- A square wave with an instrument that has a volume sequence. -/
def beepCalls : List WOp := [
  .init 0 16385, .track 0 (.attr .masterVolume 32767), .setSequence 3 0 (.values [32767, 16384, 0] 2 1),
  .track 0 (.instrument (some 3)), .track 0 (.attr .note 100663296)]

/-- A stereo context with a clock of 2 frames. -/
def beepCtx : Ctx (Band Unit) := (Ctx.init { user := () } 2 44100).attachClock { period := 2097152 }

/-- The track is attached to it. -/
def beepSong : C (Ctx (Band Unit)) := do
  let x ← beepCtx.perform beepCalls
  x.attachTrack 0

theorem beepSong_song : ∃ x, beepSong = .ok x ∧ Song 2 tickTrack 0 x ∧ x.units ≠ [] := by
  have h0 : Song 2 tickTrack 0 beepCtx := .clock (.init (by decide) (by decide)) rfl rfl (by decide) (by decide)
  obtain ⟨x, e, h, -⟩ := (C83_calls_partial tickTrack_plays h0).1 beepCalls (by
      intro op hop
      unfold beepCalls at hop
      simp only [List.mem_cons, List.not_mem_nil, or_false] at hop
      rcases hop with rfl | rfl | rfl | rfl | rfl <;> trivial) (by
    refine TWorld.LegalRun.of_all _ _ ?_
    intro op hop s
    unfold beepCalls at hop
    have hp : ∀ v : Int, -2147483647 ≤ v → v ≤ 2147483647 → Plain v := fun v => Plain.of
    simp only [List.mem_cons, List.not_mem_nil, or_false] at hop
    rcases hop with rfl | rfl | rfl | rfl | rfl
    · exact hp _ (by decide) (by decide)
    · exact fun t _ => ⟨hp _ (by decide) (by decide), trivial⟩
    · refine ⟨?_, ?_, ?_⟩ <;> simp [NewSeq.Short, NewSeq.Usual, NewSeq.Modest, seqLimit, InI32]
    · exact fun t _ => trivial
    · exact fun t _ => ⟨hp _ (by decide) (by decide), trivial⟩)
  obtain ⟨x', e', h'⟩ := (C83_calls_partial tickTrack_plays h).2 0
  have hs : beepSong = .ok x' := by unfold beepSong; rw [e, ok_bind]; exact e'
  refine ⟨x', hs, h', ?_⟩
  have hn : (beepSong.map fun x => x.units.length) = .ok 1 := by decide +kernel
  rw [hs] at hn
  intro e0
  have : x'.units.length = 1 := by injection hn
  rw [e0] at this
  cases this

/-- A minute in blocks of 512 and the rest is the same as a minute. -/
example : ∃ x, beepSong = .ok x ∧ ∃ x1 x2 w1 w2 w, x.generate false tickTrack.cb (512 : Nat) = .ok (512, x1, w1) ∧
    x1.generate false tickTrack.cb (2645488 : Nat) = .ok (2645488, x2, w2) ∧
    x.generate false tickTrack.cb (2646000 : Nat) = .ok (2646000, x2, w) := by
  obtain ⟨x, e, h, hne⟩ := beepSong_song
  obtain ⟨x1, x2, w1, w2, w, s1, s2, a, b, c, -⟩ := C83_block_size_partial tickTrack_plays h hne (m := 512) (k := 2645488)
    (by decide) (by decide)
  exact ⟨x, e, x1, x2, w1, w2, w, a, b, c⟩

/-- The song is heard, and the ticks as well: without them the instrument does not lower the volume. -/
example : (do
    let x ← beepSong
    let a ← x.generate false tickTrack.cb 40
    let b ← x.generate false (Program.cb fun _ t u _ => (t, u, [])) 40
    return [a.2.2.any fun w => decide (w.2 > 8000), a.2.2 == b.2.2] : C (List Bool)) = .ok [true, false] := by decide +kernel

/-- C83 does not hold if a callback resets a track: the track starts again at the beginning of the block
that is being rendered.  Three frames of a block are rendered, the track is reset and a note is played,
and rendering goes on: if the block ends there, the note starts after the third frame, and otherwise at
the beginning of the block (which has been rendered already). -/
theorem C83_refuted : (do
    let s ← ({} : TWorld).run 20 (squareTrack ++ [.track 0 (.run 3145728)])
    let again : List WOp := [.track 0 .reset, .track 0 (.attr .masterVolume 6554), .track 0 (.attr .note 50331648)]
    let a ← s.run 20 again
    let b ← s.run 20 (.track 0 (.endAt 3145728) :: again)
    let first := fun (s : TWorld) (e : Int) => do
      match s.tracks 0 with
      | none => return none
      | some t => do
        let r ← t.run 0 s.iw e
        return (r.2.head?.map fun q => q.time)
    let ta ← first a 10485760
    let tb ← first b 7340032
    return (ta, tb.map (· + 3145728)) : C (Option Int × Option Int)) = .ok (some 0, some 3145728) := by decide +kernel

end BK
