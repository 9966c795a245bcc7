import Verif.Lemmas.Sound
import Verif.Props.SongTracks
/-!
C85: what a song delivers is the sum of the band-limited steps of its tracks.
-/
namespace BK

variable {υ : Type} {N : Nat} {p : Program υ}

theorem TWorld.pass_zero (s : TWorld) : s.pass 0 = s := by
  refine TWorld.same rfl (funext fun y => ?_)
  unfold TWorld.pass
  dsimp only
  cases s.tracks y with
  | none => rfl
  | some t =>
    rw [Option.map_some, Int.sub_zero]
    split <;> rfl

/-- C85: play the tracks of a song apart from any context: make the calls of the program one after
another, render every attached track now and then, and let time pass.  Note all steps with their time
counted from the beginning.  Then all samples that the song has delivered are those steps, each in its
band-limited form at its place, added up in each channel, with the slow decay of the level.  The calls
are those of the program; the time that passes is one frame for each frame delivered; no attached track
is behind when time passes. -/
theorem C85_sound_partial (hp : p.Plays N) {T : Nat} {x : Ctx (Band υ)} {S : List Int} (h : Recording N p T x S) :
    ∃ (fuel : Nat) (blocks : List (List WOp × Int)) (P : List Pulse),
      (blocks.flatMap (·.1)).length ≤ fuel ∧ (blocks.flatMap (·.1)).filter WOp.isCall = x.user.log ∧
      (blocks.map (·.2)).sum = T * U20 ∧ ({} : TWorld).Rendered fuel blocks ∧
      ({} : TWorld).play fuel 0 blocks = .ok (x.world, P) ∧ S = soundOf N T P := by
  obtain ⟨P, hT⟩ := h.tells hp
  have hu : x.world.Upto 0 := by
    refine TWorld.withUnits_upto hT.loose (h.song.ok hp).band.1.len.symm ?_
    rcases (h.song.ok hp).rest with hr | he
    · exact hr.times
    · rw [he.units]; intro u hu; cases hu
  obtain ⟨blocks, last, s0, P0, P1, h1, h2, h3, h4⟩ := hT.script
  obtain ⟨k1, k2, k3⟩ := h4 _ (Nat.le_refl _)
  refine ⟨_, blocks ++ [(last, 0)], P, ?_, ?_, ?_, TWorld.rendered_append blocks last 0 k3 k1 k2 (Int.le_refl _) hu, ?_, hT.sound⟩
  · simp
  · simpa using h1
  · simpa using h2
  · rw [TWorld.play_append blocks last 0 k1 k2, TWorld.pass_zero, h2, h3, Int.zero_add]
    rfl

theorem soundOf_length (N T : Nat) (P : List Pulse) : (soundOf N T P).length = T * N := by
  unfold soundOf
  induction T with
  | zero => simp
  | succ T ih => rw [List.range_succ, List.flatMap_append, List.length_append, ih]; simp [Nat.succ_mul]

/-- C85: there are as many samples as there are frames times channels. -/
theorem C85_count_partial (hp : p.Plays N) {T : Nat} {x : Ctx (Band υ)} {S : List Int} (h : Recording N p T x S) :
    S.length = T * N := by
  obtain ⟨P, hT⟩ := h.tells hp
  rw [hT.sound, soundOf_length]

/-- C85: every song can be recorded: nothing is assumed of it but what C83 assumes. -/
theorem C85_recorded_partial (hp : p.Plays N) {T : Int} {x : Ctx (Band υ)} (h : Song N p T x) :
    ∃ (F : Nat) (S : List Int), T = F ∧ Recording N p F x S := by
  induction h with
  | init h1 h2 => exact ⟨0, [], rfl, .init h1 h2⟩
  | clock _ h1 h2 h3 h4 ih =>
    obtain ⟨F, S, e, ih⟩ := ih
    exact ⟨F, S, e, .clock ih h1 h2 h3 h4⟩
  | calls _ h1 h2 h3 ih =>
    obtain ⟨F, S, e, ih⟩ := ih
    exact ⟨F, S, e, .calls ih h1 h2 h3⟩
  | data _ ih =>
    obtain ⟨F, S, e, ih⟩ := ih
    exact ⟨F, S, e, .data ih⟩
  | attach _ h1 ih =>
    obtain ⟨F, S, e, ih⟩ := ih
    exact ⟨F, S, e, .attach ih h1⟩
  | detach _ h1 ih =>
    obtain ⟨F, S, e, ih⟩ := ih
    exact ⟨F, S, e, .detach ih h1⟩
  | generate h h1 h2 h3 h4 ih =>
    obtain ⟨F, S, e, ih⟩ := ih
    obtain ⟨-, hr⟩ := h.rest hp h1
    obtain ⟨x'', s, ws, a1, a2, -⟩ := generate_ok band_stable hp.ok hr (by omega) h2
    rw [h4] at a1
    cases a1
    subst e
    exact ⟨_, S ++ s, by push_cast; rfl, .generate ih h1 h2 (by exact_mod_cast h3) h4 a2⟩

/-- C85: samples that were delivered are not touched by what is set or played later: the steps of a
longer recording have the same sum in the frames of the shorter. -/
theorem C85_prefix_partial (hp : p.Plays N) {T : Nat} {x x' : Ctx (Band υ)} {S s : List Int} {k : Nat} {r : Int} {w : List (Int × Int)}
    (h : Recording N p T x S) (hne : x.units ≠ []) (hk : k ≤ 2147483647) (hT : T + k ≤ 1099511627776)
    (e : x.generate false p.cb k = .ok (r, x', w)) (hw : w.Perm (placed 0 s)) :
    ∃ (fuel : Nat) (blocks : List (List WOp × Int)) (P : List Pulse),
      (blocks.map (·.2)).sum = (T + k : Nat) * U20 ∧ ({} : TWorld).Rendered fuel blocks ∧
      ({} : TWorld).play fuel 0 blocks = .ok (x'.world, P) ∧ S = soundOf N T P ∧ s = (soundOf N (T + k) P).drop (T * N) := by
  have hl := C85_count_partial hp h
  obtain ⟨fuel, blocks, P, -, -, h3, h4, h5, h6⟩ := C85_sound_partial hp (h.generate hne hk hT e hw)
  have hs := soundOf_add N T k P
  rw [← h6] at hs
  have hsl := soundOf_length N T P
  obtain ⟨e1, e2⟩ := List.append_inj hs (by rw [hl, hsl])
  refine ⟨fuel, blocks, P, h3, h4, h5, e1, ?_⟩
  rw [← h6, ← hl, List.drop_left]

/-- One step in frame 3: the level goes up around frame 18, and decays. -/
example : soundOf 1 28 [{ chan := 0, time := 3670016, amp := 16384 }] = [0, 0, 0, 0, -5, 10, -22, 35, -56, 78, -109, 138, -172,
    199, -220, 218, -169, -55, 1750, 31063, 32752, 32767, 32380, 32699, 32282, 32520, 32215, 32336] := by decide +kernel

/-- The beginning of the song of C83, with its track played apart: a tick every two frames. -/
def beepBlocks (log : List WOp) : List (List WOp × Int) :=
  [(log ++ (List.range 12).flatMap fun i => [.track 0 .tick, .track 0 (.run ((i + 1) * 2097152))], 24 * 1048576)]

/-- What the song delivers in 24 frames are the steps of that track. -/
example : (do
    let x ← beepSong
    let a ← x.generate false tickTrack.cb 24
    let b ← ({} : TWorld).play 100 0 (beepBlocks x.user.log)
    let s := soundOf 2 24 b.2
    return (a.2.2.isPerm (placed 0 s), s.drop 44) : C (Bool × List Int)) = .ok (true, [32767, 32767, 397, 397]) := by decide +kernel

/-- Every song can be recorded, so this one. -/
example : ∃ x S, beepSong = .ok x ∧ Recording 2 tickTrack 0 x S ∧ x.units ≠ [] := by
  obtain ⟨x, e, h, hne⟩ := beepSong_song
  obtain ⟨F, S, hF, hr⟩ := C85_recorded_partial tickTrack_plays h
  have : F = 0 := by omega
  subst this
  exact ⟨x, S, e, hr, hne⟩

end BK
