import Verif.Props.Tape
/-!
C103: a held sample stays in its sustain range.
-/
namespace BK

/-- One step of a head that is held and moves forwards. -/
theorem Tape.next_held {T : Tape} {lo hi : Int} (hh : T.hold = some (lo, hi)) {h : Head} (hs : 0 < h.speed)
    (h0 : 0 ≤ h.pos + h.speed) (h1 : h.pos + h.speed < T.len * U20) :
    T.next h = some ⟨if hi * U20 ≤ h.pos + h.speed then lo * U20 + (h.pos + h.speed) % U20 else h.pos + h.speed, h.speed⟩ := by
  unfold Tape.next Tape.turn
  dsimp only
  rw [if_pos ⟨h0, h1⟩, Option.map_some]
  unfold Tape.keep
  rw [hh]
  dsimp only
  by_cases hx : hi * U20 ≤ h.pos + h.speed
  · rw [if_pos ⟨hs, hx⟩, if_pos hx]
  · rw [if_neg (fun k => hx k.2), if_neg (by omega), if_neg hx]

/-- One that moves backwards. -/
theorem Tape.next_held_back {T : Tape} {lo hi : Int} (hh : T.hold = some (lo, hi)) {h : Head} (hs : h.speed < 0)
    (h0 : 0 ≤ h.pos + h.speed) (h1 : h.pos + h.speed < T.len * U20) :
    T.next h = some ⟨if h.pos + h.speed < lo * U20 then (hi - 1) * U20 + (h.pos + h.speed) % U20 else h.pos + h.speed, h.speed⟩ := by
  unfold Tape.next Tape.turn
  dsimp only
  rw [if_pos ⟨h0, h1⟩, Option.map_some]
  unfold Tape.keep
  rw [hh]
  dsimp only
  by_cases hx : h.pos + h.speed < lo * U20
  · rw [if_neg (by omega), if_pos ⟨hs, hx⟩, if_pos hx]
  · rw [if_neg (by omega), if_neg (fun k => hx k.2), if_neg hx]

/-- Once in the range, it stays there for ever. -/
theorem Tape.stays {T : Tape} {lo hi : Int} (hh : T.hold = some (lo, hi)) (h0 : 0 ≤ lo) (h1 : lo < hi) : ∀ (k : Nat) {h : Head},
    0 < h.speed → hi * U20 + h.speed ≤ T.len * U20 → lo * U20 ≤ h.pos → h.pos < hi * U20 →
    ∃ d, T.at h k = some d ∧ d.speed = h.speed ∧ lo ≤ d.frame ∧ d.frame < hi
  | 0, h, hs, hl, p0, p1 => ⟨h, rfl, rfl, by unfold Head.frame; omega, by unfold Head.frame; omega⟩
  | k + 1, h, hs, hl, p0, p1 => by
    have hn := Tape.next_held hh hs (by omega) (by omega)
    obtain ⟨d, d1, d2, d3⟩ := Tape.stays hh h0 h1 k
      (h := ⟨if hi * U20 ≤ h.pos + h.speed then lo * U20 + (h.pos + h.speed) % U20 else h.pos + h.speed, h.speed⟩)
      hs hl (by dsimp only; split <;> omega) (by dsimp only; split <;> omega)
    exact ⟨d, by rw [Tape.at_succ hn]; exact d1, d2, d3⟩

theorem Tape.stays_back {T : Tape} {lo hi : Int} (hh : T.hold = some (lo, hi)) (h1 : lo < hi) (h2 : hi ≤ T.len) : ∀ (k : Nat) {h : Head},
    h.speed < 0 → 0 ≤ lo * U20 + h.speed → lo * U20 ≤ h.pos → h.pos < hi * U20 →
    ∃ d, T.at h k = some d ∧ d.speed = h.speed ∧ lo ≤ d.frame ∧ d.frame < hi
  | 0, h, hs, hl, p0, p1 => ⟨h, rfl, rfl, by unfold Head.frame; omega, by unfold Head.frame; omega⟩
  | k + 1, h, hs, hl, p0, p1 => by
    have hn := Tape.next_held_back hh hs (by omega) (by omega)
    obtain ⟨d, d1, d2, d3⟩ := Tape.stays_back hh h1 h2 k
      (h := ⟨if h.pos + h.speed < lo * U20 then (hi - 1) * U20 + (h.pos + h.speed) % U20 else h.pos + h.speed, h.speed⟩)
      hs hl (by dsimp only; split <;> omega) (by dsimp only; split <;> omega)
    exact ⟨d, by rw [Tape.at_succ hn]; exact d1, d2, d3⟩

/-- C103: a head that moves forwards runs up to the end of its sustain range and stays in the range from then on, whatever the repeat mode; it never stops.
This needs room for one step behind the range (`C103_refuted`). -/
theorem C103_forwards_partial {T : Tape} {lo hi : Int} (hh : T.hold = some (lo, hi)) (h0 : 0 ≤ lo) (h1 : lo < hi) : ∀ (k : Nat) {h : Head},
    0 < h.speed → hi * U20 + h.speed ≤ T.len * U20 → 0 ≤ h.pos → h.pos < hi * U20 →
    ∃ d, T.at h k = some d ∧ d.speed = h.speed ∧
      (if h.pos + k * h.speed < hi * U20 then d.pos = h.pos + k * h.speed else lo ≤ d.frame ∧ d.frame < hi)
  | 0, h, hs, hl, p0, p1 => ⟨h, rfl, rfl, by rw [if_pos (by push_cast; omega)]; push_cast; omega⟩
  | k + 1, h, hs, hl, p0, p1 => by
    have hk : ((k + 1 : Nat) : Int) * h.speed = h.speed + k * h.speed := by push_cast; ring
    have hn := Tape.next_held hh hs (by omega) (by omega)
    by_cases hx : hi * U20 ≤ h.pos + h.speed
    · rw [if_pos hx] at hn
      obtain ⟨d, d1, d2, d3⟩ := Tape.stays hh h0 h1 k (h := ⟨lo * U20 + (h.pos + h.speed) % U20, h.speed⟩) hs hl
        (by dsimp only; omega) (by dsimp only; omega)
      refine ⟨d, by rw [Tape.at_succ hn]; exact d1, d2, ?_⟩
      rw [if_neg]
      · exact d3
      · have := Int.mul_nonneg (Int.natCast_nonneg k) (Int.le_of_lt hs)
        omega
    · rw [if_neg hx] at hn
      obtain ⟨d, d1, d2, d3⟩ := C103_forwards_partial hh h0 h1 k (h := ⟨h.pos + h.speed, h.speed⟩) hs hl
        (by dsimp only; omega) (by dsimp only; omega)
      refine ⟨d, by rw [Tape.at_succ hn]; exact d1, d2, ?_⟩
      dsimp only at d3
      rw [hk, ← Int.add_assoc]
      exact d3

/-- C103: a head that moves backwards likewise; it needs room for one step before the range. -/
theorem C103_backwards_partial {T : Tape} {lo hi : Int} (hh : T.hold = some (lo, hi)) (h1 : lo < hi) (h2 : hi ≤ T.len) : ∀ (k : Nat) {h : Head},
    h.speed < 0 → 0 ≤ lo * U20 + h.speed → lo * U20 ≤ h.pos → h.pos < T.len * U20 →
    ∃ d, T.at h k = some d ∧ d.speed = h.speed ∧
      (if lo * U20 ≤ h.pos + k * h.speed then d.pos = h.pos + k * h.speed else lo ≤ d.frame ∧ d.frame < hi)
  | 0, h, hs, hl, p0, p1 => ⟨h, rfl, rfl, by rw [if_pos (by push_cast; omega)]; push_cast; omega⟩
  | k + 1, h, hs, hl, p0, p1 => by
    have hk : ((k + 1 : Nat) : Int) * h.speed = h.speed + k * h.speed := by push_cast; ring
    have hn := Tape.next_held_back hh hs (by omega) (by omega)
    by_cases hx : h.pos + h.speed < lo * U20
    · rw [if_pos hx] at hn
      obtain ⟨d, d1, d2, d3⟩ := Tape.stays_back hh h1 h2 k (h := ⟨(hi - 1) * U20 + (h.pos + h.speed) % U20, h.speed⟩) hs hl
        (by dsimp only; omega) (by dsimp only; omega)
      refine ⟨d, by rw [Tape.at_succ hn]; exact d1, d2, ?_⟩
      rw [if_neg]
      · exact d3
      · have := Int.mul_nonneg (Int.natCast_nonneg k) (show 0 ≤ -h.speed by omega)
        rw [Int.mul_neg] at this
        omega
    · rw [if_neg hx] at hn
      obtain ⟨d, d1, d2, d3⟩ := C103_backwards_partial hh h1 h2 k (h := ⟨h.pos + h.speed, h.speed⟩) hs hl
        (by dsimp only; omega) (by dsimp only; omega)
      refine ⟨d, by rw [Tape.at_succ hn]; exact d1, d2, ?_⟩
      dsimp only at d3
      rw [hk, ← Int.add_assoc]
      exact d3

/-- C103: at the speed it has been recorded at, the range is repeated without a gap. -/
theorem C103_loop_partial {T : Tape} {lo hi : Int} (hh : T.hold = some (lo, hi)) (h0 : 0 ≤ lo) (h1 : lo < hi) (h2 : hi < T.len) : ∀ (k : Nat) {h : Head},
    h.speed = U20 → lo * U20 ≤ h.pos → h.pos < hi * U20 →
    T.at h k = some ⟨lo * U20 + (h.pos - lo * U20 + k * U20) % ((hi - lo) * U20), U20⟩
  | 0, h, hs, p0, p1 => by
    rw [Tape.at_zero]
    congr 1
    cases h
    dsimp only at hs p0 p1 ⊢
    congr 1
    rw [show ((0 : Nat) : Int) = 0 from rfl, Int.zero_mul, Int.add_zero, Int.emod_eq_of_lt (by omega) (by omega)]
    omega
  | k + 1, h, hs, p0, p1 => by
    have hn := Tape.next_held hh (by omega) (show 0 ≤ h.pos + h.speed by omega) (by omega)
    rw [Tape.at_succ hn, C103_loop_partial hh h0 h1 h2 k
      (h := ⟨if hi * U20 ≤ h.pos + h.speed then lo * U20 + (h.pos + h.speed) % U20 else h.pos + h.speed, h.speed⟩) hs (by dsimp only; split <;> omega) (by dsimp only; split <;> omega)]
    congr 3
    dsimp only
    split
    · rw [← Int.sub_emod_right (h.pos - lo * U20 + ((k + 1 : Nat) : Int) * U20)]
      congr 1
      push_cast
      omega
    · congr 1
      push_cast
      omega

/-- C103: after the release the tape is that of C102: what is behind the range is played, once, round or back and forth. -/
theorem C103_released {c : UCore} (h : c.release = true) : c.tape.hold = none := by
  unfold UCore.tape
  rw [h, Bool.not_true, Bool.and_false]
  rfl

/-- C103: while it is not released, the range that has been set is held. -/
theorem C103_held {c : UCore} (h : c.release = false) (hs : c.sustainRange = true) : c.tape.hold = some (c.sustainOffset, c.sustainEnd) := by
  unfold UCore.tape
  rw [h, hs]
  rfl

/-- A range that goes to the end of the sample, played forwards, is not held: without repeat the head stops as soon as it leaves the range. -/
theorem C103_end_stops {T : Tape} {lo : Int} (hh : T.hold = some (lo, T.len)) (hm1 : T.mode ≠ 1) (hm2 : T.mode ≠ 2) : ∀ (k : Nat) {h : Head},
    0 < h.speed → 0 ≤ h.pos → h.pos < T.len * U20 → T.len * U20 ≤ h.pos + k * h.speed → T.at h k = none
  | 0, h, hs, p0, p1, hk => by push_cast at hk; omega
  | k + 1, h, hs, p0, p1, hl => by
    have hk : ((k + 1 : Nat) : Int) * h.speed = h.speed + k * h.speed := by push_cast; ring
    by_cases hx : h.pos + h.speed < T.len * U20
    · have hn := Tape.next_held hh hs (by omega) hx
      rw [if_neg (by omega)] at hn
      rw [Tape.at_succ hn]
      exact C103_end_stops hh hm1 hm2 k hs (by dsimp only; omega) hx (by dsimp only; omega)
    · show (T.next h).bind _ = _
      have hn : T.next h = none := by
        unfold Tape.next Tape.turn
        dsimp only
        rw [if_neg (by omega), if_neg hm1, if_neg hm2]
        rfl
      rw [hn]
      rfl

/-- Four frames of which the second to the third are sustained, or the second to the last. -/
def sustA (hi mode : Int) : List WOp := [.init 0 16385, .track 0 (.attach 44100 2 0), .track 0 (.data .sample (some ⟨0, ⟨4, 1, [1000, 2000, 3000, 4000]⟩, 0⟩)),
  .track 0 (.sustain (some (1, hi))), .track 0 (.attr (.unit .sampleRepeat) mode),
  .track 0 (.attr .masterVolume 32767), .track 0 (.attr .note (48 * 1048576))]

/-- C103 does not hold for ranges up to the end of the sample: the sample ends although it has not been released, or it is repeated from its first
frame, which is not in the range. -/
theorem C103_refuted : tapeHeard (sustA 4 0) 8 = some [(0, 999), (1, 1000), (2, 1000), (3, 1000)] ∧
    tapeHeard (sustA 4 1) 8 = some [(0, 999), (1, 1000), (2, 1000), (3, 1000), (4, -3000), (5, 1000), (6, 1000), (7, 1000)] := by decide +kernel

/-- With a frame behind the range it is held: frames 1 and 2 in turn. -/
example : tapeFacts (sustA 3 0) = some ([0, 4, 16391, 16391, 0, 50331648, 0], List.replicate 10 true) ∧
    tapeHeard (sustA 3 0) 8 = some [(0, 999), (1, 1000), (2, 1000), (3, -1000), (4, 1000), (5, -1000), (6, 1000), (7, -1000)] := by decide +kernel

/-- Tapes and heads as C103 asks. -/
example : Tape.at ⟨8, 0, some (2, 5)⟩ ⟨0, 1572864⟩ 3 = some ⟨4718592, 1572864⟩ ∧ Tape.at ⟨8, 0, some (2, 5)⟩ ⟨0, 1572864⟩ 4 = some ⟨2097152, 1572864⟩ ∧
    5 * U20 + 1572864 ≤ 8 * U20 ∧ Tape.at ⟨8, 0, some (2, 5)⟩ ⟨7340032, -1572864⟩ 4 = some ⟨4194304, -1572864⟩ ∧ 0 ≤ 2 * U20 + -1572864 ∧
    Tape.at ⟨8, 0, some (2, 5)⟩ ⟨2097155, 1048576⟩ 4 = some ⟨3145731, 1048576⟩ ∧ Tape.at ⟨8, 0, some (2, 8)⟩ ⟨0, 1572864⟩ 6 = none := by
  decide +kernel

/-- Both states of the release. -/
example : ({ sustainRange := true, sustainEnd := 3, release := true } : UCore).tape.hold = none ∧
    ({ sustainRange := true, sustainEnd := 3 } : UCore).tape.hold = some (0, 3) := ⟨rfl, rfl⟩

end BK
