import Verif.Lemmas.Convert
/-! C60, C61: conversion of packed samples. -/
namespace BK

theorem byteFrames_length (fmt : Fmt) (hf : fmt ≠ .s16) (c : Int) :
    (byteFrames fmt.bits (decide (fmt = .s8)) c).length = 8 / fmt.bits := by
  cases fmt
  all_goals first
    | exact absurd rfl hf
    | simp [byteFrames, Fmt.bits]

theorem param_bits (fmt : Fmt) (e : Nat) (he : e < 4) :
    numBitsFromParam ((fmt.param + 65536 * (e : Int)) % 16) = some ((fmt.bits : Int), decide (fmt = .s8 ∨ fmt = .s16)) ∧
    (fmt.param + 65536 * (e : Int)) / 65536 % 4 = e := by
  have hp : 1 ≤ fmt.param ∧ fmt.param ≤ 6 := by cases fmt <;> exact ⟨by decide, by decide⟩
  refine ⟨?_, by omega⟩
  rw [show (fmt.param + 65536 * (e : Int)) % 16 = fmt.param by omega]
  cases fmt <;> rfl

/-- What the conversion does to a block of memory of the size asked for. -/
theorem convertFromBits_eq (fmt : Fmt) (big reverse : Bool) (mem bytes : List Int) (ch : Nat)
    (h1 : 1 ≤ ch) (hm : mem.length = fmt.room bytes.length ch) :
    ∃ fs rest, convertFromBits big mem bytes bytes.length fmt.bits (decide (fmt = .s8 ∨ fmt = .s16))
        reverse ch = .ok (fs ++ rest) ∧
      fs = (if fmt = .s16 then
        pairs (pairFrame big reverse) (bytes.take (bytes.length - bytes.length % (fmt.mask * ch)))
        else (bytes.take (bytes.length - bytes.length % (fmt.mask * ch))).flatMap
          (byteFrames fmt.bits (decide (fmt = .s8)))) ∧
      fs.length + rest.length = mem.length ∧
      fs.length = 8 * (bytes.length - bytes.length % (fmt.mask * ch)) / fmt.bits := by
  have hroom := room_ge fmt bytes.length ch h1
  have hsz : ((bytes.length : Int) - (bytes.length : Int) % ((fmt.mask : Int) * (ch : Int))) =
      ((bytes.length - bytes.length % (fmt.mask * ch) : Nat) : Int) := by
    rw [← Int.natCast_mul, ← Int.natCast_emod]
    have := Nat.mod_le bytes.length (fmt.mask * ch)
    omega
  have hmask : (if (fmt.bits : Int) ≤ 8 then (1 : Int) else 2) = (fmt.mask : Int) := by
    cases fmt <;> rfl
  have hmpos : (fmt.mask : Int) * (ch : Int) ≠ 0 := by
    cases fmt <;> (show _ * (ch : Int) ≠ 0) <;> simp [Fmt.mask] <;> omega
  unfold convertFromBits
  dsimp only
  rw [hmask, if_neg hmpos, hsz, if_neg (by omega), Int.toNat_natCast]
  generalize hn : bytes.length - bytes.length % (fmt.mask * ch) = n at hroom
  have htl : (bytes.take n).length = n := by
    rw [List.length_take]; omega
  by_cases hf : fmt = .s16
  · subst hf
    rw [if_neg (by decide), if_pos rfl]
    have hev : n % 2 = 0 := by
      have := Nat.div_add_mod bytes.length (2 * ch)
      have hn' : n = 2 * (ch * (bytes.length / (2 * ch))) := by
        rw [← Nat.mul_assoc]
        change bytes.length - bytes.length % (2 * ch) = n at hn
        omega
      omega
    have hr : 8 * n / 16 ≤ mem.length := by rw [hm]; exact hroom
    have e := convertPairs_eq (pairFrame big reverse) (bytes.take n) mem 0 (by omega)
      (by rw [htl]; omega)
    refine ⟨pairs (pairFrame big reverse) (bytes.take n), mem.drop (0 + (bytes.take n).length / 2),
      ?_, rfl, ?_, ?_⟩
    · rw [show ((0 : Nat) : Int) = 0 from rfl] at e
      rw [e, List.take_zero, List.nil_append]
    · rw [pairs_length, List.length_drop, htl]; omega
    · rw [pairs_length, htl]
      show n / 2 = 8 * n / 16
      omega
  · have h8 : (fmt.bits : Int) ≤ 8 := by
      cases fmt <;> first | decide | exact absurd rfl hf
    rw [if_pos h8, if_neg hf]
    have hdec : decide (fmt = .s8 ∨ fmt = .s16) = decide (fmt = .s8) := by
      cases fmt <;> first | rfl | exact absurd rfl hf
    have hl : ((bytes.take n).flatMap (byteFrames fmt.bits (decide (fmt = .s8)))).length =
        8 * n / fmt.bits := by
      rw [flatMap_length_const (fun c _ => byteFrames_length fmt hf c), htl]
      cases fmt <;> first | exact absurd rfl hf | (simp only [Fmt.bits]; omega)
    rw [hdec]
    have e := convertBytes_eq (byteFrames fmt.bits (decide (fmt = .s8))) (bytes.take n) mem 0
      (by rw [hl]; omega)
    refine ⟨(bytes.take n).flatMap (byteFrames fmt.bits (decide (fmt = .s8))), mem.drop (0 +
      ((bytes.take n).flatMap (byteFrames fmt.bits (decide (fmt = .s8)))).length), ?_, rfl, ?_, hl⟩
    · rw [show ((0 : Nat) : Int) = 0 from rfl] at e
      rw [e, List.take_zero, List.nil_append]
    · rw [List.length_drop, hl]; omega

/-- The whole call. -/
theorem setRawData_eq (fmt : Fmt) (big : Bool) (bytes : List Int) (ch e : Nat)
    (mem : Nat → Option (List Int)) (hs : bytes.length < 268435456) (h1 : 1 ≤ ch) (h8 : ch ≤ 8)
    (he : e < 4) (hmem : ∀ n, ∃ m, mem n = some m ∧ m.length = n) :
    ∃ fs rest, setRawData big mem bytes bytes.length ch (fmt.param + 65536 * (e : Int)) =
        .ok (.ok { frames := fs ++ rest, numFrames := ((8 * bytes.length / (fmt.bits * ch) : Nat) : Int)
                   numChannels := ch, numBits := fmt.bits }) ∧
      fs = (if fmt = .s16 then
        pairs (pairFrame big (decide (e ≠ 0) && (big != decide (e = 1))))
          (bytes.take (bytes.length - bytes.length % (fmt.mask * ch)))
        else (bytes.take (bytes.length - bytes.length % (fmt.mask * ch))).flatMap
          (byteFrames fmt.bits (decide (fmt = .s8)))) ∧
      fs.length + rest.length = fmt.room bytes.length ch ∧
      fs.length = 8 * (bytes.length - bytes.length % (fmt.mask * ch)) / fmt.bits := by
  obtain ⟨hp, hen⟩ := param_bits fmt e he
  obtain ⟨m, hm, hml⟩ := hmem (fmt.room bytes.length ch)
  have hrev : (decide ((e : Int) ≠ 0) && (big != decide ((e : Int) = 1))) =
      (decide (e ≠ 0) && (big != decide (e = 1))) := by
    have a1 : decide ((e : Int) ≠ 0) = decide (e ≠ 0) := by
      rw [decide_eq_decide]; omega
    have a2 : decide ((e : Int) = 1) = decide (e = 1) := by
      rw [decide_eq_decide]; omega
    rw [a1, a2]
  obtain ⟨fs, rest, hc, hfs, hl1, hl2⟩ := convertFromBits_eq fmt big
    (decide (e ≠ 0) && (big != decide (e = 1))) m bytes ch h1 hml
  refine ⟨fs, rest, ?_, hfs, by rw [hl1, hml], hl2⟩
  unfold setRawData
  dsimp only
  rw [if_neg (by omega), hp, hen]
  dsimp only
  rw [calcNumFrames_eq fmt hs h1 h8, ok_bind, if_neg (by omega), Int.toNat_natCast, hm]
  dsimp only
  rw [hrev, hc, ok_bind, pure_eq_ok]
  congr 3
  have hle : fmt.room bytes.length ch ≤ 8 * bytes.length := by
    unfold Fmt.room
    refine Nat.le_trans (Nat.mul_le_mul_left _ ?_) (Nat.div_mul_le_self _ (fmt.bits * ch))
    exact Nat.le_mul_of_pos_left _ (by cases fmt <;> decide)
  have hw : wrapU32 ((fmt.room bytes.length ch : Nat) : Int) = ((fmt.room bytes.length ch : Nat) : Int) := by
    unfold wrapU32
    omega
  rw [hw, ← Int.natCast_ediv]
  congr 1
  unfold Fmt.room
  exact Nat.mul_div_cancel _ (by omega)

/-- **C60** (memory; partial: for less than 2²⁸ bytes, see `C60_refuted_size`).  Whatever the bytes, the
format, the channels, the endianness and the contents of the allocated memory are: loading raw data
succeeds without writing outside of the memory asked for or reading outside of the data, and all
frames are in the memory. -/
theorem C60_memory_partial (fmt : Fmt) (big : Bool) (bytes : List Int) (ch e : Nat)
    (mem : Nat → Option (List Int)) (hs : bytes.length < 268435456) (h1 : 1 ≤ ch) (h8 : ch ≤ 8)
    (he : e < 4) (hmem : ∀ n, ∃ m, mem n = some m ∧ m.length = n) :
    ∃ d, setRawData big mem bytes bytes.length ch (fmt.param + 65536 * (e : Int)) = .ok (.ok d) ∧
      d.numFrames * d.numChannels = (d.frames.length : Int) ∧ d.numChannels = ch ∧
      d.numFrames = ((8 * bytes.length / fmt.bits / ch : Nat) : Int) := by
  obtain ⟨fs, rest, h, -, hl, -⟩ := setRawData_eq fmt big bytes ch e mem hs h1 h8 he hmem
  refine ⟨_, h, ?_, rfl, ?_⟩
  · dsimp only
    rw [List.length_append, hl, ← Int.natCast_mul]
    rfl
  · dsimp only
    rw [Nat.div_div_eq_div_mul]

/-- **C60** (samples; partial: for less than 2²⁸ bytes, and not for the sample −128 of signed 8-bit data
and data of opposite endianness, see `C60_refuted_sign` and `C61_refuted`).  Loading raw data in one of
the formats gives the packed samples in order, each with its amplitude.  What is left over is beyond the
last byte that is complete for all channels; nothing is left over if samples have at least 8 bits or the
size is a multiple of the number of channels. -/
theorem C60_samples_partial (fmt : Fmt) (big : Bool) (bytes : List Int) (ch e : Nat)
    (mem : Nat → Option (List Int)) (hb : Bytes bytes) (hs : bytes.length < 268435456)
    (h1 : 1 ≤ ch) (h8 : ch ≤ 8) (he : e < 4) (hmem : ∀ n, ∃ m, mem n = some m ∧ m.length = n)
    (hsign : fmt = .s8 → 128 ∉ bytes) (hend : fmt = .s16 → e = 0 ∨ big = decide (e = 1)) :
    ∃ d rest, setRawData big mem bytes bytes.length ch (fmt.param + 65536 * (e : Int)) = .ok (.ok d) ∧
      d.frames = (unpack fmt big (bytes.take (bytes.length - bytes.length % (fmt.mask * ch)))).map
        fmt.level ++ rest ∧
      (8 ≤ fmt.bits ∨ bytes.length % ch = 0 → rest = []) := by
  obtain ⟨fs, rest, h, hfs, hl, hl2⟩ := setRawData_eq fmt big bytes ch e mem hs h1 h8 he hmem
  refine ⟨_, rest, h, ?_, fun hh => ?_⟩
  · dsimp only
    rw [hfs]
    congr 1
    by_cases hf : fmt = .s16
    · rw [if_pos hf]
      subst hf
      have hr : (decide (e ≠ 0) && (big != decide (e = 1))) = false := by
        rcases hend rfl with h | h
        · subst h; rfl
        · rw [h]; simp
      rw [hr]
      exact unpack_pairs big _ (hb.take _)
    · rw [if_neg hf]
      refine (unpack_bytes fmt big hf _ (hb.take _) ?_).1
      intro e8
      subst e8
      have hs8 := hsign rfl
      have : ∀ cs : List Int, Bytes cs → 128 ∉ cs → ∀ x ∈ unpack .s8 big cs, x ≠ -128 := by
        intro cs
        induction cs with
        | nil => intro _ _ x hx; cases hx
        | cons a cs ih =>
          intro hb hn x hx
          rw [unpack] at hx
          rcases List.mem_cons.mp hx with rfl | hx
          · have ha := hb a List.mem_cons_self
            intro hc
            refine hn ?_
            have : a = 128 := by
              unfold signed at hc
              rw [show (2:Int) ^ (8 - 1) = 128 from rfl, show (2:Int) ^ 8 = 256 from rfl] at hc
              split at hc <;> omega
            rw [this]
            exact List.mem_cons_self
          · exact ih (fun y hy => hb y (List.mem_cons_of_mem _ hy))
              (fun h => hn (List.mem_cons_of_mem _ h)) x hx
      exact this _ (hb.take _) (fun h => hs8 (List.mem_of_mem_take h))
  · have := room_eq fmt bytes.length ch h1 hh
    exact List.eq_nil_of_length_eq_zero (by omega)

/-- **C60** (amplitude).  The amplitude of a larger sample is larger, the largest sample has full
amplitude, and all amplitudes are in range. -/
theorem C60_amplitude (fmt : Fmt) :
    (∀ x y, fmt.bottom ≤ x → x < y → y ≤ fmt.top → fmt.level x < fmt.level y) ∧
    fmt.level fmt.top = 32767 ∧ fmt.level 0 = 0 ∧
    (∀ x, fmt.bottom ≤ x → x ≤ fmt.top → InI16 (fmt.level x)) := by
  have hsmall : fmt ≠ .s16 → 0 < fmt.top ∧ fmt.top ≤ 255 := by
    intro h
    cases fmt <;> first | exact absurd rfl h | exact ⟨by decide, by decide⟩
  have hmono : ∀ x y, fmt.bottom ≤ x → x < y → y ≤ fmt.top → fmt.level x < fmt.level y := by
    intro x y hx hxy hy
    by_cases hf : fmt = .s16
    · subst hf
      rw [level_s16, level_s16]; exact hxy
    · have ht := hsmall hf
      unfold Fmt.level
      clear hx hy hf hsmall
      generalize fmt.top = t at ht
      have ex := Int.mul_tdiv_add_tmod (x * 32767) t
      have ey := Int.mul_tdiv_add_tmod (y * 32767) t
      have bx := Int.lt_tmod_of_pos (x * 32767) ht.1
      have bx' := Int.tmod_lt_of_pos (x * 32767) ht.1
      have by' := Int.lt_tmod_of_pos (y * 32767) ht.1
      have by'' := Int.tmod_lt_of_pos (y * 32767) ht.1
      apply Decidable.byContradiction
      intro hc
      have hle : (y * 32767).tdiv t ≤ (x * 32767).tdiv t := by omega
      have := Int.mul_le_mul_of_nonneg_left hle (Int.le_of_lt ht.1)
      omega
  have htop : fmt.level fmt.top = 32767 := by cases fmt <;> decide
  have hbot : -32768 ≤ fmt.level fmt.bottom := by cases fmt <;> decide
  refine ⟨hmono, htop, by cases fmt <;> decide, fun x h0 h1 => ?_⟩
  have hbt : fmt.bottom < fmt.top := by cases fmt <;> decide
  have l1 : fmt.level x ≤ 32767 := by
    rcases Int.lt_or_eq_of_le h1 with h | h
    · have := hmono x fmt.top h0 h (Int.le_refl _)
      omega
    · rw [h, htop]; decide
  have l0 : -32768 ≤ fmt.level x := by
    rcases Int.lt_or_eq_of_le h0 with h | h
    · have := hmono fmt.bottom x (Int.le_refl _) h h1
      omega
    · rw [← h]; exact hbot
  exact ⟨l0, l1⟩

/-- **C60** does not hold for the sample −128 of signed 8-bit data: the lowest sample becomes nearly the
highest frame. -/
theorem C60_refuted_sign (big : Bool) (a : Int) :
    setRawData big (fun _ => some [a]) [128] 1 1 Fmt.s8.param =
      .ok (.ok { frames := [32511], numFrames := 1, numChannels := 1, numBits := 8 }) := by
  cases big <;> rfl

/-- **C60** does not hold if samples have fewer than 8 bits and the size is not a multiple of the number
of channels: 1 byte of 1 bit for 3 channels gives 6 frames, all of which are whatever the allocated
memory contained. -/
theorem C60_refuted_rest (big : Bool) (a b c d e f : Int) :
    setRawData big (fun _ => some [a, b, c, d, e, f]) [255] 1 3 Fmt.u1.param =
      .ok (.ok { frames := [a, b, c, d, e, f], numFrames := 2, numChannels := 3, numBits := 1 }) := by
  cases big <;> rfl

/-- **C60** does not hold for 2²⁹ bytes: no memory is asked for and the first frame is written outside of
it, whatever the bytes are. -/
theorem C60_refuted_size (big : Bool) (bytes : List Int) (hl : bytes.length = 536870912)
    (mem : Nat → Option (List Int)) (hmem : mem 0 = some []) :
    setRawData big mem bytes bytes.length 1 Fmt.u8.param = .error .oob := by
  unfold setRawData
  dsimp only
  rw [if_neg (by decide), show numBitsFromParam (Fmt.u8.param % 16) = some (8, false) from rfl]
  dsimp only
  rw [hl, show calcNumFrames ((536870912 : Nat) : Int) 8 1 = .ok 0 by decide +kernel, ok_bind,
    if_neg (by decide), show (0 : Int).toNat = 0 from rfl, hmem]
  dsimp only
  unfold convertFromBits
  dsimp only
  rw [if_pos (by decide : (8:Int) ≤ 8), if_pos (by decide : (8:Int) ≤ 8), if_neg (by decide),
    if_neg (by rw [hl]; decide),
    show ((536870912 : Nat) : Int) - ((536870912 : Nat) : Int) % (1 * 1) = ((536870912 : Nat) : Int) by
      decide +kernel,
    Int.toNat_natCast, ← hl, List.take_length]
  cases bytes with
  | nil => cases hl
  | cons c cs => rfl

theorem pairs_reverse : ∀ cs : List Int, Bytes cs → pairs (pairFrame false true) cs =
    (unpack .s16 true cs).map (fun x => x - x % 256)
  | [], _ => rfl
  | [_], _ => rfl
  | a :: b :: cs, hb => by
    have ha := hb a List.mem_cons_self
    have hb2 := hb b (List.mem_cons_of_mem _ List.mem_cons_self)
    have ih := pairs_reverse cs (fun x hx => hb x (List.mem_cons_of_mem _ (List.mem_cons_of_mem _ hx)))
    rw [pairs, unpack]
    rw [List.map_cons, ← ih]
    congr 1
    unfold pairFrame
    rw [if_pos rfl, if_pos rfl, ← signed_wrap (by omega) (by omega)]
    unfold wrapI16
    omega

/-- **C61** (partial: the low byte is lost, see `C61_refuted`).  On a little-endian machine, loading
16-bit data declared as big-endian gives the samples of the big-endian data (that is, those of the
swapped bytes) with the low byte 0. -/
theorem C61_high_partial (bytes : List Int) (ch : Nat) (mem : Nat → Option (List Int)) (hb : Bytes bytes)
    (hs : bytes.length < 268435456) (h1 : 1 ≤ ch) (h8 : ch ≤ 8)
    (hmem : ∀ n, ∃ m, mem n = some m ∧ m.length = n) :
    ∃ d, setRawData false mem bytes bytes.length ch (Fmt.s16.param + 65536) = .ok (.ok d) ∧
      d.frames = (unpack .s16 true (bytes.take (bytes.length - bytes.length % (2 * ch)))).map
        (fun x => x - x % 256) := by
  obtain ⟨fs, rest, h, hfs, hl, hl2⟩ := setRawData_eq .s16 false bytes ch 1 mem hs h1 h8 (by decide) hmem
  refine ⟨_, h, ?_⟩
  dsimp only
  have hr : rest = [] := by
    have := room_eq .s16 bytes.length ch h1 (.inl (by decide))
    exact List.eq_nil_of_length_eq_zero (by omega)
  rw [hr, List.append_nil, hfs, if_pos rfl]
  exact pairs_reverse _ (hb.take _)

/-- **C61** does not hold: on a little-endian machine the big-endian sample 1 is loaded as 0, and on a
big-endian machine the little-endian sample 1 as 256. -/
theorem C61_refuted (a : Int) :
    (setRawData false (fun _ => some [a]) [0, 1] 2 1 (Fmt.s16.param + 65536) =
      .ok (.ok { frames := [0], numFrames := 1, numChannels := 1, numBits := 16 }) ∧
     setRawData false (fun _ => some [a]) [1, 0] 2 1 Fmt.s16.param =
      .ok (.ok { frames := [1], numFrames := 1, numChannels := 1, numBits := 16 })) ∧
    (setRawData true (fun _ => some [a]) [1, 0] 2 1 (Fmt.s16.param + 2 * 65536) =
      .ok (.ok { frames := [256], numFrames := 1, numChannels := 1, numBits := 16 }) ∧
     setRawData true (fun _ => some [a]) [0, 1] 2 1 Fmt.s16.param =
      .ok (.ok { frames := [1], numFrames := 1, numChannels := 1, numBits := 16 })) := by
  refine ⟨⟨rfl, rfl⟩, rfl, rfl⟩

/-- The hypotheses are met: 2-bit samples, 16-bit samples. -/
example (a : Int) : setRawData false (fun n => some (List.replicate n a)) [27, 228] 2 2 Fmt.u2.param =
    .ok (.ok { frames := [0, 10922, 21844, 32767, 32767, 21844, 10922, 0], numFrames := 4,
               numChannels := 2, numBits := 2 }) := rfl
example : unpack .u2 false [27, 228] = [0, 1, 2, 3, 3, 2, 1, 0] := by decide
example (a : Int) : setRawData false (fun n => some (List.replicate n a)) [254, 255, 1, 128, 7] 5 1
    (Fmt.s16.param + 2 * 65536) =
    .ok (.ok { frames := [-2, -32767], numFrames := 2, numChannels := 1, numBits := 16 }) := rfl
example : Bytes [254, 255, 1, 128, 7] ∧ unpack .s16 false [254, 255, 1, 128] = [-2, -32767] := by
  refine ⟨by unfold Bytes; decide, by decide⟩
example (a : Int) : ∀ n, ∃ m, (fun n => some (List.replicate n a)) n = some m ∧ m.length = n :=
  fun _ => ⟨_, rfl, List.length_replicate⟩

end BK
