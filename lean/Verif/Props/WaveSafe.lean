import Verif.Props.Wave
/-! C68, C78: reading arbitrary and truncated WAVE files. -/
namespace BK

theorem leVal_eq_zero {a b : Int} (h : Bytes [a, b]) (h0 : leVal [a, b] = 0) : [a, b] = [0, 0] := by
  have ha := h a List.mem_cons_self
  have hb := h b (List.mem_cons_of_mem _ List.mem_cons_self)
  simp only [leVal] at h0
  have : a = 0 ∧ b = 0 := by omega
  rw [this.1, this.2]

theorem field_nonneg (big : Bool) (bs : List Int) (o n : Nat) (hb : Bytes bs) (hl : o + n ≤ bs.length) :
    0 ≤ field big bs o n ∧ field big bs o n < 256 ^ n := by
  have hB : Bytes ((bs.drop o).take n) := fun x hx => hb x (List.mem_of_mem_drop (List.mem_of_mem_take hx))
  have hlen : ((bs.drop o).take n).length = n := by rw [List.length_take, List.length_drop]; omega
  have hs := swapIf_valOf big _ hB
  have hv := leVal_bound _ hB
  rw [hlen] at hs hv
  unfold field
  rw [hs]
  exact hv

/-- What a successful header says. -/
structure WaveReader.Ready (r : WaveReader) : Prop where
  ch : 1 ≤ r.numChannels
  bits : r.numBits = 8 ∨ r.numBits = 16
  size : 0 ≤ r.dataSize
  num : r.numFrames = wrapI32 (((wrapI32 r.dataSize).tdiv r.numChannels).tdiv (if r.numBits = 8 then 1 else 2))

theorem findData_size (big : Bool) : ∀ (n : Nat) (f : File) (r : Option Int × File), Bytes f.bytes →
    findData big n f = .ok r → ∀ s, r.1 = some s → 0 ≤ s ∧ s < 4294967296
  | 0, _, _, _, h => by cases h
  | n + 1, f, r, hb, h => by
    unfold findData at h
    dsimp only at h
    have hB : Bytes (f.read 8).1 := fun x hx => by
      unfold File.read at hx
      exact hb x (List.mem_of_mem_drop (List.mem_of_mem_take hx))
    split at h
    · cases h
      intro s hs; cases hs
    · rename_i h8
      split at h
      · injection h with h
        intro s hs
        rw [← h] at hs
        injection hs with hs
        rw [← hs]
        exact field_nonneg big _ 4 4 hB (by omega)
      · have e := findData_size big n _ r (by exact hb) h
        exact e

/-- **C68** (header; partial: not if the number of channels is 0, see `C68_refuted`).  Whatever bytes a file
consists of: if the bytes where the number of channels is expected are not both 0, reading the header ends
without error of memory or arithmetic, either with a failure or with a header that can be used. -/
theorem C68_header_partial (big : Bool) (file : File) (hb : Bytes file.bytes)
    (hch : slice file.bytes (file.pos + 22) 2 ≠ [0, 0]) :
    ∃ x, (WaveReader.init file).readHeader big = .ok x ∧
      ∀ ch rate n, x.1 = some (ch, rate, n) →
        x.2.Ready ∧ x.2.numChannels = ch ∧ x.2.sampleRate = rate ∧ x.2.numFrames = n := by
  unfold WaveReader.readHeader
  rw [if_neg (by intro c; exact c rfl)]
  dsimp only
  split
  · exact ⟨_, rfl, fun _ _ _ h => by cases h⟩
  · rename_i h12
    split
    · exact ⟨_, rfl, fun _ _ _ h => by cases h⟩
    · rename_i hfmt
      have l12 : ((WaveReader.init file).file.read 12).1.length = 12 := by
        have : ((WaveReader.init file).file.read 12).1.length ≤ 12 := by
          unfold File.read
          dsimp only
          rw [List.length_take]; omega
        have := fun c => h12 (.inl c)
        omega
      have efmt : (((WaveReader.init file).file.read 12).2.read 24).1 = (file.bytes.drop (file.pos + 12)).take 24 := by
        have e : ((WaveReader.init file).file.read 12).2 =
          ⟨file.bytes, file.pos + ((WaveReader.init file).file.read 12).1.length⟩ := rfl
        rw [e, l12]
        rfl
      have ebytes : (((WaveReader.init file).file.read 12).2.read 24).2.bytes = file.bytes := rfl
      rw [efmt] at hfmt ⊢
      have lf : ((file.bytes.drop (file.pos + 12)).take 24).length = 24 := by
        have h1 : ((file.bytes.drop (file.pos + 12)).take 24).length ≤ 24 := by
          rw [List.length_take]; omega
        have := fun c => hfmt (.inl c)
        omega
      have hBf : Bytes ((file.bytes.drop (file.pos + 12)).take 24) := fun x hx =>
        hb x (List.mem_of_mem_drop (List.mem_of_mem_take hx))
      generalize hF : (file.bytes.drop (file.pos + 12)).take 24 = fmt at hfmt lf hBf
      have hsl : (fmt.drop 10).take 2 = slice file.bytes (file.pos + 22) 2 := by
        unfold slice
        rw [← hF, List.drop_take, List.take_take, List.drop_drop]
        rfl
      have hc0 : field big fmt 10 2 ≠ 0 := by
        intro h0
        have hlen : ((fmt.drop 10).take 2).length = 2 := by
          rw [List.length_take, List.length_drop, lf]; rfl
        have hB2 : Bytes ((fmt.drop 10).take 2) := fun x hx =>
          hBf x (List.mem_of_mem_drop (List.mem_of_mem_take hx))
        unfold field at h0
        have hs := swapIf_valOf big _ hB2
        rw [hlen] at hs
        rw [hs] at h0
        rw [hsl] at h0 hlen hB2
        revert h0 hlen hB2 hch
        generalize slice file.bytes (file.pos + 22) 2 = l
        intro hch h0 hlen hB2
        match l, hlen with
        | [a, b], _ => exact hch (leVal_eq_zero hB2 h0)
      have hbits : field big fmt 22 2 = 8 ∨ field big fmt 22 2 = 16 := by
        apply Decidable.byContradiction
        intro c
        refine hfmt (.inr (.inr (.inr ⟨fun e => c (.inl e), fun e => c (.inr e)⟩)))
      obtain ⟨d, hd1, hd2, hd3⟩ := findData_total big
        ((((WaveReader.init file).file.read 12).2.read 24).2.bytes.length + 1)
        (((WaveReader.init file).file.read 12).2.read 24).2 (by omega) (by omega)
      have hd4 := findData_size big _ _ d (by rw [ebytes]; exact hb) hd1
      rw [hd1, ok_bind]
      match hd : d.1, hd3, hd4 with
      | none, _, _ => exact ⟨_, rfl, fun _ _ _ h => by cases h⟩
      | some size, hd3, hd4 =>
        dsimp only
        unfold WaveReader.setHeader
        dsimp only
        rw [if_neg hc0, ok_bind]
        have hsz := hd4 size rfl
        have hp := hd3 (fun c => by cases c)
        rw [hd2.symm] at hp
        refine ⟨_, rfl, fun ch rate n h => ?_⟩
        injection h with h
        injection h with e1 h
        injection h with e2 e3
        refine ⟨⟨?_, hbits, ?_, rfl⟩, e1, e2, e3⟩
        · have := (field_nonneg big fmt 10 2 hBf (by omega)).1
          dsimp only
          omega
        · dsimp only
          split <;> omega

/-- **C68** (frames; partial: for a size of the data that is a multiple of the size of a frame of all channels
and less than 2³¹, see `C68_refuted`).  After a header has been read, reading the frames ends and stays
within a buffer of the documented size, whatever follows in the file. -/
theorem C68_frames_partial (big : Bool) (r : WaveReader) (hr : r.Ready) (hs : r.dataSize < 2147483648)
    (hm : r.dataSize % (r.numChannels * (r.numBits / 8)) = 0) (out : List Int)
    (ho : (out.length : Int) = r.numFrames * r.numChannels) :
    ∃ out' r', r.readFrames big out = .ok (out', r') ∧ out'.length = out.length := by
  obtain ⟨h1, h2, h3, h4⟩ := hr
  have hk : ((if r.numBits = 8 then 1 else 2 : Nat) : Int) = r.numBits / 8 := by
    rcases h2 with h | h <;> rw [h] <;> rfl
  have hk2 : (if r.numBits = 8 then (1 : Int) else 2) = r.numBits / 8 := by
    rcases h2 with h | h <;> rw [h] <;> rfl
  have hkp : 1 ≤ r.numBits / 8 := by rcases h2 with h | h <;> rw [h] <;> decide
  obtain ⟨q, hq⟩ := Int.dvd_of_emod_eq_zero hm
  have hpp : 1 * 1 ≤ r.numChannels * (r.numBits / 8) := Int.mul_le_mul h1 hkp (by decide) (by omega)
  have hq0 : 0 ≤ q := by
    apply Decidable.byContradiction
    intro c
    have := Int.mul_lt_mul_of_pos_left (show q < 0 by omega) (show 0 < r.numChannels * (r.numBits / 8) by omega)
    rw [Int.mul_zero] at this
    omega
  have hn : r.numFrames = q := by
    have hl : ((r.dataSize.toNat : Nat) : Int) = r.dataSize := Int.toNat_of_nonneg h3
    have := numFrames_eq (n := q) (ch := r.numChannels) (k := r.numBits / 8) (len := r.dataSize.toNat)
      (by rw [hl, hq, Int.mul_comm, Int.mul_assoc]) (by rw [hl]; exact hs) h1 hkp hq0
    rw [hl] at this
    rw [h4, hk2, this]
  have hfit : r.dataSize = ((if r.numBits = 8 then 1 else 2 : Nat) : Int) * (out.length : Int) := by
    rw [hk, ho, hn, hq, Int.mul_comm q, ← Int.mul_assoc, Int.mul_comm r.numChannels]
  obtain ⟨f, hf⟩ := WaveReader.readFrames_eq r big out _ _ rfl rfl h3 (Int.le_of_eq hfit)
  rw [hf]
  clear hf hm hq hn h4 hpp hk hk2
  have hc : IsConv (if r.numBits = 8 then 1 else 2) (if r.numBits = 8 then frames8 else frames16 big) := by
    split
    · exact frames8_conv
    · exact frames16_conv big
  have hsz := hc.pos
  generalize (if r.numBits = 8 then 1 else 2 : Nat) = size at *
  generalize (if r.numBits = 8 then frames8 else frames16 big) = conv at *
  generalize r.file.bytes.drop r.file.pos = avail
  have hu : usedOf size (min r.dataSize.toNat avail.length) ≤ r.dataSize.toNat ∧
      usedOf size (min r.dataSize.toNat avail.length) ≤ avail.length := by unfold usedOf; omega
  generalize usedOf size (min r.dataSize.toNat avail.length) = u at *
  have hlen : (conv (avail.take u) ++ out.drop (u / size)).length = out.length := by
    rw [List.length_append, hc.length, List.length_take, List.length_drop, Nat.min_eq_left hu.2]
    rcases hsz with h | h <;> subst h <;> omega
  obtain ⟨x, hx1, hx2⟩ := memsetFrames_ok big (conv (avail.take u) ++ out.drop (u / size)) (u / size)
    (r.dataSize.toNat - u) (by
      rw [hlen]
      rcases hsz with h | h <;> subst h <;> omega)
  rw [hx1, ok_bind]
  exact ⟨x, _, rfl, by rw [hx2, hlen]⟩

/-- Header of a file with the given fields. -/
def tinyWave (ch bits size : Int) (data : List Int) : List Int :=
  [82, 73, 70, 70, 0, 0, 0, 0, 87, 65, 86, 69, 102, 109, 116, 32, 16, 0, 0, 0, 1, 0, ch, 0, 64, 31, 0, 0,
   0, 0, 0, 0, 0, 0, bits, 0, 100, 97, 116, 97, size, 0, 0, 0] ++ data

/-- **C68** does not hold: a file with 0 channels makes the library divide by 0.  A data chunk of 6 bytes for
two 16-bit channels, or of 3 bytes for one, makes it write behind a buffer of the documented size. -/
theorem C68_refuted :
    (readWave false ⟨tinyWave 0 16 4 [1, 2, 3, 4], 0⟩ (fun n => List.replicate n 0) = .error .divZero) ∧
    (readWave false ⟨tinyWave 2 16 6 [1, 2, 3, 4, 5, 6], 0⟩ (fun n => List.replicate n 0) = .error .oob) ∧
    (readWave false ⟨tinyWave 1 16 3 [1, 2, 3], 0⟩ (fun n => List.replicate n 0) = .error .oob) := by
  refine ⟨by decide +kernel, by decide +kernel, by decide +kernel⟩

/-- **C78** (partial: for 16-bit files, see `C78_refuted`).  If a 16-bit file ends before the end of its data,
the frames that are missing are silent. -/
theorem C78_truncated_partial (big : Bool) (r : WaveReader) (h16 : r.numBits = 16) (h0 : 0 ≤ r.dataSize)
    (out : List Int) (ho : (out.length : Int) * 2 = r.dataSize) (avail : List Int)
    (ha : avail = (r.file.bytes.drop r.file.pos).take r.dataSize.toNat) :
    ∃ r', r.readFrames big out = .ok (frames16 big avail ++
      List.replicate (out.length - avail.length / 2) 0, r') := by
  have hf16 : ¬ (r.numBits = 8) := by omega
  obtain ⟨f, hf⟩ := WaveReader.readFrames_eq r big out 2 (frames16 big) (by rw [if_neg hf16]) (by rw [if_neg hf16])
    h0 (by omega)
  refine ⟨{ r with file := f }, ?_⟩
  rw [hf]
  clear hf
  have hal : avail.length = min r.dataSize.toNat (r.file.bytes.drop r.file.pos).length := by
    rw [ha, List.length_take]
  generalize hA : r.file.bytes.drop r.file.pos = all at *
  have hu : usedOf 2 (min r.dataSize.toNat all.length) = avail.length / 2 * 2 := by
    rw [← hal]; unfold usedOf; omega
  have htake : frames16 big (all.take (avail.length / 2 * 2)) = frames16 big avail := by
    have e1 : avail = avail.take (avail.length / 2 * 2) ++ avail.drop (avail.length / 2 * 2) :=
      (List.take_append_drop _ _).symm
    have e2 : avail.take (avail.length / 2 * 2) = all.take (avail.length / 2 * 2) := by
      rw [ha, List.take_take, ← ha]
      congr 1
      omega
    have e3 : frames16 big (avail.drop (avail.length / 2 * 2)) = [] := by
      refine List.eq_nil_of_length_eq_zero ?_
      rw [frames16_length, List.length_drop]
      omega
    have e4 : frames16 big avail = frames16 big (avail.take (avail.length / 2 * 2)) := by
      conv => lhs; rw [e1]
      rw [frames16_append _ _ _ (by rw [List.length_take]; omega), e3, List.append_nil]
    rw [e4, e2]
  rw [hu, htake, Nat.mul_div_cancel _ (by decide)]
  have hl : (frames16 big avail).length = avail.length / 2 := frames16_length big avail
  rw [memsetFrames_eq _ _ _ _ (by omega) (by
    rw [List.length_append, hl, List.length_drop]; omega), ok_bind]
  congr 2
  rw [List.take_append_of_le_length (by omega), List.take_of_length_le (by omega), List.drop_append, hl,
    List.drop_of_length_le (by omega), List.nil_append, List.drop_drop, List.drop_of_length_le (by omega),
    List.append_nil]
  congr 2
  omega

/-- **C78** does not hold for 8-bit files: of 4 frames that are missing, 2 are whatever the buffer contained. -/
theorem C78_refuted (a : Int) :
    (((WaveReader.mk ⟨[], 0⟩ 8000 1 8 4 4).readFrames false [a, a, a, a]).map fun x => x.1) =
      .ok [0, 0, a, a] := by
  rfl

/-- The hypotheses are met. -/
example : ((WaveReader.init ⟨tinyWave 2 16 8 [1, 0, 2, 0, 3, 0, 4, 0], 0⟩).readHeader true).map (fun x => x.1) =
    .ok (some (2, 8000, 2)) := by decide +kernel
example : Bytes (tinyWave 2 16 8 [1, 0, 2, 0, 3, 0, 4, 0]) := by unfold Bytes; decide
example : WaveReader.Ready ⟨⟨tinyWave 2 16 8 [1, 0, 2, 0, 3, 0, 4, 0], 44⟩, 8000, 2, 16, 2, 8⟩ :=
  ⟨by decide, .inr rfl, by decide, by decide⟩
example : ((WaveReader.mk ⟨[1, 0, 2, 0, 3], 0⟩ 8000 1 16 4 8).readFrames false [9, 9, 9, 9]).map (fun x => x.1) =
    .ok [1, 2, 0, 0] := by decide +kernel

end BK
