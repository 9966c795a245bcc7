import Verif.Lemmas.WaveWrite
/-! C64–C67: writing WAVE files and reading them back. -/
namespace BK

theorem waveFile_split (machine : Bool) (ch rate bits al br off : Int) (data : List Int) :
    waveFile (waveMid machine ch rate bits al br) off data =
      (idRiff ++ leBytes 4 (wrapU32 (off + 36 + data.length)) ++ idWave) ++
      (waveFmt machine ch rate bits al br ++ ((idData ++ leBytes 4 (wrapU32 data.length)) ++ data)) := by
  unfold waveFile waveMid waveFmt
  simp only [List.append_assoc]

theorem wrapI32_pos {x : Int} (h0 : 0 ≤ x) (h1 : x < 2147483648) : wrapI32 x = x := by
  unfold wrapI32
  omega

theorem numFrames_eq {n ch k : Int} {len : Nat} (hd : (len : Int) = n * ch * k) (hs : (len : Int) < 2147483648)
    (h1 : 1 ≤ ch) (h2 : 1 ≤ k) (hn : 0 ≤ n) : wrapI32 (((wrapI32 len).tdiv ch).tdiv k) = n := by
  rw [wrapI32_pos (by omega) hs]
  have hle : n ≤ len := by
    rw [hd, Int.mul_assoc]
    have a : (1 : Int) * 1 ≤ ch * k := Int.mul_le_mul h1 h2 (by decide) (by omega)
    have := Int.mul_le_mul_of_nonneg_left a hn
    omega
  rw [hd, show n * ch * k = n * k * ch by rw [Int.mul_assoc, Int.mul_comm ch, Int.mul_assoc],
    Int.mul_tdiv_cancel _ (by omega), Int.mul_tdiv_cancel _ (by omega)]
  exact wrapI32_pos hn (by omega)

/-- What is read from a file written on a little-endian machine. -/
theorem readWave_file (big : Bool) (pre : List Int) {ch rate bits : Int} (al br off : Int) {n : Int}
    (data : List Int) (junk : Nat → List Int) (hj : ∀ k, (junk k).length = k) (h1 : 1 ≤ ch)
    (h2 : ch ≤ 65535) (h3 : 1 ≤ rate) (h4 : rate < 2147483648) (h5 : bits = 8 ∨ bits = 16)
    (hn : 0 ≤ n) (hd : (data.length : Int) = n * ch * (bits / 8)) (hs : (data.length : Int) < 2147483648) :
    readWave big ⟨pre ++ waveFile (waveMid false ch rate bits al br) off data, pre.length⟩ junk =
      .ok (some (ch, rate, n, if bits = 8 then frames8 data else frames16 big data)) := by
  obtain ⟨f1, f2, f3, f4, f5, f6⟩ := waveFmt_fields big false al br h1 h2 h3 h4 h5
  have hf8 : field big (idData ++ leBytes 4 (wrapU32 data.length)) 4 4 = data.length := by
    have := field_eq big (pre := idData) (bs := leBytes 4 (wrapU32 data.length)) (rest := []) (o := 4) (n := 4)
      rfl (leBytes_length _ _) (leBytes_bytes _ _)
    rw [List.append_nil, leVal_u32 (by omega) (by omega)] at this
    exact this
  have hh := WaveReader.readHeader_at (big := big)
    (r := WaveReader.init ⟨pre ++ waveFile (waveMid false ch rate bits al br) off data, pre.length⟩)
    (pre := pre) (h12 := idRiff ++ leBytes 4 (wrapU32 (off + 36 + data.length)) ++ idWave)
    (fmt := waveFmt false ch rate bits al br) (h8 := idData ++ leBytes 4 (wrapU32 data.length)) (data := data)
    rfl (by
      show pre ++ _ = _
      rw [waveFile_split]) rfl
    (by simp only [List.length_append, leBytes_length]; rfl)
    (by rw [List.append_assoc]; exact List.take_left' rfl)
    (by
      rw [List.drop_left' (by rw [List.length_append, leBytes_length]; rfl)]
      rfl)
    f1 f2 (by rw [f3]; rfl) (by rw [f6]; exact h5) (by rw [List.length_append, leBytes_length]; rfl)
    (List.take_left' rfl)
  have hlen : (pre ++ waveFile (waveMid false ch rate bits al br) off data).length = pre.length + 44 + data.length := by
    unfold waveFile
    simp only [List.length_append, leBytes_length, waveMid_length, show idRiff.length = 4 from rfl]
    omega
  have hdrop : (pre ++ waveFile (waveMid false ch rate bits al br) off data).drop (pre.length + 44) = data := by
    unfold waveFile
    rw [← List.append_assoc]
    refine List.drop_left' ?_
    simp only [List.length_append, leBytes_length, waveMid_length]
    rfl
  generalize pre ++ waveFile (waveMid false ch rate bits al br) off data = B at hh hlen hdrop
  have hB : (WaveReader.init ⟨B, pre.length⟩).file.bytes = B := rfl
  unfold readWave
  rw [hh, hB]
  unfold WaveReader.setHeader
  dsimp only
  have hds : (if field big (idData ++ leBytes 4 (wrapU32 data.length)) 4 4 = 0 then
      ((B.length : Nat) : Int) - ((pre.length + 44 : Nat) : Int)
      else field big (idData ++ leBytes 4 (wrapU32 data.length)) 4 4) = (data.length : Int) := by
    rw [hf8, hlen]
    split <;> omega
  have hch0 : ch ≠ 0 := by omega
  rw [hds, f4, f5, f6, if_neg hch0, ok_bind, ok_bind]
  dsimp only
  generalize hk : bits / 8 = k at hd
  have hk' : (if bits = 8 then (1 : Int) else 2) = k := by
    rcases h5 with h | h <;> subst h <;> rw [← hk] <;> rfl
  have hnum : wrapI32 (((wrapI32 data.length).tdiv ch).tdiv (if bits = 8 then 1 else 2)) = n := by
    rw [hk']
    exact numFrames_eq hd hs h1 (by rw [← hk]; rcases h5 with h | h <;> subst h <;> decide) hn
  have hrate : wrapI32 rate = rate := wrapI32_pos (Int.le_trans (by decide) h3) h4
  rw [hnum, hrate]
  generalize hr : WaveReader.mk ⟨B, pre.length + 44⟩ rate ch bits n data.length = r
  have hr1 : r.numBits = bits := by rw [← hr]
  have hr2 : r.dataSize = data.length := by rw [← hr]
  have hr3 : r.file.bytes.drop r.file.pos = data := by rw [← hr]; exact hdrop
  have hnc : 0 ≤ n * ch := Int.mul_nonneg hn (by omega)
  have houtl : (((junk (n * ch).toNat).length : Nat) : Int) = n * ch := by rw [hj]; omega
  have hsize : ((if bits = 8 then 1 else 2 : Nat) : Int) = k := by
    rw [← hk']; split <;> rfl
  have hfit : r.dataSize ≤ ((if bits = 8 then 1 else 2 : Nat) : Int) * ((junk (n * ch).toNat).length : Int) := by
    rw [hr2, hsize, houtl, hd, Int.mul_comm k]
    exact Int.le_refl _
  obtain ⟨f, hf⟩ := WaveReader.readFrames_eq r big (junk (n * ch).toNat) (if bits = 8 then 1 else 2)
    (if bits = 8 then frames8 else frames16 big) (by rw [hr1]) (by rw [hr1]) (by omega) hfit
  rw [hf, hr3, hr2]
  have hmod : data.length % (if bits = 8 then 1 else 2) = 0 := by
    rcases h5 with h | h
    · rw [if_pos h, Nat.mod_one]
    · subst h
      rw [if_neg (by decide)]
      have : k = 2 := by omega
      subst this
      omega
  have hused : usedOf (if bits = 8 then 1 else 2) (min (data.length : Int).toNat data.length) = data.length := by
    rw [Int.toNat_natCast, Nat.min_self]
    unfold usedOf
    rw [hmod, Nat.sub_zero]
  have hdiv : data.length / (if bits = 8 then 1 else 2) = (junk (n * ch).toNat).length := by
    have : (data.length : Int) = ((if bits = 8 then 1 else 2 : Nat) : Int) * ((junk (n * ch).toNat).length : Int) := by
      rw [hsize, houtl, hd, Int.mul_comm k]
    rw [← Int.natCast_mul] at this
    have := Int.ofNat_inj.mp this
    rw [this]
    exact Nat.mul_div_cancel_left _ (by split <;> decide)
  rw [hused, List.take_length, hdiv, List.drop_length, List.append_nil, Int.toNat_natCast, Nat.sub_self,
    memsetFrames_eq _ _ _ _ rfl (by
      have hc : IsConv (if bits = 8 then 1 else 2) (if bits = 8 then frames8 else frames16 big) := by
        split
        · exact frames8_conv
        · exact frames16_conv big
      rw [hc.length, hdiv]
      exact Nat.le_refl _)]
  simp only [Nat.zero_div, List.replicate_zero, List.append_nil, Nat.add_zero, List.take_append_drop]
  rw [ok_bind, ok_bind]
  split <;> rfl

theorem frames16_bytes (big : Bool) : ∀ (fs : List Int), (∀ x ∈ fs, InI16 x) →
    frames16 big (fs.flatMap (frameBytes 16)) = fs
  | [], _ => rfl
  | x :: fs, h => by
    have hx : InI16 x := h x List.mem_cons_self
    rw [List.flatMap_cons, frames16_append _ _ _ (by
      unfold frameBytes
      rw [if_neg (by decide), leBytes_length]),
      frames16_bytes big fs (fun y hy => h y (List.mem_cons_of_mem _ hy))]
    have hb := leBytes_bytes 2 (wrapU16 x)
    have e : frameBytes 16 x = [wrapU16 x % 256, wrapU16 x / 256 % 256] := rfl
    rw [e]
    have hb2 : Bytes [wrapU16 x % 256, wrapU16 x / 256 % 256] := hb
    have hs := swapIf_valOf big _ hb2
    rw [frames16, show frames16 big [] = [] from rfl]
    rw [show [wrapU16 x % 256, wrapU16 x / 256 % 256].length = 2 from rfl] at hs
    rw [hs]
    show wrapI16 (wrapU16 x % 256 + 256 * (wrapU16 x / 256 % 256 + 256 * 0)) :: _ = _
    have e2 : wrapI16 (wrapU16 x % 256 + 256 * (wrapU16 x / 256 % 256 + 256 * 0)) = x := by
      unfold InI16 at hx
      unfold wrapI16 wrapU16
      omega
    rw [e2]
    rfl

theorem frames8_bytes : ∀ (fs : List Int), (∀ x ∈ fs, InI16 x) →
    frames8 (fs.flatMap (frameBytes 8)) = fs.map fun x => x / 256 * 256
  | [], _ => rfl
  | x :: fs, h => by
    have hx : InI16 x := h x List.mem_cons_self
    have ih := frames8_bytes fs (fun y hy => h y (List.mem_cons_of_mem _ hy))
    rw [List.flatMap_cons, frames8_conv.append _ _ (Nat.mod_one _), ih, List.map_cons]
    show (wrapU8 (x / 256 + 128) - 128) * 256 :: _ = _
    congr 1
    unfold InI16 at hx
    unfold wrapU8
    omega

theorem WaveLimits.small {ch rate bits : Int} {fs : List Int} (h : WaveLimits ch rate bits fs) :
    rate < 2147483648 ∧ rate * ch < 2147483648 := by
  have hb := h.hbits
  have h1 := h.hch
  have h2 := h.hrate
  have h3 := h.hprod
  have hrc : 0 ≤ rate * ch := Int.mul_nonneg (by omega) (by omega)
  have a := Int.mul_le_mul_of_nonneg_left (show (1:Int) ≤ bits by omega) hrc
  have b := Int.mul_le_mul_of_nonneg_left h1 (show 0 ≤ rate by omega)
  omega

theorem wave_data_length {bits : Int} (hb : bits = 8 ∨ bits = 16) (fs : List Int) :
    ((fs.flatMap (frameBytes bits)).length : Int) = bits / 8 * fs.length := by
  rw [framesBytes_length hb]
  rcases hb with h | h <;> subst h <;> rfl

/-- **C64** (partial: for files written on little-endian machines, see `C64_refuted`).  Frames appended in
any number of calls, with terminations between them, as 16-bit file at the end of whatever the file
contained, are read back from there with the same number of channels, sample rate and frames, on all
machines, as long as sizes fit in the header. -/
theorem C64_roundtrip_partial (big : Bool) (pre : List Int) (ch rate numBits n : Int) (fs : List Int)
    (ops : List WaveOp) (junk : Nat → List Int) (hj : ∀ k, (junk k).length = k)
    (hb : numBits = 0 ∨ numBits = 16) (hl : WaveLimits ch rate 16 (fs ++ WaveOp.frames ops)) (hch : ch ≤ 65535)
    (hn : 0 ≤ n) (hfs : ((fs ++ WaveOp.frames ops).length : Int) = n * ch)
    (hx : ∀ x ∈ fs ++ WaveOp.frames ops, InI16 x) :
    ∃ f, writeWave false ⟨pre, pre.length⟩ ch rate numBits (.append fs :: ops) = .ok (some f) ∧
      readWave big (f.seek pre.length) junk = .ok (some (ch, rate, n, fs ++ WaveOp.frames ops)) := by
  have hbits : bitsOf numBits = 16 := by
    unfold bitsOf
    rcases hb with h | h <;> subst h <;> rfl
  obtain ⟨f, h1, h2⟩ := writeWave_eq false pre ch rate numBits fs ops (by rw [hbits]; exact hl)
  refine ⟨f, h1, ?_⟩
  rw [hbits] at h2
  have hsz := hl.hsize
  have hdl := wave_data_length (.inr rfl : (16 : Int) = 8 ∨ (16 : Int) = 16) (fs ++ WaveOp.frames ops)
  unfold File.seek
  rw [h2, readWave_file big pre _ _ _ _ junk hj hl.hch hch hl.hrate hl.small.1 (.inr rfl) hn
    (by rw [hdl, hfs, Int.mul_comm]) (by omega), if_neg (by decide), frames16_bytes big _ hx]

/-- **C64** does not hold on big-endian machines: no file written there can be read, on any machine (the
format is written in the wrong order). -/
theorem C64_refuted (big : Bool) (pre : List Int) (ch rate numBits : Int) (fs : List Int)
    (ops : List WaveOp) (junk : Nat → List Int)
    (hl : WaveLimits ch rate (bitsOf numBits) (fs ++ WaveOp.frames ops)) (hch : ch ≤ 65535) :
    ∃ f, writeWave true ⟨pre, pre.length⟩ ch rate numBits (.append fs :: ops) = .ok (some f) ∧
      readWave big (f.seek pre.length) junk = .ok none := by
  obtain ⟨f, h1, h2⟩ := writeWave_eq true pre ch rate numBits fs ops hl
  refine ⟨f, h1, ?_⟩
  obtain ⟨f1, f2, f3, f4, f5, f6⟩ := waveFmt_fields big true (wrapU16 (ch * bitsOf numBits / 8))
    (rate * wrapU16 (ch * bitsOf numBits / 8)) hl.hch hch hl.hrate hl.small.1 hl.hbits
  unfold File.seek
  rw [h2, waveFile_split]
  generalize (fs ++ WaveOp.frames ops).flatMap (frameBytes (bitsOf numBits)) = data
  generalize hA : idRiff ++ leBytes 4 (wrapU32 ((pre.length : Int) + 36 + data.length)) ++ idWave = h12
  have l12 : h12.length = 12 := by
    rw [← hA]; simp only [List.length_append, leBytes_length]; rfl
  generalize waveFmt true ch rate (bitsOf numBits) (wrapU16 (ch * bitsOf numBits / 8))
    (rate * wrapU16 (ch * bitsOf numBits / 8)) = fmt at *
  generalize idData ++ leBytes 4 (wrapU32 data.length) ++ data = rest
  have r1 := File.read_file (f := ⟨pre ++ (h12 ++ (fmt ++ rest)), pre.length⟩) rfl rfl l12
  have r2 := File.read_file (f := ⟨pre ++ (h12 ++ (fmt ++ rest)), pre.length + 12⟩) (pre := pre ++ h12)
    (h := fmt) (rest := rest) (by rw [List.append_assoc]) (by rw [List.length_append, l12]) f1
  unfold readWave WaveReader.readHeader
  rw [if_neg (by intro c; exact c rfl)]
  show (do
    let x ← (if ((WaveReader.init ⟨pre ++ (h12 ++ (fmt ++ rest)), pre.length⟩).file.read 12).1.length < 12 ∨ _ ∨ _ then _ else _ : C _)
    _) = _
  have e0 : (WaveReader.init ⟨pre ++ (h12 ++ (fmt ++ rest)), pre.length⟩).file =
    ⟨pre ++ (h12 ++ (fmt ++ rest)), pre.length⟩ := rfl
  rw [e0, r1]
  dsimp only
  rw [r2]
  dsimp only
  rw [if_neg (by
    rw [l12, ← hA, List.drop_left' (by rw [List.length_append, leBytes_length]; rfl), List.append_assoc,
      show List.take 4 (idRiff ++ (leBytes 4 (wrapU32 ((pre.length : Int) + 36 + data.length)) ++ idWave)) = idRiff
        from List.take_left' (l₁ := idRiff) rfl]
    decide), if_pos (by
    refine .inr (.inr (.inl ?_))
    rw [f3]
    decide)]
  rfl

/-- **C65** (partial: for files written on little-endian machines, see `C64_refuted`).  The same for an 8-bit file: each frame is read back with its low
byte 0. -/
theorem C65_roundtrip_partial (big : Bool) (pre : List Int) (ch rate n : Int) (fs : List Int)
    (ops : List WaveOp) (junk : Nat → List Int) (hj : ∀ k, (junk k).length = k)
    (hl : WaveLimits ch rate 8 (fs ++ WaveOp.frames ops)) (hch : ch ≤ 65535)
    (hn : 0 ≤ n) (hfs : ((fs ++ WaveOp.frames ops).length : Int) = n * ch)
    (hx : ∀ x ∈ fs ++ WaveOp.frames ops, InI16 x) :
    ∃ f, writeWave false ⟨pre, pre.length⟩ ch rate 8 (.append fs :: ops) = .ok (some f) ∧
      readWave big (f.seek pre.length) junk =
        .ok (some (ch, rate, n, (fs ++ WaveOp.frames ops).map fun x => x / 256 * 256)) := by
  obtain ⟨f, h1, h2⟩ := writeWave_eq false pre ch rate 8 fs ops hl
  refine ⟨f, h1, ?_⟩
  rw [show bitsOf 8 = 8 from rfl] at h2
  have hsz := hl.hsize
  have hdl := wave_data_length (.inl rfl : (8 : Int) = 8 ∨ (8 : Int) = 16) (fs ++ WaveOp.frames ops)
  unfold File.seek
  rw [h2, readWave_file big pre _ _ _ _ junk hj hl.hch hch hl.hrate hl.small.1 (.inl rfl) hn
    (by rw [hdl, hfs, Int.mul_comm]) (by omega), if_pos rfl, frames8_bytes _ hx]

theorem slice_eq {bytes pre bs rest : List Int} {o n : Nat} (h : bytes = pre ++ (bs ++ rest))
    (ho : pre.length = o) (hn : bs.length = n) : slice bytes o n = bs := by
  unfold slice
  rw [h, ← ho, List.drop_left, ← hn, List.take_left]

theorem number_u16 {x : Int} (h0 : 0 ≤ x) (h1 : x ≤ 65535) : number (leBytes 2 (wrapU16 x)) = x := by
  rw [← leVal_number, leVal_u16 h0 h1]

theorem number_u32 {x : Int} (h0 : 0 ≤ x) (h1 : x ≤ 4294967295) : number (leBytes 4 (wrapU32 x)) = x := by
  rw [← leVal_number, leVal_u32 h0 h1]

/-- Fields of a file. -/
theorem waveFile_isWave {ch rate bits : Int} {data : List Int} (h1 : 1 ≤ ch) (h2 : ch * bits / 8 ≤ 65535)
    (h3 : 1 ≤ rate) (h4 : rate * ch * bits < 2147483648) (h5 : bits = 8 ∨ bits = 16)
    (hs : (data.length : Int) < 2147483648) :
    IsWave (waveFile (waveMid false ch rate bits (wrapU16 (ch * bits / 8)) (rate * wrapU16 (ch * bits / 8))) 0 data)
      ch rate bits data := by
  have hch : ch ≤ 65535 := by rcases h5 with h | h <;> subst h <;> omega
  have hrc : 0 ≤ rate * ch := Int.mul_nonneg (by omega) (by omega)
  have hrate : rate < 2147483648 := by
    have a := Int.mul_le_mul_of_nonneg_left (show (1:Int) ≤ bits by omega) hrc
    have b := Int.mul_le_mul_of_nonneg_left h1 (show 0 ≤ rate by omega)
    omega
  have hcb : 0 ≤ ch * bits := Int.mul_nonneg (by omega) (by omega)
  have hal : wrapU16 (ch * bits / 8) = ch * bits / 8 := by unfold wrapU16; omega
  have hbr : rate * (ch * bits / 8) = rate * ch * bits / 8 := by
    rcases h5 with h | h
    · subst h
      rw [Int.mul_ediv_cancel _ (by decide), Int.mul_ediv_cancel _ (by decide)]
    · subst h
      rw [show ch * 16 = ch * 2 * 8 by omega, Int.mul_ediv_cancel _ (by decide),
        show rate * ch * 16 = rate * ch * 2 * 8 by omega, Int.mul_ediv_cancel _ (by decide), Int.mul_assoc]
  have hbr0 : 0 ≤ rate * ch * bits / 8 ∧ rate * ch * bits / 8 ≤ 4294967295 := by
    have : 0 ≤ rate * ch * bits := Int.mul_nonneg hrc (by omega)
    omega
  rw [hal, hbr]
  have hlen : (waveFile (waveMid false ch rate bits (ch * bits / 8) (rate * ch * bits / 8)) 0 data).length =
      44 + data.length := by
    unfold waveFile
    simp only [List.length_append, leBytes_length, waveMid_length]
    rfl
  have hsplit : waveFile (waveMid false ch rate bits (ch * bits / 8) (rate * ch * bits / 8)) 0 data =
      idRiff ++ (leBytes 4 (wrapU32 (0 + 36 + data.length)) ++ (idWave ++ (idFmt ++ (leBytes 4 16 ++
      (leBytes 2 1 ++ (leBytes 2 (wrapU16 ch) ++ (leBytes 4 (wrapU32 rate) ++
      (leBytes 4 (wrapU32 (rate * ch * bits / 8)) ++ (leBytes 2 (wrapU16 (ch * bits / 8)) ++
      (leBytes 2 (wrapU16 bits) ++ (idData ++ (leBytes 4 (wrapU32 data.length) ++ data)))))))))))) := by
    unfold waveFile waveMid
    simp only [List.append_assoc]
    rfl
  rw [hsplit] at hlen ⊢
  generalize hr : leBytes 4 (wrapU32 (0 + 36 + (data.length : Int))) = s1 at hlen
  generalize hc : leBytes 2 (wrapU16 ch) = s2 at hlen
  generalize hrr : leBytes 4 (wrapU32 rate) = s3 at hlen
  generalize hbb : leBytes 4 (wrapU32 (rate * ch * bits / 8)) = s4 at hlen
  generalize haa : leBytes 2 (wrapU16 (ch * bits / 8)) = s5 at hlen
  generalize hbi : leBytes 2 (wrapU16 bits) = s6 at hlen
  generalize hdd : leBytes 4 (wrapU32 (data.length : Int)) = s7 at hlen
  have l1 : s1.length = 4 := by rw [← hr, leBytes_length]
  have l2 : s2.length = 2 := by rw [← hc, leBytes_length]
  have l3 : s3.length = 4 := by rw [← hrr, leBytes_length]
  have l4 : s4.length = 4 := by rw [← hbb, leBytes_length]
  have l5 : s5.length = 2 := by rw [← haa, leBytes_length]
  have l6 : s6.length = 2 := by rw [← hbi, leBytes_length]
  have l7 : s7.length = 4 := by rw [← hdd, leBytes_length]
  have lR : idRiff.length = 4 := rfl
  have lW : idWave.length = 4 := rfl
  have lF : idFmt.length = 4 := rfl
  have lD : idData.length = 4 := rfl
  refine ⟨?_, ?_, ?_, ?_, ?_, ?_, ?_, ?_, ?_, ?_, ?_, ?_, ?_, ?_, hlen⟩
  · exact slice_eq (pre := []) (List.nil_append _).symm rfl rfl
  · rw [hlen, slice_eq (pre := idRiff) (bs := s1) rfl lR l1, ← hr, number_u32 (by omega) (by omega)]
    omega
  · exact slice_eq (pre := idRiff ++ s1) (bs := idWave) (by simp only [List.append_assoc]; rfl)
      (by simp only [List.length_append, l1, lR]) rfl
  · exact slice_eq (pre := idRiff ++ s1 ++ idWave) (bs := idFmt) (by simp only [List.append_assoc]; rfl)
      (by simp only [List.length_append, l1, lR, lW]) rfl
  · rw [slice_eq (pre := idRiff ++ s1 ++ idWave ++ idFmt) (bs := leBytes 4 16) (o := 16) (n := 4)
      (by simp only [List.append_assoc]; rfl) (by simp only [List.length_append, l1, lR, lW, lF]) rfl]
    rfl
  · rw [slice_eq (pre := idRiff ++ s1 ++ idWave ++ idFmt ++ leBytes 4 16) (bs := leBytes 2 1) (o := 20) (n := 2)
      (by simp only [List.append_assoc]; rfl) (by simp only [List.length_append, l1, lR, lW, lF, leBytes_length]) rfl]
    rfl
  · rw [slice_eq (pre := idRiff ++ s1 ++ idWave ++ idFmt ++ leBytes 4 16 ++ leBytes 2 1) (bs := s2)
      (by simp only [List.append_assoc]; rfl) (by simp only [List.length_append, l1, lR, lW, lF, leBytes_length]) l2,
      ← hc, number_u16 (by omega) hch]
  · rw [slice_eq (pre := idRiff ++ s1 ++ idWave ++ idFmt ++ leBytes 4 16 ++ leBytes 2 1 ++ s2) (bs := s3)
      (by simp only [List.append_assoc]; rfl) (by simp only [List.length_append, l1, l2, lR, lW, lF, leBytes_length]) l3,
      ← hrr, number_u32 (by omega) (by omega)]
  · rw [slice_eq (pre := idRiff ++ s1 ++ idWave ++ idFmt ++ leBytes 4 16 ++ leBytes 2 1 ++ s2 ++ s3) (bs := s4)
      (by simp only [List.append_assoc]; rfl)
      (by simp only [List.length_append, l1, l2, l3, lR, lW, lF, leBytes_length]) l4,
      ← hbb, number_u32 hbr0.1 hbr0.2]
  · rw [slice_eq (pre := idRiff ++ s1 ++ idWave ++ idFmt ++ leBytes 4 16 ++ leBytes 2 1 ++ s2 ++ s3 ++ s4) (bs := s5)
      (by simp only [List.append_assoc]; rfl)
      (by simp only [List.length_append, l1, l2, l3, l4, lR, lW, lF, leBytes_length]) l5,
      ← haa, number_u16 (by omega) h2]
  · rw [slice_eq (pre := idRiff ++ s1 ++ idWave ++ idFmt ++ leBytes 4 16 ++ leBytes 2 1 ++ s2 ++ s3 ++ s4 ++ s5)
      (bs := s6) (by simp only [List.append_assoc]; rfl)
      (by simp only [List.length_append, l1, l2, l3, l4, l5, lR, lW, lF, leBytes_length]) l6,
      ← hbi, number_u16 (by omega) (by omega)]
  · exact slice_eq (pre := idRiff ++ s1 ++ idWave ++ idFmt ++ leBytes 4 16 ++ leBytes 2 1 ++ s2 ++ s3 ++ s4 ++ s5 ++ s6)
      (bs := idData) (by simp only [List.append_assoc]; rfl)
      (by simp only [List.length_append, l1, l2, l3, l4, l5, l6, lR, lW, lF, leBytes_length]) rfl
  · rw [slice_eq (pre := idRiff ++ s1 ++ idWave ++ idFmt ++ leBytes 4 16 ++ leBytes 2 1 ++ s2 ++ s3 ++ s4 ++ s5 ++ s6 ++
        idData) (bs := s7) (by simp only [List.append_assoc]; rfl)
      (by simp only [List.length_append, l1, l2, l3, l4, l5, l6, lR, lW, lF, lD, leBytes_length]) l7,
      ← hdd, number_u32 (by omega) (by omega)]
  · have e : idRiff ++ (s1 ++ (idWave ++ (idFmt ++ (leBytes 4 16 ++ (leBytes 2 1 ++ (s2 ++ (s3 ++ (s4 ++ (s5 ++
        (s6 ++ (idData ++ (s7 ++ data)))))))))))) =
        (idRiff ++ s1 ++ idWave ++ idFmt ++ leBytes 4 16 ++ leBytes 2 1 ++ s2 ++ s3 ++ s4 ++ s5 ++ s6 ++ idData ++ s7)
          ++ data := by simp only [List.append_assoc]
    rw [e]
    exact List.drop_left' (by
      simp only [List.length_append, l1, l2, l3, l4, l5, l6, l7, lR, lW, lF, lD, leBytes_length])

/-- The samples of a file with these bits: little-endian, or the high byte made unsigned. -/
def waveSamplesOf (bits : Int) (fs : List Int) : List Int :=
  fs.flatMap fun x => if bits = 8 then [x / 256 + 128] else [x % 256, x / 256 % 256]

theorem waveSamplesOf_eq {bits : Int} : ∀ {fs : List Int}, (∀ x ∈ fs, InI16 x) →
    fs.flatMap (frameBytes bits) = waveSamplesOf bits fs
  | [], _ => rfl
  | x :: fs, h => by
    have hx : InI16 x := h x List.mem_cons_self
    have ih := waveSamplesOf_eq (bits := bits) (fun y hy => h y (List.mem_cons_of_mem x hy))
    unfold waveSamplesOf at ih ⊢
    rw [List.flatMap_cons, List.flatMap_cons, ih]
    congr 1
    unfold frameBytes InI16 at *
    split
    · unfold wrapU8
      congr 1
      omega
    · have e1 : wrapU16 x % 256 = x % 256 := by unfold wrapU16; omega
      have e2 : wrapU16 x / 256 % 256 = x / 256 % 256 := by unfold wrapU16; omega
      rw [← e1, ← e2]
      rfl

/-- **C66** (partial: for files that begin where the writer was made, on little-endian machines, if a frame
was appended, see `C66_offset` and `C66_refuted`).  Whatever is appended in whatever calls: the file is a
consistent WAVE file, whose data are the samples appended. -/
theorem C66_header_partial (ch rate numBits : Int) (fs : List Int) (ops : List WaveOp)
    (hl : WaveLimits ch rate (bitsOf numBits) (fs ++ WaveOp.frames ops))
    (hal : ch * bitsOf numBits / 8 ≤ 65535) (hx : ∀ x ∈ fs ++ WaveOp.frames ops, InI16 x) :
    ∃ f, writeWave false ⟨[], 0⟩ ch rate numBits (.append fs :: ops) = .ok (some f) ∧
      IsWave f.bytes ch rate (bitsOf numBits) (waveSamplesOf (bitsOf numBits) (fs ++ WaveOp.frames ops)) := by
  obtain ⟨f, h1, h2⟩ := writeWave_eq false [] ch rate numBits fs ops hl
  refine ⟨f, h1, ?_⟩
  have hdl := wave_data_length hl.hbits (fs ++ WaveOp.frames ops)
  have hsz := hl.hsize
  rw [h2, ← waveSamplesOf_eq hx, List.nil_append]
  exact waveFile_isWave hl.hch hal hl.hrate hl.hprod hl.hbits (by omega)

/-- **C66** (start offset).  If the file contained other bytes before, everything is as in a file without
them, except that the size at the beginning is larger than it should be by their number. -/
theorem C66_offset (pre : List Int) (ch rate numBits : Int) (fs : List Int) (ops : List WaveOp)
    (hl : WaveLimits ch rate (bitsOf numBits) (fs ++ WaveOp.frames ops)) (hpre : pre.length < 2147483000) :
    ∃ f g, writeWave false ⟨[], 0⟩ ch rate numBits (.append fs :: ops) = .ok (some f) ∧
      writeWave false ⟨pre, pre.length⟩ ch rate numBits (.append fs :: ops) = .ok (some g) ∧
      g.bytes.take pre.length = pre ∧ g.bytes.length = pre.length + f.bytes.length ∧
      (g.bytes.drop pre.length).take 4 = f.bytes.take 4 ∧
      number (slice g.bytes (pre.length + 4) 4) = number (slice f.bytes 4 4) + pre.length ∧
      g.bytes.drop (pre.length + 8) = f.bytes.drop 8 := by
  obtain ⟨f, h1, h2⟩ := writeWave_eq false [] ch rate numBits fs ops hl
  obtain ⟨g, h3, h4⟩ := writeWave_eq false pre ch rate numBits fs ops hl
  refine ⟨f, g, h1, h3, ?_⟩
  have hdl := wave_data_length hl.hbits (fs ++ WaveOp.frames ops)
  have hsz := hl.hsize
  rw [h2, h4, List.nil_append, List.length_nil]
  clear h1 h2 h3 h4
  generalize (fs ++ WaveOp.frames ops).flatMap (frameBytes (bitsOf numBits)) = data at *
  generalize waveMid false ch rate (bitsOf numBits) (wrapU16 (ch * bitsOf numBits / 8))
    (rate * wrapU16 (ch * bitsOf numBits / 8)) = mid
  have hF : ∀ o, waveFile mid o data = idRiff ++ (leBytes 4 (wrapU32 (o + 36 + data.length)) ++
      (mid ++ leBytes 4 (wrapU32 data.length) ++ data)) := by
    intro o
    unfold waveFile
    simp only [List.append_assoc]
  have hG : pre ++ waveFile mid pre.length data = (pre ++ idRiff) ++
      (leBytes 4 (wrapU32 ((pre.length : Int) + 36 + data.length)) ++
      (mid ++ leBytes 4 (wrapU32 data.length) ++ data)) := by
    rw [hF]
    simp only [List.append_assoc]
  refine ⟨List.take_left, ?_, ?_, ?_, ?_⟩
  · rw [hF, hF]
    simp only [List.length_append, leBytes_length]
  · rw [List.drop_left, hF, hF]
    rfl
  · rw [slice_eq hG (by rw [List.length_append]; rfl) (leBytes_length _ _),
      slice_eq (o := 4) (hF ((0 : Nat) : Int)) rfl (leBytes_length _ _), number_u32 (by omega) (by omega),
      number_u32 (by omega) (by omega)]
    omega
  · rw [hG, hF]
    rw [← List.append_assoc, List.drop_left' (by simp only [List.length_append, leBytes_length]; rfl),
      ← List.append_assoc, List.drop_left' (by simp only [List.length_append, leBytes_length]; rfl)]

/-- **C66** does not hold if the file contained a byte before (the size 39 of 47 bytes is that of 48), if no
frames are appended (there is no header) and on big-endian machines (the format is 256). -/
theorem C66_refuted :
    ((writeWave false ⟨[7], 1⟩ 1 44100 16 [.append [1]]).map fun f =>
      f.map fun f => [(f.bytes.length : Int), number (slice f.bytes 5 4)]) = .ok (some [47, 39]) ∧
    ((writeWave false ⟨[], 0⟩ 1 44100 16 []).map fun f =>
      f.map fun f => f.bytes) = .ok (some (List.replicate 44 0)) ∧
    ((writeWave true ⟨[], 0⟩ 1 44100 16 [.append [1]]).map fun f =>
      f.map fun f => number (slice f.bytes 20 2)) = .ok (some 256) := by
  refine ⟨by decide +kernel, by decide +kernel, by decide +kernel⟩

theorem waveWriteData_eq (big : Bool) (file : File) (fs : List Int) (ch rate numBits : Int) :
    waveWriteData big file fs ch rate numBits = writeWave big file rate ch numBits [.append fs, .terminate] := by
  unfold waveWriteData writeWave
  cases WaveWriter.init big file rate ch numBits with
  | none => rfl
  | some w =>
    dsimp only
    rw [WaveWriter.run]
    cases w.append fs with
    | error e => rfl
    | ok w => rfl

/-- **C67** (partial: the claim itself is false, see `C67_refuted`).  Writing a data object gives a WAVE file
with its frames, but with the sample rate as number of channels and the other way round. -/
theorem C67_swapped_partial (ch rate numBits : Int) (fs : List Int)
    (hl : WaveLimits rate ch (bitsOf numBits) fs) (hal : rate * bitsOf numBits / 8 ≤ 65535)
    (hx : ∀ x ∈ fs, InI16 x) :
    ∃ f, waveWriteData false ⟨[], 0⟩ fs ch rate numBits = .ok (some f) ∧
      IsWave f.bytes rate ch (bitsOf numBits) (waveSamplesOf (bitsOf numBits) fs) := by
  have e : fs ++ WaveOp.frames [.terminate] = fs := List.append_nil fs
  have := C66_header_partial rate ch numBits fs [.terminate] (by rw [e]; exact hl) hal (by rw [e]; exact hx)
  rw [e] at this
  rw [waveWriteData_eq]
  exact this

/-- **C67** does not hold: two frames of two channels with the sample rate 22050 are stored as being of
22050 channels with the sample rate 2, and no frame is read back. -/
theorem C67_refuted :
    ((waveWriteData false ⟨[], 0⟩ [1, 2, 3, 4] 2 22050 16).map fun f =>
      f.map fun f => [number (slice f.bytes 22 2), number (slice f.bytes 24 4)]) = .ok (some [22050, 2]) := by
  decide +kernel

/-- The hypotheses are met. -/
example : WaveLimits 2 44100 16 ([1, -2] ++ WaveOp.frames [.terminate, .append [-32768, 5]]) :=
  ⟨.inr rfl, by decide, by decide, by decide, by decide⟩
example : ((writeWave false ⟨[9], 1⟩ 2 44100 0 [.append [1, -2], .terminate, .append [-32768, 5]]).bind fun f =>
    match f with
    | none => .ok none
    | some f => readWave true (f.seek 1) (fun n => List.replicate n 77)) =
    .ok (some (2, 44100, 2, [1, -2, -32768, 5])) := by decide +kernel
example : ((writeWave false ⟨[], 0⟩ 1 8000 8 [.append [1, -2], .append [-32768, 32767, 5]]).bind fun f =>
    match f with
    | none => .ok none
    | some f => readWave false (f.seek 0) (fun n => List.replicate n 77)) =
    .ok (some (1, 8000, 5, [0, -256, -32768, 32512, 0])) := by decide +kernel

end BK
