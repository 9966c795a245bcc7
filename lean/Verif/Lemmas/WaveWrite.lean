import Verif.Lemmas.WaveRead
/-!
Helper lemmas on writing WAVE files.
-/
namespace BK

/-- What the parameter for bits means: 0 is 16. -/
def bitsOf (numBits : Int) : Int := if numBits = 0 then 16 else numBits

/-- Limits under which sizes in the header do not overflow. -/
structure WaveLimits (ch rate bits : Int) (fs : List Int) : Prop where
  hbits : bits = 8 ∨ bits = 16
  hch : 1 ≤ ch
  hrate : 1 ≤ rate
  hprod : rate * ch * bits < 2147483648
  hsize : bits / 8 * fs.length < 2147483648

theorem wave_mul_mono {a b c : Int} (ha : 1 ≤ a) (hb : 0 ≤ b) (h : a * b < c) : b < c := by
  have := Int.mul_le_mul_of_nonneg_right ha hb
  omega

theorem WaveWriter.first_append {big : Bool} {pre : List Int} {ch rate bits : Int} (fs : List Int)
    (hl : WaveLimits ch rate bits fs) :
    ∃ w', (WaveWriter.mk ⟨pre, pre.length⟩ pre.length rate ch bits 0 0 big false false).append fs = .ok w' ∧
      w'.Inv pre (waveMid big ch rate bits (wrapU16 (ch * bits / 8)) (rate * wrapU16 (ch * bits / 8)))
        (fs.flatMap (frameBytes bits)) ∧ w'.numBits = bits := by
  obtain ⟨hb, hch, hr, hrate, hsz⟩ := hl
  have hb0 : 8 ≤ bits := by omega
  have hcb : 0 ≤ ch * bits := Int.mul_nonneg (by omega) (by omega)
  have e1 : rate * (ch * bits) < 2147483648 := by rw [← Int.mul_assoc]; exact hrate
  have b1 : ch * bits < 2147483648 := wave_mul_mono hr hcb e1
  have hrc : 0 ≤ rate * ch := Int.mul_nonneg (by omega) (by omega)
  have b2 : rate * ch < 2147483648 := by
    have := Int.mul_le_mul_of_nonneg_left (show (1:Int) ≤ bits by omega) hrc
    omega
  have b2' : 0 ≤ rate * ch * bits := Int.mul_nonneg hrc (by omega)
  have hd : (ch * bits).tdiv 8 = ch * bits / 8 := Int.tdiv_eq_ediv_of_nonneg hcb
  have hba : 0 ≤ wrapU16 (ch * bits / 8) ∧ wrapU16 (ch * bits / 8) ≤ ch * bits := by
    unfold wrapU16
    constructor
    · omega
    · have := Int.emod_nonneg (ch * bits / 8) (show (65536 : Int) ≠ 0 by decide)
      omega
  have b3 : 0 ≤ rate * wrapU16 (ch * bits / 8) := Int.mul_nonneg (by omega) hba.1
  have b4 : rate * wrapU16 (ch * bits / 8) < 2147483648 := by
    have := Int.mul_le_mul_of_nonneg_left hba.2 (show 0 ≤ rate by omega)
    omega
  have hw : (WaveWriter.mk ⟨pre, pre.length⟩ pre.length rate ch bits 0 0 big false false).writeHeader =
      .ok { file := ⟨pre ++ waveHeader big ch rate bits (wrapU16 (ch * bits / 8)) (rate * wrapU16 (ch * bits / 8)),
              pre.length + 44⟩
            initOffset := pre.length, sampleRate := rate, numChannels := ch, numBits := bits
            fileSize := 0 + (((pre.length + 44 : Nat) : Int) - 8), dataSize := 0, big := big
            headerWritten := true, terminated := false } := by
    unfold WaveWriter.writeHeader
    dsimp only
    rw [i32_ok (by omega) (by omega), ok_bind, i32_ok (by omega) (by omega), ok_bind,
      i32_ok (by omega) (by omega), ok_bind, hd, i32_ok (by omega) (by omega), ok_bind, File.write_end]
    have hlen : (waveHeader big ch rate bits (wrapU16 (ch * bits / 8))
        (rate * wrapU16 (ch * bits / 8))).length = 44 := by
      rw [waveHeader_eq]
      simp only [List.length_append, image_length, waveMid_length]
      rfl
    rw [hlen]
    rfl
  have hinv : WaveWriter.Inv pre (waveMid big ch rate bits (wrapU16 (ch * bits / 8)) (rate * wrapU16 (ch * bits / 8))) []
      { file := ⟨pre ++ waveHeader big ch rate bits (wrapU16 (ch * bits / 8)) (rate * wrapU16 (ch * bits / 8)),
              pre.length + 44⟩
        initOffset := pre.length, sampleRate := rate, numChannels := ch, numBits := bits
        fileSize := 0 + (((pre.length + 44 : Nat) : Int) - 8), dataSize := 0, big := big
        headerWritten := true, terminated := false } := by
    refine ⟨rfl, rfl, hb, ?_, rfl, image big 4 0, image big 4 0, image_length _ _ _, image_length _ _ _, ?_,
      ?_, ?_⟩
    · dsimp only
      rw [List.length_nil]
      omega
    · dsimp only
      rw [waveHeader_eq, List.append_nil]
    · dsimp only
      rw [waveHeader_eq]
      simp only [List.length_append, image_length, waveMid_length]
      rfl
    · intro h; cases h
  have hbt : bits.tdiv 8 = bits / 8 := Int.tdiv_eq_ediv_of_nonneg (by omega)
  obtain ⟨w', h1, h2, h3, -⟩ := WaveWriter.append_inv hinv fs (by
    dsimp only
    rw [hbt]; exact hsz)
  refine ⟨w', ?_, h2, h3⟩
  have hn : ∀ w v : WaveWriter, w.headerWritten = false → w.writeHeader = .ok v → v.headerWritten = true →
      w.append fs = v.append fs := by
    intro w v ha hb hc
    unfold WaveWriter.append WaveWriter.needHeader
    rw [if_neg (by rw [ha]; decide), if_pos hc, hb]
  rw [hn _ _ rfl hw rfl]
  exact h1

/-- The file written. -/
theorem writeWave_eq (big : Bool) (pre : List Int) (ch rate numBits : Int) (fs : List Int) (ops : List WaveOp)
    (hl : WaveLimits ch rate (bitsOf numBits) (fs ++ WaveOp.frames ops)) :
    ∃ f, writeWave big ⟨pre, pre.length⟩ ch rate numBits (.append fs :: ops) = .ok (some f) ∧
      f.bytes = pre ++ waveFile (waveMid big ch rate (bitsOf numBits) (wrapU16 (ch * bitsOf numBits / 8))
        (rate * wrapU16 (ch * bitsOf numBits / 8))) pre.length
        ((fs ++ WaveOp.frames ops).flatMap (frameBytes (bitsOf numBits))) := by
  have hb := hl.hbits
  have hinit : WaveWriter.init big ⟨pre, pre.length⟩ ch rate numBits =
      some (WaveWriter.mk ⟨pre, pre.length⟩ pre.length rate ch (bitsOf numBits) 0 0 big false false) := by
    unfold WaveWriter.init
    unfold bitsOf at hb ⊢
    dsimp only
    by_cases h0 : numBits = 0
    · rw [if_pos h0, if_pos h0]
    · rw [if_neg h0] at hb
      rw [if_neg h0, if_neg h0, if_neg (by omega)]
  have hsz := hl.hsize
  rw [List.length_append, Int.natCast_add, Int.mul_add] at hsz
  have hn : 0 ≤ bitsOf numBits / 8 := by omega
  have p1 : 0 ≤ bitsOf numBits / 8 * (fs.length : Int) := Int.mul_nonneg hn (by omega)
  have p2 : 0 ≤ bitsOf numBits / 8 * ((WaveOp.frames ops).length : Int) := Int.mul_nonneg hn (by omega)
  obtain ⟨w1, h1, h2, h3⟩ := WaveWriter.first_append (big := big) (pre := pre) fs
    (⟨hl.hbits, hl.hch, hl.hrate, hl.hprod, by omega⟩ : WaveLimits ch rate (bitsOf numBits) fs)
  have hbt : (bitsOf numBits).tdiv 8 = bitsOf numBits / 8 := Int.tdiv_eq_ediv_of_nonneg (by omega)
  obtain ⟨w2, h4, h5⟩ := WaveWriter.run_inv (waveMid_length _ _ _ _ _ _) ops h2 (by rw [h3, hbt]; omega)
  refine ⟨w2.dispose.file, ?_, ?_⟩
  · unfold writeWave
    rw [hinit]
    dsimp only
    rw [WaveWriter.run, h1, ok_bind, h4, ok_bind, pure_eq_ok]
  · rw [WaveWriter.dispose_file h5 (waveMid_length _ _ _ _ _ _), h3, List.flatMap_append]

theorem leVal_u16 {x : Int} (h0 : 0 ≤ x) (h1 : x ≤ 65535) : leVal (leBytes 2 (wrapU16 x)) = x := by
  rw [leVal_leBytes 2 _ (by unfold wrapU16; omega) (by unfold wrapU16; omega)]
  unfold wrapU16; omega

theorem leVal_u32 {x : Int} (h0 : 0 ≤ x) (h1 : x ≤ 4294967295) : leVal (leBytes 4 (wrapU32 x)) = x := by
  rw [leVal_leBytes 4 _ (by unfold wrapU32; omega) (by unfold wrapU32; omega)]
  unfold wrapU32; omega

/-- The format header. -/
def waveFmt (big : Bool) (numChannels sampleRate numBits blockAlign byteRate : Int) : List Int :=
  idFmt ++ leBytes 4 16 ++ image big 2 1 ++ leBytes 2 (wrapU16 numChannels) ++
    leBytes 4 (wrapU32 sampleRate) ++ leBytes 4 (wrapU32 byteRate) ++ leBytes 2 (wrapU16 blockAlign) ++
    leBytes 2 (wrapU16 numBits)

theorem waveFmt_fields (big machine : Bool) {ch rate bits : Int} (al br : Int) (h1 : 1 ≤ ch) (h2 : ch ≤ 65535)
    (h3 : 1 ≤ rate) (h4 : rate < 2147483648) (h5 : bits = 8 ∨ bits = 16) :
    (waveFmt machine ch rate bits al br).length = 24 ∧
    (waveFmt machine ch rate bits al br).take 4 = idFmt ∧
    field big (waveFmt machine ch rate bits al br) 8 2 = (if machine then 256 else 1) ∧
    field big (waveFmt machine ch rate bits al br) 10 2 = ch ∧
    field big (waveFmt machine ch rate bits al br) 12 4 = rate ∧
    field big (waveFmt machine ch rate bits al br) 22 2 = bits := by
  have himg : Bytes (image machine 2 1) := by
    cases machine <;> (unfold Bytes; decide)
  refine ⟨?_, ?_, ?_, ?_, ?_, ?_⟩
  · unfold waveFmt
    simp only [List.length_append, leBytes_length, image_length]
    rfl
  · unfold waveFmt
    simp only [List.append_assoc]
    exact List.take_left' rfl
  · have := field_eq big (pre := idFmt ++ leBytes 4 16) (bs := image machine 2 1)
      (rest := leBytes 2 (wrapU16 ch) ++ leBytes 4 (wrapU32 rate) ++ leBytes 4 (wrapU32 br) ++
        leBytes 2 (wrapU16 al) ++ leBytes 2 (wrapU16 bits)) (o := 8) (n := 2) rfl (image_length _ _ _) himg
    unfold waveFmt
    simp only [List.append_assoc] at this ⊢
    rw [this]
    cases machine <;> rfl
  · have := field_eq big (pre := idFmt ++ leBytes 4 16 ++ image machine 2 1) (bs := leBytes 2 (wrapU16 ch))
      (rest := leBytes 4 (wrapU32 rate) ++ leBytes 4 (wrapU32 br) ++
        leBytes 2 (wrapU16 al) ++ leBytes 2 (wrapU16 bits)) (o := 10) (n := 2)
      (by simp only [List.length_append, leBytes_length, image_length]; rfl) (leBytes_length _ _)
      (leBytes_bytes _ _)
    rw [leVal_u16 (by omega) (by omega)] at this
    unfold waveFmt
    simp only [List.append_assoc] at this ⊢
    exact this
  · have := field_eq big (pre := idFmt ++ leBytes 4 16 ++ image machine 2 1 ++ leBytes 2 (wrapU16 ch))
      (bs := leBytes 4 (wrapU32 rate))
      (rest := leBytes 4 (wrapU32 br) ++ leBytes 2 (wrapU16 al) ++ leBytes 2 (wrapU16 bits)) (o := 12) (n := 4)
      (by simp only [List.length_append, leBytes_length, image_length]; rfl) (leBytes_length _ _)
      (leBytes_bytes _ _)
    rw [leVal_u32 (by omega) (by omega)] at this
    unfold waveFmt
    simp only [List.append_assoc] at this ⊢
    exact this
  · have := field_eq big (pre := idFmt ++ leBytes 4 16 ++ image machine 2 1 ++ leBytes 2 (wrapU16 ch) ++
        leBytes 4 (wrapU32 rate) ++ leBytes 4 (wrapU32 br) ++ leBytes 2 (wrapU16 al))
      (bs := leBytes 2 (wrapU16 bits)) (rest := []) (o := 22) (n := 2)
      (by simp only [List.length_append, leBytes_length, image_length]; rfl) (leBytes_length _ _)
      (leBytes_bytes _ _)
    rw [leVal_u16 (by omega) (by omega), List.append_nil] at this
    exact this

end BK
