import Verif.Spec.Wave
import Verif.Lemmas.Convert
/-!
Helper lemmas on WAVE files.
-/
namespace BK

theorem File.read_at {pre h rest : List Int} {n : Nat} (hn : h.length = n) :
    (File.mk (pre ++ h ++ rest) pre.length).read n = (h, ⟨pre ++ h ++ rest, pre.length + n⟩) := by
  unfold File.read
  dsimp only
  have e : ((pre ++ h ++ rest).drop pre.length).take n = h := by
    rw [List.append_assoc, List.drop_left, ← hn, List.take_left]
  rw [e, hn]

theorem File.write_at {pre old bs rest : List Int} (h : bs.length = old.length) :
    (File.mk (pre ++ old ++ rest) pre.length).write bs = ⟨pre ++ bs ++ rest, pre.length + bs.length⟩ := by
  unfold File.write
  by_cases hb : bs = []
  · subst hb
    rw [if_pos rfl]
    have : old = [] := List.eq_nil_of_length_eq_zero h.symm
    subst this
    rfl
  · rw [if_neg hb]
    dsimp only
    have e0 : pre.length - (pre ++ old ++ rest).length = 0 := by
      simp only [List.length_append]; omega
    rw [e0, List.replicate_zero, List.append_nil]
    have e1 : (pre ++ old ++ rest).take pre.length = pre := by
      rw [List.append_assoc, List.take_left]
    have e2 : (pre ++ old ++ rest).drop (pre.length + bs.length) = rest := by
      rw [h, ← List.length_append, List.drop_left]
    rw [e1, e2]

theorem File.write_end (bytes bs : List Int) :
    (File.mk bytes bytes.length).write bs = ⟨bytes ++ bs, bytes.length + bs.length⟩ := by
  unfold File.write
  by_cases hb : bs = []
  · subst hb
    rw [if_pos rfl]; simp
  · rw [if_neg hb]
    dsimp only
    rw [Nat.sub_self, List.replicate_zero, List.append_nil, List.take_length,
      List.drop_of_length_le (by omega), List.append_nil]

theorem leBytes_length : ∀ (n : Nat) (x : Int), (leBytes n x).length = n
  | 0, _ => rfl
  | n + 1, x => by rw [leBytes, List.length_cons, leBytes_length n]

theorem image_length (big : Bool) (n : Nat) (x : Int) : (image big n x).length = n := by
  unfold image
  split
  · rw [List.length_reverse, leBytes_length]
  · exact leBytes_length n x

theorem leVal_number (bs : List Int) : leVal bs = number bs := by
  induction bs with
  | nil => rfl
  | cons b bs ih => rw [leVal, ih]; rfl

theorem leVal_leBytes : ∀ (n : Nat) (x : Int), 0 ≤ x → x < 256 ^ n → leVal (leBytes n x) = x
  | 0, x, h0, h1 => by
    rw [leBytes, leVal]
    rw [Int.pow_zero] at h1
    omega
  | n + 1, x, h0, h1 => by
    rw [leBytes, leVal, leVal_leBytes n (x / 256) (by omega)]
    · omega
    · rw [Int.pow_succ] at h1
      generalize (256:Int) ^ n = p at h1 ⊢
      omega

theorem leBytes_leVal : ∀ (bs : List Int), Bytes bs → leBytes bs.length (leVal bs) = bs
  | [], _ => rfl
  | b :: bs, h => by
    have hb := h b List.mem_cons_self
    rw [List.length_cons, leBytes, leVal]
    rw [show (b + 256 * leVal bs) % 256 = b by omega, show (b + 256 * leVal bs) / 256 = leVal bs by omega,
      leBytes_leVal bs (fun x hx => h x (List.mem_cons_of_mem _ hx))]

theorem leBytes_bytes : ∀ (n : Nat) (x : Int), Bytes (leBytes n x)
  | 0, _ => fun b hb => by cases hb
  | n + 1, x => fun b hb => by
    rw [leBytes] at hb
    rcases List.mem_cons.mp hb with rfl | hb
    · omega
    · exact leBytes_bytes n _ b hb

/-- Numbers are little-endian in the file on all machines. -/
theorem image_swapIf (big : Bool) (n : Nat) (x : Int) : image big n (swapIf big n x) = leBytes n x := by
  unfold image swapIf
  cases big
  · rfl
  · rw [if_pos rfl, if_pos rfl]
    unfold bytesReverse
    have h := leBytes_leVal (leBytes n x).reverse (fun b hb => leBytes_bytes n x b (List.mem_reverse.mp hb))
    rw [List.length_reverse, leBytes_length] at h
    rw [h, List.reverse_reverse]

theorem leVal_bound : ∀ (bs : List Int), Bytes bs → 0 ≤ leVal bs ∧ leVal bs < 256 ^ bs.length
  | [], _ => ⟨by decide, by decide⟩
  | b :: bs, h => by
    have hb := h b List.mem_cons_self
    have ih := leVal_bound bs (fun x hx => h x (List.mem_cons_of_mem _ hx))
    rw [leVal, List.length_cons, Int.pow_succ]
    generalize (256:Int) ^ bs.length = p at ih ⊢
    omega

/-- Numbers are read as little-endian on all machines. -/
theorem swapIf_valOf (big : Bool) (bs : List Int) (h : Bytes bs) :
    swapIf big bs.length (valOf big bs) = leVal bs := by
  unfold swapIf valOf
  cases big
  · rfl
  · rw [if_pos rfl, if_pos rfl]
    unfold bytesReverse
    have e := leBytes_leVal bs.reverse (fun b hb => h b (List.mem_reverse.mp hb))
    rw [List.length_reverse] at e
    rw [e, List.reverse_reverse]

theorem field_eq (big : Bool) {pre bs rest : List Int} {o n : Nat} (ho : pre.length = o)
    (hn : bs.length = n) (hb : Bytes bs) : field big (pre ++ bs ++ rest) o n = leVal bs := by
  unfold field
  rw [List.append_assoc, ← ho, List.drop_left, ← hn, List.take_left]
  exact swapIf_valOf big bs hb

/-! ### Writer -/

/-- Bytes of a frame. -/
def frameBytes (numBits x : Int) : List Int :=
  if numBits = 8 then [wrapU8 (x / 256 + 128)] else leBytes 2 (wrapU16 x)

theorem frameImage_eq (big : Bool) (numBits x : Int) : frameImage big numBits x = frameBytes numBits x := by
  unfold frameImage frameBytes
  split
  · rfl
  · exact image_swapIf big 2 _

/-- Header between the sizes. -/
def waveMid (big : Bool) (numChannels sampleRate numBits blockAlign byteRate : Int) : List Int :=
  idWave ++ (idFmt ++ leBytes 4 16 ++ image big 2 1 ++ leBytes 2 (wrapU16 numChannels) ++
    leBytes 4 (wrapU32 sampleRate) ++ leBytes 4 (wrapU32 byteRate) ++ leBytes 2 (wrapU16 blockAlign) ++
    leBytes 2 (wrapU16 numBits)) ++ idData

theorem waveMid_length (big : Bool) (a b c d e : Int) : (waveMid big a b c d e).length = 32 := by
  unfold waveMid
  simp only [List.length_append, leBytes_length, image_length]
  rfl

theorem waveHeader_eq (big : Bool) (a b c d e : Int) :
    waveHeader big a b c d e = idRiff ++ image big 4 0 ++ waveMid big a b c d e ++ image big 4 0 := by
  unfold waveHeader waveMid
  simp only [image_swapIf, List.append_assoc]

theorem writeFrames_eq (big : Bool) (numBits : Int) : ∀ (n : Nat) (fs b : List Int), fs.length ≤ n →
    writeFrames big numBits n fs ⟨b, b.length⟩ =
      .ok ⟨b ++ fs.flatMap (frameBytes numBits), b.length + (fs.flatMap (frameBytes numBits)).length⟩
  | 0, [], b, _ => by simp [writeFrames]
  | 0, _ :: _, _, h => by simp at h
  | _ + 1, [], b, _ => by simp [writeFrames]
  | n + 1, x :: xs, b, h => by
    have hf : frameImage big numBits = frameBytes numBits := funext (frameImage_eq big numBits)
    rw [writeFrames, File.write_end, hf, ← List.length_append,
      writeFrames_eq big numBits n _ _ (by
        rw [List.length_drop, List.length_cons] at *; omega)]
    have e : (x :: xs).flatMap (frameBytes numBits) =
        ((x :: xs).take 1024).flatMap (frameBytes numBits) ++
          ((x :: xs).drop 1024).flatMap (frameBytes numBits) := by
      rw [← List.flatMap_append, List.take_append_drop]
    rw [e, List.length_append, List.append_assoc, List.length_append]
    congr 2
    omega

/-- What holds after the first call, when `data` has been written. -/
structure WaveWriter.Inv (pre mid data : List Int) (w : WaveWriter) : Prop where
  initOffset : w.initOffset = pre.length
  header : w.headerWritten = true
  bits : w.numBits = 8 ∨ w.numBits = 16
  fileSize : w.fileSize = pre.length + 36 + data.length
  dataSize : w.dataSize = data.length
  file : ∃ c1 c2, c1.length = 4 ∧ c2.length = 4 ∧
    w.file.bytes = pre ++ (idRiff ++ c1 ++ mid ++ c2 ++ data) ∧ w.file.pos = w.file.bytes.length ∧
    (w.terminated = true → c1 = leBytes 4 (wrapU32 w.fileSize) ∧ c2 = leBytes 4 (wrapU32 w.dataSize))

theorem frameBytes_length {numBits : Int} (h : numBits = 8 ∨ numBits = 16) (x : Int) :
    ((frameBytes numBits x).length : Int) = numBits.tdiv 8 := by
  unfold frameBytes
  rcases h with rfl | rfl
  · rfl
  · rw [if_neg (by decide), leBytes_length]; rfl

theorem framesBytes_length {numBits : Int} (h : numBits = 8 ∨ numBits = 16) (fs : List Int) :
    ((fs.flatMap (frameBytes numBits)).length : Int) = numBits.tdiv 8 * fs.length := by
  induction fs with
  | nil => rw [List.flatMap_nil]; simp
  | cons x fs ih =>
    rw [List.flatMap_cons, List.length_append, Int.natCast_add, ih, frameBytes_length h, List.length_cons,
      Int.natCast_add, Int.mul_add]
    omega

theorem WaveWriter.append_inv {pre mid data : List Int} {w : WaveWriter} (hw : w.Inv pre mid data)
    (fs : List Int) (hs : w.numBits.tdiv 8 * fs.length < 2147483648) :
    ∃ w', w.append fs = .ok w' ∧ w'.Inv pre mid (data ++ fs.flatMap (frameBytes w.numBits)) ∧
      w'.numBits = w.numBits ∧ w'.big = w.big := by
  obtain ⟨hio, hh, hbits, hfs, hds, c1, c2, hc1, hc2, hb, hp, -⟩ := hw
  have hlen := framesBytes_length hbits fs
  have hwf : w.file = ⟨w.file.bytes, w.file.bytes.length⟩ := by rw [← hp]
  have hfile : w.putFrames fs = (.ok ⟨w.file.bytes ++ fs.flatMap (frameBytes w.numBits),
        w.file.bytes.length + (fs.flatMap (frameBytes w.numBits)).length⟩ : C File) := by
    unfold WaveWriter.putFrames
    split
    · rw [hwf]
      exact writeFrames_eq _ _ _ _ _ (Nat.le_refl _)
    · rename_i h
      have h16 : w.numBits = 16 := Decidable.byContradiction fun c => h (.inr c)
      have hbig : w.big = false := by
        cases hb : w.big
        · rfl
        · exact absurd (.inl hb) h
      have e : (fun x => image w.big 2 (wrapU16 x)) = frameBytes w.numBits := by
        funext x
        rw [hbig, h16]; rfl
      rw [e, hwf, File.write_end]
  unfold WaveWriter.append WaveWriter.needHeader
  rw [if_pos hh, ok_bind, i32_ok (by omega) (by omega), ok_bind, hfile, ok_bind, pure_eq_ok]
  refine ⟨_, rfl, ⟨hio, hh, hbits, ?_, ?_, c1, c2, hc1, hc2, ?_, ?_, ?_⟩, rfl, rfl⟩
  · show w.fileSize + _ = _
    rw [hfs, List.length_append, Int.natCast_add, hlen]; omega
  · show w.dataSize + _ = _
    rw [hds, List.length_append, Int.natCast_add, hlen]
  · show w.file.bytes ++ _ = _
    rw [hb]
    simp only [List.append_assoc]
  · show _ = (w.file.bytes ++ _).length
    rw [List.length_append]
  · intro h; cases h

theorem WaveWriter.terminate_inv {pre mid data : List Int} {w : WaveWriter} (hw : w.Inv pre mid data)
    (hm : mid.length = 32) :
    w.terminate.Inv pre mid data ∧ w.terminate.terminated = true ∧ w.terminate.numBits = w.numBits ∧
      w.terminate.big = w.big := by
  obtain ⟨hio, hh, hbits, hfs, hds, c1, c2, hc1, hc2, hb, hp, -⟩ := hw
  have e1 : ((w.file.seek (w.initOffset + 4)).write (image w.big 4 (swapIf w.big 4 (wrapU32 w.fileSize)))) =
      ⟨(pre ++ idRiff) ++ leBytes 4 (wrapU32 w.fileSize) ++ (mid ++ c2 ++ data), (pre ++ idRiff).length + 4⟩ := by
    have e : w.file.seek (w.initOffset + 4) =
        ⟨(pre ++ idRiff) ++ c1 ++ (mid ++ c2 ++ data), (pre ++ idRiff).length⟩ := by
      unfold File.seek
      rw [hb, hio, List.length_append]
      simp only [List.append_assoc]
      rfl
    rw [e, image_swapIf, File.write_at (by rw [leBytes_length, hc1]), leBytes_length]
  have e2 : ∀ f : File, f = ⟨(pre ++ idRiff) ++ leBytes 4 (wrapU32 w.fileSize) ++ (mid ++ c2 ++ data),
      (pre ++ idRiff).length + 4⟩ →
      ((f.seek (w.initOffset + 12 + 24 + 4)).write (image w.big 4 (swapIf w.big 4 (wrapU32 w.dataSize)))).seekEnd =
      ⟨pre ++ (idRiff ++ leBytes 4 (wrapU32 w.fileSize) ++ mid ++ leBytes 4 (wrapU32 w.dataSize) ++ data),
        (pre ++ (idRiff ++ leBytes 4 (wrapU32 w.fileSize) ++ mid ++ leBytes 4 (wrapU32 w.dataSize) ++ data)).length⟩ := by
    intro f hf
    have e : f.seek (w.initOffset + 12 + 24 + 4) =
        ⟨(pre ++ idRiff ++ leBytes 4 (wrapU32 w.fileSize) ++ mid) ++ c2 ++ data,
          (pre ++ idRiff ++ leBytes 4 (wrapU32 w.fileSize) ++ mid).length⟩ := by
      rw [hf]
      unfold File.seek
      simp only [List.length_append, leBytes_length, hm, hio, List.append_assoc]
      congr 1
    rw [e, image_swapIf, File.write_at (by rw [leBytes_length, hc2])]
    unfold File.seekEnd
    simp only [List.append_assoc]
  have e3 := e2 _ e1
  refine ⟨⟨hio, hh, hbits, hfs, hds, leBytes 4 (wrapU32 w.fileSize), leBytes 4 (wrapU32 w.dataSize),
    leBytes_length _ _, leBytes_length _ _, ?_, ?_, ?_⟩, rfl, rfl, rfl⟩
  · show File.bytes _ = _
    unfold WaveWriter.terminate
    dsimp only
    rw [e3]
  · unfold WaveWriter.terminate
    dsimp only
    rw [e3]
  · intro _; exact ⟨rfl, rfl⟩

/-- The bytes of a complete file. -/
def waveFile (mid : List Int) (offset : Int) (data : List Int) : List Int :=
  idRiff ++ leBytes 4 (wrapU32 (offset + 36 + data.length)) ++ mid ++
    leBytes 4 (wrapU32 data.length) ++ data

theorem WaveWriter.run_inv {pre mid : List Int} (hm : mid.length = 32) : ∀ (ops : List WaveOp)
    {data : List Int} {w : WaveWriter}, w.Inv pre mid data →
    w.numBits.tdiv 8 * (WaveOp.frames ops).length < 2147483648 →
    ∃ w', w.run ops = .ok w' ∧
      w'.Inv pre mid (data ++ (WaveOp.frames ops).flatMap (frameBytes w.numBits))
  | [], data, w, hw, _ => by
    refine ⟨w, rfl, ?_⟩
    rw [WaveOp.frames, List.flatMap_nil, List.append_nil]
    exact hw
  | .terminate :: ops, data, w, hw, hs => by
    obtain ⟨h1, -, h2, -⟩ := WaveWriter.terminate_inv hw hm
    rw [WaveOp.frames] at hs ⊢
    rw [WaveWriter.run]
    have := WaveWriter.run_inv hm ops h1 (by rw [h2]; exact hs)
    rw [h2] at this
    exact this
  | .append fs :: ops, data, w, hw, hs => by
    rw [WaveOp.frames] at hs ⊢
    have hb := hw.bits
    have hn : 0 ≤ w.numBits.tdiv 8 := by rcases hb with h | h <;> rw [h] <;> decide
    rw [List.length_append, Int.natCast_add, Int.mul_add] at hs
    have p1 : 0 ≤ w.numBits.tdiv 8 * (fs.length : Int) := Int.mul_nonneg hn (by omega)
    have p2 : 0 ≤ w.numBits.tdiv 8 * ((WaveOp.frames ops).length : Int) := Int.mul_nonneg hn (by omega)
    obtain ⟨w', h1, h2, h3, -⟩ := WaveWriter.append_inv hw fs (by omega)
    have := WaveWriter.run_inv hm ops h2 (by rw [h3]; omega)
    rw [h3, List.append_assoc, ← List.flatMap_append] at this
    obtain ⟨w'', h4, h5⟩ := this
    refine ⟨w'', ?_, h5⟩
    rw [WaveWriter.run, h1, ok_bind, h4]

theorem WaveWriter.dispose_file {pre mid data : List Int} {w : WaveWriter} (hw : w.Inv pre mid data)
    (hm : mid.length = 32) : w.dispose.file.bytes = pre ++ waveFile mid pre.length data := by
  have key : ∀ w : WaveWriter, w.Inv pre mid data → w.terminated = true →
      w.file.bytes = pre ++ waveFile mid pre.length data := by
    intro w hw ht
    obtain ⟨hio, hh, hbits, hfs, hds, c1, c2, hc1, hc2, hb, hp, hc⟩ := hw
    obtain ⟨rfl, rfl⟩ := hc ht
    rw [hb, hfs, hds]
    rfl
  unfold WaveWriter.dispose
  split
  · rename_i h
    exact key w hw h
  · obtain ⟨h1, h2, -⟩ := WaveWriter.terminate_inv hw hm
    exact key _ h1 h2

end BK
