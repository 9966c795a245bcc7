import Verif.Spec.Load
import Verif.Model.DataMem
import Verif.Props.Wave
import Verif.Props.WaveSafe
import Verif.Props.Convert
import Verif.Lemmas.DataMem
/-! C97: data loaded from files. -/
namespace BK

theorem leVal_eq_number : ∀ bs : List Int, leVal bs = number bs
  | [] => rfl
  | b :: bs => by
    have ih := leVal_eq_number bs
    unfold leVal number
    rw [List.foldr_cons, ih]
    rfl

theorem field_number (big : Bool) {l : List Int} {o n : Nat} (hb : Bytes l) (hl : o + n ≤ l.length) :
    field big l o n = number (slice l o n) := by
  have hlen : ((l.drop o).take n).length = n := by rw [List.length_take, List.length_drop]; omega
  have hB : Bytes ((l.drop o).take n) := fun x hx => hb x (List.mem_of_mem_drop (List.mem_of_mem_take hx))
  have h := swapIf_valOf big _ hB
  rw [hlen] at h
  unfold field slice
  rw [h, leVal_eq_number]

theorem slice_slice (l : List Int) (o n p m : Nat) (h : p + m ≤ n) : slice (slice l o n) p m = slice l (o + p) m := by
  unfold slice
  rw [List.drop_take, List.take_take, List.drop_drop, Nat.min_eq_left (by omega)]

theorem slice_split (l : List Int) (o n m : Nat) : slice l o n ++ slice l (o + n) m = slice l o (n + m) := by
  unfold slice
  rw [← List.drop_drop, List.take_add]

theorem amplitudes16_eq (big : Bool) : ∀ (data : List Int), Bytes data → frames16 big data = amplitudes16 data
  | [], _ => rfl
  | [_], _ => rfl
  | a :: b :: bs, h => by
    unfold frames16 amplitudes16
    have hab : Bytes [a, b] := fun x hx => h x (by
      rcases List.mem_cons.1 hx with rfl | hx
      · exact List.mem_cons_self
      · rw [List.mem_singleton.1 hx]; exact List.mem_cons_of_mem _ List.mem_cons_self)
    have e := swapIf_valOf big [a, b] hab
    rw [show ([a, b] : List Int).length = 2 from rfl, leVal_eq_number] at e
    rw [e, amplitudes16_eq big bs (fun x hx => h x (List.mem_cons_of_mem _ (List.mem_cons_of_mem _ hx)))]
    congr 1
    have ha := h a List.mem_cons_self
    have hb := h b (List.mem_cons_of_mem _ List.mem_cons_self)
    have hn : number [a, b] = a + 256 * (b + 256 * 0) := rfl
    rw [hn]
    unfold wrapI16 signed
    split <;> omega

theorem amplitudes_eq (big : Bool) (bits : Int) (data : List Int) (h : Bytes data) :
    (if bits = 8 then frames8 data else frames16 big data) = amplitudes bits data := by
  unfold amplitudes
  split
  · unfold frames8
    refine List.map_congr_left fun b _ => Int.mul_comm _ _
  · exact amplitudes16_eq big data h

theorem amplitudes_length {bits : Int} (hb : bits = 8 ∨ bits = 16) {data : List Int} (hB : Bytes data) {n ch : Int}
    (hd : (data.length : Int) = n * ch * (bits / 8)) : ((amplitudes bits data).length : Int) = n * ch := by
  rw [← amplitudes_eq false bits data hB]
  rcases hb with rfl | rfl
  · rw [if_pos rfl, frames8_conv.length, Nat.div_one, hd]
    omega
  · rw [if_neg (by decide), frames16_length]
    omega

/-- The header of a WAVE file. -/
theorem readHeader_is (big : Bool) {file : File} {ch rate bits n : Int} {data : List Int} (hB : Bytes file.bytes)
    (hi : IsWave (file.bytes.drop file.pos) ch rate bits data) (h1 : 1 ≤ ch)
    (h4 : rate < 2147483648) (h5 : bits = 8 ∨ bits = 16)
    (hn : 0 ≤ n) (hd : (data.length : Int) = n * ch * (bits / 8)) (hs : (data.length : Int) < 2147483648) :
    ∃ r, (WaveReader.init file).readHeader big = .ok (some (ch, rate, n), r) ∧ r.numBits = bits ∧
      r.dataSize = data.length ∧ r.file.bytes.drop r.file.pos = data := by
  generalize hL : file.bytes.drop file.pos = L at hi
  have hLB : Bytes L := fun x hx => hB x (by rw [← hL] at hx; exact List.mem_of_mem_drop hx)
  have hpos : file.pos ≤ file.bytes.length := by
    have h := hi.riff
    apply Decidable.byContradiction
    intro c
    rw [← hL, List.drop_of_length_le (by omega)] at h
    cases h
  have h44 : 44 ≤ L.length := by rw [hi.whole]; omega
  have hlenB : file.bytes.length = file.pos + L.length := by
    rw [← hL, List.length_drop]; omega
  have hcut : ∀ o n : Nat, slice L o n ++ L.drop (o + n) = L.drop o := fun o n => by
    unfold slice
    rw [← List.drop_drop, List.take_append_drop]
  have hpre : file.bytes = file.bytes.take file.pos ++ (slice L 0 12 ++ (slice L 12 24 ++ (slice L 36 8 ++ data))) := by
    rw [← hi.data, hcut 36 8, hcut 12 24, hcut 0 12, List.drop_zero, ← hL, List.take_append_drop]
  have hsl : ∀ o n : Nat, o + n ≤ 44 → (slice L o n).length = n := fun o n h => by
    unfold slice
    rw [List.length_take, List.length_drop]; omega
  have hsB : ∀ o n : Nat, Bytes (slice L o n) := fun o n x hx =>
    hLB x (List.mem_of_mem_drop (List.mem_of_mem_take hx))
  have hfld : ∀ o n p m : Nat, o + n ≤ 44 → p + m ≤ n → field big (slice L o n) p m = number (slice L (o + p) m) :=
    fun o n p m h1 h2 => by
      rw [field_number big (hsB o n) (by rw [hsl o n h1]; exact h2), slice_slice _ _ _ _ _ h2]
  have htk : ∀ o n p : Nat, p ≤ n → (slice L o n).take p = slice L o p := fun o n p h => by
    unfold slice
    rw [List.take_take, Nat.min_eq_left h]
  have hplen : (file.bytes.take file.pos).length = file.pos := by rw [List.length_take]; omega
  have hh := WaveReader.readHeader_at (big := big) (r := WaveReader.init file) (pre := file.bytes.take file.pos)
    (h12 := slice L 0 12) (fmt := slice L 12 24) (h8 := slice L 36 8) (data := data) rfl hpre hplen.symm
    (hsl _ _ (by omega)) (by rw [htk 0 12 4 (by omega)]; exact hi.riff)
    (by
      have := slice_slice L 0 12 8 4 (by omega)
      unfold slice at this ⊢
      rw [this]
      exact hi.wave)
    (hsl _ _ (by omega)) (by rw [htk 12 24 4 (by omega)]; exact hi.fmt)
    (by rw [hfld 12 24 8 2 (by omega) (by omega)]; exact hi.format)
    (by rw [hfld 12 24 22 2 (by omega) (by omega)]; rw [hi.bits]; exact h5)
    (hsl _ _ (by omega)) (by rw [htk 36 8 4 (by omega)]; exact hi.dataId)
  rw [hh]
  unfold WaveReader.setHeader
  dsimp only
  rw [hfld 12 24 22 2 (by omega) (by omega), hfld 12 24 10 2 (by omega) (by omega), hfld 12 24 12 4 (by omega) (by omega),
    hfld 36 8 4 4 (by omega) (by omega)]
  rw [show 12 + 22 = 34 from rfl, show 12 + 10 = 22 from rfl, show 12 + 12 = 24 from rfl, show 36 + 4 = 40 from rfl,
    hi.bits, hi.channels, hi.rate, hi.dataSize, if_neg (by omega), ok_bind]
  have hfb : (WaveReader.init file).file = file := rfl
  have hds : (if (data.length : Int) = 0 then ((WaveReader.init file).file.bytes.length : Int) -
      ((List.take file.pos file.bytes).length + 44 : Nat) else (data.length : Int)) = data.length := by
    rw [hfb, hplen, hlenB, hi.whole]
    split <;> omega
  rw [hds]
  have hk1 : 1 ≤ bits / 8 := by rcases h5 with h | h <;> rw [h] <;> decide
  have hk' : (if bits = 8 then (1 : Int) else 2) = bits / 8 := by
    rcases h5 with h | h <;> rw [h] <;> rfl
  have hrate0 : 0 ≤ rate := by
    rw [← hi.rate, ← leVal_eq_number]
    have := (field_nonneg big (slice L 12 24) 12 4 (hsB _ _) (by rw [hsl _ _ (by omega)]; omega)).1
    rw [hfld 12 24 12 4 (by omega) (by omega), ← leVal_eq_number] at this
    exact this
  rw [hk', numFrames_eq hd hs h1 hk1 hn, wrapI32_pos hrate0 h4]
  refine ⟨_, rfl, rfl, rfl, ?_⟩
  show List.drop ((List.take file.pos file.bytes).length + 44) file.bytes = data
  rw [hplen, ← List.drop_drop, hL]
  exact hi.data

/-- The frames of a WAVE file. -/
theorem readFrames_is (big : Bool) {r : WaveReader} {bits : Int} {data out : List Int} (h5 : bits = 8 ∨ bits = 16)
    (hr1 : r.numBits = bits) (hr2 : r.dataSize = data.length) (hr3 : r.file.bytes.drop r.file.pos = data)
    (ho : (data.length : Int) = out.length * (bits / 8)) :
    ∃ r', r.readFrames big out = .ok (if bits = 8 then frames8 data else frames16 big data, r') := by
  have hsize : ((if bits = 8 then 1 else 2 : Nat) : Int) = bits / 8 := by
    rcases h5 with h | h <;> rw [h] <;> rfl
  have hlen : data.length = (if bits = 8 then 1 else 2) * out.length := by
    rw [← hsize, Int.mul_comm, ← Int.natCast_mul] at ho
    exact Int.ofNat_inj.mp ho
  obtain ⟨f, hf⟩ := WaveReader.readFrames_eq r big out (if bits = 8 then 1 else 2)
    (if bits = 8 then frames8 else frames16 big) (by rw [hr1]) (by rw [hr1]) (by omega)
    (by rw [hr2, hlen, Int.natCast_mul]; exact Int.le_refl _)
  have hc : IsConv (if bits = 8 then 1 else 2) (if bits = 8 then frames8 else frames16 big) := by
    split
    · exact frames8_conv
    · exact frames16_conv big
  have hcl : ((if bits = 8 then frames8 else frames16 big) data).length = out.length := by
    rw [hc.length, hlen]
    exact Nat.mul_div_cancel_left _ (by split <;> decide)
  have hdiv : data.length / (if bits = 8 then 1 else 2) = out.length := by rw [← hc.length, hcl]
  have hused : usedOf (if bits = 8 then 1 else 2) (min (data.length : Int).toNat data.length) = data.length := by
    rw [Int.toNat_natCast, Nat.min_self]
    unfold usedOf
    rw [hlen, Nat.mul_mod_right, Nat.sub_zero]
  rw [hf, hr3, hr2, hused, List.take_length, hdiv, List.drop_length, List.append_nil, Int.toNat_natCast, Nat.sub_self,
    memsetFrames_eq _ _ _ _ rfl (by rw [hcl]; exact Nat.le_refl _)]
  simp only [Nat.zero_div, List.replicate_zero, List.append_nil, Nat.add_zero, List.take_append_drop]
  refine ⟨{ r with file := f }, ?_⟩
  rw [ok_bind, ← hr2]
  split <;> rfl

theorem CopyWorld.loaded_eq {w : CopyWorld} {d b : Nat} {l : List Int} (h1 : (w.objs d).frames = some b)
    (h2 : w.heap b = some l) (h3 : (w.objs d).numFrames * (w.objs d).numChannels = l.length) :
    w.loaded d = .ok ((w.objs d).numFrames, (w.objs d).numChannels, (w.objs d).sampleRate, l) := by
  unfold CopyWorld.loaded CopyWorld.read
  rw [h1]
  dsimp only
  rw [h2, h3]
  dsimp only
  rw [if_pos (Nat.le_refl _), List.take_length]
  rfl

/-- **C97** (WAVE files; partial: for files without further chunks, see C79 for those; for data that consists of whole frames; if there is
memory; see `C97_refuted_file` otherwise).  A data object that is loaded from where a WAVE file begins has the number of
frames, the channels, the sample rate and the amplitudes that the file says.  Its pitch and its sustain range, other objects and blocks that
were allocated before are as they were. -/
theorem C97_wave_partial (big : Bool) {w : CopyWorld} {d : Nat} {file : File} {ch rate bits : Int} {n : Nat} {data : List Int}
    {mem : Nat → Option (List Int)} (hB : Bytes file.bytes) (hi : IsWave (file.bytes.drop file.pos) ch rate bits data)
    (h1 : 1 ≤ ch) (h4 : rate < 2147483648) (h5 : bits = 8 ∨ bits = 16)
    (hd : (data.length : Int) = n * ch * (bits / 8)) (hs : (data.length : Int) < 2147483648)
    (hm : ∀ k, ∃ m, mem k = some m ∧ m.length = k) :
    ∃ w', w.loadWave d big file mem = .ok (.ok, w') ∧
      w'.loaded d = .ok (n, ch.toNat, rate, amplitudes bits data) ∧
      (w'.objs d).samplePitch = (w.objs d).samplePitch ∧ (w'.objs d).sustainOffset = (w.objs d).sustainOffset ∧
      (w'.objs d).sustainEnd = (w.objs d).sustainEnd ∧
      (∀ e, e ≠ d → w'.objs e = w.objs e) ∧ ∀ b, b ≠ w.next → w'.heap b = w.heap b := by
  obtain ⟨r, hr, hr1, hr2, hr3⟩ := readHeader_is big hB hi h1 h4 h5 (Int.natCast_nonneg n) hd hs
  have hBd : Bytes data := fun x hx => hB x (by
    rw [← hi.data] at hx; exact List.mem_of_mem_drop (List.mem_of_mem_drop hx))
  have hnc : 0 ≤ (n : Int) * ch := Int.mul_nonneg (Int.natCast_nonneg n) (by omega)
  have hncl : (n : Int) * ch < 2147483648 := by
    have hk1 : 1 ≤ bits / 8 := by rcases h5 with h | h <;> rw [h] <;> decide
    have := Int.mul_le_mul_of_nonneg_left hk1 hnc
    omega
  obtain ⟨m, hm1, hm2⟩ := hm ((n : Int) * ch).toNat
  obtain ⟨r', hrf⟩ := readFrames_is big (out := m) h5 hr1 hr2 hr3 (by rw [hm2, hd, Int.toNat_of_nonneg hnc])
  unfold CopyWorld.loadWave
  rw [hr, ok_bind]
  dsimp only
  rw [i32_ok (by omega) (by omega), ok_bind]
  unfold mallocFrames
  rw [if_neg (by omega), hm1]
  dsimp only
  rw [hrf, ok_bind, amplitudes_eq big bits data hBd]
  refine ⟨_, rfl, ?_, ?_, ?_, ?_, fun e he => upd_ne _ _ he, fun b hb => upd_ne _ _ hb⟩
  · have ho : ∀ W x, (CopyWorld.put W d x).objs d = x := fun W x => upd_self _ _ _
    have hal := amplitudes_length h5 hBd hd
    have hk : n * ch.toNat = (amplitudes bits data).length := by
      have : ((n * ch.toNat : Nat) : Int) = n * ch := by
        rw [Int.natCast_mul, Int.toNat_of_nonneg (by omega)]
      rw [← hal] at this
      exact Int.ofNat_inj.mp this
    rw [CopyWorld.loaded_eq (b := w.next) (l := amplitudes bits data) (by rw [ho]) (upd_self _ _ _)
      (by rw [ho]; dsimp only; rw [Int.toNat_natCast]; exact hk), ho]
    dsimp only
    rw [Int.toNat_natCast]
  all_goals
    unfold CopyWorld.put
    dsimp only
    rw [upd_self]

/-- **C97** (files that are not accepted, or no memory).  If loading fails, nothing has changed. -/
theorem C97_failed {w w' : CopyWorld} {d : Nat} {big : Bool} {file : File} {mem : Nat → Option (List Int)} {r : LoadRet}
    (h : w.loadWave d big file mem = .ok (r, w')) (hr : r ≠ .ok) : w' = w := by
  unfold CopyWorld.loadWave at h
  obtain ⟨⟨x, r0⟩, h1, h⟩ := bind_ok_iff.1 h
  dsimp only at h
  match x, h with
  | none, h =>
    injection h with h
    injection h with _ h
    exact h.symm
  | some (ch, rate, n), h =>
    dsimp only at h
    obtain ⟨size, h2, h⟩ := bind_ok_iff.1 h
    match hm : mallocFrames mem size with
    | none =>
      rw [hm] at h
      injection h with h
      injection h with _ h
      exact h.symm
    | some m =>
      rw [hm] at h
      dsimp only at h
      obtain ⟨y, h3, h⟩ := bind_ok_iff.1 h
      injection h with h
      injection h with h _
      exact absurd h.symm hr

/-- What a successful load has done to blocks and object. -/
theorem CopyWorld.loadWave_block {w w' : CopyWorld} {d : Nat} {big : Bool} {file : File} {mem : Nat → Option (List Int)}
    (h : w.loadWave d big file mem = .ok (.ok, w')) :
    ∃ out x, w' = (w.block out).put d x ∧ x.frames = some w.next ∧ x.copied = true ∧ x.init = (w.objs d).init := by
  unfold CopyWorld.loadWave at h
  obtain ⟨⟨x, r0⟩, h1, h⟩ := bind_ok_iff.1 h
  dsimp only at h
  match x, h with
  | none, h =>
    injection h with h
    injection h with h _
    cases h
  | some (ch, rate, n), h =>
    dsimp only at h
    obtain ⟨size, h2, h⟩ := bind_ok_iff.1 h
    match hm : mallocFrames mem size with
    | none =>
      rw [hm] at h
      injection h with h
      injection h with h _
      cases h
    | some m =>
      rw [hm] at h
      dsimp only at h
      obtain ⟨y, h3, h⟩ := bind_ok_iff.1 h
      injection h with h
      injection h with _ h
      exact ⟨y.1, _, h.symm, rfl, rfl, rfl⟩

/-- **C97** (memory; partial: for an object without frames, see `C97_refuted_memory`).  If a file has been loaded by an object that had
no frames, disposing of the object gives back all memory. -/
theorem C97_given_back_partial {w w' : CopyWorld} {d : Nat} {big : Bool} {file : File} {mem : Nat → Option (List Int)}
    (hi : (w.objs d).init = true) (hf : w.heap w.next = none) (h : w.loadWave d big file mem = .ok (.ok, w')) :
    ∃ w'', w'.dispose d = .ok w'' ∧ w''.heap = w.heap := by
  obtain ⟨out, x, e, h1, h2, h3⟩ := CopyWorld.loadWave_block h
  have hd : w'.objs d = x := by rw [e]; exact upd_self _ _ _
  have hh : w'.heap = upd w.heap w.next (some out) := by rw [e]; rfl
  unfold CopyWorld.dispose CopyWorld.drop CopyWorld.free
  rw [hd, h3, hi, if_pos rfl, h2, if_pos rfl, h1]
  dsimp only
  rw [hh, upd_self]
  refine ⟨_, rfl, ?_⟩
  show upd (upd w.heap w.next (some out)) w.next none = w.heap
  funext b
  by_cases hb : b = w.next
  · rw [hb, upd_self, hf]
  · rw [upd_ne _ _ hb, upd_ne _ _ hb]

/-- **C97** does not hold (memory): whenever an object has frames of its own and loads a file, the memory of these frames is lost. -/
theorem C97_refuted_memory {w w' : CopyWorld} {d b : Nat} {big : Bool} {file : File} {mem : Nat → Option (List Int)}
    (hb : (w.objs d).frames = some b) (hl : w.heap b ≠ none) (ho : ∀ e, (w.objs e).frames = some b → e = d)
    (hf : w.heap w.next = none) (h : w.loadWave d big file mem = .ok (.ok, w')) : w'.Lost b := by
  obtain ⟨out, x, e, h1, -, -⟩ := CopyWorld.loadWave_block h
  have hbn : b ≠ w.next := fun c => hl (by rw [c]; exact hf)
  subst e
  refine ⟨?_, fun c hc => ?_⟩
  · show upd w.heap w.next (some out) b ≠ none
    rw [upd_ne _ _ hbn]
    exact hl
  · have hc : (upd w.objs d x c).frames = some b := hc
    by_cases hcd : c = d
    · rw [hcd, upd_self, h1] at hc
      exact hbn (Option.some.inj hc).symm
    · rw [upd_ne _ _ hcd] at hc
      exact hcd (ho c hc)

/-- **C97** (raw data; partial as in C60: for less than 2²⁸ bytes, not for the sample −128 of signed 8-bit data and data of opposite
endianness, and for whole frames).  A data object that is loaded from a file as raw data has the samples from where the file stands to
its end, wherever that is. -/
theorem C97_raw_partial (fmt : Fmt) (big : Bool) (pre bytes : List Int) (ch e : Nat) {w : CopyWorld} {d : Nat}
    (mem : Nat → Option (List Int)) (hb : Bytes bytes) (hs : bytes.length < 268435456)
    (h1 : 1 ≤ ch) (h8 : ch ≤ 8) (he : e < 4) (hmem : ∀ n, ∃ m, mem n = some m ∧ m.length = n)
    (hsign : fmt = .s8 → 128 ∉ bytes) (hend : fmt = .s16 → e = 0 ∨ big = decide (e = 1))
    (hw : bytes.length % (fmt.mask * ch) = 0)
    (hown : (w.objs d).copied = true → ∀ b, (w.objs d).frames = some b → w.heap b ≠ none) :
    ∃ w', w.loadRaw d big ⟨pre ++ bytes, pre.length⟩ ch (fmt.param + 65536 * (e : Int)) true mem = .ok (.ok, w') ∧
      w'.loaded d = .ok (8 * bytes.length / fmt.bits / ch, ch, (w.objs d).sampleRate,
        (unpack fmt big bytes).map fmt.level) ∧
      (∀ c, c ≠ d → w'.objs c = w.objs c) ∧
      ∀ b, b ≠ w.next → (w.objs d).frames ≠ some b → w'.heap b = w.heap b := by
  obtain ⟨D, rest, hD, hfr, hrest⟩ := C60_samples_partial fmt big bytes ch e mem hb hs h1 h8 he hmem hsign hend
  obtain ⟨D', hD', hl, hc, hn⟩ := C60_memory_partial fmt big bytes ch e mem hs h1 h8 he hmem
  rw [hD] at hD'
  injection hD' with hD'
  injection hD' with hD'
  subst hD'
  have hr0 : rest = [] := hrest (.inr (Nat.mod_eq_zero_of_dvd (Nat.dvd_trans (Nat.dvd_mul_left ch fmt.mask)
    (Nat.dvd_of_mod_eq_zero hw))))
  rw [hr0, List.append_nil, hw, Nat.sub_zero, List.take_length] at hfr
  have hrd : ((((File.mk (pre ++ bytes) pre.length).seekEnd).seek pre.length).read
      ((File.mk (pre ++ bytes) pre.length).seekEnd.pos - pre.length)).1 = bytes := by
    show (((pre ++ bytes).drop pre.length).take ((pre ++ bytes).length - pre.length)) = bytes
    rw [List.drop_left, List.length_append, Nat.add_sub_cancel_left, List.take_length]
  have hsz : wrapU32 (((File.mk (pre ++ bytes) pre.length).seekEnd.pos - pre.length : Nat) : Int) = bytes.length := by
    show wrapU32 (((pre ++ bytes).length - pre.length : Nat) : Int) = bytes.length
    rw [List.length_append, Nat.add_sub_cancel_left]
    unfold wrapU32
    omega
  have hdrop : ∃ w1, w.drop d = .ok w1 ∧ w1.next = w.next ∧ w1.objs = w.objs ∧
      ∀ b, (w.objs d).frames ≠ some b → w1.heap b = w.heap b := by
    unfold CopyWorld.drop CopyWorld.free
    by_cases hcp : (w.objs d).copied = true
    · rw [if_pos hcp]
      match hfm : (w.objs d).frames with
      | none => exact ⟨w, rfl, rfl, rfl, fun _ _ => rfl⟩
      | some b =>
        dsimp only
        match hh : w.heap b with
        | none => exact absurd hh (hown hcp b hfm)
        | some l => exact ⟨_, rfl, rfl, rfl, fun c hc => upd_ne _ _ (fun q => hc (by rw [q]))⟩
    · rw [if_neg hcp]
      exact ⟨w, rfl, rfl, rfl, fun _ _ => rfl⟩
  obtain ⟨w1, hw1, hw2, hw3, hw4⟩ := hdrop
  unfold CopyWorld.loadRaw
  dsimp only
  rw [if_pos rfl, hrd, hsz]
  unfold CopyWorld.setRaw
  rw [hD, ok_bind]
  dsimp only
  rw [hw1, ok_bind]
  refine ⟨_, rfl, ?_, fun c hcd => ?_, fun b hbn hbf => ?_⟩
  · have ho : ∀ W x, (CopyWorld.put W d x).objs d = x := fun W x => upd_self _ _ _
    have hk : D.numFrames.toNat * D.numChannels.toNat = D.frames.length := by
      have : ((D.numFrames.toNat * D.numChannels.toNat : Nat) : Int) = D.frames.length := by
        rw [Int.natCast_mul, Int.toNat_of_nonneg (by rw [hn]; exact Int.natCast_nonneg _),
          Int.toNat_of_nonneg (by rw [hc]; exact Int.natCast_nonneg _), hl]
      exact Int.ofNat_inj.mp this
    rw [CopyWorld.loaded_eq (b := w1.next) (l := D.frames) (by rw [ho]) (upd_self _ _ _) (by rw [ho]; exact hk), ho]
    dsimp only
    rw [hfr, hn, hc, Int.toNat_natCast, Int.toNat_natCast]
  · show upd w1.objs d _ c = _
    rw [upd_ne _ _ hcd, hw3]
  · show upd w1.heap w1.next _ b = _
    rw [hw2, upd_ne _ _ hbn]
    exact hw4 b hbf

/-- **C97** (raw data that is not accepted, or no memory).  If loading fails, nothing has changed. -/
theorem C97_raw_failed {w w' : CopyWorld} {d : Nat} {big room : Bool} {file : File} {ch params : Int}
    {mem : Nat → Option (List Int)} {r : LoadRet} (h : w.loadRaw d big file ch params room mem = .ok (r, w'))
    (hr : r ≠ .ok) : w' = w := by
  unfold CopyWorld.loadRaw at h
  dsimp only at h
  cases room with
  | false =>
    injection h with h
    injection h with _ h
    exact h.symm
  | true =>
    rw [if_pos rfl] at h
    unfold CopyWorld.setRaw at h
    obtain ⟨x, h1, h⟩ := bind_ok_iff.1 h
    match x, h with
    | .invalidNumChannels, h | .invalidNumBits, h | .allocationError, h =>
      injection h with h
      injection h with _ h
      exact h.symm
    | .ok f, h =>
      dsimp only at h
      obtain ⟨y, h3, h⟩ := bind_ok_iff.1 h
      injection h with h
      injection h with h _
      exact absurd h.symm hr

/-- An object that has been initialised. -/
def newObj : CopyWorld := ({} : CopyWorld).put 0 { init := true }

/-- Memory that contained `7` everywhere. -/
def sevens (n : Nat) : Option (List Int) := some (List.replicate n 7)

/-- **C97** does not hold (raw data): the memory of an object that loads raw data and is disposed of then is lost, as it is not marked as a
copy. -/
theorem C97_refuted_raw : (do
    let (r, w) ← newObj.loadRaw 0 false ⟨[1, 2, 3, 4], 0⟩ 1 (Fmt.u8).param true sevens
    let w ← w.dispose 0
    return (r, w.heap 0, (w.objs 0).frames)) = .ok (.ok, some [128, 256, 385, 513], none) := by
  decide +kernel

/-- **C97** does not hold (users): a unit that plays the frames of an object goes on playing the old ones after a file has been loaded, whereas
it plays the new ones after frames have been set. -/
theorem C97_refuted_users :
    let before := [DataOp.init 0, .setFrames 0 (.user 8) 8 1 true true, .attach 1 1, .use 1 .sample (some 0)]
    ((({} : DWorld).run 9 (before ++ [.load 0 5 1 true, .play 1])).map fun w =>
      ((w.units 1).frames, (w.datas 0).frames)) = .ok (some (.lib 0), some (.lib 1)) ∧
    ((({} : DWorld).run 9 (before ++ [.setFrames 0 (.user 5) 5 1 true true, .play 1])).map fun w =>
      ((w.units 1).frames, (w.datas 0).frames)) = .ok (some (.lib 1), some (.lib 1)) :=
  ⟨rfl, rfl⟩

/-- **C97** does not hold (files): a file with 0 channels makes the library divide by 0; a data chunk that does not consist of whole frames, or
that has the size 0xFFFFFFFF (as files have whose size was not known when they were written), makes it write behind the memory that it has
allocated.  A file with a single frame or with nine channels is accepted, though such frames cannot be set. -/
theorem C97_refuted_file :
    (newObj.loadWave 0 false ⟨tinyWave 0 16 4 [1, 2, 3, 4], 0⟩ sevens).map Prod.fst = .error .divZero ∧
    (newObj.loadWave 0 false ⟨tinyWave 2 16 6 [1, 2, 3, 4, 5, 6], 0⟩ sevens).map Prod.fst = .error .oob ∧
    (newObj.loadWave 0 false ⟨(tinyWave 1 16 4 []).take 40 ++ [255, 255, 255, 255, 1, 2, 3, 4], 0⟩ sevens).map Prod.fst =
      .error .oob ∧
    ((newObj.loadWave 0 false ⟨tinyWave 1 16 2 [1, 2], 0⟩ sevens).bind fun x => x.2.loaded 0) =
      .ok (1, 1, 8000, [513]) ∧
    ((newObj.loadWave 0 false ⟨tinyWave 9 8 9 [1, 2, 3, 4, 5, 6, 7, 8, 9], 0⟩ sevens).bind fun x => x.2.loaded 0).map
      (fun x => (x.1, x.2.1)) = .ok (1, 9) := by
  refine ⟨by decide +kernel, by decide +kernel, by decide +kernel, by decide +kernel, by decide +kernel⟩

/-- The hypotheses are met: three frames of two channels, after a byte that does not belong to the file. -/
def threeFrames : List Int :=
  [82, 73, 70, 70, 48, 0, 0, 0, 87, 65, 86, 69, 102, 109, 116, 32, 16, 0, 0, 0, 1, 0, 2, 0, 64, 31, 0, 0,
   0, 125, 0, 0, 4, 0, 16, 0, 100, 97, 116, 97, 12, 0, 0, 0, 1, 0, 255, 255, 0, 128, 255, 127, 5, 0, 6, 0]

example : IsWave threeFrames 2 8000 16 [1, 0, 255, 255, 0, 128, 255, 127, 5, 0, 6, 0] :=
  ⟨by decide, by decide, by decide, by decide, by decide, by decide, by decide, by decide, by decide, by decide,
    by decide, by decide, by decide, by decide, by decide⟩
example : ((newObj.loadWave 0 true ⟨99 :: threeFrames, 1⟩ sevens).bind fun x => x.2.loaded 0) =
    .ok (3, 2, 8000, [1, -1, -32768, 32767, 5, 6]) := by decide +kernel
example : ((newObj.loadRaw 0 true ⟨[9, 9, 0, 255, 16], 2⟩ 1 (Fmt.u8).param true sevens).bind fun x => x.2.loaded 0) =
    .ok (3, 1, 0, [0, 32767, 2055]) := by decide +kernel
example : (newObj.loadWave 0 true ⟨threeFrames.drop 1, 0⟩ sevens).map Prod.fst = .ok .invalidReturnValue := by decide +kernel

end BK
