import Verif.Lemmas.Wave
/-!
Helper lemmas on reading WAVE files.
-/
namespace BK

/-- Conversion of a stream of samples of `size` bytes. -/
structure IsConv (size : Nat) (conv : List Int → List Int) : Prop where
  pos : size = 1 ∨ size = 2
  append : ∀ a b, a.length % size = 0 → conv (a ++ b) = conv a ++ conv b
  length : ∀ a, (conv a).length = a.length / size

theorem frames8_conv : IsConv 1 frames8 where
  pos := .inl rfl
  append := fun a b _ => List.map_append
  length := fun a => by rw [frames8, List.length_map, Nat.div_one]

theorem frames16_length (big : Bool) : ∀ a : List Int, (frames16 big a).length = a.length / 2
  | [] => rfl
  | [_] => by simp [frames16]
  | a :: b :: cs => by
    rw [frames16, List.length_cons, frames16_length big cs]
    simp only [List.length_cons]
    omega

theorem frames16_append (big : Bool) : ∀ a b : List Int, a.length % 2 = 0 →
    frames16 big (a ++ b) = frames16 big a ++ frames16 big b
  | [], b, _ => rfl
  | [_], b, h => by simp at h
  | x :: y :: a, b, h => by
    simp only [List.length_cons] at h
    rw [List.cons_append, List.cons_append, frames16, frames16, frames16_append big a b (by omega),
      List.cons_append]

theorem frames16_conv (big : Bool) : IsConv 2 (frames16 big) where
  pos := .inr rfl
  append := frames16_append big
  length := frames16_length big

/-- Bytes used when reading `n` bytes in samples of `size` bytes. -/
def usedOf (size n : Nat) : Nat := n - n % size

theorem splice_splice (out a b : List Int) (pos : Nat) (h : pos + a.length ≤ out.length) :
    (out.take pos ++ a ++ out.drop (pos + a.length)).take (pos + a.length) ++ b ++
      (out.take pos ++ a ++ out.drop (pos + a.length)).drop (pos + a.length + b.length) =
    out.take pos ++ (a ++ b) ++ out.drop (pos + (a ++ b).length) := by
  have l1 : (out.take pos ++ a).length = pos + a.length := by
    rw [List.length_append, List.length_take]; omega
  rw [List.take_append_of_le_length (by omega), List.take_of_length_le (by omega), List.drop_append, l1,
    List.drop_of_length_le (by omega), List.nil_append, List.drop_drop, List.length_append]
  simp only [List.append_assoc]
  congr 4
  omega

theorem splice_length (out a : List Int) (pos : Nat) (h : pos + a.length ≤ out.length) :
    (out.take pos ++ a ++ out.drop (pos + a.length)).length = out.length := by
  simp only [List.length_append, List.length_take, List.length_drop]
  omega

/-- The loop reads all samples that are complete up to the end of data and file. -/
theorem waveReadLoop_eq {size : Nat} {conv : List Int → List Int} (hc : IsConv size conv) :
    ∀ (n remaining used : Nat) (f : File) (out : List Int) (pos : Nat), remaining < n →
    pos + usedOf size (min remaining (f.bytes.drop f.pos).length) / size ≤ out.length →
    ∃ f', waveReadLoop size conv n remaining used f out pos =
      .ok (used + usedOf size (min remaining (f.bytes.drop f.pos).length), f',
        out.take pos ++ conv ((f.bytes.drop f.pos).take
            (usedOf size (min remaining (f.bytes.drop f.pos).length))) ++
          out.drop (pos + (conv ((f.bytes.drop f.pos).take
            (usedOf size (min remaining (f.bytes.drop f.pos).length)))).length),
        pos + usedOf size (min remaining (f.bytes.drop f.pos).length) / size)
  | 0, remaining, _, _, _, _, h, _ => by omega
  | n + 1, remaining, used, f, out, pos, hn, hfit => by
    have hs := hc.pos
    have conv0 : conv [] = [] := by
      have := hc.length []
      rw [List.length_nil, Nat.zero_div] at this
      exact List.eq_nil_of_length_eq_zero this
    have finish : usedOf size (min remaining (f.bytes.drop f.pos).length) = 0 → ∀ f' : File,
        (.ok (used, f', out, pos) : C (Nat × File × List Int × Nat)) =
        .ok (used + usedOf size (min remaining (f.bytes.drop f.pos).length), f',
        out.take pos ++ conv ((f.bytes.drop f.pos).take
            (usedOf size (min remaining (f.bytes.drop f.pos).length))) ++
          out.drop (pos + (conv ((f.bytes.drop f.pos).take
            (usedOf size (min remaining (f.bytes.drop f.pos).length)))).length),
        pos + usedOf size (min remaining (f.bytes.drop f.pos).length) / size) := by
      intro h0 f'
      rw [h0, List.take_zero, conv0]
      simp only [List.append_nil, List.length_nil, Nat.add_zero, List.take_append_drop, Nat.zero_div]
    generalize hA : f.bytes.drop f.pos = avail at hfit finish
    unfold waveReadLoop
    dsimp only
    by_cases h0 : remaining = 0
    · rw [if_pos h0]
      refine ⟨f, finish ?_ f⟩
      subst h0
      unfold usedOf
      omega
    · rw [if_neg h0]
      have hread : (f.read (min remaining 1024 - min remaining 1024 % size)) =
          (avail.take (min remaining 1024 - min remaining 1024 % size),
           ⟨f.bytes, f.pos + (avail.take (min remaining 1024 - min remaining 1024 % size)).length⟩) := by
        unfold File.read
        dsimp only
        rw [hA]
      rw [hread]
      generalize hw : min remaining 1024 - min remaining 1024 % size = want
      dsimp only
      have hlen : (avail.take want).length = min want avail.length := List.length_take
      by_cases hg : (avail.take want).length - (avail.take want).length % size = 0
      · rw [if_pos hg]
        refine ⟨_, finish ?_ _⟩
        rw [hlen] at hg
        unfold usedOf
        rcases hs with hs | hs <;> subst hs <;> omega
      · rw [if_neg hg, List.take_take]
        rw [hlen] at hg ⊢
        generalize hgot : min want avail.length - min want avail.length % size = got at hg
        have hgw : min got want = got := by omega
        rw [hgw]
        have hsize : got % size = 0 := by rcases hs with hs | hs <;> subst hs <;> omega
        have hgl : got ≤ avail.length := by omega
        have hgr : got ≤ remaining := by omega
        have htl : (avail.take got).length = got := by rw [List.length_take]; omega
        have hcl : (conv (avail.take got)).length = got / size := by rw [hc.length, htl]
        -- what is left
        have hA2 : f.bytes.drop (f.pos + min want avail.length) = avail.drop (min want avail.length) := by
          rw [← hA, List.drop_drop]
        have hrest : usedOf size (min remaining avail.length) =
            got + usedOf size (min (remaining - got) (avail.drop (min want avail.length)).length) ∧
            ((avail.drop (min want avail.length)).take
              (usedOf size (min (remaining - got) (avail.drop (min want avail.length)).length)) =
             (avail.drop got).take
              (usedOf size (min (remaining - got) (avail.drop (min want avail.length)).length))) := by
          by_cases hfull : want ≤ avail.length
          · have e : min want avail.length = want := by omega
            have e2 : got = want := by rcases hs with hs | hs <;> subst hs <;> omega
            rw [e, e2, List.length_drop]
            refine ⟨?_, rfl⟩
            unfold usedOf
            rcases hs with hs | hs <;> subst hs <;> omega
          · have e : min want avail.length = avail.length := by omega
            rw [e, List.drop_length, List.length_nil]
            have e3 : usedOf size (min (remaining - got) 0) = 0 := by unfold usedOf; omega
            rw [e3, List.take_zero, List.take_zero]
            refine ⟨?_, rfl⟩
            unfold usedOf
            rcases hs with hs | hs <;> subst hs <;> omega
        have hdiv : ∀ u, (got + u) / size = got / size + u / size := by
          intro u
          rcases hs with hs | hs <;> subst hs <;> omega
        rw [hrest.1, hdiv] at hfit
        have hfit2 : pos + (conv (avail.take got)).length ≤ out.length := by
          rw [hcl]
          refine Nat.le_trans ?_ hfit
          exact Nat.add_le_add_left (Nat.le_add_right _ _) _
        rw [store_eq _ _ _ hfit2, ok_bind, hcl]
        have hl2 := splice_length out (conv (avail.take got)) pos hfit2
        rw [hcl] at hl2
        obtain ⟨f', ih⟩ := waveReadLoop_eq hc n (remaining - got) (used + got)
          ⟨f.bytes, f.pos + min want avail.length⟩
          (out.take pos ++ conv (avail.take got) ++ out.drop (pos + got / size)) (pos + got / size)
          (by omega) (by
            dsimp only
            rw [hA2, hl2, Nat.add_assoc]
            exact hfit)
        dsimp only at ih
        rw [hA2] at ih
        refine ⟨f', ?_⟩
        rw [ih, hrest.1, hrest.2, hdiv]
        generalize usedOf size (min (remaining - got) (avail.drop (min want avail.length)).length) = u
        have happ : conv (avail.take (got + u)) = conv (avail.take got) ++ conv ((avail.drop got).take u) := by
          rw [List.take_add, hc.append _ _ (by rw [htl]; exact hsize)]
        have hsp := splice_splice out (conv (avail.take got)) (conv ((avail.drop got).take u)) pos hfit2
        rw [hcl] at hsp
        rw [happ, hsp]
        simp only [Nat.add_assoc]

end BK

namespace BK

theorem File.read_file {f : File} {pre h rest : List Int} {n : Nat} (hb : f.bytes = pre ++ (h ++ rest))
    (hp : f.pos = pre.length) (hn : h.length = n) : f.read n = (h, ⟨f.bytes, pre.length + n⟩) := by
  have e : f = ⟨pre ++ h ++ rest, pre.length⟩ := by
    cases f
    dsimp only at hb hp
    rw [hb, hp, List.append_assoc]
  rw [e]
  exact File.read_at hn

/-- Reading the header of a file that consists of the three headers and data. -/
theorem WaveReader.readHeader_at {r : WaveReader} {big : Bool} {pre h12 fmt h8 data : List Int}
    (hr : r.sampleRate = 0) (hb : r.file.bytes = pre ++ (h12 ++ (fmt ++ (h8 ++ data))))
    (hp : r.file.pos = pre.length) (h12l : h12.length = 12) (h12a : h12.take 4 = idRiff)
    (h12b : (h12.drop 8).take 4 = idWave) (hfl : fmt.length = 24) (hfa : fmt.take 4 = idFmt)
    (hf1 : field big fmt 8 2 = 1) (hf2 : field big fmt 22 2 = 8 ∨ field big fmt 22 2 = 16)
    (h8l : h8.length = 8) (h8a : h8.take 4 = idData) :
    r.readHeader big =
      (do let r ← r.setHeader big fmt ⟨r.file.bytes, pre.length + 44⟩ (field big h8 4 4)
          .ok (some (r.numChannels, r.sampleRate, r.numFrames), r)) := by
  have r1 := File.read_file hb hp h12l
  have hb2 : (File.mk r.file.bytes (pre.length + 12)).bytes = (pre ++ h12) ++ (fmt ++ (h8 ++ data)) := by
    rw [List.append_assoc]; exact hb
  have r2 := File.read_file hb2 (by rw [List.length_append, h12l]) hfl
  have hb3 : (File.mk r.file.bytes (pre.length + 36)).bytes = (pre ++ h12 ++ fmt) ++ (h8 ++ data) := by
    rw [List.append_assoc, List.append_assoc]; exact hb
  have r3 := File.read_file hb3 (by simp only [List.length_append, h12l, hfl]) h8l
  unfold WaveReader.readHeader
  rw [if_neg (fun c => c hr), r1]
  dsimp only
  rw [if_neg (by rw [h12l, h12a, h12b]; decide)]
  rw [List.length_append, h12l] at r2
  rw [r2]
  dsimp only
  rw [if_neg (by
    rw [hfl, hfa, hf1]
    rcases hf2 with h | h <;> rw [h] <;> decide)]
  rw [show pre.length + 12 + 24 = pre.length + 36 from rfl]
  unfold findData
  dsimp only
  rw [r3]
  dsimp only
  rw [if_neg (by omega), if_pos h8a, ok_bind]
  dsimp only
  simp only [List.length_append, h12l, hfl]
  rfl

/-- Search for the data chunk ends. -/
theorem findData_total (big : Bool) : ∀ (n : Nat) (f : File), 1 ≤ n → f.bytes.length + 1 ≤ n + f.pos →
    ∃ r, findData big n f = .ok r ∧ r.2.bytes = f.bytes ∧ (r.1 ≠ none → r.2.pos ≤ f.bytes.length)
  | 0, _, h, _ => by omega
  | n + 1, f, _, h => by
    have hl : ((f.read 8).1).length = min 8 (f.bytes.length - f.pos) := by
      unfold File.read
      dsimp only
      rw [List.length_take, List.length_drop]
    have hp : (f.read 8).2 = ⟨f.bytes, f.pos + ((f.read 8).1).length⟩ := rfl
    unfold findData
    dsimp only
    by_cases h8 : ((f.read 8).1).length < 8
    · rw [if_pos h8]
      exact ⟨_, rfl, rfl, fun c => absurd rfl c⟩
    · rw [if_neg h8]
      split
      · refine ⟨_, rfl, rfl, fun _ => ?_⟩
        rw [hp]
        dsimp only
        omega
      · obtain ⟨r, h1, h2, h3⟩ := findData_total big n ((f.read 8).2.seek ((f.read 8).2.pos +
          (field big (f.read 8).1 4 4).toNat)) (by omega) (by
            rw [hp]
            unfold File.seek
            dsimp only
            omega)
        exact ⟨r, h1, h2, h3⟩

theorem memsetFrames_eq (big : Bool) (out : List Int) (pos n : Nat) (hn : n % 2 = 0)
    (h : pos + n / 2 ≤ out.length) :
    memsetFrames big out pos n = .ok (out.take pos ++ List.replicate (n / 2) 0 ++ out.drop (pos + n / 2)) := by
  unfold memsetFrames
  rw [store_eq _ _ _ (by rw [List.length_replicate]; exact h), ok_bind, if_pos hn, List.length_replicate]
  rfl

theorem memsetFrames_ok (big : Bool) (out : List Int) (pos n : Nat) (h : 2 * pos + n ≤ 2 * out.length) :
    ∃ r, memsetFrames big out pos n = .ok r ∧ r.length = out.length := by
  unfold memsetFrames
  have hs := splice_length out (List.replicate (n / 2) 0) pos (by rw [List.length_replicate]; omega)
  rw [store_eq _ _ _ (by rw [List.length_replicate]; omega), ok_bind]
  by_cases hn : n % 2 = 0
  · rw [if_pos hn]
    exact ⟨_, rfl, hs⟩
  · rw [if_neg hn]
    have hx : ∃ l, l = out.take pos ++ List.replicate (n / 2) 0 ++
      out.drop (pos + (List.replicate (n / 2) (0 : Int)).length) := ⟨_, rfl⟩
    obtain ⟨l, hl⟩ := hx
    rw [← hl] at hs ⊢
    have hlt : pos + n / 2 < l.length := by omega
    have e1 : rd l ((pos : Int) + ((n : Int) / 2)) = .ok (l[pos + n / 2]'hlt) := by
      unfold rd
      have ht : ((pos : Int) + ((n : Int) / 2)).toNat = pos + n / 2 := by omega
      rw [if_pos (by omega), ht, List.getElem?_eq_getElem hlt]
    rw [e1, ok_bind]
    refine ⟨l.set (pos + n / 2) (if big then l[pos + n / 2]'hlt % 256
      else l[pos + n / 2]'hlt - l[pos + n / 2]'hlt % 256), ?_, by rw [List.length_set]; exact hs⟩
    unfold wr
    have ht : ((pos : Int) + ((n : Int) / 2)).toNat = pos + n / 2 := by omega
    rw [if_pos (by omega), ht]

/-- Reading frames into a buffer with room for the data. -/
theorem WaveReader.readFrames_eq (r : WaveReader) (big : Bool) (out : List Int) (size : Nat)
    (conv : List Int → List Int) (hsz : size = if r.numBits = 8 then 1 else 2)
    (hcv : conv = if r.numBits = 8 then frames8 else frames16 big)
    (h0 : 0 ≤ r.dataSize) (hfit : r.dataSize ≤ size * out.length) :
    ∃ f, r.readFrames big out = (do
      let x ← memsetFrames big (conv ((r.file.bytes.drop r.file.pos).take
          (usedOf size (min r.dataSize.toNat (r.file.bytes.drop r.file.pos).length))) ++
          out.drop (usedOf size (min r.dataSize.toNat (r.file.bytes.drop r.file.pos).length) / size))
        (usedOf size (min r.dataSize.toNat (r.file.bytes.drop r.file.pos).length) / size)
        (r.dataSize.toNat - usedOf size (min r.dataSize.toNat (r.file.bytes.drop r.file.pos).length))
      .ok (x, { r with file := f })) := by
  have hc : IsConv size conv := by
    rw [hsz, hcv]
    split
    · exact frames8_conv
    · exact frames16_conv big
  have hu : usedOf size (min r.dataSize.toNat (r.file.bytes.drop r.file.pos).length) / size ≤ out.length := by
    have : usedOf size (min r.dataSize.toNat (r.file.bytes.drop r.file.pos).length) ≤ r.dataSize.toNat := by
      unfold usedOf; omega
    rcases hc.pos with h | h <;> subst h <;> omega
  obtain ⟨f, h⟩ := waveReadLoop_eq hc (r.dataSize.toNat + 1) r.dataSize.toNat 0 r.file out 0 (by omega)
    (by rw [Nat.zero_add]; exact hu)
  refine ⟨f, ?_⟩
  unfold WaveReader.readFrames
  dsimp only
  rw [← hsz, ← hcv, h, ok_bind]
  have hl : (conv ((r.file.bytes.drop r.file.pos).take
      (usedOf size (min r.dataSize.toNat (r.file.bytes.drop r.file.pos).length)))).length =
      usedOf size (min r.dataSize.toNat (r.file.bytes.drop r.file.pos).length) / size := by
    rw [hc.length, List.length_take]
    congr 1
    unfold usedOf; omega
  rw [hl]
  simp only [Nat.zero_add, List.take_zero, List.nil_append]
  rfl

end BK
