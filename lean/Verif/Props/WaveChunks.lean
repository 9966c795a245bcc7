import Verif.Props.WaveSafe
/-! C79: chunks of a WAVE file that are not understood. -/
namespace BK

/-- A chunk as the RIFF format defines it: name, size of the contents, contents, and a byte to make the
length even. -/
def chunkBytes (c : List Int × List Int) : List Int :=
  c.1 ++ leBytes 4 c.2.length ++ c.2 ++ (if c.2.length % 2 = 0 then [] else [0])

/-- The same bytes follow. -/
def File.Same (f g : File) : Prop := f.bytes.drop f.pos = g.bytes.drop g.pos

theorem File.Same.read {f g : File} (h : f.Same g) (n : Nat) :
    (f.read n).1 = (g.read n).1 ∧ (f.read n).2.Same (g.read n).2 := by
  unfold File.Same at h
  unfold File.read File.Same
  dsimp only
  rw [h]
  refine ⟨rfl, ?_⟩
  rw [← List.drop_drop, ← List.drop_drop, h]

theorem File.Same.seek {f g : File} (h : f.Same g) (n : Nat) : (f.seek (f.pos + n)).Same (g.seek (g.pos + n)) := by
  unfold File.Same at h
  unfold File.seek File.Same
  dsimp only
  rw [← List.drop_drop, ← List.drop_drop, h]

theorem findData_fuel (big : Bool) : ∀ (n k : Nat) (f : File) (a : Option Int × File), findData big n f = .ok a →
    findData big (n + k) f = .ok a
  | 0, _, _, _, h => by cases h
  | n + 1, k, f, a, h => by
    rw [show n + 1 + k = (n + k) + 1 by omega]
    unfold findData at h ⊢
    dsimp only at h ⊢
    split at h
    · rename_i c; rw [if_pos c]; exact h
    · rename_i c; rw [if_neg c]
      split at h
      · rename_i c; rw [if_pos c]; exact h
      · rename_i c; rw [if_neg c]
        exact findData_fuel big n k _ a h

theorem findData_same (big : Bool) : ∀ (n : Nat) (f g : File), f.Same g →
    (∃ a b, findData big n f = .ok a ∧ findData big n g = .ok b ∧ a.1 = b.1 ∧ a.2.Same b.2) ∨
    (findData big n f = .error .endless)
  | 0, _, _, _ => .inr rfl
  | n + 1, f, g, h => by
    obtain ⟨h1, h2⟩ := h.read 8
    unfold findData
    dsimp only
    rw [← h1]
    split
    · exact .inl ⟨_, _, rfl, rfl, rfl, h2⟩
    · split
      · exact .inl ⟨_, _, rfl, rfl, rfl, h2⟩
      · exact findData_same big n _ _ (h2.seek _)

/-- A chunk that is not the data chunk is skipped. -/
theorem findData_skip (big : Bool) (pre rest : List Int) (c : List Int × List Int) (h4 : c.1.length = 4)
    (hid : c.1 ≠ idData) (he : c.2.length % 2 = 0) (hl : c.2.length < 4294967296) (n : Nat) :
    findData big (n + 1) ⟨pre ++ chunkBytes c ++ rest, pre.length⟩ =
      findData big n ⟨pre ++ chunkBytes c ++ rest, (pre ++ chunkBytes c).length⟩ := by
  have hc : chunkBytes c = (c.1 ++ leBytes 4 c.2.length) ++ c.2 := by
    unfold chunkBytes
    rw [if_pos he, List.append_nil]
  have h8 : (c.1 ++ leBytes 4 c.2.length).length = 8 := by rw [List.length_append, leBytes_length, h4]
  have hr := File.read_at (pre := pre) (h := c.1 ++ leBytes 4 c.2.length) (rest := c.2 ++ rest) (n := 8) h8
  have e : pre ++ chunkBytes c ++ rest = pre ++ (c.1 ++ leBytes 4 c.2.length) ++ (c.2 ++ rest) := by
    rw [hc]; simp only [List.append_assoc]
  have hlen : (pre ++ chunkBytes c).length = pre.length + 8 + c.2.length := by
    rw [hc, List.length_append, List.length_append, h8]; omega
  have hf : field big (c.1 ++ leBytes 4 c.2.length) 4 4 = c.2.length := by
    have := field_eq big (pre := c.1) (bs := leBytes 4 c.2.length) (rest := []) (o := 4) (n := 4) h4
      (leBytes_length _ _) (leBytes_bytes _ _)
    rw [List.append_nil, leVal_leBytes 4 _ (by omega) (by omega)] at this
    exact this
  rw [hlen, e]
  conv => lhs; unfold findData
  dsimp only
  rw [hr]
  dsimp only
  rw [if_neg (by omega), if_neg (by rw [List.take_left' h4]; exact hid), hf]
  unfold File.seek
  dsimp only
  rw [Int.toNat_natCast]

theorem findData_skips (big : Bool) (rest : List Int) (n : Nat) : ∀ (cs : List (List Int × List Int)) (pre : List Int),
    (∀ c ∈ cs, c.1.length = 4 ∧ c.1 ≠ idData ∧ c.2.length % 2 = 0 ∧ c.2.length < 4294967296) →
    findData big (n + cs.length) ⟨pre ++ cs.flatMap chunkBytes ++ rest, pre.length⟩ =
      findData big n ⟨pre ++ cs.flatMap chunkBytes ++ rest, (pre ++ cs.flatMap chunkBytes).length⟩
  | [], pre, _ => by
    rw [List.flatMap_nil, List.append_nil]; rfl
  | c :: cs, pre, h => by
    obtain ⟨a, b, d, e⟩ := h c List.mem_cons_self
    have ih := findData_skips big rest n cs (pre ++ chunkBytes c) (fun x hx => h x (List.mem_cons_of_mem _ hx))
    have hs := findData_skip big pre (cs.flatMap chunkBytes ++ rest) c a b d e (n + cs.length)
    rw [List.flatMap_cons, List.length_cons, ← Nat.add_assoc]
    rw [show pre ++ (chunkBytes c ++ cs.flatMap chunkBytes) = pre ++ chunkBytes c ++ cs.flatMap chunkBytes from
      (List.append_assoc _ _ _).symm]
    rw [show pre ++ chunkBytes c ++ cs.flatMap chunkBytes ++ rest =
      pre ++ chunkBytes c ++ (cs.flatMap chunkBytes ++ rest) from List.append_assoc _ _ _] at ih ⊢
    rw [hs, ih]

theorem waveReadLoop_same (size : Nat) (conv : List Int → List Int) :
    ∀ (n remaining used : Nat) (f g : File) (out : List Int) (pos : Nat), f.Same g →
      (waveReadLoop size conv n remaining used f out pos).map (fun x => (x.1, x.2.2)) =
      (waveReadLoop size conv n remaining used g out pos).map (fun x => (x.1, x.2.2))
  | 0, _, _, _, _, _, _, _ => rfl
  | n + 1, remaining, used, f, g, out, pos, h => by
    unfold waveReadLoop
    dsimp only
    split
    · rfl
    · obtain ⟨h1, h2⟩ := h.read (min remaining 1024 - min remaining 1024 % size)
      rw [← h1]
      split
      · rfl
      · generalize store out (pos : Int) _ = s
        cases s with
        | error _ => rfl
        | ok s => exact waveReadLoop_same size conv n _ _ _ _ _ _ h2

theorem WaveReader.readFrames_same (r : WaveReader) (f g : File) (big : Bool) (out : List Int) (h : f.Same g) :
    Except.map (fun x : List Int × WaveReader => x.1) (WaveReader.readFrames { r with file := f } big out) =
    Except.map (fun x : List Int × WaveReader => x.1) (WaveReader.readFrames { r with file := g } big out) := by
  unfold WaveReader.readFrames
  dsimp only
  have := waveReadLoop_same (if r.numBits = 8 then 1 else 2) (if r.numBits = 8 then frames8 else frames16 big)
    (r.dataSize.toNat + 1) r.dataSize.toNat 0 f g out 0 h
  revert this
  generalize waveReadLoop _ _ _ _ _ f _ _ = a
  generalize waveReadLoop _ _ _ _ _ g _ _ = b
  intro this
  match a, b, this with
  | .error x, .error y, this => injection this with this; subst this; rfl
  | .ok a, .ok b, this =>
    injection this with this
    injection this with e1 e2
    obtain ⟨a1, a2, a3⟩ := a
    obtain ⟨b1, b2, b3⟩ := b
    dsimp only at e1 e2
    subst e1 e2
    show Except.map _ (Except.bind (memsetFrames _ _ _ _) _) = Except.map _ (Except.bind (memsetFrames _ _ _ _) _)
    generalize memsetFrames _ _ _ _ = m
    cases m <;> rfl

/-- **C79** (partial: for chunks of even size, see `C79_refuted`).  Chunks between the format and the data do
not matter: whatever the file contains otherwise, what is read from it is what is read if they are left out. -/
theorem C79_skipped_partial (big : Bool) (pre head fmt rest : List Int) (cs : List (List Int × List Int))
    (hh : head.length = 12) (hf : fmt.length = 24)
    (hc : ∀ c ∈ cs, c.1.length = 4 ∧ c.1 ≠ idData ∧ c.2.length % 2 = 0 ∧ c.2.length < 4294967296)
    (junk : Nat → List Int) :
    readWave big ⟨pre ++ head ++ fmt ++ cs.flatMap chunkBytes ++ rest, pre.length⟩ junk =
      readWave big ⟨pre ++ head ++ fmt ++ rest, pre.length⟩ junk := by
  have r1 : ∀ t : List Int, (File.mk (pre ++ head ++ fmt ++ t) pre.length).read 12 =
      (head, ⟨pre ++ head ++ fmt ++ t, pre.length + 12⟩) := fun t => by
    have := File.read_at (pre := pre) (h := head) (rest := fmt ++ t) hh
    rw [← List.append_assoc] at this
    exact this
  have r2 : ∀ t : List Int, (File.mk (pre ++ head ++ fmt ++ t) (pre.length + 12)).read 24 =
      (fmt, ⟨pre ++ head ++ fmt ++ t, (pre ++ head ++ fmt).length⟩) := fun t => by
    have := File.read_at (pre := pre ++ head) (h := fmt) (rest := t) hf
    rw [List.length_append, hh] at this
    rw [this]
    simp only [List.length_append, hh, hf]
  have r1' := r1 (cs.flatMap chunkBytes ++ rest)
  have r2' := r2 (cs.flatMap chunkBytes ++ rest)
  rw [← List.append_assoc] at r1' r2'
  unfold readWave WaveReader.readHeader
  unfold WaveReader.init
  dsimp only
  rw [if_neg (show ¬ ((0 : Int) ≠ 0) from fun c => c rfl), if_neg (show ¬ ((0 : Int) ≠ 0) from fun c => c rfl)]
  rw [r1', r1 rest]
  dsimp only
  rw [r2', r2 rest]
  dsimp only
  split
  · rw [ok_bind, ok_bind]
  · split
    · rw [ok_bind, ok_bind]
    · generalize hP : pre ++ head ++ fmt = P
      -- the search
      have hs := findData_skips big rest ((P ++ cs.flatMap chunkBytes ++ rest).length + 1) cs P hc
      obtain ⟨a, ha, ha2, ha3⟩ := findData_total big ((P ++ cs.flatMap chunkBytes ++ rest).length + 1)
        ⟨P ++ cs.flatMap chunkBytes ++ rest, P.length⟩ (by omega) (by dsimp only; omega)
      have haf := findData_fuel big _ cs.length _ a ha
      rw [hs] at haf
      have hsame : (File.mk (P ++ cs.flatMap chunkBytes ++ rest) (P ++ cs.flatMap chunkBytes).length).Same
          (File.mk (P ++ rest) P.length) := by
        unfold File.Same
        dsimp only
        rw [List.drop_left, List.drop_left]
      obtain ⟨b, hb, hb2, hb3⟩ := findData_total big ((P ++ rest).length + 1)
        ⟨P ++ rest, P.length⟩ (by omega) (by dsimp only; omega)
      have hbf := findData_fuel big _ (cs.flatMap chunkBytes).length _ b hb
      have hN : (P ++ rest).length + 1 + (cs.flatMap chunkBytes).length =
          (P ++ cs.flatMap chunkBytes ++ rest).length + 1 := by
        simp only [List.length_append]; omega
      rw [hN] at hbf
      have hab : a.1 = b.1 ∧ a.2.Same b.2 := by
        rcases findData_same big _ _ _ hsame with ⟨a', b', e1, e2, e3, e4⟩ | e
        · rw [haf] at e1
          rw [hbf] at e2
          cases e1; cases e2
          exact ⟨e3, e4⟩
        · rw [haf] at e; cases e
      rw [ha, hb, ok_bind, ok_bind, ← hab.1]
      match h : a.1 with
      | none =>
        simp only [pure_eq_ok, ok_bind]
      | some size =>
        dsimp only
        have p1 := ha3 (by rw [h]; intro c; cases c)
        have p2 := hb3 (by rw [← hab.1, h]; intro c; cases c)
        have hlen : (a.2.bytes.length : Int) - a.2.pos = (b.2.bytes.length : Int) - b.2.pos := by
          have := congrArg List.length hab.2
          rw [List.length_drop, List.length_drop] at this
          rw [← ha2] at p1
          rw [← hb2] at p2
          omega
        unfold WaveReader.setHeader
        dsimp only
        rw [hlen]
        split
        · rw [error_bind, error_bind]
        · simp only [pure_eq_ok, ok_bind]
          generalize (if size = 0 then (b.2.bytes.length : Int) - (b.2.pos : Int) else size) = ds
          generalize wrapI32 (((wrapI32 ds).tdiv _).tdiv _) = nf
          generalize junk _ = out
          have := WaveReader.readFrames_same ⟨a.2, wrapI32 (field big fmt 12 4), field big fmt 10 2,
            field big fmt 22 2, nf, ds⟩ a.2 b.2 big out hab.2
          dsimp only at this
          revert this
          generalize WaveReader.readFrames _ _ _ = x
          generalize WaveReader.readFrames _ _ _ = y
          intro this
          match x, y, this with
          | .error _, .error _, this => injection this with this; subst this; rfl
          | .ok x, .ok y, this =>
            injection this with this
            have this : x.1 = y.1 := this
            rw [ok_bind, ok_bind, this]

/-- **C79** does not hold for chunks of odd size: the byte that makes the length even is not skipped.  A file
with two frames and a chunk of one byte is not recognised. -/
theorem C79_refuted :
    (∀ junk, readWave false ⟨(tinyWave 1 16 4 []).take 36 ++ chunkBytes ([110, 111, 116, 101], [33]) ++
      [100, 97, 116, 97, 4, 0, 0, 0, 1, 0, 2, 0], 0⟩ junk = .ok none) ∧
    readWave false ⟨(tinyWave 1 16 4 []).take 36 ++ [100, 97, 116, 97, 4, 0, 0, 0, 1, 0, 2, 0], 0⟩
      (fun n => List.replicate n 0) = .ok (some (1, 8000, 2, [1, 2])) := by
  refine ⟨fun junk => rfl, by decide +kernel⟩

/-- **C79** does not hold before the data is searched: a file is not recognised if its format chunk has 18 bytes (of which the last two say that
there is no extension), or if there is a chunk before the format. -/
theorem C79_refuted_format :
    (∀ junk, readWave false ⟨(tinyWave 1 16 4 []).take 16 ++ [18, 0, 0, 0] ++ ((tinyWave 1 16 4 []).drop 20).take 16 ++
      [0, 0, 100, 97, 116, 97, 4, 0, 0, 0, 1, 0, 2, 0], 0⟩ junk = .ok none) ∧
    (∀ junk, readWave false ⟨(tinyWave 1 16 4 []).take 12 ++ chunkBytes ([110, 111, 116, 101], [33, 33]) ++
      (tinyWave 1 16 4 [1, 0, 2, 0]).drop 12, 0⟩ junk = .ok none) :=
  ⟨fun _ => rfl, fun _ => rfl⟩

/-- The hypotheses are met by a file with a chunk `note` of two bytes. -/
example : readWave false ⟨[] ++ (tinyWave 1 16 4 []).take 12 ++ ((tinyWave 1 16 4 []).drop 12).take 24 ++
      [([110, 111, 116, 101], [33, 33])].flatMap chunkBytes ++ [100, 97, 116, 97, 4, 0, 0, 0, 1, 0, 2, 0], 0⟩
    (fun n => List.replicate n 0) = .ok (some (1, 8000, 2, [1, 2])) := by decide +kernel
example : ∀ c ∈ [([110, 111, 116, 101], [33, 33])], c.1.length = 4 ∧ c.1 ≠ idData ∧ c.2.length % 2 = 0 ∧
    c.2.length < 4294967296 := by decide

end BK
