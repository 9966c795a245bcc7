import Verif.Model.GenTo
import Verif.Props.Context
/-!
C87: generating to a time.
-/
namespace BK

variable {σ : Type} {chk : Bool} {cb : ClockCb σ} {write : Nat → Int → List (Int × Int) → Bool}

/-- C87 as far as it holds: a time that has been reached needs nothing. -/
theorem C87_reached_partial {fuel : Nat} {x : Ctx σ} {t : Int} (h : t ≤ x.currentTime) :
    x.generateTo chk cb write fuel t = .ok (some 0, x, []) := by
  have : T64.isLess x.currentTime t = false := by unfold T64.isLess; simpa using h
  unfold Ctx.generateTo
  cases fuel <;> (unfold Ctx.toLoop; rw [this]; rfl)

theorem Ctx.toLoop_spec {t : Int} : ∀ (fuel : Nat) {num : Int} {out : List (Int × List (Int × Int))} {x : Ctx σ}
    {r : Option Int × Ctx σ × List (Int × List (Int × Int))}, num = (out.map (·.1)).sum →
    (∀ (j : Nat) (b : Int × List (Int × Int)), out[j]? = some b → write j b.1 b.2 = true) → Ctx.toLoop chk cb t write fuel num out x = .ok r →
    match r.1 with
    | some k => t ≤ r.2.1.currentTime ∧ k = (r.2.2.map (·.1)).sum ∧ ∀ (j : Nat) (b : Int × List (Int × Int)), r.2.2[j]? = some b → write j b.1 b.2 = true
    | none => ∃ (l : List (Int × List (Int × Int))) (b : Int × List (Int × Int)), r.2.2 = l ++ [b] ∧ write l.length b.1 b.2 = false ∧
        ∀ (j : Nat) (b : Int × List (Int × Int)), l[j]? = some b → write j b.1 b.2 = true
  | 0, num, out, x, r, hn, ho, e => by
    unfold Ctx.toLoop at e
    split at e
    · cases e
    · rename_i hl
      cases e
      unfold T64.isLess at hl
      exact ⟨by simpa using hl, hn, ho⟩
  | n + 1, num, out, x, r, hn, ho, e => by
    unfold Ctx.toLoop at e
    split at e
    · obtain ⟨q, h1, e⟩ := bind_ok_iff.1 e
      cases hq : q.2 with
      | none =>
        rw [hq] at e
        exact Ctx.toLoop_spec n hn ho e
      | some b =>
        rw [hq] at e
        dsimp only at e
        obtain ⟨m, h2, e⟩ := bind_ok_iff.1 e
        obtain ⟨-, rfl⟩ := i32_eq_ok_iff.1 h2
        split at e
        · rename_i hw
          refine Ctx.toLoop_spec n ?_ ?_ e
          · rw [List.map_append, List.sum_append, hn]
            simp
          · intro j c hj
            rw [List.getElem?_append] at hj
            split at hj
            · exact ho j c hj
            · rename_i hlt
              rw [List.getElem?_singleton] at hj
              split at hj
              · cases hj
                have : j = out.length := by omega
                rw [this]; exact hw
              · cases hj
        · rename_i hw
          cases e
          exact ⟨out, b, rfl, by simpa using hw, ho⟩
    · rename_i hl
      cases e
      unfold T64.isLess at hl
      exact ⟨by simpa using hl, hn, ho⟩

/-- C87 as far as it holds, for any context, callbacks and way of writing: if generating to a time
returns a number, then the time has been reached, the number is the sum of the sizes of all blocks, and all
blocks were accepted; otherwise the last block was refused and all before were accepted. -/
theorem C87_number_partial {fuel : Nat} {x : Ctx σ} {t : Int} {r : Option Int × Ctx σ × List (Int × List (Int × Int))}
    (h : x.generateTo chk cb write fuel t = .ok r) :
    match r.1 with
    | some k => t ≤ r.2.1.currentTime ∧ k = (r.2.2.map (·.1)).sum ∧ ∀ (j : Nat) (b : Int × List (Int × Int)), r.2.2[j]? = some b → write j b.1 b.2 = true
    | none => ∃ (l : List (Int × List (Int × Int))) (b : Int × List (Int × Int)), r.2.2 = l ++ [b] ∧ write l.length b.1 b.2 = false ∧
        ∀ (j : Nat) (b : Int × List (Int × Int)), l[j]? = some b → write j b.1 b.2 = true :=
  Ctx.toLoop_spec (num := 0) (out := []) (x := x) fuel rfl (by simp) h

theorem Ctx.endAt_bare {x y : Ctx σ} {e : Int} (hc : x.clocks = []) (h : x.endAt chk cb e = .ok y) :
    y.clocks = [] ∧ y.currentTime = x.currentTime := by
  unfold Ctx.endAt at h
  obtain ⟨z, h1, h⟩ := bind_ok_iff.1 h
  unfold Ctx.run at h1
  rw [if_neg (by simpa using hc)] at h1
  obtain ⟨w, h2, h1⟩ := bind_ok_iff.1 h1
  unfold Ctx.flush at h2
  obtain ⟨q, -, h2⟩ := bind_ok_iff.1 h2
  obtain ⟨s, -, h1⟩ := bind_ok_iff.1 h1
  cases h2
  cases h1
  split at h <;> (cases h; exact ⟨hc, rfl⟩)

theorem Ctx.toStep_bare {x : Ctx σ} {t : Int} {r : Ctx σ × Option (Int × List (Int × Int))} (hc : x.clocks = [])
    (h : x.toStep chk cb t = .ok r) : r.1.clocks = [] ∧ r.1.currentTime = x.currentTime := by
  unfold Ctx.toStep at h
  obtain ⟨d, -, h⟩ := bind_ok_iff.1 h
  obtain ⟨y, h1, h⟩ := bind_ok_iff.1 h
  obtain ⟨s, -, h⟩ := bind_ok_iff.1 h
  have := Ctx.endAt_bare hc h1
  split at h
  · obtain ⟨q, h2, h⟩ := bind_ok_iff.1 h
    unfold Ctx.read at h2
    obtain ⟨v, -, h2⟩ := bind_ok_iff.1 h2
    cases h2
    cases h
    exact this
  · cases h
    exact this

theorem Ctx.toLoop_bare {t : Int} : ∀ (fuel : Nat) {num : Int} {out : List (Int × List (Int × Int))} {x : Ctx σ}, x.clocks = [] → x.currentTime < t →
    ∀ (k : Int) (y : Ctx σ) (w : List (Int × List (Int × Int))), Ctx.toLoop chk cb t write fuel num out x ≠ .ok (some k, y, w)
  | 0, num, out, x, hc, ht, k, y, w => by
    unfold Ctx.toLoop
    have : T64.isLess x.currentTime t = true := by unfold T64.isLess; simpa using ht
    rw [if_pos this]
    intro h; cases h
  | n + 1, num, out, x, hc, ht, k, y, w => by
    intro h
    unfold Ctx.toLoop at h
    have : T64.isLess x.currentTime t = true := by unfold T64.isLess; simpa using ht
    rw [if_pos this] at h
    obtain ⟨q, h1, h⟩ := bind_ok_iff.1 h
    obtain ⟨a, b⟩ := Ctx.toStep_bare hc h1
    cases hq : q.2 with
    | none =>
      rw [hq] at h
      exact Ctx.toLoop_bare n a (by omega) _ _ _ h
    | some c =>
      rw [hq] at h
      dsimp only at h
      obtain ⟨m, -, h⟩ := bind_ok_iff.1 h
      split at h
      · exact Ctx.toLoop_bare n a (by omega) _ _ _ h
      · cases h

/-- C87 does not hold without clocks: whatever units there are, generating to a time in the future never
returns a number of frames, however many passes it makes; it goes on until `write` refuses a block (the
time of the context is moved by clocks only). -/
theorem C87_refuted_endless {x : Ctx σ} {t : Int} (hc : x.clocks = []) (ht : x.currentTime < t) (fuel : Nat) (k : Int) (y : Ctx σ)
    (w : List (Int × List (Int × Int))) : x.generateTo chk cb write fuel t ≠ .ok (some k, y, w) :=
  Ctx.toLoop_bare fuel hc ht k y w

/-- A context without clocks and with a tone, asked for one frame, has made 20 frames after 20 passes and
goes on. -/
example : (do
    let c ← toneCore
    let x := (Ctx.init () 1 44100).attachUnit c
    let y ← (List.replicate 20 ()).foldlM (fun x _ => do let r ← x.toStep false noCb 1048576; return r.1) x
    let n ← y.size
    return (x.clocks.length, n, y.currentTime) : C (Nat × Int × Int)) = .ok (0, 20, 0) := by decide +kernel

theorem Buf.read_count {b b' : Buf} {s n : Int} {w : List (Int × Int)} (h : b.read chk s n = .ok (b', w)) :
    w.length = (cmin s b.capacity).toNat ∧ b'.capacity = b.capacity - cmin s b.capacity := by
  have len : ∀ (f : Nat → Int) (q : Int) (k i : Nat) (a : Int) (r : Int × List (Int × Int)), readLoop chk f q k i a = .ok r → r.2.length = k := by
    intro f q k
    induction k with
    | zero => intro i a r h; cases h; rfl
    | succ k ih =>
      intro i a r h
      unfold readLoop at h
      obtain ⟨a1, -, h⟩ := bind_ok_iff.1 h
      obtain ⟨a2, -, h⟩ := bind_ok_iff.1 h
      obtain ⟨a3, -, h⟩ := bind_ok_iff.1 h
      obtain ⟨r', e, h⟩ := bind_ok_iff.1 h
      cases h
      show r'.2.length + 1 = k + 1
      rw [ih _ _ _ e]
  unfold Buf.read at h
  dsimp only at h
  obtain ⟨r, e, h⟩ := bind_ok_iff.1 h
  split at h
  · cases h
    exact ⟨len _ _ _ _ _ _ e, rfl⟩
  · cases h

theorem readChans_le {n : Int} : ∀ (bs : List Buf) {i : Nat} {s : Int} {r : Int × List Buf × List (Int × Int)}, 0 ≤ s →
    readChans chk n i bs s = .ok r → r.1 ≤ s
  | [], i, s, r, hs, h => by cases h; exact Int.le_refl _
  | b :: bs, i, s, r, hs, h => by
    unfold readChans at h
    obtain ⟨q, e, h⟩ := bind_ok_iff.1 h
    obtain ⟨t, e', h⟩ := bind_ok_iff.1 h
    cases h
    have h1 := readChans_le bs (by omega) e'
    have h2 := (Buf.read_count (b' := q.1) (w := q.2) e).1
    unfold cmin at h2
    dsimp only
    split at h2 <;> omega

/-- Asking for more frames than there are gives those that are there. -/
theorem Ctx.read_all {x x' : Ctx σ} {k : Int} {w : List (Int × Int)} (h0 : 0 < k) (hk : k ≤ 1024) (hc : ∀ b ∈ x'.chans, b.capacity = 0)
    (h : x.read chk k = .ok (k, x', w)) (hn : x.chans ≠ []) : x.read chk 1024 = .ok (k, x', w) := by
  unfold Ctx.read at h ⊢
  obtain ⟨r, e, h⟩ := bind_ok_iff.1 h
  injection h with h
  injection h with h1 h
  injection h with h2 h3
  cases hx : x.chans with
  | nil => exact absurd hx hn
  | cons b bs =>
    rw [hx] at e
    have e0 := e
    unfold readChans at e
    obtain ⟨q, e1, e⟩ := bind_ok_iff.1 e
    obtain ⟨t, e2, e⟩ := bind_ok_iff.1 e
    cases e
    obtain ⟨a1, a2⟩ := Buf.read_count (b' := q.1) (w := q.2) e1
    have a3 := readChans_le bs (by omega) e2
    have a4 : q.1.capacity = 0 := hc _ (by rw [← h2]; exact List.mem_cons_self ..)
    dsimp only at h1
    have a5 : b.capacity = k := by
      unfold cmin at a1 a2
      split at a1 <;> split at a2 <;> omega
    have a6 : b.read chk 1024 (b :: bs).length = b.read chk k (b :: bs).length := by
      unfold Buf.read
      rw [a5, show cmin 1024 k = k by unfold cmin; split <;> omega, show cmin k k = k by unfold cmin; split <;> omega]
    have : readChans chk (b :: bs).length 0 (b :: bs) 1024 = readChans chk (b :: bs).length 0 (b :: bs) k := by
      unfold readChans
      rw [a6]
    rw [this, e0, ok_bind]
    rw [← h2, ← h3, ← h1]
    rfl

/-- C87 as far as it holds: if a clock ticks just at the time to which frames are to be made, up to 682
frames from where the context is, and nothing has been rendered beyond, then the frames that are handed
over are those that ending the context after `k` frames and reading them gives (C41: the same as asking for
`k` frames), in one block, and the context is left the same. -/
theorem C87_tick_partial {fuel : Nat} {x y x' : Ctx σ} {k : Nat} {w : List (Int × Int)} (h0 : 0 < k) (hk : k ≤ 682)
    (he : x.endAt chk cb (k * U20) = .ok y) (hr : y.read chk k = .ok ((k : Int), x', w))
    (ht : x'.currentTime = x.currentTime + k * U20) (hn : y.chans ≠ []) (hc : ∀ b ∈ x'.chans, b.capacity = 0)
    (hw : write 0 k w = true) :
    x.generateTo chk cb write (fuel + 1) x'.currentTime = .ok (some (k : Int), x', [((k : Int), w)]) := by
  have hcur : y.currentTime = x'.currentTime := by
    unfold Ctx.read at hr
    obtain ⟨r, -, hr⟩ := bind_ok_iff.1 hr
    injection hr with hr
    injection hr with _ hr
    injection hr with hr _
    rw [← hr]
  have hlt : T64.isLess x.currentTime x'.currentTime = true := by unfold T64.isLess; simp; omega
  have hge : T64.isLess x'.currentTime x'.currentTime = false := by unfold T64.isLess; simp
  have hd : T64.sub x'.currentTime x.currentTime = .ok (k * U20) := by
    unfold T64.sub
    rw [i64_ok (by omega) (by omega)]
    rw [show x'.currentTime - x.currentTime = k * U20 by omega]
  have hl : limitStep (k * U20) = k * U20 := by
    unfold limitStep T64.isLessF T64.getFUInt20 maxStep
    rw [if_pos (by simp; omega)]
    unfold wrapU32
    omega
  have hs : ∃ n, y.size = .ok n := by
    unfold Ctx.size
    cases hy : y.chans with
    | nil => exact absurd hy hn
    | cons b bs => exact ⟨b.size, rfl⟩
  obtain ⟨n, hs⟩ := hs
  have hstep : x.toStep chk cb x'.currentTime = .ok (x', some ((k : Int), w)) := by
    unfold Ctx.toStep
    rw [hd, ok_bind, hl, he, ok_bind, hs, ok_bind]
    rw [if_pos (.inr (by rw [hcur]; unfold T64.isGreaterEqual; simp)), Ctx.read_all (by omega) (by omega) hc hr hn]
    rfl
  unfold Ctx.generateTo Ctx.toLoop
  rw [if_pos hlt, hstep, ok_bind]
  dsimp only
  rw [i32_ok (by omega) (by omega), ok_bind, Int.zero_add]
  simp only [List.length_nil, hw, if_true, List.nil_append]
  cases fuel <;> (unfold Ctx.toLoop; rw [hge]; rfl)

/-- A context with a clock of 4 frames and a tone. -/
def clockTone : C (Ctx Unit) := do
  let c ← toneCore
  return ((Ctx.init () 1 44100).attachClock { period := 4194304 }).attachUnit c

/-- A context with a clock of 20 frames and a tone. -/
def beatTone : C (Ctx Unit) := do
  let c ← toneCore
  return ((Ctx.init () 1 44100).attachClock { period := 20971520 }).attachUnit c

/-- After 20 frames, when its clock ticks. -/
def beatFrames : Bool :=
  match beatTone with
  | .error _ => false
  | .ok x =>
    match x.endAt false noCb ((20 : Nat) * U20) with
    | .error _ => false
    | .ok y =>
      match y.read false (20 : Nat) with
      | .error _ => false
      | .ok (n, x', w) => decide (n = (20 : Nat) ∧ x'.currentTime = x.currentTime + (20 : Nat) * U20 ∧ y.chans.length = 1) &&
          x'.chans.all (fun b => decide (b.capacity = 0)) && w.any fun e => decide (e.2 ≠ 0)

/-- Generating to frame 20 is asking for 20 frames there. -/
example : ∃ x y x' w, beatTone = .ok x ∧ x.endAt false noCb ((20 : Nat) * U20) = .ok y ∧ y.read false (20 : Nat) = .ok (((20 : Nat) : Int), x', w) ∧
    x.generateTo false noCb (fun _ _ _ => true) 1 x'.currentTime = .ok (some ((20 : Nat) : Int), x', [(((20 : Nat) : Int), w)]) := by
  have h : beatFrames = true := by decide +kernel
  unfold beatFrames at h
  split at h
  · cases h
  · rename_i x e1
    split at h
    · cases h
    · rename_i y e2
      split at h
      · cases h
      · rename_i n x' w e3
        simp only [Bool.and_eq_true, decide_eq_true_eq] at h
        obtain ⟨⟨⟨rfl, h2, h3⟩, h4⟩, -⟩ := h
        refine ⟨x, y, x', w, e1, e2, e3, ?_⟩
        refine C87_tick_partial (by decide) (by decide) e2 e3 h2 ?_ ?_ rfl
        · intro hc; rw [hc] at h3; cases h3
        · intro b hb
          simpa using List.all_eq_true.1 h4 b hb

/-- Generate to frame 1, then to frame 6; and 9 frames at once. -/
def twoTimes : C (Option Int × Option Int × Int × Bool × Bool) := do
  let x ← clockTone
  let a ← x.generateTo false noCb (fun _ _ _ => true) 10 1048576
  let b ← a.2.1.generateTo false noCb (fun _ _ _ => true) 10 6291456
  let c ← x.generate false noCb 9
  let s := a.2.2.flatMap fun o => o.2.map (·.2)
  let s' := b.2.2.flatMap fun o => o.2.map (·.2)
  let full := c.2.2.map (·.2)
  return (a.1, b.1, b.2.1.currentTime / 1048576, s == full.take 4, s' == full.drop 4)

/-- C87 does not hold with clocks either.  Generating to frame 1 gives 4 frames, all that have been
rendered; generating to frame 6 then gives 5 more, although the context has reached frame 8: the buffer has
gone back before its start, and one frame is put between.  The first 4 frames are those that asking for
frames gives, the others are not. -/
theorem C87_refuted : twoTimes = .ok (some 4, some 5, 8, true, false) := by decide +kernel

end BK
