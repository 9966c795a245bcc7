import Verif.Lemmas.Stems3
import Verif.Props.SongSound
/-!
Levels of a sum and the sum of levels.
-/
namespace BK

theorem wrapI32_off (v : Int) : ∃ k, wrapI32 v = v + 4294967296 * k :=
  ⟨-((v + 2147483648) / 4294967296), by unfold wrapI32; omega⟩

theorem levelAt_in (f : Nat → Int) (n : Nat) : InI32 (levelAt f n) := by
  cases n with
  | zero => unfold levelAt InI32; omega
  | succ n => exact wrapI32_in _

theorem levelAt_step (f : Nat → Int) (n : Nat) :
    ∃ k, levelAt (fun m => wrapI32 (f m)) (n + 1) = levelAt (fun m => wrapI32 (f m)) n - levelAt (fun m => wrapI32 (f m)) n / 512 + f n + 4294967296 * k := by
  obtain ⟨k, hk⟩ := wrapI32_off (levelAt (fun m => wrapI32 (f m)) n - levelAt (fun m => wrapI32 (f m)) n / 512 + f n)
  refine ⟨k, ?_⟩
  rw [← hk]
  show wrapI32 (wrapI32 _ + wrapI32 (f n)) = _
  rw [wrapI32_add_l, wrapI32_add_r]

theorem outAmp_exact {a : Int} (h : InI32 a) (ho : (outAmp a).natAbs ≤ 32765) : outAmp a = a / 16384 := by
  unfold InI32 at h
  unfold outAmp at *
  simp only at *
  split
  · rename_i hc
    rw [if_pos hc] at ho
    unfold xor7FFF wrapI16 at *
    omega
  · unfold wrapI16 at *; omega

theorem outAmp_fits {a : Int} (h0 : -32768 ≤ a / 16384) (h1 : a / 16384 ≤ 32767) : outAmp a = a / 16384 := by
  unfold outAmp
  simp only
  have : wrapI16 (a / 16384) = a / 16384 := by unfold wrapI16; omega
  rw [if_neg (by simp [this]), this]

theorem sum_step (K : List Nat) (a b f : Nat → Int) (h : ∀ y, ∃ k, b y = a y - a y / 512 + f y + 4294967296 * k) :
    ∃ k, (K.map b).sum = (K.map a).sum - (K.map fun y => a y / 512).sum + (K.map f).sum + 4294967296 * k := by
  induction K with
  | nil => exact ⟨0, by simp⟩
  | cons y K ih =>
    obtain ⟨k, hk⟩ := ih
    obtain ⟨k', hk'⟩ := h y
    refine ⟨k + k', ?_⟩
    simp only [List.map_cons, List.sum_cons]
    omega

theorem sum_div (K : List Nat) (a : Nat → Int) (d : Int) (hd : 0 < d) :
    d * (K.map fun y => a y / d).sum ≤ (K.map a).sum ∧ (K.map a).sum ≤ d * (K.map fun y => a y / d).sum + (d - 1) * K.length := by
  induction K with
  | nil => simp
  | cons y K ih =>
    simp only [List.map_cons, List.sum_cons, List.length_cons, Int.mul_add]
    have h1 := Int.emod_nonneg (a y) (Int.ne_of_gt hd)
    have h2 := Int.emod_lt_of_pos (a y) hd
    have h3 := Int.mul_ediv_add_emod (a y) d
    push_cast
    rw [Int.mul_add]
    omega

/-- Stem samples that are not clipped tell the levels. -/
theorem sum_levels (K : List Nat) (a : Nat → Int) (h : ∀ y, InI32 (a y)) (hq : (K.map fun y => (outAmp (a y)).natAbs).sum ≤ 32765) :
    (K.map fun y => outAmp (a y)).sum = (K.map fun y => a y / 16384).sum ∧
    -((K.map fun y => (outAmp (a y)).natAbs).sum : Int) ≤ (K.map fun y => outAmp (a y)).sum ∧
    (K.map fun y => outAmp (a y)).sum ≤ (K.map fun y => (outAmp (a y)).natAbs).sum := by
  induction K with
  | nil => simp
  | cons y K ih =>
    simp only [List.map_cons, List.sum_cons] at *
    obtain ⟨h1, h2, h3⟩ := ih (by omega)
    have h4 := outAmp_exact (h y) (by omega)
    rw [Int.natCast_add]
    omega

/-- The level of the sum is near the sum of the levels. -/
theorem levels_near {K : List Nat} {f : Nat → Nat → Int} (hk : K.length ≤ 32) : ∀ n : Nat,
    (∀ m, m < n → (K.map fun y => (outAmp (levelAt (fun i => wrapI32 (f y i)) (m + 1))).natAbs).sum + K.length ≤ 32765) →
    -(511 * (K.length : Int)) ≤ levelAt (fun i => wrapI32 (K.map fun y => f y i).sum) n - (K.map fun y => levelAt (fun i => wrapI32 (f y i)) n).sum ∧
    levelAt (fun i => wrapI32 (K.map fun y => f y i).sum) n - (K.map fun y => levelAt (fun i => wrapI32 (f y i)) n).sum ≤ 511 := by
  intro n
  induction n with
  | zero =>
    intro _
    have : (K.map fun y => levelAt (fun i => wrapI32 (f y i)) 0).sum = 0 := by
      show (K.map fun _ => (0 : Int)).sum = 0
      clear * -
      induction K with
      | nil => rfl
      | cons y K ih => rw [List.map_cons, List.sum_cons, ih]; rfl
    rw [this]
    show _ ≤ (0 : Int) - 0 ∧ (0 : Int) - 0 ≤ 511
    omega
  | succ n ih =>
    intro hq
    obtain ⟨i1, i2⟩ := ih fun m hm => hq m (by omega)
    have hq' := hq n (by omega)
    obtain ⟨-, s2, s3⟩ := sum_levels K (fun y => levelAt (fun i => wrapI32 (f y i)) (n + 1)) (fun y => levelAt_in _ _) (by omega)
    have s1 := (sum_levels K (fun y => levelAt (fun i => wrapI32 (f y i)) (n + 1)) (fun y => levelAt_in _ _) (by omega)).1
    obtain ⟨d1, d2⟩ := sum_div K (fun y => levelAt (fun i => wrapI32 (f y i)) (n + 1)) 16384 (by omega)
    obtain ⟨e1, e2⟩ := sum_div K (fun y => levelAt (fun i => wrapI32 (f y i)) n) 512 (by omega)
    obtain ⟨k, hk1⟩ := sum_step K (fun y => levelAt (fun i => wrapI32 (f y i)) n) (fun y => levelAt (fun i => wrapI32 (f y i)) (n + 1))
      (fun y => f y n) (fun y => levelAt_step (f y) n)
    obtain ⟨k', hk2⟩ := levelAt_step (fun i => (K.map fun y => f y i).sum) n
    have hM := levelAt_in (fun i => wrapI32 (K.map fun y => f y i).sum) (n + 1)
    unfold InI32 at hM
    rw [hk2]
    rw [hk2] at hM
    generalize (K.map fun y => levelAt (fun i => wrapI32 (f y i)) (n + 1)).sum = A at *
    generalize (K.map fun y => levelAt (fun i => wrapI32 (f y i)) n).sum = B at *
    generalize (K.map fun y => levelAt (fun i => wrapI32 (f y i)) n / 512).sum = Q at *
    generalize (K.map fun y => levelAt (fun i => wrapI32 (f y i)) (n + 1) / 16384).sum = R at *
    generalize (K.map fun y => outAmp (levelAt (fun i => wrapI32 (f y i)) (n + 1))).sum = O at *
    generalize (K.map fun y => (outAmp (levelAt (fun i => wrapI32 (f y i)) (n + 1))).natAbs).sum = Z at *
    generalize (K.map fun y => f y n).sum = F at *
    generalize levelAt (fun i => wrapI32 (K.map fun y => f y i).sum) n = M at *
    generalize K.length = l at *
    clear hk2 ih hq
    have : k' = k := by omega
    omega

/-- So samples add up. -/
theorem samples_near {K : List Nat} {f : Nat → Nat → Int} (hk : K.length ≤ 32) (n : Nat)
    (hq : ∀ m, m ≤ n → (K.map fun y => (outAmp (levelAt (fun i => wrapI32 (f y i)) (m + 1))).natAbs).sum + K.length ≤ 32765) :
    -1 ≤ outAmp (levelAt (fun i => wrapI32 (K.map fun y => f y i).sum) (n + 1)) - (K.map fun y => outAmp (levelAt (fun i => wrapI32 (f y i)) (n + 1))).sum ∧
    outAmp (levelAt (fun i => wrapI32 (K.map fun y => f y i).sum) (n + 1)) - (K.map fun y => outAmp (levelAt (fun i => wrapI32 (f y i)) (n + 1))).sum ≤ K.length := by
  obtain ⟨i1, i2⟩ := levels_near hk (n + 1) (fun m hm => hq m (by omega))
  have hq' := hq n (Nat.le_refl n)
  obtain ⟨s1, s2, s3⟩ := sum_levels K (fun y => levelAt (fun i => wrapI32 (f y i)) (n + 1)) (fun y => levelAt_in _ _) (by omega)
  obtain ⟨d1, d2⟩ := sum_div K (fun y => levelAt (fun i => wrapI32 (f y i)) (n + 1)) 16384 (by omega)
  generalize levelAt (fun i => wrapI32 (K.map fun y => f y i).sum) (n + 1) = M at *
  generalize (K.map fun y => levelAt (fun i => wrapI32 (f y i)) (n + 1)).sum = A at *
  generalize (K.map fun y => levelAt (fun i => wrapI32 (f y i)) (n + 1) / 16384).sum = R at *
  generalize (K.map fun y => outAmp (levelAt (fun i => wrapI32 (f y i)) (n + 1))).sum = O at *
  generalize (K.map fun y => (outAmp (levelAt (fun i => wrapI32 (f y i)) (n + 1))).natAbs).sum = Z at *
  generalize K.length = l at *
  clear hq
  rw [outAmp_fits (by omega) (by omega)]
  omega

theorem heardOf_sample {N : Nat} : ∀ {T : Nat} (f : Nat → Nat → Int) {n c : Nat}, n < T → c < N →
    sampleAt N (heardOf N T f) n c = outAmp (levelAt (fun m => wrapI32 (f c m)) (n + 1)) := by
  intro T f n c hn hc
  have hlen : ∀ T, (heardOf N T f).length = T * N := by
    intro T
    induction T with
    | zero => simp [heardOf]
    | succ T ih =>
      unfold heardOf at *
      rw [List.range_succ, List.flatMap_append, List.length_append, ih]
      simp [Nat.add_mul]
  induction T with
  | zero => omega
  | succ T ih =>
    have hs : heardOf N (T + 1) f = heardOf N T f ++
        (List.range N).map fun c => outAmp (levelAt (fun m => wrapI32 (f c m)) (T + 1)) := by
      unfold heardOf
      rw [List.range_succ, List.flatMap_append]
      simp
    by_cases h : n < T
    · rw [← ih h]
      unfold sampleAt
      rw [hs, List.getD_eq_getElem?_getD, List.getD_eq_getElem?_getD, List.getElem?_append_left]
      rw [hlen]
      have : (n + 1) * N ≤ T * N := Nat.mul_le_mul_right N h
      rw [Nat.add_mul] at this
      omega
    · have : n = T := by omega
      subst this
      unfold sampleAt
      rw [hs, List.getD_eq_getElem?_getD, List.getElem?_append_right (by rw [hlen]; omega), hlen, Nat.add_sub_cancel_left]
      rw [List.getElem?_map, List.getElem?_range hc]
      rfl

theorem soundOf_heard (N T : Nat) (P : List Pulse) : soundOf N T P = heardOf N T fun c m => stepsAt P c m := rfl

theorem heardOf_congr {N T : Nat} {f g : Nat → Nat → Int} (h : ∀ c m, f c m = g c m) : heardOf N T f = heardOf N T g := by
  have : f = g := funext fun c => funext fun m => h c m
  rw [this]

end BK
