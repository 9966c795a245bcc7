import Verif.Spec.Convert
/-! C59: normalising. -/
namespace BK

theorem maxFold_le : ∀ (l : List Int) (m : Int),
    m ≤ l.foldl (fun m x => if frameAbs x > m then frameAbs x else m) m ∧
    ∀ x ∈ l, frameAbs x ≤ l.foldl (fun m x => if frameAbs x > m then frameAbs x else m) m
  | [], m => ⟨Int.le_refl _, fun _ h => by cases h⟩
  | y :: l, m => by
    rw [List.foldl_cons]
    have ih := maxFold_le l (if frameAbs y > m then frameAbs y else m)
    constructor
    · refine Int.le_trans ?_ ih.1
      split <;> omega
    · intro x hx
      rcases List.mem_cons.mp hx with rfl | hx
      · refine Int.le_trans ?_ ih.1
        split <;> omega
      · exact ih.2 x hx

theorem maxFold_attained : ∀ (l : List Int) (m : Int),
    l.foldl (fun m x => if frameAbs x > m then frameAbs x else m) m = m ∨
    ∃ x ∈ l, frameAbs x = l.foldl (fun m x => if frameAbs x > m then frameAbs x else m) m
  | [], m => .inl rfl
  | y :: l, m => by
    rw [List.foldl_cons]
    rcases maxFold_attained l (if frameAbs y > m then frameAbs y else m) with h | ⟨x, hx, h⟩
    · by_cases hy : frameAbs y > m
      · rw [if_pos hy] at h ⊢
        exact .inr ⟨y, List.mem_cons_self, h.symm⟩
      · rw [if_neg hy] at h ⊢
        exact .inl h
    · exact .inr ⟨x, List.mem_cons_of_mem _ hx, h⟩

/-- Largest absolute value `m` of frames. -/
def IsPeak (l : List Int) (m : Int) : Prop :=
  (∀ x ∈ l, -m ≤ x ∧ x ≤ m) ∧ ((m = 0 ∧ ∀ x ∈ l, x = 0) ∨ ∃ x ∈ l, x = m ∨ x = -m)

theorem maxFrame_isPeak (l : List Int) : IsPeak l (maxFrame l) := by
  have h := maxFold_le l 0
  refine ⟨fun x hx => ?_, ?_⟩
  · have := h.2 x hx
    change frameAbs x ≤ maxFrame l at this
    unfold frameAbs at this
    split at this <;> omega
  · rcases maxFold_attained l 0 with e | ⟨x, hx, e⟩
    · left
      refine ⟨e, fun x hx => ?_⟩
      have := h.2 x hx
      rw [e] at this
      unfold frameAbs at this
      split at this <;> omega
    · right
      refine ⟨x, hx, ?_⟩
      change frameAbs x = maxFrame l at e
      unfold frameAbs at e
      split at e <;> omega

theorem mapM_ok {f : Int → C Int} {g : Int → Int} : ∀ {l : List Int},
    (∀ x ∈ l, f x = .ok (g x)) → l.mapM f = .ok (l.map g)
  | [], _ => rfl
  | y :: l, h => by
    rw [List.mapM_cons, h y List.mem_cons_self, ok_bind,
      mapM_ok (fun x hx => h x (List.mem_cons_of_mem _ hx)), ok_bind]
    rfl

/-- Scaling by a factor in 16.16 fixed point for peak `m`. -/
def normScale (m x : Int) : Int := x * (2147418112 / m) / 65536

theorem normFactor {m : Int} (h : 0 < m) :
    2147418112 / m * m ≤ 2147418112 ∧ 2147418112 < (2147418112 / m + 1) * m := by
  have h1 := Int.mul_ediv_add_emod 2147418112 m
  have h2 := Int.emod_lt_of_pos 2147418112 h
  have h3 := Int.emod_nonneg 2147418112 (Int.ne_of_gt h)
  rw [Int.add_mul, Int.one_mul, Int.mul_comm _ m]
  omega

theorem normProduct {m x : Int} (h : 0 < m) (hx : -m ≤ x ∧ x ≤ m) :
    -2147418112 ≤ x * (2147418112 / m) ∧ x * (2147418112 / m) ≤ 2147418112 := by
  have h1 := (normFactor h).1
  have h0 : 0 ≤ 2147418112 / m := Int.ediv_nonneg (by decide) (by omega)
  have a := Int.mul_le_mul_of_nonneg_right hx.2 h0
  have b := Int.mul_le_mul_of_nonneg_right hx.1 h0
  rw [Int.mul_comm] at h1
  rw [Int.neg_mul] at b
  omega

theorem normScale_range {m x : Int} (h : 0 < m) (hx : -m ≤ x ∧ x ≤ m) :
    -32767 ≤ normScale m x ∧ normScale m x ≤ 32767 := by
  have := normProduct h hx
  unfold normScale
  omega

theorem normalize_eq {l : List Int} :
    (maxFrame l = 0 → normalize l = .ok l) ∧
    (maxFrame l ≠ 0 → 0 < maxFrame l ∧ normalize l = .ok (l.map (normScale (maxFrame l)))) := by
  have hp := maxFrame_isPeak l
  have h0 : 0 ≤ maxFrame l := (maxFold_le l 0).1
  constructor
  · intro h
    unfold normalize
    dsimp only
    rw [if_neg (fun c => c h)]
  · intro h
    have hpos : 0 < maxFrame l := by omega
    refine ⟨hpos, ?_⟩
    unfold normalize
    dsimp only
    rw [if_pos h, i32_ok (by decide) (by decide), ok_bind]
    apply mapM_ok
    intro x hx
    rw [Int.tdiv_eq_ediv_of_nonneg (by decide)]
    have hr := normProduct hpos (hp.1 x hx)
    rw [show (32767 * 65536 : Int) = 2147418112 from rfl]
    rw [i32_ok (by omega) (by omega), ok_bind]
    have hs := normScale_range hpos (hp.1 x hx)
    unfold normScale at hs ⊢
    rw [pure_eq_ok]
    congr 1
    unfold wrapI16
    omega

/-- **C59** (range).  Whatever the frames are, normalising them succeeds, gives as many frames, and
every frame is within −32767 … 32767. -/
theorem C59_range (l : List Int) : ∃ r, normalize l = .ok r ∧ r.length = l.length ∧
    ∀ y ∈ r, -32767 ≤ y ∧ y ≤ 32767 := by
  have hp := maxFrame_isPeak l
  by_cases h : maxFrame l = 0
  · refine ⟨l, normalize_eq.1 h, rfl, fun x hx => ?_⟩
    have := hp.1 x hx
    omega
  · obtain ⟨hpos, e⟩ := normalize_eq.2 h
    refine ⟨_, e, List.length_map _, fun y hy => ?_⟩
    obtain ⟨x, hx, rfl⟩ := List.mem_map.mp hy
    exact normScale_range hpos (hp.1 x hx)

/-- **C59** (order).  A frame that is not above another is not above it after normalising. -/
theorem C59_order (l r : List Int) (h : normalize l = .ok r) (i j : Nat) (a b a' b' : Int)
    (hi : l[i]? = some a) (hj : l[j]? = some b) (hi' : r[i]? = some a') (hj' : r[j]? = some b')
    (hab : a ≤ b) : a' ≤ b' := by
  by_cases hm : maxFrame l = 0
  · rw [normalize_eq.1 hm] at h
    injection h with h
    subst h
    rw [hi] at hi'; rw [hj] at hj'
    injection hi' with hi'; injection hj' with hj'
    omega
  · obtain ⟨hpos, e⟩ := normalize_eq.2 hm
    rw [e] at h
    injection h with h
    subst h
    rw [List.getElem?_map, hi] at hi'
    rw [List.getElem?_map, hj] at hj'
    injection hi' with hi'; injection hj' with hj'
    subst hi' hj'
    have h0 : 0 ≤ 2147418112 / maxFrame l := Int.ediv_nonneg (by decide) (by omega)
    have := Int.mul_le_mul_of_nonneg_right hab h0
    unfold normScale
    exact Int.ediv_le_ediv (by decide) this

/-- **C59** (sign and strict order; partial: not if a frame has the amplitude −32768, see
`C59_refuted`).  If no frame is beyond ±32767, then different frames stay different and in order, a
positive frame stays positive, a negative one negative and no frame gets smaller in amplitude. -/
theorem C59_sign_partial (l r : List Int) (hl : ∀ x ∈ l, -32767 ≤ x ∧ x ≤ 32767)
    (h : normalize l = .ok r) (i j : Nat) (a b a' b' : Int)
    (hi : l[i]? = some a) (hj : l[j]? = some b) (hi' : r[i]? = some a') (hj' : r[j]? = some b') :
    (a < b → a' < b') ∧ (0 ≤ a → a ≤ a') ∧ (a ≤ 0 → a' ≤ a) := by
  by_cases hm : maxFrame l = 0
  · rw [normalize_eq.1 hm] at h
    injection h with h
    subst h
    rw [hi] at hi'; rw [hj] at hj'
    injection hi' with hi'; injection hj' with hj'
    omega
  · obtain ⟨hpos, e⟩ := normalize_eq.2 hm
    rw [e] at h
    injection h with h
    subst h
    rw [List.getElem?_map, hi] at hi'
    rw [List.getElem?_map, hj] at hj'
    injection hi' with hi'; injection hj' with hj'
    subst hi' hj'
    have hpk := maxFrame_isPeak l
    have hle : maxFrame l ≤ 32767 := by
      rcases hpk.2 with ⟨h0, _⟩ | ⟨x, hx, hx'⟩
      · omega
      · have := hl x hx
        omega
    have hf : 65536 ≤ 2147418112 / maxFrame l := by
      rw [Int.le_ediv_iff_mul_le hpos]
      omega
    unfold normScale
    generalize 2147418112 / maxFrame l = f at hf
    refine ⟨fun hab => ?_, fun h0 => ?_, fun h0 => ?_⟩
    · have h1 : (b - a) * f ≥ 1 * f := Int.mul_le_mul_of_nonneg_right (by omega) (by omega)
      rw [Int.sub_mul, Int.one_mul] at h1
      omega
    · have h1 : a * 65536 ≤ a * f := Int.mul_le_mul_of_nonneg_left hf h0
      omega
    · have h1 : -a * 65536 ≤ -a * f := Int.mul_le_mul_of_nonneg_left hf (by omega)
      rw [Int.neg_mul, Int.neg_mul] at h1
      omega

/-- **C59** (peak).  The frames of the largest amplitude, if it is not 0 and at most 32768, are brought
to full scale: a positive one to 32766 or 32767, a negative one to −32767. -/
theorem C59_peak (l r : List Int) (hl : ∀ x ∈ l, InI16 x) (h : normalize l = .ok r) (m : Int)
    (hm : IsPeak l m) (h0 : m ≠ 0) (i : Nat) (a a' : Int)
    (hi : l[i]? = some a) (hi' : r[i]? = some a') :
    (a = m → a' = 32766 ∨ a' = 32767) ∧ (a = -m → a' = -32767) := by
  have hpk := maxFrame_isPeak l
  have hmm : maxFrame l = m := by
    have hx0 := (maxFold_le l 0).1
    change 0 ≤ maxFrame l at hx0
    have hm0 : 0 ≤ m := by
      have := hm.1 a (List.mem_of_getElem? hi)
      omega
    rcases hm.2 with ⟨e, _⟩ | ⟨x, hx, e⟩
    · exact absurd e h0
    · have h1 := hpk.1 x hx
      rcases hpk.2 with ⟨e', hz⟩ | ⟨y, hy, e'⟩
      · have := hz x hx
        omega
      · have h2 := hm.1 y hy
        omega
  have hne : maxFrame l ≠ 0 := by omega
  obtain ⟨hpos, e⟩ := normalize_eq.2 hne
  rw [e] at h
  injection h with h
  subst h
  rw [List.getElem?_map, hi] at hi'
  injection hi' with hi'
  subst hi'
  have hle : m ≤ 32768 := by
    rcases hm.2 with ⟨e, _⟩ | ⟨x, hx, hx'⟩
    · exact absurd e h0
    · have := hl x hx
      unfold InI16 at this
      omega
  rw [hmm] at hpos ⊢
  have hf := normFactor hpos
  unfold normScale
  generalize 2147418112 / m = f at hf
  rw [Int.add_mul, Int.one_mul, Int.mul_comm f m] at hf
  constructor
  · intro ha
    subst ha
    omega
  · intro ha
    subst ha
    rw [Int.neg_mul]
    omega

/-- **C59** (silence).  Silence is left unchanged. -/
theorem C59_silence (l : List Int) (h : ∀ x ∈ l, x = 0) : normalize l = .ok l := by
  refine normalize_eq.1 ?_
  rcases (maxFrame_isPeak l).2 with ⟨e, _⟩ | ⟨x, hx, e⟩
  · exact e
  · have := h x hx
    omega

/-- **C59** does not hold if a frame has the amplitude −32768: the frame 1 becomes silent (the others
are made smaller by normalising). -/
theorem C59_refuted : normalize [-32768, 1, 2, 0] = .ok [-32767, 0, 1, 0] := by decide +kernel

example : normalize [100, -50, 0, 99, 33] = .ok [32766, -16384, 0, 32439, 10813] := by decide +kernel
example : IsPeak [100, -50, 0, 99, 33] 100 := by
  refine ⟨by decide, .inr ⟨100, by decide, .inl rfl⟩⟩
example : normalize [0, 0] = .ok [0, 0] := by decide +kernel

end BK
