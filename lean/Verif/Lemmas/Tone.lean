import Verif.Spec.Tone
/-! Lemmas on table lookup and interpolation. -/
namespace BK

theorem rd_getD {a : List Int} {i : Int} (h0 : 0 ≤ i) (h1 : i < a.length) :
    rd a i = .ok (a.getD i.toNat 0) := by
  unfold rd
  have : i.toNat < a.length := by omega
  simp [h0, List.getElem?_eq_getElem this, List.getD_eq_getElem?_getD]

/-- Linear interpolation between entry `i` and entry `min (i+1) n`, weight `f/M`. -/
def lerp (T : Int → Int) (n M i f : Int) : Int := T i * (M - f) + T (min (i + 1) n) * f

theorem adj_le {T : Int → Int} {n : Int} (hT : ∀ i, 0 ≤ i → i < n → T (i + 1) ≤ T i) :
    ∀ i j, 0 ≤ i → i ≤ j → j ≤ n → T j ≤ T i := by
  intro i j h0 hij hj
  obtain ⟨k, rfl⟩ : ∃ k : Nat, j = i + k := ⟨(j - i).toNat, by omega⟩
  induction k with
  | zero => simp
  | succ k ih =>
    have h1 := ih (by omega) (by omega)
    have h2 := hT (i + k) (by omega) (by omega)
    have : i + (k + 1 : Nat) = i + k + 1 := by omega
    rw [this]
    omega

theorem lerp_le_left {T : Int → Int} {n M : Int} (hT : ∀ i, 0 ≤ i → i < n → T (i + 1) ≤ T i)
    {i f : Int} (h0 : 0 ≤ i) (hi : i ≤ n) (hf : 0 ≤ f) : lerp T n M i f ≤ T i * M := by
  have h : T (min (i + 1) n) ≤ T i := adj_le hT _ _ h0 (by omega) (by omega)
  have := Int.mul_le_mul_of_nonneg_right h hf
  unfold lerp
  rw [Int.mul_sub]
  omega

theorem right_le_lerp {T : Int → Int} {n M : Int} (hT : ∀ i, 0 ≤ i → i < n → T (i + 1) ≤ T i)
    {i f : Int} (h0 : 0 ≤ i) (hi : i ≤ n) (hf : f ≤ M) :
    T (min (i + 1) n) * M ≤ lerp T n M i f := by
  have h : T (min (i + 1) n) ≤ T i := adj_le hT _ _ h0 (by omega) (by omega)
  have := Int.mul_le_mul_of_nonneg_right h (show 0 ≤ M - f by omega)
  unfold lerp
  have e : T (min (i + 1) n) * M = T (min (i + 1) n) * (M - f) + T (min (i + 1) n) * f := by
    rw [← Int.mul_add]; congr 1; omega
  omega

theorem lerp_anti {T : Int → Int} {n M : Int} (hT : ∀ i, 0 ≤ i → i < n → T (i + 1) ≤ T i)
    {i f j g : Int} (h0 : 0 ≤ i) (hj : j ≤ n) (hf : 0 ≤ f) (hf' : f ≤ M) (hg : 0 ≤ g) (hg' : g ≤ M)
    (h : i < j ∨ (i = j ∧ f ≤ g)) : lerp T n M j g ≤ lerp T n M i f := by
  rcases h with h | ⟨rfl, h⟩
  · have a := lerp_le_left (M := M) hT (i := j) (f := g) (by omega) hj hg
    have b := right_le_lerp (M := M) hT (i := i) (f := f) h0 (by omega) hf'
    have c : T j ≤ T (min (i + 1) n) := adj_le hT _ _ (by omega) (by omega) hj
    have := Int.mul_le_mul_of_nonneg_right c (show 0 ≤ M by omega)
    omega
  · have h1 : T (min (i + 1) n) ≤ T i := adj_le hT _ _ h0 (by omega) (by omega)
    have := Int.mul_le_mul_of_nonneg_right h1 (show 0 ≤ g - f by omega)
    unfold lerp
    simp only [Int.mul_sub] at *
    omega

/-- A statement about every entry of a table of 97 entries follows from checking all
of them. -/
theorem of_all97 {P : Nat → Prop} [DecidablePred P] (h : ∀ i : Fin 97, P i.val) {i : Nat}
    (hi : i < 97) : P i := h ⟨i, hi⟩

theorem note_step (i : Int) (h0 : 0 ≤ i) (h : i < 96) : noteEntry (i + 1) ≤ noteEntry i := by
  have key : ∀ k : Fin 96, tonePeriods.getD (k.val + 1) 0 ≤ tonePeriods.getD k.val 0 := by
    decide +kernel
  have := key ⟨i.toNat, by omega⟩
  unfold noteEntry
  have e : (i + 1).toNat = i.toNat + 1 := by omega
  rw [e]; exact this

theorem note_range (i : Int) (h0 : 0 ≤ i) (h : i ≤ 96) :
    125 ≤ noteEntry i ∧ noteEntry i ≤ 32063 := by
  have key : ∀ k : Fin 97, 125 ≤ tonePeriods.getD k.val 0 ∧ tonePeriods.getD k.val 0 ≤ 32063 := by
    decide +kernel
  exact key ⟨i.toNat, by omega⟩

theorem note_octave (i : Int) (h0 : 0 ≤ i) (h : i ≤ 84) :
    0 ≤ noteEntry i - 2 * noteEntry (i + 12) ∧ noteEntry i - 2 * noteEntry (i + 12) ≤ 1 := by
  have key : ∀ k : Fin 85, 0 ≤ tonePeriods.getD k.val 0 - 2 * tonePeriods.getD (k.val + 12) 0 ∧
      tonePeriods.getD k.val 0 - 2 * tonePeriods.getD (k.val + 12) 0 ≤ 1 := by
    decide +kernel
  have := key ⟨i.toNat, by omega⟩
  unfold noteEntry
  have e : (i + 12).toNat = i.toNat + 12 := by omega
  rw [e]; exact this

theorem pitch_step (i : Int) (h0 : 0 ≤ i) (h : i < 96) :
    pitchEntry i / 4 ≤ pitchEntry (i + 1) / 4 := by
  have key : ∀ k : Fin 96, log2Periods.getD k.val 0 / 4 ≤ log2Periods.getD (k.val + 1) 0 / 4 := by
    decide +kernel
  have := key ⟨i.toNat, by omega⟩
  unfold pitchEntry
  have e : (i + 1).toNat = i.toNat + 1 := by omega
  rw [e]; exact this

theorem pitch_range (i : Int) (h0 : 0 ≤ i) (h : i ≤ 96) :
    65536 ≤ pitchEntry i ∧ pitchEntry i ≤ 16777216 := by
  have key : ∀ k : Fin 97, 65536 ≤ log2Periods.getD k.val 0 ∧
      log2Periods.getD k.val 0 ≤ 16777216 := by
    decide +kernel
  exact key ⟨i.toNat, by omega⟩

theorem cclamp_eq_limit (a l h : Int) (hlh : l ≤ h) : cclamp a l h = limit l h a := by
  unfold cclamp limit; split <;> (try split) <;> omega

theorem cmin_eq (a b : Int) : cmin a b = min a b := by
  unfold cmin; split <;> omega

theorem mul_bounds {x a w : Int} (hx0 : 0 ≤ x) (hx : x ≤ a) (hw : 0 ≤ w) :
    0 ≤ x * w ∧ x * w ≤ a * w :=
  ⟨Int.mul_nonneg hx0 hw, Int.mul_le_mul_of_nonneg_right hx hw⟩

/-- The interpolated note value before scaling. -/
def noteL (pitch : Int) : Int :=
  lerp noteEntry 96 65536 (limit 0 (96 * 1048576) pitch / 1048576)
    (limit 0 (96 * 1048576) pitch % 1048576 / 16)

theorem exactPeriod_eq (pitch rate : Int) :
    exactPeriod pitch rate = 4 * (limit 16000 96000 rate * (noteL pitch / 262144)) := rfl

theorem noteL_range (pitch : Int) : 125 * 65536 ≤ noteL pitch ∧ noteL pitch ≤ 32063 * 65536 := by
  have hp : 0 ≤ limit 0 (96 * 1048576) pitch ∧ limit 0 (96 * 1048576) pitch ≤ 96 * 1048576 := by
    unfold limit; omega
  unfold noteL
  generalize limit 0 (96 * 1048576) pitch = p at *
  have a := lerp_le_left (n := 96) (M := 65536) note_step (i := p / 1048576)
    (f := p % 1048576 / 16) (by omega) (by omega) (by omega)
  have b := right_le_lerp (n := 96) (M := 65536) note_step (i := p / 1048576)
    (f := p % 1048576 / 16) (by omega) (by omega) (by omega)
  have c := note_range (p / 1048576) (by omega) (by omega)
  have d := note_range (min (p / 1048576 + 1) 96) (by omega) (by omega)
  omega

theorem noteL_anti {p q : Int} (h : p ≤ q) : noteL q ≤ noteL p := by
  unfold noteL
  apply lerp_anti note_step
  all_goals unfold limit
  all_goals omega

theorem noteL_octave {p : Int} (h0 : 0 ≤ p) (h1 : p ≤ 84 * 1048576) :
    0 ≤ noteL p - 2 * noteL (p + 12 * 1048576) ∧
    noteL p - 2 * noteL (p + 12 * 1048576) ≤ 65536 := by
  have e1 : limit 0 (96 * 1048576) p = p := by unfold limit; omega
  have e2 : limit 0 (96 * 1048576) (p + 12 * 1048576) = p + 12 * 1048576 := by unfold limit; omega
  unfold noteL
  rw [e1, e2]
  have e3 : (p + 12 * 1048576) / 1048576 = p / 1048576 + 12 := by omega
  have e4 : (p + 12 * 1048576) % 1048576 = p % 1048576 := by omega
  rw [e3, e4]
  have hf : 0 ≤ p % 1048576 / 16 ∧ p % 1048576 / 16 ≤ 65536 := by omega
  have hi : 0 ≤ p / 1048576 ∧ p / 1048576 ≤ 84 := by omega
  have hz : p / 1048576 = 84 → p % 1048576 / 16 = 0 := by omega
  generalize p % 1048576 / 16 = f at *
  generalize p / 1048576 = i at *
  unfold lerp
  have a := note_octave i hi.1 hi.2
  by_cases h84 : i = 84
  · have := hz h84
    subst this
    simp only [Int.mul_zero]
    have : 65536 - (0 : Int) = 65536 := rfl
    omega
  · have b := note_octave (i + 1) (by omega) (by omega)
    have e5 : min (i + 1) 96 = i + 1 := by omega
    have e6 : min (i + 12 + 1) 96 = i + 1 + 12 := by omega
    rw [e5, e6]
    have c1 := mul_bounds a.1 a.2 (show 0 ≤ 65536 - f by omega)
    have c2 := mul_bounds b.1 b.2 hf.1
    have r1 : (noteEntry i - 2 * noteEntry (i + 12)) * (65536 - f) =
      noteEntry i * (65536 - f) - 2 * (noteEntry (i + 12) * (65536 - f)) := by
      rw [Int.sub_mul, Int.mul_assoc]
    have r2 : (noteEntry (i + 1) - 2 * noteEntry (i + 1 + 12)) * f =
      noteEntry (i + 1) * f - 2 * (noteEntry (i + 1 + 12) * f) := by
      rw [Int.sub_mul, Int.mul_assoc]
    omega

end BK
