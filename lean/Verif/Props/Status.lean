import Verif.Model.Status
/-! C03: status names. -/
namespace BK

/-- The thirteen documented return codes, as `unsigned` values. -/
def documentedCodes : List (Nat × String) :=
  [(0xFFFF9001, "Allocation error"), (0xFFFF9002, "Invalid argument"),
   (0xFFFF9003, "Invalid value"), (0xFFFF9004, "Invalid state"),
   (0xFFFF9005, "Invalid number of channels"), (0xFFFF9006, "Invalid number of frames"),
   (0xFFFF9007, "Invalid number of bits"), (0xFFFF9008, "Invalid return value"),
   (0xFFFF9009, "File error"), (0xFFFF900A, "File not readable"),
   (0xFFFF900B, "File not writable"), (0xFFFF900C, "File not seekable"),
   (0xFFFF900D, "Other error")]

/-- C03 fails: a small positive status such as an enum value reads outside the table. -/
theorem C03_refuted : ∃ s, s < 2 ^ 32 ∧ statusGetName s = .error .oob :=
  ⟨0x1000, by decide, by decide⟩

/-- C03 fails: the bare return type yields a NULL name. -/
theorem C03_null_refuted : statusGetName 0xFFFF9000 = .ok none := by decide

/-- C03, documented codes.  Partial: the claim is for every 32-bit value. -/
theorem C03_documented_partial :
    ∀ c ∈ documentedCodes, statusGetName c.1 = .ok (some c.2) := by decide

/-- C03: complete classification of all 32-bit values.  A value gets a valid name exactly
if it is above the last code, or a documented code, or has none of the bits of the
return type. -/
theorem C03_safe_iff {s : Nat} (hs : s < 2 ^ 32) :
    (∃ name, statusGetName s = .ok (some name)) ↔
      (0xFFFF900D < s ∨ (0xFFFF9001 ≤ s ∧ s ≤ 0xFFFF900D) ∨ s &&& 0xFFFF9000 = 0) := by
  unfold statusGetName returnType otherError
  by_cases h0 : s &&& 0xFFFF9000 = 0
  · simp [h0]
  · by_cases h1 : s ≤ 0xFFFF900D
    · simp only [ne_eq, h0, not_false_eq_true, h1, and_self, ↓reduceIte, or_false, and_true]
      by_cases h2 : 0xFFFF9000 ≤ s
      · have e : wrapU32 ((s : Int) - (4294938624 : Nat)) = ((s - 0xFFFF9000 : Nat) : Int) := by
          unfold wrapU32; omega
        rw [e]
        obtain ⟨k, hk⟩ : ∃ k, s = 0xFFFF9000 + k := ⟨s - 0xFFFF9000, by omega⟩
        have hk' : k < 14 := by omega
        have e2 : s - 0xFFFF9000 = k := by omega
        rw [e2]
        have key : ∀ k : Fin 14, (match rd statusNames (k.val : Int) with
            | .ok (some _) => true | _ => false) = decide (1 ≤ k.val) := by decide +kernel
        have key' := key ⟨k, hk'⟩
        simp only at key'
        constructor
        · rintro ⟨name, h⟩
          rw [h] at key'
          have := of_decide_eq_true key'.symm
          omega
        · intro h
          have h3 : decide (1 ≤ k) = true := decide_eq_true (by omega)
          rw [h3] at key'
          split at key'
          · exact ⟨_, by assumption⟩
          · cases key'
      · have e : rd statusNames (wrapU32 ((s : Int) - (4294938624 : Nat))) = .error .oob := by
          unfold rd
          have e1 : 0 ≤ wrapU32 ((s : Int) - (4294938624 : Nat)) := by unfold wrapU32; omega
          have e2 : 28672 ≤ (wrapU32 ((s : Int) - (4294938624 : Nat))).toNat := by
            unfold wrapU32; omega
          have e3 : statusNames[(wrapU32 ((s : Int) - (4294938624 : Nat))).toNat]? = none := by
            apply List.getElem?_eq_none
            have : statusNames.length = 14 := rfl
            omega
          rw [if_pos e1, e3]
        rw [e]
        simp
        omega
    · simp [h1]; omega

example : statusGetName 0xFFFFFFFF = .ok (some "Unknown status") := by decide
example : statusGetName 0 = .ok (some "Unknown status") := by decide

end BK
