import Verif.Lemmas.UnitOps
import Verif.Lemmas.Links
/-!
C50: attributes of units.
-/
namespace BK

/-- The value an attribute has after it was set to `v`; `np` is the number of phases (frames of a
sample), `backwards` tells that a sample is played from its end. -/
def attrResult (a : UAttr) (v np : Int) (sample backwards : Bool) : Int :=
  match a with
  | .dutyCycle => min 15 (max 1 v)
  | .waveform => v
  | .phase => if sample && decide (v < 0) then (if backwards then np - 1 else 0)
    else min (np - 1) (max 0 v)
  | .phaseWrap => if v = 0 then 0 else max 2 v
  | .period => |v|
  | .volumeOf _ => min 32767 (max 0 v)
  | .mute => if v = 0 then 0 else 1
  | .sampleRepeat => if 0 ≤ v ∧ v ≤ 2 then v else 0
  | .samplePeriod => min 268435456 (max 4096 |v|)
  | .immedRelease => if v = 0 then 0 else 1
  | .flagRelease => if v = 0 then 0 else 1
  | _ => 0

/-- Setting `a` also changes `b`: the waveform its number of phases; waveform, duty cycle, phase wrap
and release the phase; the volume of all channels that of each. -/
def UAttr.affects (a b : UAttr) : Bool :=
  a = b || match a, b with
    | .waveform, .phase => true
    | .waveform, .numPhases => true
    | .dutyCycle, .phase => true
    | .phaseWrap, .phase => true
    | .flagRelease, .phase => true
    | .volume, .volumeOf _ => true
    | _, _ => false

theorem cclamp_eq {v lo hi : Int} (h : lo ≤ hi) : cclamp v lo hi = min hi (max lo v) := by
  unfold cclamp
  rcases Int.le_total lo v with h1 | h1 <;> rcases Int.le_total v hi with h2 | h2 <;>
    simp only [max_eq_right h1, max_eq_left h1, min_eq_left h2, min_eq_right h2, min_eq_right h] <;>
    (split <;> (try split) <;> omega)

theorem wrapI32_self {x : Int} (h : -2147483648 ≤ x ∧ x ≤ 2147483647) : wrapI32 x = x := by
  unfold wrapI32; omega

theorem cabs_eq {v : Int} (h : InI32 v) (h' : v ≠ -2147483648) : cabs v = .ok |v| := by
  unfold cabs
  unfold InI32 at h
  split
  · rw [i32_ok (by omega) (by omega), abs_of_neg (by omega)]
  · rw [abs_of_nonneg (by omega)]

theorem waveOfAttr_code {v n : Int} {w : Wave} (h : waveOfAttr v = some (w, n)) : w.code = v := by
  unfold waveOfAttr at h
  split at h
  · cases h; symm; assumption
  split at h
  · cases h; symm; assumption
  split at h
  · cases h; symm; assumption
  split at h
  · cases h; symm; assumption
  split at h
  · cases h; symm; assumption
  split at h
  · cases h; symm; assumption
  · cases h

/-- **C50**, partial: in every state, setting a readable attribute succeeds for every value
(a waveform number: for the built-in ones) and reading it back gives the value of `attrResult`.
Missing: the value -2147483648 for periods, see `C50_refuted`; the release flag, which is only taken
while a sustain range is set; the number of phases must be positive to set the phase. -/
theorem C50_set_get_partial {c : UCore} {a : UAttr} {v : Int} (hv : InI32 v)
    (h1 : a = .period ∨ a = .samplePeriod → v ≠ -2147483648) (h2 : a ≠ .volume ∧ a ≠ .numPhases ∧ a ≠ .other)
    (h3 : a = .waveform → v = 0 ∨ 16385 ≤ v ∧ v ≤ 16389) (h4 : a = .flagRelease → c.sustainRange = true)
    (h4' : a = .flagRelease → 0 ≤ c.sustainOffset ∧ c.sustainOffset ≤ 2147483647)
    {np : Int} (hnp : c.getAttr .numPhases = .ok (some np))
    (h5 : a = .phase → 1 ≤ np ∧ InU32 c.count ∧ InU32 c.length) :
    ∃ c', c.setAttr a v = .ok (.ok, c') ∧ c'.getAttr a =
      .ok (some (attrResult a v np (c.waveform = .sample) (decide (c.stop ≤ c.offset)))) := by
  unfold InI32 at hv
  cases a
  case dutyCycle =>
    have e := cclamp_eq (v := v) (lo := 1) (hi := 15) (by decide)
    unfold UCore.setAttr
    dsimp only
    by_cases hd : c.dutyCycle ≠ cclamp v 1 15
    · rw [if_pos hd]
      refine ⟨_, rfl, ?_⟩
      show Except.ok (some (wrapI32 (cclamp v 1 15))) = Except.ok (some (min 15 (max 1 v)))
      rw [wrapI32_self (by have := cclamp_in (x := v) (lo := 1) (hi := 15) (by decide); omega), e]
    · rw [if_neg hd]
      refine ⟨_, rfl, ?_⟩
      show Except.ok (some (wrapI32 c.dutyCycle)) = Except.ok (some (min 15 (max 1 v)))
      rw [not_not.1 hd, wrapI32_self (by have := cclamp_in (x := v) (lo := 1) (hi := 15) (by decide); omega), e]
  case waveform =>
    obtain ⟨w, n, hw⟩ : ∃ w n, waveOfAttr v = some (w, n) := by
      have : v = 0 ∨ v = 16385 ∨ v = 16386 ∨ v = 16387 ∨ v = 16388 ∨ v = 16389 := by
        have := h3 rfl; omega
      rcases this with rfl | rfl | rfl | rfl | rfl | rfl <;> exact ⟨_, _, rfl⟩
    unfold UCore.setAttr
    dsimp only
    rw [hw]
    refine ⟨_, rfl, ?_⟩
    show Except.ok (some (Wave.code _)) = Except.ok (some v)
    rw [← waveOfAttr_code hw]
    dsimp only
    split
    · rfl
    · rename_i hne
      dsimp only
      rw [not_not.1 hne]
  case phase =>
    obtain ⟨hn, hcn, hlen⟩ := h5 rfl
    unfold InU32 at hcn hlen
    refine ⟨_, rfl, ?_⟩
    show Except.ok (some (wrapI32 (c.phaseValue v))) = _
    have hnp' : np = wrapI32 (if c.waveform ≠ .sample then c.count else c.length) := by
      cases hnp; rfl
    unfold UCore.phaseValue attrResult
    by_cases hs : c.waveform = .sample
    · rw [if_neg (by simpa using hs)]
      rw [if_neg (by simpa using hs)] at hnp'
      have e1 : wrapU32 (c.length - 1) = np - 1 := by unfold wrapU32; unfold wrapI32 at hnp'; omega
      have e2 : wrapI32 (c.length - 1) = np - 1 := by unfold wrapI32 at *; omega
      have hnpr : np ≤ 2147483647 := by unfold wrapI32 at hnp'; omega
      dsimp only
      simp only [hs, decide_true, Bool.true_and, decide_eq_true_eq]
      rw [e1, e2]
      by_cases hneg : v < 0
      · rw [if_pos hneg, if_pos hneg]
        by_cases hb : c.stop > c.offset
        · rw [if_pos hb, if_neg (by omega)]
          have : cclamp 0 0 (np - 1) = 0 := by unfold cclamp; split <;> (try split) <;> omega
          rw [this]; rfl
        · rw [if_neg hb, if_pos (by omega)]
          have : cclamp (np - 1) 0 (np - 1) = np - 1 := by unfold cclamp; split <;> (try split) <;> omega
          rw [this, wrapI32_self (by omega)]
      · rw [if_neg hneg, if_neg hneg, cclamp_eq (by omega), wrapI32_self]
        have := le_min (c := (0 : Int)) (a := np - 1) (b := max 0 v) (by omega) (le_max_left _ _)
        have := min_le_left (np - 1) (max 0 v)
        omega
    · rw [if_pos hs]
      rw [if_pos hs] at hnp'
      have e1 : wrapU32 (c.count - 1) = np - 1 := by unfold wrapU32; unfold wrapI32 at hnp'; omega
      have hnpr : np ≤ 2147483647 := by unfold wrapI32 at hnp'; omega
      dsimp only
      simp only [hs, decide_false, Bool.false_and, Bool.false_eq_true, if_false]
      rw [e1, cclamp_eq (by omega), wrapI32_self]
      have := le_min (c := (0 : Int)) (a := np - 1) (b := max 0 v) (by omega) (le_max_left _ _)
      have := min_le_left (np - 1) (max 0 v)
      omega
  case phaseWrap =>
    refine ⟨_, rfl, ?_⟩
    show Except.ok (some (wrapI32 (if v ≠ 0 then cmax v 2 else 0))) = Except.ok (some (if v = 0 then 0 else max 2 v))
    by_cases hz : v = 0
    · rw [if_neg (by simpa using hz), if_pos hz]; rfl
    · rw [if_pos hz, if_neg hz, wrapI32_self (by unfold cmax; split <;> omega)]
      congr 2
      unfold cmax
      rcases Int.le_total 2 v with h | h
      · rw [max_eq_right h]; split <;> omega
      · rw [max_eq_left h]; split <;> omega
  case period =>
    have h1 := h1 (.inl rfl)
    have hb : 0 ≤ |v| ∧ |v| ≤ 2147483647 := by
      rcases abs_cases v with h | h <;> omega
    unfold UCore.setAttr
    dsimp only
    rw [cabs_eq hv h1]
    refine ⟨_, rfl, ?_⟩
    show Except.ok (some (wrapI32 (cmax |v| 0))) = Except.ok (some |v|)
    have : cmax |v| 0 = |v| := by unfold cmax; split <;> omega
    rw [this, wrapI32_self (by omega)]
  case volume => exact absurd rfl h2.1
  case volumeOf i =>
    refine ⟨_, rfl, ?_⟩
    show Except.ok (some (upd c.volume i (cclamp v 0 32767) i)) = Except.ok (some (min 32767 (max 0 v)))
    rw [upd_self, cclamp_eq (by decide)]
  case mute =>
    refine ⟨_, rfl, ?_⟩
    show Except.ok (some (if v ≠ 0 then (1 : Int) else 0)) = Except.ok (some (if v = 0 then 0 else 1))
    by_cases hz : v = 0 <;> simp [hz]
  case sampleRepeat =>
    refine ⟨_, rfl, ?_⟩
    show Except.ok (some (wrapI32 (if v = 0 ∨ v = 1 ∨ v = 2 then v else 0))) =
      Except.ok (some (if 0 ≤ v ∧ v ≤ 2 then v else 0))
    by_cases hz : 0 ≤ v ∧ v ≤ 2
    · rw [if_pos (by omega), if_pos hz, wrapI32_self (by omega)]
    · rw [if_neg (by omega), if_neg hz]; rfl
  case samplePeriod =>
    have h1 := h1 (.inr rfl)
    have hb : 0 ≤ |v| ∧ |v| ≤ 2147483647 := by
      rcases abs_cases v with h | h <;> omega
    unfold UCore.setAttr
    dsimp only
    rw [cabs_eq hv h1]
    refine ⟨_, rfl, ?_⟩
    show (do let v ← cabs (if c.samplePeriod < 0 then -cclamp |v| 4096 268435456 else cclamp |v| 4096 268435456)
             return some v) = Except.ok (some (min 268435456 (max 4096 |v|)))
    have hr := cclamp_in (x := |v|) (lo := 4096) (hi := 268435456) (by decide)
    rw [← cclamp_eq (v := |v|) (lo := 4096) (hi := 268435456) (by decide)]
    generalize cclamp |v| 4096 268435456 = y at *
    split
    · rw [cabs_eq (by unfold InI32; omega) (by omega), ok_bind, abs_neg, abs_of_nonneg (by omega)]; rfl
    · rw [cabs_eq (by unfold InI32; omega) (by omega), ok_bind, abs_of_nonneg (by omega)]; rfl
  case immedRelease =>
    refine ⟨_, rfl, ?_⟩
    show Except.ok (some (if decide (v ≠ 0) then (1 : Int) else 0)) = Except.ok (some (if v = 0 then 0 else 1))
    by_cases hz : v = 0 <;> simp [hz]
  case flagRelease =>
    unfold UCore.setAttr
    dsimp only
    rw [if_pos (h4 rfl)]
    have key : ∀ c' : UCore, c'.release = decide (v ≠ 0) → c'.getAttr .flagRelease =
        .ok (some (attrResult .flagRelease v np (c.waveform = .sample) (decide (c.stop ≤ c.offset)))) := by
      intro c' h
      show Except.ok (some (if c'.release then (1 : Int) else 0)) = Except.ok (some (if v = 0 then 0 else 1))
      rw [h]
      by_cases hz : v = 0 <;> simp [hz]
    split
    · split
      · exact ⟨_, rfl, key _ rfl⟩
      · have hw : InI32 (wrapI32 c.sustainOffset - 1) := by
          have := h4' rfl; unfold InI32 wrapI32; omega
        unfold InI32 at hw
        rw [i32_ok hw.1 hw.2]
        exact ⟨_, rfl, key _ rfl⟩
    · exact ⟨_, rfl, key _ rfl⟩
  case numPhases => exact absurd rfl h2.2.1
  case other => exact absurd rfl h2.2.2

/-- **C50**: attributes that are not affected keep their value. -/
theorem C50_others_kept {c : UCore} {a b : UAttr} {v : Int} {r : Ret × UCore}
    (h : c.setAttr a v = .ok r) (hab : a.affects b = false) : r.2.getAttr b = c.getAttr b := by
  unfold UCore.setAttr at h
  cases a <;> dsimp only at h
  case dutyCycle =>
    split at h
    · cases h
      cases b <;> first | rfl | (exact absurd hab (by simp [UAttr.affects]))
    · cases h; rfl
  case waveform =>
    split at h
    · cases h
      dsimp only
      split
      · cases b <;> first | rfl | (exact absurd hab (by simp [UAttr.affects]))
      · cases b <;> first | rfl | (exact absurd hab (by simp [UAttr.affects]))
    · cases h; rfl
  case flagRelease =>
    split at h
    · split at h
      · split at h
        · cases h
          cases b <;> first | rfl | (exact absurd hab (by simp [UAttr.affects]))
        · obtain ⟨x, -, h⟩ := bind_ok_iff.1 h
          cases h
          cases b <;> first | rfl | (exact absurd hab (by simp [UAttr.affects]))
      · cases h
        cases b <;> first | rfl | (exact absurd hab (by simp [UAttr.affects]))
    · cases h; rfl
  case period =>
    obtain ⟨x, -, h⟩ := bind_ok_iff.1 h
    cases h
    cases b <;> first | rfl | (exact absurd hab (by simp [UAttr.affects]))
  case samplePeriod =>
    obtain ⟨x, -, h⟩ := bind_ok_iff.1 h
    cases h
    cases b <;> first | rfl | (exact absurd hab (by simp [UAttr.affects]))
  case volumeOf i =>
    cases h
    cases b
    case volumeOf j =>
      have hij : ¬ (j : Nat) = (i : Nat) := by
        intro e
        have : i = j := Fin.ext e.symm
        simp [UAttr.affects, this] at hab
      show Except.ok (some (upd c.volume i _ j)) = Except.ok (some (c.volume j))
      rw [upd_ne _ _ hij]
    all_goals rfl
  all_goals
    cases h
    cases b <;> first | rfl | (exact absurd hab (by simp [UAttr.affects]))

/-- **C50**: what is refused changes nothing. -/
theorem C50_refused {c : UCore} {a : UAttr} {v : Int} {r : Ret × UCore}
    (h : c.setAttr a v = .ok r) (hr : r.1 ≠ .ok) : r.2 = c ∧
      ((a = .waveform ∧ r.1 = .invalidValue ∧ v ≠ 0 ∧ ¬ (16385 ≤ v ∧ v ≤ 16389)) ∨
        ((a = .numPhases ∨ a = .other) ∧ r.1 = .invalidAttribute)) := by
  unfold UCore.setAttr at h
  cases a <;> dsimp only at h
  case waveform =>
    split at h
    · cases h; exact absurd rfl hr
    · rename_i hw
      cases h
      refine ⟨rfl, .inl ⟨rfl, rfl, ?_, ?_⟩⟩
      · rintro rfl; cases hw
      · intro hv
        have : v = 16385 ∨ v = 16386 ∨ v = 16387 ∨ v = 16388 ∨ v = 16389 := by omega
        rcases this with rfl | rfl | rfl | rfl | rfl <;> cases hw
  case numPhases => cases h; exact ⟨rfl, .inr ⟨.inl rfl, rfl⟩⟩
  case other => cases h; exact ⟨rfl, .inr ⟨.inr rfl, rfl⟩⟩
  case dutyCycle => split at h <;> (cases h; exact absurd rfl hr)
  case flagRelease =>
    split at h
    · split at h
      · split at h
        · cases h; exact absurd rfl hr
        · obtain ⟨x, -, h⟩ := bind_ok_iff.1 h
          cases h; exact absurd rfl hr
      · cases h; exact absurd rfl hr
    · cases h; exact absurd rfl hr
  case period => obtain ⟨x, -, h⟩ := bind_ok_iff.1 h; cases h; exact absurd rfl hr
  case samplePeriod => obtain ⟨x, -, h⟩ := bind_ok_iff.1 h; cases h; exact absurd rfl hr
  all_goals (cases h; exact absurd rfl hr)

/-- **C50**: setting the volume of all channels sets each. -/
theorem C50_volume_of_all {c : UCore} {v : Int} {r : Ret × UCore} (h : c.setAttr .volume v = .ok r)
    (i : Fin 8) : r.1 = .ok ∧ r.2.getAttr (.volumeOf i) = .ok (some (min 32767 (max 0 v))) := by
  cases h
  refine ⟨rfl, ?_⟩
  show Except.ok (some (cclamp v 0 32767)) = _
  rw [cclamp_eq (by decide)]

/-- **C50** as stated is false: the smallest 32-bit number as a period is a signed overflow, and a
release without sustain range is accepted but not kept. -/
theorem C50_refuted : ∃ c, UCore.init 16385 = .ok c ∧
    (match c.setAttr .period (-2147483648) with | .error f => f = .overflow | .ok _ => False) ∧
    ∃ c', c.setAttr .flagRelease 1 = .ok (.ok, c') ∧ c'.getAttr .flagRelease = .ok (some 0) :=
  ⟨_, rfl, rfl, _, rfl, rfl⟩

/-- Values out of range are clamped. -/
example : ((do
    let c ← UCore.init 16385
    let r ← c.setAttr .dutyCycle 99
    let r ← r.2.setAttr .period (-5000)
    let r ← r.2.setAttr (.volumeOf 3) 40000
    let r ← r.2.setAttr .phase 77
    let r ← r.2.setAttr .waveform 16390
    let a ← r.2.getAttr .dutyCycle
    let b ← r.2.getAttr .period
    let d ← r.2.getAttr (.volumeOf 3)
    let e ← r.2.getAttr .phase
    return [some (if r.1 = .invalidValue then 1 else 0), a, b, d, e]) : C (List (Option Int))) =
    .ok [some 1, some 15, some 5000, some 32767, some 15] := by decide +kernel

end BK
