import Verif.Lemmas.INote
import Verif.Lemmas.Sequence
import Verif.Spec.Played
/-!
The values of sequences after ticks.
-/
namespace BK

/-- Steps of a sequence, some of which count. -/
theorem steps_count {q : SimpleSeq} {P : Nat → SeqState → Prop}
    (hs : ∀ f st r, P f st → q.step st true = .ok r → P (f + 1) r.2) :
    ∀ (ds : List Bool) (f : Nat) (st st' : SeqState) (rets : List SeqRet), P f st →
      Sequence.play.steps (.simple q) st ds = .ok (rets, st') → P (f + ds.count true) st' := by
  intro ds
  induction ds with
  | nil => intro f st st' rets hp h; cases h; exact hp
  | cons d ds ih =>
    intro f st st' rets hp h
    unfold Sequence.play.steps at h
    obtain ⟨r, hr, h⟩ := bind_ok_iff.1 h
    obtain ⟨t, ht, h⟩ := bind_ok_iff.1 h
    cases h
    cases d with
    | false =>
      have : r = (.none, st) := by
        have h0 : q.step st false = .ok (.none, st) := by unfold SimpleSeq.step; rw [if_pos rfl]; rfl
        have h1 : q.step st false = .ok r := hr
        rw [h0] at h1
        cases h1
        rfl
      subst this
      rw [List.count_cons_of_ne (by simp)]
      exact ih f st _ t.1 hp ht
    | true =>
      rw [List.count_cons_self, show f + (ds.count true + 1) = f + 1 + ds.count true by omega]
      exact ih (f + 1) r.2 _ t.1 (hs f st r hp hr) ht

/-- Position in a value sequence that is held. -/
def HeldAt (vals : List Int) (b z : Nat) (f : Nat) (st : SeqState) : Prop :=
  st.phase = .attack ∧ st.value = entry vals (heldIndex b (max z 1) (f - 1)) ∧
  st.offset = if f = 0 then 0 else ((heldIndex b (max z 1) (f - 1) + 1 : Nat) : Int)

theorem HeldAt.step {vals : List Int} {b z f : Nat} {st : SeqState} {r : SeqRet × SeqState}
    (hl : vals.length < 536870912) (hle : b + z ≤ vals.length) (hb : b < vals.length) (h : HeldAt vals b z f st)
    (hr : SimpleSeq.step ⟨vals, vals.length, b, z⟩ st true = .ok r) : HeldAt vals b z (f + 1) r.2 := by
  obtain ⟨h1, h2, h3⟩ := h
  have hL : 0 < max z 1 := by omega
  have hlt : heldIndex b (max z 1) f < vals.length := heldIndex_lt hL (by omega)
  have hlt' : heldIndex b (max z 1) (f - 1) < vals.length := heldIndex_lt hL (by omega)
  have hoff : st.offset ≠ INT_MAX := by rw [h3]; split <;> omega
  have he : (if (decide (st.phase = .attack) && decide (st.offset ≥ ((b + z : Nat) : Int))) = true then (b : Int) else st.offset) =
      (heldIndex b (max z 1) f : Nat) := by
    rw [h3]
    simp only [h1, decide_true, Bool.true_and, decide_eq_true_eq]
    by_cases h0 : f = 0
    · subst h0
      rw [if_pos rfl]
      unfold heldIndex
      simp only [Nat.zero_sub, Nat.zero_mod]
      split <;> split <;> omega
    · rw [if_neg h0]
      obtain ⟨g, rfl⟩ : ∃ g, f = g + 1 := ⟨f - 1, by omega⟩
      rw [Nat.add_sub_cancel]
      unfold heldIndex
      by_cases hg : g + 1 < b
      · rw [if_pos hg, if_pos (show g < b by omega)]
        split <;> omega
      · rw [if_neg hg]
        by_cases hg' : g < b
        · rw [if_pos hg', show g + 1 - b = 0 by omega, Nat.zero_mod]
          split <;> omega
        · rw [if_neg hg', show g + 1 - b = g - b + 1 by omega, succ_mod _ _ hL]
          have := Nat.mod_lt (g - b) hL
          split <;> split <;> omega
  have hstep := SimpleSeq.step_play (so := b) (sl := z) (i := heldIndex b (max z 1) f) (st := st) _ hl hle hoff rfl he hlt
  rw [hstep] at hr
  cases hr
  refine ⟨h1, ?_, ?_⟩
  · rw [Nat.add_sub_cancel]
  · rw [if_neg (show ¬ f + 1 = 0 by omega), Nat.add_sub_cancel]

/-- Position in the last part of a value sequence, which begins at `E`. -/
def LastAt (vals : List Int) (E : Nat) (f : Nat) (st : SeqState) : Prop :=
  st.value = entry vals (min (E + (f - 1)) (vals.length - 1)) ∧
  st.offset = if E + f ≤ vals.length then ((E + f : Nat) : Int) else INT_MAX

theorem LastAt.step {vals : List Int} {b z E f : Nat} {st : SeqState} {r : SeqRet × SeqState}
    (hl : vals.length < 536870912) (hle : b + z ≤ vals.length) (hE : E < vals.length)
    (hp : st.phase ≠ .attack ∨ b = vals.length) (h : LastAt vals E f st)
    (hr : SimpleSeq.step ⟨vals, vals.length, b, z⟩ st true = .ok r) : LastAt vals E (f + 1) r.2 ∧ r.2.phase = st.phase ∧
      (r.1 = .finish ↔ E + f = vals.length) := by
  obtain ⟨h2, h3⟩ := h
  by_cases hlt : E + f < vals.length
  · rw [if_pos (by omega)] at h3
    have hw : (decide (st.phase = .attack) && decide (st.offset ≥ ((b + z : Nat) : Int))) = false := by
      rcases hp with hp | hp
      · simp [hp]
      · rw [h3, decide_eq_false (p := ((E + f : Nat) : Int) ≥ _) (by omega), Bool.and_false]
    have hstep := SimpleSeq.step_play (so := b) (sl := z) (i := E + f) (st := st) false hl hle (by rw [h3]; omega) hw
      (by rw [if_neg (by simp)]; exact h3) hlt
    rw [hstep] at hr
    cases hr
    refine ⟨⟨?_, ?_⟩, rfl, by simp; omega⟩
    · show entry vals (E + f) = _
      congr 1
      omega
    · rw [if_pos (show E + (f + 1) ≤ vals.length by omega)]
      rfl
  · by_cases he : E + f = vals.length
    · rw [if_pos (by omega), he] at h3
      unfold SimpleSeq.step at hr
      rw [if_neg (by simp), if_neg (by rw [h3]; omega)] at hr
      dsimp only at hr
      rw [i32_ok (by omega) (by omega), ok_bind] at hr
      have : ¬ ((if (decide (st.phase = .attack) && decide (st.offset ≥ (b : Int) + z)) = true then (b : Int) else st.offset) <
          (vals.length : Int)) := by
        rcases hp with hp | hp
        · simp [hp, h3]
        · rw [h3, hp]; split <;> omega
      rw [if_neg this] at hr
      cases hr
      refine ⟨⟨?_, ?_⟩, rfl, by simp [he]⟩
      · show st.value = _
        rw [h2]
        congr 1
        omega
      · rw [if_neg (by omega)]
    · rw [if_neg (by omega)] at h3
      have := Sequence.step_over (.simple ⟨vals, vals.length, b, z⟩) true h3
      have hr : Sequence.step (.simple ⟨vals, vals.length, b, z⟩) st true = .ok r := hr
      rw [this] at hr
      cases hr
      refine ⟨⟨?_, ?_⟩, rfl, by simp [he]⟩
      · show st.value = _
        rw [h2]
        congr 1
        omega
      · rw [if_neg (by omega)]
        exact h3

/-- A value sequence on its own while the note is held. -/
theorem play_held {vals : List Int} {so sl : Int} {q : SimpleSeq} {st st' : SeqState} {rets : List SeqRet} {ds : List Bool}
    (hl : vals.length < 536870912) (hso : InI32 so) (hsl : InI32 sl) (hne : vals ≠ [])
    (hq : SimpleSeq.create vals so sl = .ok (some q))
    (h : Sequence.play (.simple q) st .attack ds = .ok (rets, st')) :
    st'.value = heldValue vals so sl (ds.count true) := by
  rw [SimpleSeq.create_eq hl hso hsl] at hq
  have hle := sustain_le vals.length so sl
  unfold heldValue
  generalize sustainBegin vals.length so = b at *
  generalize sustainSize vals.length so sl = z at *
  cases hq
  have hpos : 0 < vals.length := List.length_pos_iff.2 hne
  unfold Sequence.play at h
  obtain ⟨r, hr, h⟩ := bind_ok_iff.1 h
  obtain ⟨t, ht, h⟩ := bind_ok_iff.1 h
  cases h
  have hr : SimpleSeq.setPhase ⟨vals, vals.length, b, z⟩ st .attack = .ok r := hr
  have h0 : rd vals 0 = .ok (entry vals 0) := rd_entry (i := 0) (by omega)
  unfold SimpleSeq.setPhase at hr
  simp only [pure_eq_ok, ok_bind] at hr
  rw [if_pos (by omega), h0] at hr
  cases hr
  by_cases hb : b < vals.length
  · rw [if_pos hb]
    have h00 : heldIndex b (max z 1) 0 = 0 := by
      unfold heldIndex
      simp only [Nat.zero_sub, Nat.zero_mod]
      split <;> omega
    have := steps_count (P := HeldAt vals b z) (fun f st r hp hr => hp.step hl hle hb hr) ds 0 _ _ _ ⟨rfl, by rw [show 0 - 1 = 0 from rfl, h00], rfl⟩ ht
    rw [Nat.zero_add] at this
    exact this.2.1
  · rw [if_neg hb]
    have := steps_count (P := fun f st => LastAt vals 0 f st ∧ st.phase = .attack) (fun f st r hp hr => by
        obtain ⟨k1, k2, -⟩ := hp.1.step hl hle hpos (.inr (by omega)) hr
        exact ⟨k1, k2.trans hp.2⟩) ds 0 _ _ _ ⟨⟨by simp, by simp⟩, rfl⟩ ht
    rw [Nat.zero_add] at this
    have := this.1.1
    rw [Nat.zero_add] at this
    exact this

/-- A value sequence on its own after release. -/
theorem play_released {vals : List Int} {so sl : Int} {q : SimpleSeq} {st st' : SeqState} {rets : List SeqRet} {ds : List Bool}
    (hl : vals.length < 536870912) (hso : InI32 so) (hsl : InI32 sl)
    (hq : SimpleSeq.create vals so sl = .ok (some q))
    (h : Sequence.play (.simple q) st .release ds = .ok (rets, st')) :
    st'.value = releasedValue vals so sl st.value (ds.count true) := by
  rw [SimpleSeq.create_eq hl hso hsl] at hq
  have hle := sustain_le vals.length so sl
  unfold releasedValue
  generalize sustainBegin vals.length so = b at *
  generalize sustainSize vals.length so sl = z at *
  cases hq
  unfold Sequence.play at h
  obtain ⟨r, hr, h⟩ := bind_ok_iff.1 h
  obtain ⟨t, ht, h⟩ := bind_ok_iff.1 h
  cases h
  have hr : SimpleSeq.setPhase ⟨vals, vals.length, b, z⟩ st .release = .ok r := hr
  unfold SimpleSeq.setPhase at hr
  dsimp only at hr
  rw [i32_ok (by omega) (by omega), ok_bind] at hr
  by_cases hE : b + z < vals.length
  · rw [if_pos hE]
    rw [if_pos (by omega), show ((b : Int) + z) = ((b + z : Nat) : Int) by simp, rd_entry hE] at hr
    cases hr
    have := steps_count (P := fun f st => LastAt vals (b + z) f st ∧ st.phase = .release) (fun f st r hp hr => by
        obtain ⟨k1, k2, -⟩ := hp.1.step hl hle hE (.inl (by rw [hp.2]; simp)) hr
        exact ⟨k1, k2.trans hp.2⟩) ds 0 _ _ _ ⟨⟨by
          show entry vals (b + z) = _
          congr 1
          omega, by rw [if_pos (by omega)]; rfl⟩, rfl⟩ ht
    rw [Nat.zero_add] at this
    exact this.1.1
  · rw [if_neg hE]
    rw [if_neg (by omega)] at hr
    cases hr
    obtain ⟨rets', e⟩ := Sequence.steps_over (.simple ⟨vals, vals.length, b, z⟩) (st := { st with offset := INT_MAX, phase := .release }) ds rfl
    have ht : Sequence.play.steps (.simple ⟨vals, vals.length, b, z⟩) { st with offset := INT_MAX, phase := .release } ds = .ok t := ht
    rw [e] at ht
    cases ht
    rfl

/-! Sequences with a sustain range do not end while the note is held. -/

theorem EnvSeq.fetch_held {q : EnvSeq} {so sl : Nat} (hw : q.W so sl) (hb : so < q.points.length) :
    ∀ (n : Nat) (st : SeqState) (res : SeqRet) (r : SeqRet × SeqState), st.phase = .attack → res ≠ .finish →
      q.fetch n st res = .ok r → r.1 ≠ .finish ∧ r.2.phase = .attack := by
  intro n
  induction n with
  | zero => intro st res r _ _ h; cases h
  | succ n ih =>
    intro st res r hp hres h
    have hlt := hw.lt
    have hle := hw.le
    rw [EnvSeq.fetch_succ, hw.hso, hw.hsl, i32_ok (by omega) (by omega), ok_bind] at h
    dsimp only at h
    have hlen : (if (decide (st.phase = .attack) && decide (st.offset ≥ (so : Int) + sl)) = true then (so : Int) else st.offset) < q.length := by
      rw [hw.len]
      simp only [hp, decide_true, Bool.true_and, decide_eq_true_eq]
      split <;> omega
    rw [if_pos hlen] at h
    have hres' : (if (decide (st.phase = .attack) && decide (st.offset ≥ (so : Int) + sl)) = true then SeqRet.rep else res) ≠ .finish := by
      split
      · simp
      · exact hres
    generalize (if (decide (st.phase = .attack) && decide (st.offset ≥ (so : Int) + sl)) = true then SeqRet.rep else res) = res' at *
    generalize (if (decide (st.phase = .attack) && decide (st.offset ≥ (so : Int) + sl)) = true then (so : Int) else st.offset) = o at *
    obtain ⟨p, -, h⟩ := bind_ok_iff.1 h
    split at h
    · obtain ⟨e, -, h⟩ := bind_ok_iff.1 h
      obtain ⟨d, -, h⟩ := bind_ok_iff.1 h
      obtain ⟨dl, -, h⟩ := bind_ok_iff.1 h
      cases h
      exact ⟨hres', hp⟩
    · obtain ⟨s, -, h⟩ := bind_ok_iff.1 h
      obtain ⟨o', -, h⟩ := bind_ok_iff.1 h
      exact ih _ _ _ (by exact hp) hres' h

/-- As creation makes it, with a sustain range. -/
def Sequence.Holds : Sequence → Prop
  | .simple q => ∃ (vals : List Int) (b z : Nat), q = ⟨vals, vals.length, b, z⟩ ∧ vals.length < 536870912 ∧
      b + z ≤ vals.length ∧ b < vals.length
  | .env q => ∃ so sl, q.W so sl ∧ so < q.points.length

theorem Sequence.step_held {q : Sequence} (hq : q.Holds) {st : SeqState} {d : Bool} {r : SeqRet × SeqState} (hp : st.phase = .attack)
    (h : q.step st d = .ok r) : r.1 ≠ .finish ∧ r.2.phase = .attack := by
  cases q with
  | simple q =>
    obtain ⟨vals, b, z, rfl, hl, hle, hb⟩ := hq
    have h : SimpleSeq.step ⟨vals, vals.length, b, z⟩ st d = .ok r := h
    unfold SimpleSeq.step at h
    split at h
    · cases h; exact ⟨by simp, hp⟩
    split at h
    · cases h; exact ⟨by simp, hp⟩
    dsimp only at h
    rw [i32_ok (by omega) (by omega), ok_bind] at h
    have hlen : (if (decide (st.phase = .attack) && decide (st.offset ≥ (b : Int) + z)) = true then (b : Int) else st.offset) <
        (vals.length : Int) := by
      simp only [hp, decide_true, Bool.true_and, decide_eq_true_eq]
      split <;> omega
    rw [if_pos hlen] at h
    obtain ⟨v, -, h⟩ := bind_ok_iff.1 h
    obtain ⟨o, -, h⟩ := bind_ok_iff.1 h
    cases h
    refine ⟨?_, hp⟩
    dsimp only
    split <;> simp
  | env q =>
    obtain ⟨so, sl, hw, hb⟩ := hq
    have h : q.step st = .ok r := h
    unfold EnvSeq.step at h
    split at h
    · cases h; exact ⟨by simp, hp⟩
    split at h
    · obtain ⟨s, -, h⟩ := bind_ok_iff.1 h
      split at h
      · obtain ⟨v, -, h⟩ := bind_ok_iff.1 h
        cases h
        exact ⟨by simp, hp⟩
      · obtain ⟨o, -, h⟩ := bind_ok_iff.1 h
        exact EnvSeq.fetch_held hw hb _ _ _ _ (by exact hp) (by simp) h
    · exact EnvSeq.fetch_held hw hb _ _ _ _ (by exact hp) (by simp) h

theorem Sequence.attack_held {q : Sequence} (hq : q.Holds) {st : SeqState} {r : SeqRet × SeqState}
    (h : q.setPhase st .attack = .ok r) : r.1 ≠ .finish ∧ r.2.phase = .attack := by
  cases q with
  | simple q =>
    obtain ⟨vals, b, z, rfl, hl, hle, hb⟩ := hq
    have h : SimpleSeq.setPhase ⟨vals, vals.length, b, z⟩ st .attack = .ok r := h
    unfold SimpleSeq.setPhase at h
    simp only [pure_eq_ok, ok_bind] at h
    rw [if_pos (by omega)] at h
    obtain ⟨v, -, h⟩ := bind_ok_iff.1 h
    cases h
    exact ⟨by simp, rfl⟩
  | env q =>
    have h : Sequence.step (.env q) { st with steps := 0, offset := 0, phase := .attack } true = .ok r := h
    exact Sequence.step_held hq rfl h

theorem Sequence.play_holds {q : Sequence} (hq : q.Holds) {st st' : SeqState} {ds : List Bool} {rets : List SeqRet}
    (h : q.play st .attack ds = .ok (rets, st')) : .finish ∉ rets := by
  have key : ∀ (ds : List Bool) (st st' : SeqState) (rets : List SeqRet), st.phase = .attack →
      Sequence.play.steps q st ds = .ok (rets, st') → .finish ∉ rets := by
    intro ds
    induction ds with
    | nil => intro st st' rets _ h; cases h; simp
    | cons d ds ih =>
      intro st st' rets hp h
      unfold Sequence.play.steps at h
      obtain ⟨r, hr, h⟩ := bind_ok_iff.1 h
      obtain ⟨t, ht, h⟩ := bind_ok_iff.1 h
      cases h
      obtain ⟨k1, k2⟩ := Sequence.step_held hq hp hr
      rw [List.mem_cons, not_or]
      exact ⟨fun e => k1 e.symm, ih r.2 _ t.1 k2 ht⟩
  unfold Sequence.play at h
  obtain ⟨r, hr, h⟩ := bind_ok_iff.1 h
  obtain ⟨t, ht, h⟩ := bind_ok_iff.1 h
  cases h
  obtain ⟨k1, k2⟩ := Sequence.attack_held hq hr
  rw [List.mem_cons, not_or]
  exact ⟨fun e => k1 e.symm, key ds r.2 _ t.1 k2 ht⟩

/-! The slots of a track while nothing is muted. -/

/-- When the last part of a value sequence ends. -/
theorem LastAt.ends {vals : List Int} {b z E : Nat} {p : SeqPhase} (hl : vals.length < 536870912) (hle : b + z ≤ vals.length)
    (hE : E < vals.length) (hp : p ≠ .attack ∨ b = vals.length) :
    ∀ (ds : List Bool) (f : Nat) (st st' : SeqState) (rets : List SeqRet), LastAt vals E f st → st.phase = p →
      Sequence.play.steps (.simple ⟨vals, vals.length, b, z⟩) st ds = .ok (rets, st') →
      (.finish ∈ rets ↔ E + f ≤ vals.length ∧ vals.length < E + f + ds.count true) := by
  intro ds
  induction ds with
  | nil =>
    intro f st st' rets _ _ h
    cases h
    simp
  | cons d ds ih =>
    intro f st st' rets hs hph h
    unfold Sequence.play.steps at h
    obtain ⟨r, hr, h⟩ := bind_ok_iff.1 h
    obtain ⟨t, ht, h⟩ := bind_ok_iff.1 h
    cases h
    have hr : SimpleSeq.step ⟨vals, vals.length, b, z⟩ st d = .ok r := hr
    cases d with
    | false =>
      unfold SimpleSeq.step at hr
      rw [if_pos rfl] at hr
      cases hr
      have := ih f st _ _ hs hph ht
      simpa using this
    | true =>
      obtain ⟨k1, k2, k3⟩ := hs.step hl hle hE (by rw [hph]; exact hp) hr
      have := ih (f + 1) r.2 _ _ k1 (k2.trans hph) ht
      rw [List.mem_cons, this, eq_comm, k3, List.count_cons_self]
      omega

/-- When a value sequence on its own ends while the note is held. -/
theorem play_held_ends {vals : List Int} {so sl : Int} {q : SimpleSeq} {st st' : SeqState} {rets : List SeqRet} {ds : List Bool}
    (hl : vals.length < 536870912) (hso : InI32 so) (hsl : InI32 sl) (hne : vals ≠ [])
    (hq : SimpleSeq.create vals so sl = .ok (some q))
    (h : Sequence.play (.simple q) st .attack ds = .ok (rets, st')) :
    .finish ∈ rets ↔ heldOver vals so (ds.count true) := by
  rw [SimpleSeq.create_eq hl hso hsl] at hq
  have hle := sustain_le vals.length so sl
  unfold heldOver
  by_cases hb : sustainBegin vals.length so < vals.length
  · constructor
    · intro hf
      cases hq
      exact absurd hf (Sequence.play_holds (show Sequence.Holds (.simple _) from ⟨vals, _, _, rfl, hl, hle, hb⟩) h)
    · intro hf
      omega
  generalize sustainBegin vals.length so = b at *
  generalize sustainSize vals.length so sl = z at *
  cases hq
  have hpos : 0 < vals.length := List.length_pos_iff.2 hne
  unfold Sequence.play at h
  obtain ⟨r, hr, h⟩ := bind_ok_iff.1 h
  obtain ⟨t, ht, h⟩ := bind_ok_iff.1 h
  cases h
  have hr : SimpleSeq.setPhase ⟨vals, vals.length, b, z⟩ st .attack = .ok r := hr
  have h0 : rd vals 0 = .ok (entry vals 0) := rd_entry (i := 0) (by omega)
  unfold SimpleSeq.setPhase at hr
  simp only [pure_eq_ok, ok_bind] at hr
  rw [if_pos (by omega), h0] at hr
  cases hr
  have := LastAt.ends (b := b) (z := z) (E := 0) (p := .attack) hl hle hpos (.inr (by omega)) ds 0 _ _ _
    ⟨by simp, by simp⟩ rfl ht
  rw [List.mem_cons, this]
  simp
  omega

/-- When a value sequence on its own ends after release. -/
theorem play_released_ends {vals : List Int} {so sl : Int} {q : SimpleSeq} {st st' : SeqState} {rets : List SeqRet} {ds : List Bool}
    (hl : vals.length < 536870912) (hso : InI32 so) (hsl : InI32 sl)
    (hq : SimpleSeq.create vals so sl = .ok (some q))
    (h : Sequence.play (.simple q) st .release ds = .ok (rets, st')) :
    .finish ∈ rets ↔ releasedOver vals so sl (ds.count true) := by
  rw [SimpleSeq.create_eq hl hso hsl] at hq
  have hle := sustain_le vals.length so sl
  unfold releasedOver
  generalize sustainBegin vals.length so = b at *
  generalize sustainSize vals.length so sl = z at *
  cases hq
  unfold Sequence.play at h
  obtain ⟨r, hr, h⟩ := bind_ok_iff.1 h
  obtain ⟨t, ht, h⟩ := bind_ok_iff.1 h
  cases h
  have hr : SimpleSeq.setPhase ⟨vals, vals.length, b, z⟩ st .release = .ok r := hr
  unfold SimpleSeq.setPhase at hr
  dsimp only at hr
  rw [i32_ok (by omega) (by omega), ok_bind] at hr
  by_cases hE : b + z < vals.length
  · rw [if_pos (by omega), show ((b : Int) + z) = ((b + z : Nat) : Int) by simp, rd_entry hE] at hr
    cases hr
    have := LastAt.ends (b := b) (z := z) (E := b + z) (p := .release) hl hle hE (.inl (by simp)) ds 0 _ _ _
      ⟨by
          show entry vals (b + z) = _
          congr 1
          omega, by rw [if_pos (by omega)]; rfl⟩ rfl ht
    rw [List.mem_cons, this]
    simp
    omega
  · rw [if_neg (by omega)] at hr
    cases hr
    simp
    omega

theorem ticks_slots {B : Prop} {x i fuel : Nat} : ∀ (ds : List Bool) (w : IWorld) (A : Lists),
    w.Inv B A → w.links.owner x = some i → (w.states x).phase ≠ .mute → ∀ w2,
    w.run fuel (ticksOf x ds) = .ok w2 → w2.log = w.log →
    w2.instrs = w.instrs ∧ w2.heap = w.heap ∧ w2.links = w.links ∧
    ∀ k id q, (w.instrs i).sequences k = some id → w.heap id = some q →
      ∃ rets, Sequence.play.steps q ((w.states x).slots k).st ds = .ok (rets, ((w2.states x).slots k).st) := by
  intro ds
  induction ds with
  | nil =>
    intro w A h hx hp w2 e _
    cases e
    exact ⟨rfl, rfl, rfl, fun k id q _ _ => ⟨[], rfl⟩⟩
  | cons d ds ih =>
    intro w A h hx hp w2 e hlog
    have e : (do let w ← w.exec fuel (.tick x d); w.run fuel (ticksOf x ds)) = .ok w2 := e
    rw [exec_tick hx] at e
    obtain ⟨w1, e1, e2⟩ := bind_ok_iff.1 e
    have hi := h.att x i hx
    unfold IWorld.tick at e1
    rw [hx] at e1
    obtain ⟨r, e3, e4⟩ := bind_ok_iff.1 e1
    have ht := IState.tick_inv (d := d) (h.instrOk i) hi
    rw [e3] at ht
    obtain ⟨h1, h2⟩ := ht
    simp only [pure_eq_ok, Except.ok.injEq] at e4
    have hinv1 : w1.Inv B A := by rw [← e4]; exact h.setState hx h1 _
    have hl1 : w1.links = w.links := by rw [← e4]
    have hin1 : w1.instrs = w.instrs := by rw [← e4]
    have hh1 : w1.heap = w.heap := by rw [← e4]
    have hst1 : w1.states x = r.2 := by rw [← e4]; exact upd_self _ _ _
    have hlog1 : w1.log = w.log ++ r.1.map fun e => (x, e) := by rw [← e4]
    cases h2 with
    | go y hs hph hn =>
      simp only [List.map_nil, List.append_nil] at hlog1
      obtain ⟨g1, g2, g3, g4⟩ := ih w1 A hinv1 (by rw [hl1]; exact hx) (by rw [hst1]; simpa [hph] using hp) w2 e2 (by rw [hlog, hlog1])
      refine ⟨by rw [g1, hin1], by rw [g2, hh1], by rw [g3, hl1], fun k id q e5 e6 => ?_⟩
      have hk := (h.live i k id e5).1
      obtain ⟨rr, a1, _, a3⟩ := (hs k hk).go id q (by rw [hi.has.pt k hk]; exact e5) e6
      obtain ⟨rets, hrets⟩ := g4 k id q (by rw [hin1]; exact e5) (by rw [hh1]; exact e6)
      rw [hst1] at hrets
      refine ⟨rr :: rets, ?_⟩
      unfold Sequence.play.steps
      rw [a1, ok_bind, hrets, ok_bind]
      rfl
    | mute y z hs hz hxc hp' hy =>
      obtain ⟨g1, g2, g3, g4⟩ := muted_ticks ds w1 A hinv1 (by rw [hl1]; exact hx) (by rw [hst1]; exact hy) w2 e2
      rw [hlog, hlog1] at g1
      simp at g1

end BK
