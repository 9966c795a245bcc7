import Verif.Spec.Instrument
import Verif.Lemmas.EnvRun
import Verif.Lemmas.Links
/-!
Value sequences and envelopes behind one interface.
-/
namespace BK

/-- A sequence as creation makes it; `B`: its numbers can be played without overflow. -/
def Sequence.Ok (B : Prop) : Sequence → Prop
  | .simple q => ∃ (vals : List Int) (b z : Nat), q = ⟨vals, vals.length, b, z⟩ ∧
      vals.length < 536870912 ∧ b + z ≤ vals.length
  | .env q => (∃ so sl, q.W so sl) ∧ (B → q.N)

/-- Numbers left in a slot by whatever was played there before. -/
structure Weak (B : Prop) (st : SeqState) : Prop where
  off : 0 ≤ st.offset ∧ st.offset ≤ 2147483647
  en : B → -1073741824 < st.endValue ∧ st.endValue < 1073741824
  steps : B → 0 ≤ st.steps ∧ st.steps < 2147483648

/-- A slot whose value has been set: ready for a new phase. -/
structure Ready (B : Prop) (q : Sequence) (st : SeqState) : Prop where
  weak : Weak B st
  num : ∀ e, q = .env e → B → StNum e st

/-- Invariant of a slot while its sequence plays. -/
structure SlotInv (B : Prop) (q : Sequence) (st : SeqState) : Prop where
  weak : Weak B st
  env : ∀ e, q = .env e → EnvInv B e st

theorem SlotInv.ready {B : Prop} {q : Sequence} {st : SeqState} (h : SlotInv B q st) : Ready B q st :=
  ⟨h.weak, fun e he b => ((h.env e he).num b).1⟩

theorem EnvInv.slot {B : Prop} {e : EnvSeq} {st : SeqState} (h : EnvInv B e st) :
    SlotInv B (.env e) st := by
  refine ⟨⟨h.off, fun b => (h.num b).1.en, fun b => ?_⟩, ?_⟩
  · have := h.num b; omega
  · intro e' he; cases he; exact h

theorem Weak.init (B : Prop) (v : Int) : Weak B { value := v } :=
  ⟨by simp, fun _ => by simp, fun _ => by simp⟩

/-- Loading a point: finished exactly if marked so. -/
theorem EnvSeq.fetch_finish {q : EnvSeq} {so sl : Nat} (hq : q.W so sl) :
    ∀ (fuel : Nat) (st : SeqState) (res : SeqRet) (r : SeqRet × SeqState), res ≠ .finish →
      q.fetch fuel st res = .ok r → (r.1 = .finish ↔ r.2.offset = INT_MAX) := by
  intro fuel
  induction fuel with
  | zero => intro st res r _ h; simp [EnvSeq.fetch] at h
  | succ fuel ih =>
    intro st res r hres h
    rw [EnvSeq.fetch_succ] at h
    obtain ⟨se, h1, h⟩ := bind_ok_iff.1 h
    dsimp only at h
    generalize (decide (st.phase = .attack) && decide (st.offset ≥ se)) = wrap at h
    generalize hoff : (if wrap = true then q.sustainOffset else st.offset) = offset at h
    generalize hr' : (if wrap = true then SeqRet.rep else res) = res' at h
    have hres' : res' ≠ .finish := by rw [← hr']; split <;> simp [hres]
    split at h
    · rename_i hlt
      obtain ⟨p, h2, h⟩ := bind_ok_iff.1 h
      split at h
      · obtain ⟨e, h3, h⟩ := bind_ok_iff.1 h
        obtain ⟨d, h4, h⟩ := bind_ok_iff.1 h
        obtain ⟨δ, h5, h⟩ := bind_ok_iff.1 h
        simp only [pure_eq_ok, Except.ok.injEq] at h
        subst h
        have := hq.len; have := hq.lt
        simp only [hres', false_iff]
        omega
      · obtain ⟨e, h3, h⟩ := bind_ok_iff.1 h
        obtain ⟨d, h4, h⟩ := bind_ok_iff.1 h
        exact ih _ _ _ hres' h
    · simp only [pure_eq_ok, Except.ok.injEq] at h
      subst h
      simp

theorem EnvSeq.step_finish {q : EnvSeq} {so sl : Nat} (hq : q.W so sl) {st : SeqState}
    {r : SeqRet × SeqState} (h : q.step st = .ok r) :
    (st.offset = INT_MAX → r = (.none, st)) ∧
    (st.offset ≠ INT_MAX → (r.1 = .finish ↔ r.2.offset = INT_MAX)) := by
  unfold EnvSeq.step at h
  split at h
  · rename_i h0
    simp only [pure_eq_ok, Except.ok.injEq] at h
    exact ⟨fun _ => h.symm, fun h1 => absurd h0 h1⟩
  · rename_i h0
    refine ⟨fun h1 => absurd h1 h0, fun _ => ?_⟩
    split at h
    · obtain ⟨s, h1, h⟩ := bind_ok_iff.1 h
      split at h
      · obtain ⟨s, h1, h⟩ := bind_ok_iff.1 h
        simp only [pure_eq_ok, Except.ok.injEq] at h
        subst h
        simp [h0]
      · obtain ⟨s, h1, h⟩ := bind_ok_iff.1 h
        exact EnvSeq.fetch_finish hq _ _ _ _ (by simp) h
    · exact EnvSeq.fetch_finish hq _ _ _ _ (by simp) h

/-- What a phase change returns and leaves. -/
structure PhaseRes (p : SeqPhase) (r : SeqRet × SeqState) : Prop where
  phase : r.2.phase = p
  fin : p ≠ .mute → (r.1 = .finish ↔ r.2.offset = INT_MAX)
  mute : p = .mute → r.1 = .finish

theorem Safe.and_ok {α} {B : Prop} {r : C α} {P Q : α → Prop} (h : Safe B r P)
    (hq : ∀ a, r = .ok a → Q a) : Safe B r (fun a => P a ∧ Q a) := by
  cases r with
  | ok a => exact ⟨h, hq a rfl⟩
  | error e => exact h

theorem Sequence.setPhase_inv {B : Prop} {q : Sequence} (hq : q.Ok B) {st : SeqState}
    (h : Ready B q st) (p : SeqPhase) :
    Safe B (q.setPhase st p) (fun r => SlotInv B q r.2 ∧ PhaseRes p r) := by
  cases q with
  | simple q =>
    obtain ⟨vals, b, z, rfl, hl, hle⟩ := hq
    have hw := h.weak
    have hph : ∀ o : Int, 0 ≤ o → (p = .mute → (vals.length : Int) ≤ o) →
        Safe B (if o < (vals.length : Int) then do
            let v ← rd vals o
            return (.none, { st with offset := o, value := v, phase := p })
          else return (.finish, { st with offset := INT_MAX, phase := p }) : C (SeqRet × SeqState))
          (fun r => SlotInv B (.simple ⟨vals, vals.length, b, z⟩) r.2 ∧ PhaseRes p r) := by
      intro o h1 h2
      split
      · rename_i h3
        obtain ⟨m, rfl⟩ := Int.eq_ofNat_of_zero_le h1
        rw [rd_entry (by omega)]
        refine Safe.ok ⟨⟨⟨by simp only; omega, hw.en, hw.steps⟩, fun e he => by cases he⟩, rfl, ?_, ?_⟩
        · intro _; simp only [reduceCtorEq, false_iff]; omega
        · intro hm; have := h2 hm; omega
      · exact Safe.ok ⟨⟨⟨by simp only; omega, hw.en, hw.steps⟩, fun e he => by cases he⟩, rfl, by simp, by simp⟩
    show Safe B (SimpleSeq.setPhase _ st p) _
    unfold SimpleSeq.setPhase
    cases p with
    | mute => simp only [pure_eq_ok, ok_bind]; exact hph _ (by omega) (by simp)
    | attack => simp only [pure_eq_ok, ok_bind]; exact hph _ (by omega) (by simp)
    | release =>
      dsimp only
      rw [i32_ok (by omega) (by omega)]
      simp only [ok_bind]; exact hph _ (by omega) (by simp)
  | env q =>
    obtain ⟨⟨so, sl, hW⟩, hN⟩ := hq
    have hle := hW.le
    have hlt := hW.lt
    have hlen := hW.len
    have hn : B → StNum q st := h.num q rfl
    -- the same phase change from the state without steps
    have hz : EnvInv B q { st with steps := 0 } :=
      ⟨h.weak.off, fun b => ⟨⟨(hn b).sh, (hn b).en, (hn b).eq⟩, Int.le_refl 0, by simp only; omega,
        fun h0 => absurd h0 (by simp)⟩⟩
    have key := EnvSeq.setPhase_inv hW hN _ hz p
    have heq : q.setPhase { st with steps := 0 } p = q.setPhase st p := by
      cases p <;> rfl
    rw [heq] at key
    show Safe B (q.setPhase st p) _
    refine (key.and_ok (Q := fun r => (p ≠ .mute → (r.1 = .finish ↔ r.2.offset = INT_MAX)) ∧
      (p = .mute → r.1 = .finish)) ?_).mono ?_
    · intro r hr
      cases p with
      | mute =>
        unfold EnvSeq.setPhase at hr
        obtain ⟨s, h1, hr⟩ := bind_ok_iff.1 hr
        simp only [pure_eq_ok, Except.ok.injEq] at hr
        subst hr
        simp
      | attack =>
        refine ⟨fun _ => (EnvSeq.step_finish hW hr).2 (by simp), by simp⟩
      | release =>
        unfold EnvSeq.setPhase at hr
        obtain ⟨s, h1, hr⟩ := bind_ok_iff.1 hr
        rw [hW.hso, hW.hsl, i32_ok (by omega) (by omega)] at h1
        simp only [Except.ok.injEq] at h1
        subst h1
        refine ⟨fun _ => (EnvSeq.step_finish hW hr).2 (by simp only; omega), by simp⟩
    · intro r hr
      exact ⟨hr.1.1.slot, hr.1.2, hr.2.1, hr.2.2⟩

/-- What a step returns and leaves. -/
structure StepRes (st : SeqState) (r : SeqRet × SeqState) : Prop where
  phase : r.2.phase = st.phase
  over : st.offset = INT_MAX → r = (.none, st)
  fin : st.offset ≠ INT_MAX → (r.1 = .finish ↔ r.2.offset = INT_MAX)

theorem Sequence.step_inv {B : Prop} {q : Sequence} (hq : q.Ok B) {st : SeqState}
    (h : SlotInv B q st) (d : Bool) :
    Safe B (q.step st d) (fun r => SlotInv B q r.2 ∧ StepRes st r) := by
  cases q with
  | simple q =>
    obtain ⟨vals, b, z, rfl, hl, hle⟩ := hq
    have hw := h.weak
    have hoff := hw.off
    show Safe B (SimpleSeq.step _ st d) _
    unfold SimpleSeq.step
    split
    · exact Safe.ok ⟨h, rfl, fun _ => rfl, fun hn => by simp [hn]⟩
    split
    · rename_i h0
      exact Safe.ok ⟨h, rfl, fun _ => rfl, fun hn => absurd h0 hn⟩
    rename_i h0
    dsimp only
    rw [i32_ok (by omega) (by omega)]
    simp only [ok_bind]
    generalize (decide (st.phase = .attack) && decide (st.offset ≥ (b : Int) + z)) = wrap
    generalize hof : (if wrap = true then (b : Int) else st.offset) = o
    have h1 : 0 ≤ o := by rw [← hof]; split <;> omega
    split
    · rename_i h2
      obtain ⟨m, rfl⟩ := Int.eq_ofNat_of_zero_le h1
      rw [rd_entry (by omega)]
      simp only [ok_bind]
      rw [i32_ok (by omega) (by omega)]
      refine Safe.ok ⟨⟨⟨by simp only; omega, hw.en, hw.steps⟩, fun e he => by cases he⟩, rfl,
        fun hn => absurd hn h0, fun _ => ?_⟩
      cases wrap <;> simp <;> omega
    · exact Safe.ok ⟨⟨⟨by simp only; omega, hw.en, hw.steps⟩, fun e he => by cases he⟩, rfl,
        fun hn => absurd hn h0, fun _ => by simp⟩
  | env q =>
    obtain ⟨⟨so, sl, hW⟩, hN⟩ := hq
    show Safe B (q.step st) _
    refine ((EnvSeq.step_inv hW hN st (h.env q rfl)).and_ok fun r hr => EnvSeq.step_finish hW hr).mono ?_
    intro r hr
    exact ⟨hr.1.1.slot, hr.1.2, hr.2.1, hr.2.2⟩

/-- Setting the value 0 prepares a slot for its sequence, whatever was played before. -/
theorem Sequence.setZero_inv {B : Prop} {q : Sequence} {st : SeqState}
    (h : Weak B st) : Safe B (q.setValue st 0)
      (fun s => Ready B q s ∧ s.value = 0 ∧ s.phase = st.phase ∧ s.offset = st.offset) := by
  cases q with
  | simple q => exact Safe.ok ⟨⟨⟨h.off, h.en, h.steps⟩, fun e he => by cases he⟩, rfl, rfl, rfl⟩
  | env q =>
    show Safe B (q.setValue st 0) _
    unfold EnvSeq.setValue
    rw [Int.zero_mul, i32_ok (by omega) (by omega)]
    simp only [ok_bind]
    have hnum : ∀ δ : Int, Ready B (.env q) { st with value := 0, shiftedValue := 0, delta := δ } := by
      intro δ
      refine ⟨⟨h.off, h.en, h.steps⟩, fun e he b => ?_⟩
      cases he
      refine ⟨by simp only; omega, h.en b, ?_⟩
      show (0 : Int) = 0 / 2 ^ q.fracShift
      rw [Int.zero_ediv]
    split
    · rename_i hs
      refine (Safe.i32 fun b => ?_).bind ?_
      · have := h.en b
        unfold InI32; omega
      rintro d rfl
      refine (Safe.i32 fun b => ?_).bind ?_
      · have := h.en b
        have := h.steps b
        exact tdiv_in (by omega) (by omega) (by omega)
      rintro δ rfl
      exact Safe.ok ⟨hnum _, rfl, rfl, rfl⟩
    · exact Safe.ok ⟨hnum st.delta, rfl, rfl, rfl⟩

/-- Setting any value while a sequence plays. -/
theorem Sequence.setValue_inv {B : Prop} {q : Sequence} (hq : q.Ok B) {st : SeqState}
    (h : SlotInv B q st) (v : Int) (hf : B → q.Fits v) : Safe B (q.setValue st v)
      (fun s => SlotInv B q s ∧ s.value = v ∧ s.phase = st.phase ∧ s.offset = st.offset) := by
  cases q with
  | simple q =>
    exact Safe.ok ⟨⟨⟨h.weak.off, h.weak.en, h.weak.steps⟩, fun e he => by cases he⟩, rfl, rfl, rfl⟩
  | env q =>
    obtain ⟨⟨so, sl, hW⟩, hN⟩ := hq
    have key := EnvSeq.exec_inv hW hN st (h.env q rfl) (.setValue v) hf
    unfold EnvSeq.exec at key
    dsimp only at key
    show Safe B (q.setValue st v) _
    cases e : q.setValue st v with
    | error er => rw [e] at key; exact key
    | ok s =>
      rw [e] at key
      have key' : EnvInv B q s := key
      refine ⟨key'.slot, ?_⟩
      unfold EnvSeq.setValue at e
      obtain ⟨s1, h1, e⟩ := bind_ok_iff.1 e
      split at e
      · obtain ⟨s2, h2, e⟩ := bind_ok_iff.1 e
        obtain ⟨s3, h3, e⟩ := bind_ok_iff.1 e
        simp only [pure_eq_ok, Except.ok.injEq] at e
        subst e
        exact ⟨rfl, rfl, rfl⟩
      · simp only [pure_eq_ok, Except.ok.injEq] at e
        subst e
        exact ⟨rfl, rfl, rfl⟩

end BK
