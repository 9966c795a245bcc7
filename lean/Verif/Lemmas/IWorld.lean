import Verif.Lemmas.IState
import Verif.Lemmas.StateLinks
/-!
All instruments and states together.
-/
namespace BK

theorem upd_same {α : Type} (f : Nat → α) (x : Nat) : upd f x (f x) = f := by
  funext y
  by_cases hy : y = x
  · subst hy; exact upd_self f y _
  · exact upd_ne _ _ hy

/-! ### Creation -/

theorem maxAbs_error {ps : List EnvPoint} {e : Fault} : ∀ m, maxAbs ps m = .error e → e = .overflow := by
  induction ps with
  | nil => intro m h; simp [maxAbs] at h
  | cons p ps ih =>
    intro m h
    unfold maxAbs at h
    by_cases hv : p.value < 0
    · rw [if_pos hv] at h
      unfold i32 at h
      by_cases hi : InI32 (-p.value)
      · rw [if_pos hi] at h
        exact ih _ h
      · rw [if_neg hi] at h
        simp only [error_bind, Except.error.injEq] at h
        exact h.symm
    · rw [if_neg hv] at h
      exact ih _ h

theorem NewSeq.create_inv {B : Prop} {new : NewSeq} (hs : new.Short) (hu : B → new.Usual) :
    Safe B new.create (fun r => ∀ q, r = some (some q) → q.Ok B) := by
  cases new with
  | nothing => exact Safe.ok fun q hq => by simp at hq
  | values vals so sl =>
    obtain ⟨h1, h2, h3⟩ := hs
    unfold NewSeq.create
    dsimp only
    split
    · exact Safe.ok fun q hq => by simp at hq
    · rw [SimpleSeq.create_eq h1 h2 h3]
      refine Safe.ok fun q hq => ?_
      simp only [Option.map_some, Option.some.injEq] at hq
      subst hq
      exact ⟨vals, _, _, rfl, h1, sustain_le _ _ _⟩
  | points ps so sl =>
    obtain ⟨h1, h2, h3, h4⟩ := hs
    unfold NewSeq.create
    dsimp only
    split
    · exact Safe.ok fun q hq => by simp at hq
    · have key : Safe B (EnvSeq.create ps so sl) (fun r => ∀ q, r = some q → (Sequence.env q).Ok B) := by
        cases e : EnvSeq.create ps so sl with
        | ok r =>
          intro q hq
          subst hq
          refine ⟨⟨_, _, (EnvSeq.create_W h1 h2 h3 h4 e).1⟩, fun b => (usual_W (hu b) e).2.2⟩
        | error er =>
          rw [EnvSeq.create_eq h1 h2 h3] at e
          split at e
          · unfold fracShiftOf at e
            cases em : maxAbs ps 0 with
            | ok m => rw [em] at e; simp at e
            | error er' =>
              rw [em] at e
              simp only [error_bind, Except.error.injEq] at e
              refine ⟨by rw [← e]; exact maxAbs_error _ em, fun b => ?_⟩
              obtain ⟨m, h5, _⟩ := maxAbs_spec ps 1073741823 (by omega)
                (fun p hp => by have := (hu b).vals p hp; omega) 0 (by omega) (by omega)
              rw [em] at h5; cases h5
          · simp at e
      refine key.bind fun r hr => Safe.ok ?_
      intro q hq
      cases r with
      | none => simp at hq
      | some q' =>
        simp only [Option.map_some, Option.some.injEq] at hq
        subst hq
        exact hr q' rfl

/-! ### Default values -/

/-- A state after setting the default values. -/
structure Defaulted (B : Prop) (heap : SeqHeap) (x y : IState) : Prop where
  phase : y.phase = x.phase
  numActive : y.numActive = x.numActive
  seq : ∀ k, k < 4 → (y.slots k).seq = (x.slots k).seq
  weak : ∀ k, k < 4 → Weak B (y.slots k).st
  ready : ∀ k id q, k < 4 → (x.slots k).seq = some id → heap id = some q → Ready B q (y.slots k).st
  value : ∀ k, k < 4 → (y.slots k).st.value = if (x.slots k).seq = none then seqDefault k else 0
  zero : ∀ k id e, k < 4 → (x.slots k).seq = some id → heap id = some (.env e) →
    (y.slots k).st.shiftedValue = 0

theorem Defaulted.val {B : Prop} {heap : SeqHeap} {x y : IState} (h : Defaulted B heap x y) {k : Nat}
    (hk : k < 4) : SlotV B heap k (y.slots k) := by
  refine ⟨fun e => ?_, fun id q e _ => .inl ?_, fun id q e hq _ lo hi h1 h2 _ => ?_⟩
  · rw [h.seq k hk] at e
    rw [h.value k hk, if_pos e]
  · rw [h.seq k hk] at e
    rw [h.value k hk, if_neg (by rw [e]; simp)]
  · rw [h.seq k hk] at e
    unfold InHull
    rw [h.zero k id q hk e hq]
    have h3 : (0 : Int) ≤ 2 ^ q.fracShift := Int.le_of_lt (two_pow_pos _)
    have := Int.mul_le_mul_of_nonneg_right h1 h3
    have := Int.mul_le_mul_of_nonneg_right h2 h3
    omega

theorem Sequence.setZero_shifted {e : EnvSeq} {st s : SeqState} (h : (Sequence.env e).setValue st 0 = .ok s) :
    s.shiftedValue = 0 := by
  have h : e.setValue st 0 = .ok s := h
  unfold EnvSeq.setValue at h
  rw [Int.zero_mul, i32_ok (by omega) (by omega)] at h
  simp only [ok_bind] at h
  split at h
  · obtain ⟨d, -, h⟩ := bind_ok_iff.1 h
    obtain ⟨δ, -, h⟩ := bind_ok_iff.1 h
    cases h; rfl
  · cases h; rfl

theorem ISlot.setDefault_inv {B : Prop} {heap : SeqHeap} {s : ISlot} (v : Int)
    (hl : ∀ id, s.seq = some id → ∃ q, heap id = some q) (hw : Weak B s.st) :
    Safe B (s.setValue heap (if s.seq = none then v else 0)) (fun t => t.seq = s.seq ∧ Weak B t.st ∧
      (∀ id q, s.seq = some id → heap id = some q → Ready B q t.st) ∧
      (t.st.value = if s.seq = none then v else 0) ∧
      ∀ id e, s.seq = some id → heap id = some (.env e) → t.st.shiftedValue = 0) := by
  unfold ISlot.setValue
  cases e : s.seq with
  | none =>
    exact Safe.ok ⟨rfl, ⟨hw.off, hw.en, hw.steps⟩, fun id q h => by simp at h, rfl, fun id q h => by simp at h⟩
  | some id =>
    obtain ⟨q, hq⟩ := hl id e
    dsimp only
    unfold SeqHeap.get
    rw [hq]
    simp only [ok_bind, reduceCtorEq, if_false]
    refine ((Sequence.setZero_inv (q := q) hw).and_ok (Q := fun st => ∀ e, q = .env e → st.shiftedValue = 0)
      (fun st hst e he => by subst he; exact Sequence.setZero_shifted hst)).bind ?_
    rintro st ⟨⟨h1, h2, -⟩, hz⟩
    have e2 : { st with value := 0 } = st := by rw [← h2]
    refine Safe.ok ⟨rfl, ?_, ?_, rfl, fun id' e' h3 h4 => by cases h3; rw [hq] at h4; cases h4; exact hz e' rfl⟩
    · show Weak B { st with value := 0 }
      rw [e2]; exact h1.weak
    · intro id' q' h3 h4
      cases h3
      rw [hq] at h4
      cases h4
      show Ready B q { st with value := 0 }
      rw [e2]; exact h1

theorem IState.setDefaults_inv {B : Prop} {heap : SeqHeap} {x : IState}
    (hl : ∀ k id, k < 4 → (x.slots k).seq = some id → ∃ q, heap id = some q)
    (hw : ∀ k, k < 4 → Weak B (x.slots k).st) :
    Safe B (x.setDefaults heap) (Defaulted B heap x) := by
  unfold IState.setDefaults
  rw [show [0, 1, 2, 3] = List.range 4 by decide]
  have key := Safe.range (B := B) (f := IState.defaultStep heap)
    (I := fun i y => y.phase = x.phase ∧ y.numActive = x.numActive ∧ (∀ k, i ≤ k → y.slots k = x.slots k) ∧
      ∀ k, k < i → (y.slots k).seq = (x.slots k).seq ∧ Weak B (y.slots k).st ∧
      (∀ id q, (x.slots k).seq = some id → heap id = some q → Ready B q (y.slots k).st) ∧
      ((y.slots k).st.value = if (x.slots k).seq = none then seqDefault k else 0) ∧
      ∀ id e, (x.slots k).seq = some id → heap id = some (.env e) → (y.slots k).st.shiftedValue = 0) 4 ?_ x
      ⟨rfl, rfl, fun _ _ => rfl, by simp⟩
  · refine key.mono ?_
    rintro y ⟨h1, h2, -, h4⟩
    exact ⟨h1, h2, fun k hk => (h4 k hk).1, fun k hk => (h4 k hk).2.1,
      fun k id q hk => (h4 k hk).2.2.1 id q, fun k hk => (h4 k hk).2.2.2.1,
      fun k id e hk => (h4 k hk).2.2.2.2 id e⟩
  · rintro i y hi ⟨h1, h2, h3, h4⟩
    unfold IState.defaultStep
    have e := h3 i (Nat.le_refl i)
    rw [e]
    refine (ISlot.setDefault_inv (seqDefault i) (hl i · hi) (hw i hi)).bind ?_
    intro s hs
    refine Safe.ok ⟨h1, h2, ?_, ?_⟩
    · intro k hk
      rw [show (y.setSlot i s).slots k = y.slots k from upd_ne _ _ (by omega)]
      exact h3 k (by omega)
    · intro k hk
      by_cases hki : k = i
      · subst hki
        rw [show (y.setSlot k s).slots k = s from upd_self _ _ _]
        exact hs
      · rw [show (y.setSlot i s).slots k = y.slots k from upd_ne _ _ hki]
        exact h4 k (by omega)

/-! ### Loops over the state list -/

theorem forAfter_inv {B : Prop} {body : IWorld → Nat → C IWorld} {L : Links} {A : Lists}
    (hr : L.HRepr A) (i : Nat) (I : List Nat → IWorld → Prop)
    (hbody : ∀ l x r w, A i = l ++ x :: r → w.links = L → I l w →
      Safe B (body w x) (fun w' => w'.links = L ∧ I (l ++ [x]) w')) :
    ∀ (r l : List Nat) (fuel : Nat) (w : IWorld), A i = l ++ r → r.length ≤ fuel → w.links = L → I l w →
      Safe B (IWorld.forAfter body fuel w r.head?) (fun w' => w'.links = L ∧ I (A i) w') := by
  intro r
  induction r with
  | nil =>
    intro l fuel w hA _ hL hI
    rw [List.append_nil] at hA
    rw [hA]
    cases fuel <;> exact Safe.ok ⟨hL, hI⟩
  | cons x r ih =>
    intro l fuel w hA hf hL hI
    cases fuel with
    | zero => simp at hf
    | succ fuel =>
      show Safe B (do let w ← body w x; IWorld.forAfter body fuel w (w.links.next x)) _
      refine (hbody l x r w hA hL hI).bind ?_
      rintro w' ⟨h1, h2⟩
      rw [h1, (hr.split hA).2]
      exact ih (l ++ [x]) fuel w' (by rw [hA]; simp) (by simpa using hf) h1 h2

theorem forBefore_inv {B : Prop} {body : IWorld → Nat → C IWorld} {L : Links} {A : Lists}
    (hr : L.HRepr A) (i : Nat) (I : List Nat → IWorld → Prop)
    (hbody : ∀ l x r w, A i = l ++ x :: r → w.links = L → I l w →
      Safe B (body w x) (fun w' => w'.links = L ∧ I (l ++ [x]) w')) :
    ∀ (r l : List Nat) (fuel : Nat) (w : IWorld), A i = l ++ r → r.length ≤ fuel → w.links = L → I l w →
      Safe B (IWorld.forBefore body fuel w r.head?) (fun w' => w'.links = L ∧ I (A i) w') := by
  intro r
  induction r with
  | nil =>
    intro l fuel w hA _ hL hI
    rw [List.append_nil] at hA
    rw [hA]
    cases fuel <;> exact Safe.ok ⟨hL, hI⟩
  | cons x r ih =>
    intro l fuel w hA hf hL hI
    cases fuel with
    | zero => simp at hf
    | succ fuel =>
      show Safe B (do let w' ← body w x; IWorld.forBefore body fuel w' (w.links.next x)) _
      rw [hL, (hr.split hA).2]
      refine (hbody l x r w hA hL hI).bind ?_
      rintro w' ⟨h1, h2⟩
      exact ih (l ++ [x]) fuel w' (by rw [hA]; simp) (by simpa using hf) h1 h2

/-! ### The invariant -/

/-- Invariant of all instruments and states. -/
structure IWorld.Inv (B : Prop) (w : IWorld) (A : Lists) : Prop where
  repr : w.links.HRepr A
  num : ∀ i, (w.instrs i).numSequences = numSeqs (w.instrs i).sequences
  live : ∀ i k id, (w.instrs i).sequences k = some id →
    k < 4 ∧ id < w.fresh ∧ ∃ q, w.heap id = some q ∧ q.Ok B
  inj : ∀ i k j l id, (w.instrs i).sequences k = some id → (w.instrs j).sequences l = some id →
    i = j ∧ k = l
  noLeak : ∀ id, w.heap id ≠ none → ∃ i k, (w.instrs i).sequences k = some id
  att : ∀ x i, w.links.owner x = some i → (w.states x).Inv B w.heap (w.instrs i)
  idle : ∀ x, w.links.owner x = none → ∀ k, k < 4 → ((w.states x).slots k).seq = none ∧
    Weak B ((w.states x).slots k).st

theorem IWorld.Inv.instrOk {B : Prop} {w : IWorld} {A : Lists} (h : w.Inv B A) (i : Nat) :
    (w.instrs i).Ok B w.heap :=
  ⟨h.num i, fun k id _ e => (h.live i k id e).2.2⟩

theorem IWorld.Inv.init (B : Prop) : ({} : IWorld).Inv B (fun _ => []) := by
  refine ⟨Links.HRepr.empty, fun _ => rfl, fun i k id h => ?_, fun i k j l id h => ?_, fun id h => ?_,
    fun x i h => ?_, fun x _ k _ => ⟨rfl, Weak.init B _⟩⟩
  · cases h
  · cases h
  · exact absurd rfl h
  · cases h

/-- All slots of all states point to nothing or to a sequence that exists, and are weak. -/
theorem IWorld.Inv.slots {B : Prop} {w : IWorld} {A : Lists} (h : w.Inv B A) (x : Nat) :
    (∀ k id, k < 4 → ((w.states x).slots k).seq = some id → ∃ q, w.heap id = some q) ∧
    (∀ k, k < 4 → Weak B ((w.states x).slots k).st) := by
  cases e : w.links.owner x with
  | none =>
    refine ⟨fun k id hk h1 => ?_, fun k hk => (h.idle x e k hk).2⟩
    rw [(h.idle x e k hk).1] at h1; cases h1
  | some i =>
    have hi := h.att x i e
    refine ⟨fun k id hk h1 => ?_, fun k hk => hi.has.weak k hk⟩
    rw [hi.has.pt k hk] at h1
    obtain ⟨_, _, q, hq, _⟩ := h.live i k id h1
    exact ⟨q, hq⟩

/-- Replacing one attached state. -/
theorem IWorld.Inv.setState {B : Prop} {w : IWorld} {A : Lists} (h : w.Inv B A) {x i : Nat}
    (hx : w.links.owner x = some i) {s : IState} (hs : s.Inv B w.heap (w.instrs i))
    (log : List (Nat × InstrEvent)) :
    ({ w with states := upd w.states x s, log := log } : IWorld).Inv B A := by
  refine ⟨h.repr, h.num, h.live, h.inj, h.noLeak, ?_, ?_⟩
  · intro y j hy
    by_cases e : y = x
    · subst e
      have hy' : w.links.owner y = some j := hy
      rw [hx] at hy'
      cases hy'
      show (upd w.states y s y).Inv _ _ _
      rw [upd_self]; exact hs
    · show (upd w.states x s y).Inv _ _ _
      rw [upd_ne _ _ e]; exact h.att y j hy
  · intro y hy
    have e : y ≠ x := by
      intro e; subst e
      have hy' : w.links.owner y = none := hy
      rw [hx] at hy'; cases hy'
    show ∀ k, k < 4 → ((upd w.states x s y).slots k).seq = none ∧ Weak B ((upd w.states x s y).slots k).st
    rw [upd_ne _ _ e]; exact h.idle y hy

/-- What a phase change of a track's instrument tells and does. -/
theorem IWorld.setPhase_inv {B : Prop} {w : IWorld} {A : Lists} (h : w.Inv B A) (x : Nat) (p : SeqPhase) :
    Safe B (w.setPhase x p) (fun w' => w'.Inv B A ∧ ∃ s l, w' = { w with states := upd w.states x s, log := w.log ++ l }) := by
  unfold IWorld.setPhase
  cases e : w.links.owner x with
  | none => exact Safe.ok ⟨h, w.states x, [], by rw [List.append_nil, upd_same]⟩
  | some i =>
    dsimp only
    have hi := h.att x i e
    by_cases hp : (w.states x).phase = .release ∧ p = .release
    · have e2 : (w.states x).setPhase w.heap (w.instrs i) p = .ok ([], w.states x) := by
        unfold IState.setPhase IState.setPhaseCore
        rw [if_pos hp]; rfl
      rw [e2]
      exact Safe.ok ⟨h.setState e hi _, _, _, rfl⟩
    · refine (IState.setPhase_inv (h.instrOk i) hi.has.ready hp).bind ?_
      rintro r ⟨h1, -⟩
      exact Safe.ok ⟨h.setState e h1 _, _, _, rfl⟩

theorem IWorld.tick_inv {B : Prop} {w : IWorld} {A : Lists} (h : w.Inv B A) (x : Nat) (d : Bool)
    (hx : w.links.owner x ≠ none) :
    Safe B (w.tick x d) (fun w' => w'.Inv B A ∧ ∃ s l, w' = { w with states := upd w.states x s, log := w.log ++ l }) := by
  unfold IWorld.tick
  cases e : w.links.owner x with
  | none => exact absurd e hx
  | some i =>
    refine (IState.tick_inv (h.instrOk i) (h.att x i e)).bind ?_
    rintro r ⟨h1, -⟩
    exact Safe.ok ⟨h.setState e h1 _, _, _, rfl⟩

theorem IWorld.initValues_inv {B : Prop} {w : IWorld} {A : Lists} (h : w.Inv B A) (x : Nat) (duty : Int)
    (hf : B → ∀ i, w.links.owner x = some i → w.DutyFits i duty) :
    Safe B (w.initValues x duty) (fun w' => w'.Inv B A ∧ ∃ s, w' = { w with states := upd w.states x s }) := by
  unfold IWorld.initValues
  have hself : w = { w with states := upd w.states x (w.states x) } := by
    rw [upd_same]
  cases e : w.links.owner x with
  | none => exact Safe.ok ⟨h, _, hself⟩
  | some i =>
    dsimp only
    cases e3 : (w.instrs i).sequences 3 with
    | none => exact Safe.ok ⟨h, _, hself⟩
    | some id =>
      dsimp only
      have hi := h.att x i e
      obtain ⟨_, _, q, hq, hok⟩ := h.live i 3 id e3
      have hsl := hi.has.slot 3 id q (by omega) e3 hq
      have hseq : ((w.states x).slots 3).seq = some id := by rw [hi.has.pt 3 (by omega)]; exact e3
      unfold ISlot.setValue
      rw [hseq]
      dsimp only
      unfold SeqHeap.get
      rw [hq]
      simp only [ok_bind, bind_assoc]
      refine (Sequence.setValue_inv hok hsl duty fun b => hf b i e id q e3 hq).bind ?_
      rintro st ⟨h1, h2, h3, h4⟩
      have est : { st with value := duty } = st := by rw [← h2]
      simp only [est, pure_eq_ok, ok_bind]
      refine Safe.ok ⟨h.setState e ⟨⟨?_, ?_, ?_, ?_⟩, ?_⟩ _, _, rfl⟩
      · intro k hk
        by_cases hk3 : k = 3
        · subst hk3
          exact e3.symm
        · rw [show ((w.states x).setSlot 3 ⟨some id, st⟩).slots k = (w.states x).slots k from upd_ne _ _ hk3]
          exact hi.has.pt k hk
      · intro k hk
        by_cases hk3 : k = 3
        · subst hk3; exact h1.weak
        · rw [show ((w.states x).setSlot 3 ⟨some id, st⟩).slots k = (w.states x).slots k from upd_ne _ _ hk3]
          exact hi.has.weak k hk
      · intro k id' q' hk h5 h6
        by_cases hk3 : k = 3
        · subst hk3
          rw [e3] at h5; cases h5
          rw [hq] at h6; cases h6
          exact h1
        · rw [show ((w.states x).setSlot 3 ⟨some id, st⟩).slots k = (w.states x).slots k from upd_ne _ _ hk3]
          exact hi.has.slot k id' q' hk h5 h6
      · intro k hk
        rw [show ((w.states x).setSlot 3 ⟨some id, st⟩).slots k = (w.states x).slots k from upd_ne _ _ (by omega)]
        exact hi.has.val k hk
      · have hc : ((w.states x).setSlot 3 ⟨some id, st⟩).cnt 4 = (w.states x).cnt 4 := by
          refine IState.cnt_congr fun k hk => ?_
          by_cases hk3 : k = 3
          · subst hk3
            rw [show ((w.states x).setSlot 3 ⟨some id, st⟩).slots 3 = ⟨some id, st⟩ from upd_self (w.states x).slots 3 _]
            simp [ISlot.active, hseq, h4]
          · rw [show ((w.states x).setSlot 3 ⟨some id, st⟩).slots k = (w.states x).slots k from upd_ne _ _ hk3]
        refine ⟨fun hp => ?_, fun hp => ?_⟩
        · rw [hc]; exact hi.cnt.act hp
        · rw [hc]; exact hi.cnt.mt hp

theorem IWorld.attack_inv {B : Prop} {w : IWorld} {A : Lists} (h : w.Inv B A) (x : Nat) (duty : Int)
    (hf : B → ∀ i, w.links.owner x = some i → w.DutyFits i duty) :
    Safe B (w.attack x duty) (fun w' => w'.Inv B A) := by
  unfold IWorld.attack
  refine (IWorld.initValues_inv h x duty hf).bind ?_
  rintro w1 ⟨h1, -⟩
  exact (IWorld.setPhase_inv h1 x .attack).mono fun _ hr => hr.1

end BK
