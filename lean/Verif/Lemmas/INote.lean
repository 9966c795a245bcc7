import Verif.Lemmas.IRun
/-!
When a track is told that its instrument has ended.
-/
namespace BK

theorem IWorld.Reach.inv {fuel : Nat} {w : IWorld} (h : w.Reach fuel) :
    ∃ A : Lists, w.Inv False A ∧ ∀ d, (A d).length ≤ fuel := by
  obtain ⟨ops, h1, h2, h3⟩ := h
  have := IWorld.run_inv (B := False) fuel ops {} (fun _ => []) 0 (IWorld.Inv.init False) h1 False.elim
    (by simp) (by omega)
  rw [h3] at this
  obtain ⟨A, ha, hb⟩ := this
  exact ⟨A, ha, fun d => by have := hb d; omega⟩

theorem Sequence.step_over (q : Sequence) {st : SeqState} (d : Bool) (h : st.offset = INT_MAX) :
    q.step st d = .ok (.none, st) := by
  cases q with
  | simple q =>
    show SimpleSeq.step q _ d = _
    unfold SimpleSeq.step
    by_cases hd : d = false
    · rw [if_pos hd]; rfl
    · rw [if_neg hd, if_pos h]; rfl
  | env q =>
    show EnvSeq.step q _ = _
    unfold EnvSeq.step
    rw [if_pos h]; rfl

theorem Sequence.steps_over (q : Sequence) {st : SeqState} (ds : List Bool) (h : st.offset = INT_MAX) :
    ∃ rets, Sequence.play.steps q st ds = .ok (rets, st) := by
  induction ds with
  | nil => exact ⟨[], rfl⟩
  | cons d ds ih =>
    obtain ⟨rets, hr⟩ := ih
    refine ⟨.none :: rets, ?_⟩
    unfold Sequence.play.steps
    rw [q.step_over d h]
    simp only [ok_bind, hr]
    rfl

/-- One sequence has ended, or does so within the ticks. -/
def Sequence.EndsIn (q : Sequence) (st : SeqState) (ds : List Bool) : Prop :=
  ∃ rets st', Sequence.play.steps q st ds = .ok (rets, st') ∧ (st.offset = INT_MAX ∨ .finish ∈ rets)

/-- All sequences have. -/
def IWorld.EndIn (w : IWorld) (i x : Nat) (ds : List Bool) : Prop :=
  ∀ k id q, (w.instrs i).sequences k = some id → w.heap id = some q → q.EndsIn ((w.states x).slots k).st ds

theorem Sequence.endsIn_cons {q : Sequence} {st st1 : SeqState} {r : SeqRet} {d : Bool} {ds : List Bool}
    (h : q.step st d = .ok (r, st1)) (hr : StepRes st (r, st1)) :
    q.EndsIn st (d :: ds) ↔ q.EndsIn st1 ds := by
  have hcons : ∀ rets st', Sequence.play.steps q st1 ds = .ok (rets, st') →
      Sequence.play.steps q st (d :: ds) = .ok (r :: rets, st') := by
    intro rets st' e
    show (do let r ← q.step st d; let t ← Sequence.play.steps q r.2 ds; return (r.1 :: t.1, t.2)) = _
    rw [h]
    simp only [ok_bind, e]
    rfl
  constructor
  · rintro ⟨rets, st', e, h2⟩
    have e' : (do let r ← q.step st d; let t ← Sequence.play.steps q r.2 ds; return (r.1 :: t.1, t.2)) = .ok (rets, st') := e
    rw [h] at e'
    simp only [ok_bind] at e'
    obtain ⟨t, ht, e3⟩ := bind_ok_iff.1 e'
    simp only [pure_eq_ok, Except.ok.injEq, Prod.mk.injEq] at e3
    refine ⟨t.1, t.2, ht, ?_⟩
    by_cases ho : st.offset = INT_MAX
    · have := hr.over ho
      simp only [Prod.mk.injEq] at this
      left; rw [this.2]; exact ho
    · rcases h2 with h2 | h2
      · exact absurd h2 ho
      · rw [← e3.1] at h2
        rcases List.mem_cons.1 h2 with h2 | h2
        · left; exact ((hr.fin ho).1 h2.symm)
        · right; exact h2
  · rintro ⟨rets, st', e, h2⟩
    refine ⟨r :: rets, st', hcons rets st' e, ?_⟩
    by_cases ho : st.offset = INT_MAX
    · left; exact ho
    · right
      rcases h2 with h2 | h2
      · have := (hr.fin ho).2 h2
        simp only at this
        rw [this]; simp
      · simp [h2]

theorem IWorld.EndIn_nil {B : Prop} {w : IWorld} {A : Lists} (h : w.Inv B A) {x i : Nat}
    (hx : w.links.owner x = some i) : w.EndIn i x [] ↔ (w.states x).cnt 4 = 0 := by
  have hi := h.att x i hx
  rw [IState.cnt_zero_iff]
  constructor
  · intro he k hk
    cases e : ((w.states x).slots k).seq with
    | none => simp [ISlot.active, e]
    | some id =>
      rw [hi.has.pt k hk] at e
      obtain ⟨_, _, q, hq, _⟩ := h.live i k id e
      obtain ⟨rets, st', e1, e2⟩ := he k id q e hq
      cases e1
      rcases e2 with e2 | e2
      · simp [ISlot.active, e2]
      · simp at e2
  · intro ha k id q e hq
    have hk := (h.live i k id e).1
    have := ha k hk
    rw [← hi.has.pt k hk] at e
    refine ⟨[], _, rfl, .inl ?_⟩
    simpa [ISlot.active, e] using this

theorem muted_tick {B : Prop} {w : IWorld} {A : Lists} (h : w.Inv B A) {x i : Nat} (d : Bool)
    (hx : w.links.owner x = some i) (hp : (w.states x).phase = .mute) :
    Safe B (w.tick x d) (fun w' => w'.Inv B A ∧ w'.links = w.links ∧ (w'.states x).phase = .mute ∧
      w'.log = w.log) := by
  unfold IWorld.tick
  rw [hx]
  refine (IState.tick_inv (h.instrOk i) (h.att x i hx)).bind ?_
  rintro r ⟨h1, h2⟩
  cases h2 with
  | go y hs hph hn =>
    refine Safe.ok ⟨h.setState hx h1 _, rfl, ?_, by simp⟩
    show (upd w.states x y x).phase = _
    rw [upd_self, hph, hp]
  | mute y z hs hz hx' hp' hy => exact absurd hp hp'

theorem exec_tick {fuel : Nat} {w : IWorld} {x i : Nat} {d : Bool} (hx : w.links.owner x = some i) :
    w.exec fuel (.tick x d) = w.tick x d := by
  show (if w.links.owner x = none then .ok w else w.tick x d) = _
  rw [hx, if_neg (by simp)]

theorem muted_ticks {B : Prop} {x i fuel : Nat} : ∀ (ds : List Bool) (w : IWorld) (A : Lists),
    w.Inv B A → w.links.owner x = some i → (w.states x).phase = .mute → ∀ w2,
    w.run fuel (ticksOf x ds) = .ok w2 → w2.log = w.log ∧ (w2.states x).phase = .mute ∧ w2.Inv B A ∧
      w2.links = w.links := by
  intro ds
  induction ds with
  | nil => intro w A h _ hp w2 e; cases e; exact ⟨rfl, hp, h, rfl⟩
  | cons d ds ih =>
    intro w A h hx hp w2 e
    have e : (do let w ← w.exec fuel (.tick x d); w.run fuel (ticksOf x ds)) = .ok w2 := e
    rw [exec_tick hx] at e
    obtain ⟨w1, e1, e2⟩ := bind_ok_iff.1 e
    have := muted_tick h d hx hp
    rw [e1] at this
    obtain ⟨h1, h2, h3, h4⟩ := this
    obtain ⟨h5, h6, h7, h8⟩ := ih w1 A h1 (by rw [h2]; exact hx) h3 w2 e2
    exact ⟨by rw [h5, h4], h6, h7, by rw [h8, h2]⟩

/-- The events of a number of ticks. -/
theorem ticks_events {B : Prop} {x i fuel : Nat} : ∀ (ds : List Bool) (w : IWorld) (A : Lists),
    w.Inv B A → w.links.owner x = some i → (w.states x).phase ≠ .mute → ∀ w2,
    w.run fuel (ticksOf x ds) = .ok w2 →
    w2.Inv B A ∧ w2.links = w.links ∧
    (w.EndIn i x ds ∧ (w.states x).cnt 4 ≠ 0 → w2.log = w.log ++ [(x, .mute)] ∧ (w2.states x).phase = .mute) ∧
    (¬ (w.EndIn i x ds ∧ (w.states x).cnt 4 ≠ 0) → w2.log = w.log ∧
      (w2.states x).phase = (w.states x).phase) := by
  intro ds
  induction ds with
  | nil =>
    intro w A h hx hp w2 e
    cases e
    refine ⟨h, rfl, fun he => absurd ((IWorld.EndIn_nil h hx).1 he.1) he.2, fun _ => ⟨rfl, rfl⟩⟩
  | cons d ds ih =>
    intro w A h hx hp w2 e
    have e : (do let w ← w.exec fuel (.tick x d); w.run fuel (ticksOf x ds)) = .ok w2 := e
    rw [exec_tick hx] at e
    obtain ⟨w1, e1, e2⟩ := bind_ok_iff.1 e
    have hi := h.att x i hx
    unfold IWorld.tick at e1
    rw [hx] at e1
    obtain ⟨r, e3, e4⟩ := bind_ok_iff.1 e1
    have ht := IState.tick_inv (d := d) (h.instrOk i) hi
    rw [e3] at ht
    obtain ⟨h1, h2⟩ := ht
    simp only [pure_eq_ok, Except.ok.injEq] at e4
    have hinv1 : w1.Inv B A := by rw [← e4]; exact h.setState hx h1 _
    have hl1 : w1.links = w.links := by rw [← e4]
    have hin1 : w1.instrs = w.instrs := by rw [← e4]
    have hh1 : w1.heap = w.heap := by rw [← e4]
    have hst1 : w1.states x = r.2 := by rw [← e4]; exact upd_self _ _ _
    have hlog1 : w1.log = w.log ++ r.1.map fun e => (x, e) := by rw [← e4]
    cases h2 with
    | go y hs hph hn =>
      obtain ⟨g1, g2, g3, g4⟩ := ih w1 A hinv1 (by rw [hl1]; exact hx) (by rw [hst1]; simpa [hph] using hp) w2 e2
      have hEnd : w.EndIn i x (d :: ds) ↔ w1.EndIn i x ds := by
        unfold IWorld.EndIn
        rw [hin1, hh1, hst1]
        refine forall_congr' fun k => forall_congr' fun id => forall_congr' fun q => ?_
        refine forall_congr' fun e5 => forall_congr' fun e6 => ?_
        have hk := (h.live i k id e5).1
        obtain ⟨rr, a1, _, a3⟩ := (hs k hk).go id q (by rw [hi.has.pt k hk]; exact e5) e6
        exact Sequence.endsIn_cons a1 a3
      have hcnt : (w.states x).cnt 4 ≠ 0 ↔ (w1.states x).cnt 4 ≠ 0 := by
        rw [hst1]
        constructor
        · intro hc
          rcases hn hp with h0 | h0
          · exact absurd h0 hc
          · exact h0
        · intro hc h0
          apply hc
          rw [IState.cnt_zero_iff] at h0 ⊢
          intro k hk
          have a := h0 k hk
          cases e5 : ((w.states x).slots k).seq with
          | none => rw [show (y.slots k) = _ from (hs k hk).idle e5]; exact a
          | some id =>
            have e6 := e5
            rw [hi.has.pt k hk] at e6
            obtain ⟨_, _, q, hq, _⟩ := h.live i k id e6
            obtain ⟨rr, _, _, a3⟩ := (hs k hk).go id q e5 hq
            have hoff : ((w.states x).slots k).st.offset = INT_MAX := by simpa [ISlot.active, e5] using a
            have := a3.over hoff
            simp only [Prod.mk.injEq] at this
            unfold ISlot.active
            rw [this.2, hoff]; simp
      refine ⟨g1, by rw [g2, hl1], ?_, ?_⟩
      · rintro ⟨a, b⟩
        have := g3 ⟨hEnd.1 a, hcnt.1 b⟩
        rw [hlog1] at this
        simpa using this
      · intro hne
        have := g4 fun ⟨a, b⟩ => hne ⟨hEnd.2 a, hcnt.2 b⟩
        rw [hlog1, hst1] at this
        simp only [List.map_nil, List.append_nil] at this
        exact ⟨this.1, by rw [this.2, hph]⟩
    | mute y z hs hz hxc hp' hy =>
      obtain ⟨g1, g2, g3, g4⟩ := muted_ticks ds w1 A hinv1 (by rw [hl1]; exact hx) (by rw [hst1]; exact hy) w2 e2
      have hEnd : w.EndIn i x (d :: ds) := by
        intro k id q e5 e6
        have hk := (h.live i k id e5).1
        have e5' : ((w.states x).slots k).seq = some id := by rw [hi.has.pt k hk]; exact e5
        obtain ⟨rr, a1, _, a3⟩ := (hs k hk).go id q e5' e6
        rw [Sequence.endsIn_cons a1 a3]
        have hz' := (IState.cnt_zero_iff _ _).1 hz k hk
        have hoff : (z.slots k).st.offset = INT_MAX := by
          have hseq : (z.slots k).seq = some id := by rw [(hs k hk).seq]; exact e5'
          simpa [ISlot.active, hseq] using hz'
        obtain ⟨rets, hr⟩ := q.steps_over ds hoff
        exact ⟨rets, _, hr, .inl hoff⟩
      refine ⟨g3, by rw [g4, hl1], fun _ => ⟨by rw [g1, hlog1]; rfl, g2⟩, fun hne => absurd ⟨hEnd, hxc⟩ hne⟩

/-- The sequences after a phase change have ended as they would alone. -/
theorem play_endsIn {q : Sequence} {st st1 : SeqState} {r : SeqRet} {p : SeqPhase} {ds : List Bool}
    (hp : p ≠ .mute) (h : q.setPhase st p = .ok (r, st1)) (hr : PhaseRes p (r, st1)) :
    (∃ rets st', q.play st p ds = .ok (rets, st') ∧ .finish ∈ rets) ↔ q.EndsIn st1 ds := by
  unfold Sequence.play
  rw [h]
  simp only [ok_bind]
  constructor
  · rintro ⟨rets, st', e, hm⟩
    obtain ⟨t, ht, e3⟩ := bind_ok_iff.1 e
    simp only [pure_eq_ok, Except.ok.injEq, Prod.mk.injEq] at e3
    refine ⟨t.1, t.2, ht, ?_⟩
    rw [← e3.1] at hm
    rcases List.mem_cons.1 hm with hm | hm
    · left; exact (hr.fin hp).1 hm.symm
    · right; exact hm
  · rintro ⟨rets, st', e, hm⟩
    refine ⟨r :: rets, st', by rw [e]; rfl, ?_⟩
    rcases hm with hm | hm
    · have := (hr.fin hp).2 hm
      simp only at this
      rw [this]; simp
    · simp [hm]

/-- An attached track after `initValues`. -/
theorem initValues_slots {w w0 : IWorld} {x i : Nat} {duty : Int} (hx : w.links.owner x = some i)
    (hpt : ((w.states x).slots 3).seq = (w.instrs i).sequences 3)
    (h : w.initValues x duty = .ok w0) :
    w0.links = w.links ∧ w0.instrs = w.instrs ∧ w0.heap = w.heap ∧ w0.log = w.log ∧
    (w0.states x).phase = (w.states x).phase ∧
    (∀ k, k ≠ 3 → (w0.states x).slots k = (w.states x).slots k) ∧
    (∀ id q, (w.instrs i).sequences 3 = some id → w.heap id = some q →
      ∃ st, q.setValue ((w.states x).slots 3).st duty = .ok st ∧ ((w0.states x).slots 3).st = { st with value := duty }) := by
  unfold IWorld.initValues at h
  rw [hx] at h
  dsimp only at h
  cases e : (w.instrs i).sequences 3 with
  | none =>
    rw [e] at h; cases h
    exact ⟨rfl, rfl, rfl, rfl, rfl, fun _ _ => rfl, fun id q h => by simp at h⟩
  | some id =>
    rw [e] at h
    dsimp only at h
    obtain ⟨s, h1, h2⟩ := bind_ok_iff.1 h
    simp only [pure_eq_ok, Except.ok.injEq] at h2
    subst h2
    refine ⟨rfl, rfl, rfl, rfl, ?_, ?_, ?_⟩
    · show (upd w.states x _ x).phase = _
      rw [upd_self]; rfl
    · intro k hk
      show (upd w.states x _ x).slots k = _
      rw [upd_self]; exact upd_ne _ _ hk
    · intro id' q h3 h4
      cases h3
      unfold ISlot.setValue at h1
      rw [hpt, e] at h1
      dsimp only at h1
      unfold SeqHeap.get at h1
      rw [h4] at h1
      simp only [ok_bind] at h1
      obtain ⟨st, h5, h6⟩ := bind_ok_iff.1 h1
      simp only [pure_eq_ok, Except.ok.injEq] at h6
      refine ⟨st, h5, ?_⟩
      show ((upd w.states x ((w.states x).setSlot 3 s) x).slots 3).st = _
      rw [upd_self, show ((w.states x).setSlot 3 s).slots 3 = s from upd_self (w.states x).slots 3 _, ← h6]

end BK
