import Verif.Lemmas.Score2
import Verif.Lemmas.Current5
/-!
What a track does depends only on its own part of the instrument world.
-/
namespace BK

/-- Whenever `a` succeeds, so does `b`, with related results. -/
def Follows {α β : Type} (R : α → β → Prop) (a : C α) (b : C β) : Prop := ∀ r, a = .ok r → ∃ r', b = .ok r' ∧ R r r'

theorem Follows.bind {α β γ δ : Type} {R : α → β → Prop} {Q : γ → δ → Prop} {a : C α} {b : C β} {f : α → C γ} {g : β → C δ}
    (h : Follows R a b) (k : ∀ r r', R r r' → Follows Q (f r) (g r')) : Follows Q (a >>= f) (b >>= g) := by
  intro r hr
  obtain ⟨q, hq, hr⟩ := bind_ok_iff.1 hr
  obtain ⟨q', e, hR⟩ := h q hq
  obtain ⟨r', e', hQ⟩ := k q q' hR r hr
  exact ⟨r', by rw [e]; exact e', hQ⟩

theorem Follows.eq {α γ δ : Type} {Q : γ → δ → Prop} (a : C α) {f : α → C γ} {g : α → C δ}
    (k : ∀ r, Follows Q (f r) (g r)) : Follows Q (a >>= f) (a >>= g) :=
  Follows.bind (R := Eq) (fun r hr => ⟨r, hr, rfl⟩) fun r r' e => by rw [← e]; exact k r

theorem Follows.ok {α β : Type} {R : α → β → Prop} {a : α} {b : β} (h : R a b) : Follows R (.ok a) (.ok b) := by
  intro r hr
  cases hr
  exact ⟨b, rfl, h⟩

/-- Abreast worlds look the same to track `x`; `n` is the next free place. -/
structure View (x n : Nat) (w w' : IWorld) : Prop where
  owner : w'.links.owner x = w.links.owner x
  states : w'.states x = w.states x
  instrs : w'.instrs = w.instrs
  heap : w'.heap = w.heap
  fresh : w.fresh = n
  fresh' : w'.fresh = n

theorem View.refl (x : Nat) (w : IWorld) : View x w.fresh w w := ⟨rfl, rfl, rfl, rfl, rfl, rfl⟩

theorem View.symm {x n : Nat} {w w' : IWorld} (h : View x n w w') : View x n w' w :=
  ⟨h.owner.symm, h.states.symm, h.instrs.symm, h.heap.symm, h.fresh', h.fresh⟩

theorem View.trans {x n : Nat} {a b c : IWorld} (h : View x n a b) (h' : View x n b c) : View x n a c :=
  ⟨h'.owner.trans h.owner, h'.states.trans h.states, h'.instrs.trans h.instrs, h'.heap.trans h.heap, h.fresh, h'.fresh'⟩

/-- Track `x` was told `l` between `w` and `w1`. -/
def Hears (x : Nat) (l : List InstrEvent) (w w1 : IWorld) : Prop :=
  ∃ m, w1.log = w.log ++ m ∧ (m.filter (·.1 = x)).map (·.2) = l

theorem Hears.refl (x : Nat) (w : IWorld) : Hears x [] w w := ⟨[], by simp, rfl⟩

theorem Hears.trans {x : Nat} {l l' : List InstrEvent} {a b c : IWorld} (h : Hears x l a b) (h' : Hears x l' b c) :
    Hears x (l ++ l') a c := by
  obtain ⟨m, e1, e2⟩ := h
  obtain ⟨m', e1', e2'⟩ := h'
  exact ⟨m ++ m', by rw [e1', e1, List.append_assoc], by rw [List.filter_append, List.map_append, e2, e2']⟩

theorem Hears.news {x : Nat} {l : List InstrEvent} {w w1 : IWorld} (h : Hears x l w w1) : w.news w1 x = l := by
  obtain ⟨m, e1, e2⟩ := h
  unfold IWorld.news
  rw [e1, List.drop_left, e2]

theorem Hears.own {x : Nat} {w w1 : IWorld} (l : List InstrEvent) (h : w1.log = w.log ++ l.map fun e => (x, e)) : Hears x l w w1 := by
  refine ⟨_, h, ?_⟩
  induction l with
  | nil => rfl
  | cons e l ih =>
    clear h ih
    induction l with
    | nil => simp
    | cons f l ih => simp at ih ⊢; exact ih

/-- The same for `x` before and after, and `x` was told the same. -/
def Abreast (x n : Nat) (w w' : IWorld) (a b : IWorld) : Prop := View x n a b ∧ ∃ l, Hears x l w a ∧ Hears x l w' b

theorem Abreast.trans {x n : Nat} {w w' a a' b b' : IWorld} (h : Abreast x n w w' a a') (h' : Abreast x n a a' b b') : Abreast x n w w' b b' := by
  obtain ⟨-, l, h1, h2⟩ := h
  obtain ⟨v, l', h1', h2'⟩ := h'
  exact ⟨v, l ++ l', h1.trans h1', h2.trans h2'⟩

theorem View.put {x n : Nat} {w w' : IWorld} (h : View x n w w') (s : IState) (l : List InstrEvent) :
    Abreast x n w w' { w with states := upd w.states x s, log := w.log ++ l.map fun e => (x, e) }
      { w' with states := upd w'.states x s, log := w'.log ++ l.map fun e => (x, e) } :=
  ⟨⟨h.owner, by dsimp only; rw [upd_self, upd_self], h.instrs, h.heap, h.fresh, h.fresh'⟩, l, Hears.own l rfl, Hears.own l rfl⟩

theorem View.on {x n : Nat} {w w' : IWorld} (h : View x n w w') : w'.on x = w.on x := by
  unfold IWorld.on; rw [h.owner]

theorem View.value {x n : Nat} {w w' : IWorld} (h : View x n w w') (k : Nat) : w'.value x k = w.value x k := by
  unfold IWorld.value; rw [h.states]

theorem View.hasSeq {x n : Nat} {w w' : IWorld} (h : View x n w w') (k : Nat) : w'.hasSeq x k = w.hasSeq x k := by
  unfold IWorld.hasSeq; rw [h.states]

/-! ### The instrument world -/

theorem IWorld.setPhase_view {x n : Nat} {w w' : IWorld} (h : View x n w w') (p : SeqPhase) :
    Follows (Abreast x n w w') (w.setPhase x p) (w'.setPhase x p) := by
  unfold IWorld.setPhase
  rw [h.owner, h.states, h.heap, h.instrs]
  cases w.links.owner x with
  | none => exact Follows.ok ⟨h, [], .refl _ _, .refl _ _⟩
  | some i =>
    refine Follows.eq _ fun r => Follows.ok ?_
    have k := h.put r.2 r.1
    rw [h.heap, h.instrs] at k
    exact k

theorem IWorld.tick_view {x n : Nat} {w w' : IWorld} (h : View x n w w') (d : Bool) :
    Follows (Abreast x n w w') (w.tick x d) (w'.tick x d) := by
  unfold IWorld.tick
  rw [h.owner, h.states, h.heap, h.instrs]
  cases w.links.owner x with
  | none => intro r hr; cases hr
  | some i =>
    refine Follows.eq _ fun r => Follows.ok ?_
    have k := h.put r.2 r.1
    rw [h.heap, h.instrs] at k
    exact k

theorem IWorld.initValues_view {x n : Nat} {w w' : IWorld} (h : View x n w w') (d : Int) :
    Follows (Abreast x n w w') (w.initValues x d) (w'.initValues x d) := by
  unfold IWorld.initValues
  rw [h.owner, h.states, h.heap, h.instrs]
  cases w.links.owner x with
  | none => exact Follows.ok ⟨h, [], .refl _ _, .refl _ _⟩
  | some i =>
    dsimp only
    split
    · exact Follows.ok ⟨h, [], .refl _ _, .refl _ _⟩
    · refine Follows.eq _ fun r => Follows.ok ?_
      have k := h.put ((w.states x).setSlot 3 r) []
      rw [h.heap, h.instrs] at k
      simpa using k

theorem IWorld.attack_view {x n : Nat} {w w' : IWorld} (h : View x n w w') (d : Int) :
    Follows (Abreast x n w w') (w.attack x d) (w'.attack x d) := by
  unfold IWorld.attack
  exact (IWorld.initValues_view h d).bind fun a b hab => fun r hr => by
    obtain ⟨r', e, k⟩ := IWorld.setPhase_view hab.1 .attack r hr
    exact ⟨r', e, hab.trans k⟩

theorem IWorld.setInstrument_view {x n : Nat} {w w' : IWorld} (h : View x n w w') (i : Option Nat) :
    Follows (View x n) (w.setInstrument x i) (w'.setInstrument x i) := by
  cases i with
  | none =>
    refine Follows.ok ⟨?_, ?_, h.instrs, h.heap, h.fresh, h.fresh'⟩
    · show (w'.links.removeState x).owner x = (w.links.removeState x).owner x
      rw [Links.owner_removeState, Links.owner_removeState, if_pos rfl, if_pos rfl]
    · show upd w'.states x _ x = upd w.states x _ x
      rw [upd_self, upd_self, h.states]
  | some i =>
    unfold IWorld.setInstrument
    dsimp only
    rw [h.states, h.heap, h.instrs]
    refine Follows.eq _ fun s1 => Follows.eq _ fun s2 => ?_
    have hv : View x n { w with links := (w.links.removeState x).addState x i, states := upd w.states x s2 }
        { w' with links := (w'.links.removeState x).addState x i, states := upd w'.states x s2 } := by
      have ho : ∀ L : Links, ((L.removeState x).addState x i).owner x = some i := by
        intro L
        rw [Links.owner_addState _ _ _ _ (by rw [Links.owner_removeState, if_pos rfl]), if_pos rfl]
      exact ⟨by dsimp only; rw [ho, ho], by dsimp only; rw [upd_self, upd_self], h.instrs, h.heap, h.fresh, h.fresh'⟩
    intro r hr
    obtain ⟨r', e, k⟩ := IWorld.setPhase_view hv .attack r hr
    rw [h.instrs, h.heap] at e
    exact ⟨r', e, k.1⟩

/-! ### Tracks -/

section
variable {x n : Nat} {w w' : IWorld}

theorem Track.mix_view (h : View x n w w') (t : Track) : t.mix x w' = t.mix x w := by
  simp only [Track.mix, h.on, h.value]

theorem Track.updateVolume_view (h : View x n w w') (t : Track) : t.updateVolume x w' = t.updateVolume x w := by
  simp only [Track.updateVolume, Track.mix_view h]

theorem Track.noteSum_view (h : View x n w w') (t : Track) : t.noteSum x w' = t.noteSum x w := by
  simp only [Track.noteSum, h.on, h.value]

theorem Track.updateNote_view (h : View x n w w') (t : Track) : t.updateNote x w' = t.updateNote x w := by
  simp only [Track.updateNote, Track.noteSum_view h]

theorem Track.updateDuty_view (h : View x n w w') (t : Track) : t.updateDuty x w' = t.updateDuty x w := by
  simp only [Track.updateDuty, h.on, h.value]

theorem Track.updateUnit_view (h : View x n w w') (t : Track) : t.updateUnit x w' = t.updateUnit x w := by
  simp only [Track.updateUnit, Track.flushVolume, Track.flushNote, Track.flushDuty, Track.updateVolume_view h,
    Track.updateNote_view h, Track.updateDuty_view h]

theorem Track.flagSeqs_view (h : View x n w w') (t : Track) : t.flagSeqs x w' = t.flagSeqs x w := by
  simp only [Track.flagSeqs, h.hasSeq]

theorem Track.told_view (h : View x n w w') (t : Track) (e : InstrEvent) : t.told x w' e = t.told x w e := by
  cases e <;> simp only [Track.told, Track.flagSeqs_view h, Track.updateUnit_view h]

theorem Track.run_view (h : View x n w w') (t : Track) (e : Int) : t.run x w' e = t.run x w e := by
  simp only [Track.run, Track.updateUnit_view h]

theorem Track.setWaveform_view (h : View x n w w') (t : Track) (v : Int) : t.setWaveform x w' v = t.setWaveform x w v := by
  simp only [Track.setWaveform, Track.updateNote_view h]

theorem Track.setData_view (h : View x n w w') (t : Track) (a : DataAttr) (d : Option DataArg) :
    t.setData x w' a d = t.setData x w a d := by
  simp only [Track.setData, Track.updateNote_view h]

theorem Track.attach_view (h : View x n w w') (t : Track) (a b c : Int) : t.attach x w' a b c = t.attach x w a b c := by
  simp only [Track.attach, Track.updateUnit_view h]

theorem Track.hear_view {a b : IWorld} (h : Abreast x n w w' a b) (t : Track) : t.hear x w' b = t.hear x w a := by
  obtain ⟨v, l, h1, h2⟩ := h
  unfold Track.hear
  rw [h1.news, h2.news]
  simp only [Track.told_view v]

/-- Results of calls on a track that look the same to it. -/
def SameT (x n : Nat) (r r' : IWorld × Track) : Prop := View x n r.1 r'.1 ∧ r'.2 = r.2

theorem Track.instrAttack_view (h : View x n w w') (t : Track) :
    Follows (SameT x n) (t.instrAttack x w) (t.instrAttack x w') := by
  unfold Track.instrAttack
  refine (IWorld.attack_view h _).bind fun a b hab => ?_
  rw [Track.hear_view hab]
  exact Follows.eq _ fun t => Follows.ok ⟨hab.1, Track.flagSeqs_view hab.1 t⟩

theorem Track.instrPhase_view (h : View x n w w') (t : Track) (p : SeqPhase) :
    Follows (SameT x n) (t.instrPhase x w p) (t.instrPhase x w' p) := by
  unfold Track.instrPhase
  refine (IWorld.setPhase_view h _).bind fun a b hab => ?_
  rw [Track.hear_view hab]
  exact Follows.eq _ fun t => Follows.ok ⟨hab.1, Track.flagSeqs_view hab.1 t⟩

theorem Track.startNote_view (h : View x n w w') (t : Track) : Follows (SameT x n) (t.startNote x w) (t.startNote x w') := by
  unfold Track.startNote
  dsimp only
  rw [h.on]
  split
  · split
    · refine (Track.instrAttack_view h _).bind fun a b hab => Follows.ok ⟨hab.1, ?_⟩
      dsimp only
      rw [hab.2]
    · exact Follows.ok ⟨h, rfl⟩
  · exact Follows.ok ⟨h, rfl⟩

theorem Track.playNote_view (h : View x n w w') (t : Track) (v : Int) :
    Follows (SameT x n) (t.playNote x w v) (t.playNote x w' v) := by
  unfold Track.playNote
  refine Follows.eq _ fun s => (Track.startNote_view h _).bind fun a b hab => ?_
  rw [hab.2]
  exact Follows.eq _ fun _ => Follows.eq _ fun _ => Follows.eq _ fun _ => Follows.ok ⟨hab.1, rfl⟩

theorem Track.releaseNote_view (h : View x n w w') (t : Track) :
    Follows (SameT x n) (t.releaseNote x w) (t.releaseNote x w') := by
  unfold Track.releaseNote
  dsimp only
  rw [h.on]
  split
  · refine (Track.instrPhase_view h _ _).bind fun a b hab => ?_
    rw [hab.2]
    exact Follows.eq _ fun _ => Follows.ok ⟨hab.1, rfl⟩
  · split
    · exact Follows.eq _ fun _ => Follows.ok ⟨h, rfl⟩
    · exact Follows.eq _ fun _ => Follows.ok ⟨h, rfl⟩

theorem Track.muteNote_view (h : View x n w w') (t : Track) :
    Follows (SameT x n) (t.muteNote x w) (t.muteNote x w') := by
  unfold Track.muteNote
  dsimp only
  rw [h.on]
  split
  · refine (Track.instrPhase_view h _ _).bind fun a b hab => ?_
    rw [hab.2]
    exact Follows.eq _ fun _ => Follows.ok ⟨hab.1, rfl⟩
  · refine Follows.bind (R := SameT x n) (Follows.ok ⟨h, rfl⟩) fun a b hab => ?_
    rw [hab.2]
    exact Follows.eq _ fun _ => Follows.ok ⟨hab.1, rfl⟩

theorem Track.setNote_view (h : View x n w w') (t : Track) (v : Int) :
    Follows (SameT x n) (t.setNote x w v) (t.setNote x w' v) := by
  unfold Track.setNote
  refine Follows.bind (R := SameT x n) ?_ fun a b hab => Follows.ok ⟨hab.1, by dsimp only; rw [hab.2]⟩
  unfold Track.noteCase
  split
  · exact Track.playNote_view h t v
  · split
    · exact Track.releaseNote_view h t
    · split
      · exact Track.muteNote_view h t
      · exact Follows.ok ⟨h, rfl⟩

theorem Track.setInstrument_view (h : View x n w w') (t : Track) (i : Option Nat) :
    Follows (SameT x n) (t.setInstrument x w i) (t.setInstrument x w' i) := by
  unfold Track.setInstrument
  rw [h.owner]
  have key : Follows (SameT x n) (t.changeInstrument x w i) (t.changeInstrument x w' i) := by
    cases i with
    | none =>
      unfold Track.changeInstrument
      dsimp only
      refine (IWorld.setInstrument_view h none).bind fun a b hab => ?_
      split
      · exact Track.setNote_view hab t _
      · exact Follows.ok ⟨hab, rfl⟩
    | some i =>
      unfold Track.changeInstrument
      dsimp only
      refine (IWorld.setInstrument_view h (some i)).bind fun a b hab => (IWorld.initValues_view hab _).bind fun c d hcd => ?_
      split
      · exact Track.instrPhase_view hcd.1 _ _
      · exact Track.instrAttack_view hcd.1 _
  dsimp only
  split
  · exact key.bind fun a b hab => Follows.ok ⟨hab.1, by dsimp only; rw [hab.2]⟩
  · exact Follows.ok ⟨h, rfl⟩

/-- The same with a result. -/
def SameR (x n : Nat) (r r' : Ret × IWorld × Track) : Prop := r'.1 = r.1 ∧ SameT x n r.2 r'.2

theorem Track.setAttr_view (h : View x n w w') (t : Track) (a : TAttr) (v : Int) :
    Follows (SameR x n) (t.setAttr x w a v) (t.setAttr x w' a v) := by
  cases a with
  | note =>
    unfold Track.setAttr
    exact (Track.setNote_view h t v).bind fun a b hab => Follows.ok ⟨rfl, hab⟩
  | waveform =>
    unfold Track.setAttr
    dsimp only
    rw [Track.setWaveform_view h]
    exact Follows.eq _ fun _ => Follows.ok ⟨rfl, h, rfl⟩
  | slide e =>
    unfold Track.setAttr
    dsimp only
    split
    · exact Follows.ok ⟨rfl, h, rfl⟩
    · exact Follows.eq _ fun _ => Follows.ok ⟨rfl, h, rfl⟩
  | _ =>
    first
    | exact Follows.ok ⟨rfl, h, rfl⟩
    | exact Follows.eq _ fun _ => Follows.ok ⟨rfl, h, rfl⟩

theorem View.wipe (h : View x n w w') : View x n (w.wipe x) (w'.wipe x) :=
  ⟨h.owner, by unfold IWorld.wipe; dsimp only; rw [upd_self, upd_self], h.instrs, h.heap, h.fresh, h.fresh'⟩

theorem Track.clear_view (h : View x n w w') (t : Track) : Follows (SameT x n) (t.clear x w) (t.clear x w') := by
  unfold Track.clear
  refine Follows.eq _ fun u => (Track.setInstrument_view h _ none).bind fun a b hab => ?_
  dsimp only
  rw [hab.2]
  have hw := hab.1.wipe
  refine (Track.setAttr_view hw _ _ _).bind fun a1 b1 h1 => ?_
  rw [h1.2.2]
  refine (Track.setAttr_view hw _ _ _).bind fun a2 b2 h2 => ?_
  rw [h2.2.2]
  refine (Track.setAttr_view hw _ _ _).bind fun a3 b3 h3 => ?_
  rw [h3.2.2]
  refine (Track.setAttr_view hw _ _ _).bind fun a4 b4 h4 => ?_
  rw [h4.2.2]
  refine (Track.setAttr_view hw _ _ _).bind fun a5 b5 h5 => ?_
  rw [h5.2.2]
  exact (Track.setAttr_view h5.2.1 _ _ _).bind fun a6 b6 h6 => Follows.ok h6.2

theorem Track.reset_view (h : View x n w w') (t : Track) : Follows (SameT x n) (t.reset x w) (t.reset x w') := by
  unfold Track.reset
  refine Follows.eq _ fun u => (Track.setAttr_view h _ _ _).bind fun a b hab => ?_
  rw [hab.2.2]
  exact Track.clear_view hab.2.1 _

theorem Track.init_view (h : View x n w w') (v : Int) : Follows (SameT x n) (Track.init x w v) (Track.init x w' v) := by
  unfold Track.init
  refine Follows.eq _ fun u => (Track.setAttr_view h _ _ _).bind fun a b hab => ?_
  rw [hab.2.2]
  exact Track.reset_view hab.2.1 _

theorem Track.tick_view (h : View x n w w') (t : Track) : Follows (SameT x n) (t.tick x w) (t.tick x w') := by
  unfold Track.tick
  refine Follows.eq _ fun t => Follows.bind (R := SameT x n) ?_ fun a b hab => ?_
  · unfold Track.instrTick
    rw [h.on]
    split
    · refine Follows.eq _ fun r => (IWorld.tick_view h _).bind fun a b hab => ?_
      rw [Track.hear_view hab]
      exact Follows.eq _ fun t => Follows.ok ⟨hab.1, Track.flagSeqs_view hab.1 t⟩
    · exact Follows.ok ⟨h, rfl⟩
  · rw [hab.2, Track.updateUnit_view hab.1]
    exact Follows.eq _ fun _ => Follows.eq _ fun _ => Follows.ok ⟨hab.1, rfl⟩

/-- A call on a track does the same in worlds that look the same to it. -/
theorem Track.exec_view (h : View x n w w') (t : Track) (op : TOp) : Follows (SameT x n) (t.exec x w op) (t.exec x w' op) := by
  cases op with
  | attr a v =>
    unfold Track.exec
    exact (Track.setAttr_view h t a v).bind fun a b hab => Follows.ok hab.2
  | instrument i => exact Track.setInstrument_view h t i
  | clear => exact Track.clear_view h t
  | reset => exact Track.reset_view h t
  | tick => exact Track.tick_view h t
  | data a d =>
    unfold Track.exec
    dsimp only
    rw [Track.setData_view h]
    exact Follows.eq _ fun _ => Follows.ok ⟨h, rfl⟩
  | attach a b c =>
    unfold Track.exec
    dsimp only
    rw [Track.attach_view h]
    exact Follows.eq _ fun _ => Follows.ok ⟨h, rfl⟩
  | run e =>
    unfold Track.exec
    dsimp only
    rw [Track.run_view h]
    exact Follows.eq _ fun _ => Follows.ok ⟨h, rfl⟩
  | _ =>
    first
    | exact Follows.ok ⟨h, rfl⟩
    | exact Follows.eq _ fun _ => Follows.ok ⟨h, rfl⟩

end

end BK
