import Verif.Lemmas.Current2
/-!
Calls on a track keep the parts of its unit current.
-/
namespace BK

/-- Only values of present sequences change. -/
def IState.Moved (s s' : IState) : Prop :=
  ∀ k, (s'.slots k).seq = (s.slots k).seq ∧ ((s.slots k).seq = none → s'.slots k = s.slots k)

theorem IState.Moved.refl (s : IState) : s.Moved s := fun _ => ⟨rfl, fun _ => rfl⟩

theorem IState.Moved.trans {a b c : IState} (h : a.Moved b) (h' : b.Moved c) : a.Moved c := fun k =>
  ⟨(h' k).1.trans (h k).1, fun e => ((h' k).2 ((h k).1.trans e)).trans ((h k).2 e)⟩

theorem IState.Moved.setSlot {a b : IState} {i : Nat} {s : ISlot} (h : a.Moved b) (h1 : s.seq = (b.slots i).seq)
    (h2 : (b.slots i).seq = none → s = b.slots i) : a.Moved (b.setSlot i s) := by
  refine h.trans fun k => ?_
  unfold IState.setSlot upd
  dsimp only
  split
  · rename_i e; subst e; exact ⟨h1, h2⟩
  · exact ⟨rfl, fun _ => rfl⟩

theorem ISlot.setPhase_moved {heap : SeqHeap} {s : ISlot} {p : SeqPhase} {r : Option SeqRet × ISlot}
    (h : s.setPhase heap p = .ok r) : r.2.seq = s.seq ∧ (s.seq = none → r.2 = s) := by
  unfold ISlot.setPhase at h
  split at h
  · cases h; exact ⟨rfl, fun _ => rfl⟩
  · rename_i id e
    obtain ⟨q, -, h⟩ := bind_ok_iff.1 h
    obtain ⟨z, -, h⟩ := bind_ok_iff.1 h
    cases h
    exact ⟨rfl, fun h => by rw [e] at h; cases h⟩

theorem ISlot.step_moved {heap : SeqHeap} {s : ISlot} {p : Bool} {r : Option SeqRet × ISlot}
    (h : s.step heap p = .ok r) : r.2.seq = s.seq ∧ (s.seq = none → r.2 = s) := by
  unfold ISlot.step at h
  split at h
  · cases h; exact ⟨rfl, fun _ => rfl⟩
  · rename_i id e
    obtain ⟨q, -, h⟩ := bind_ok_iff.1 h
    obtain ⟨z, -, h⟩ := bind_ok_iff.1 h
    cases h
    exact ⟨rfl, fun h => by rw [e] at h; cases h⟩

theorem IState.setPhaseCore_moved {heap : SeqHeap} {ins : Instr} {x : IState} {p : SeqPhase} {r : Bool × IState}
    (h : x.setPhaseCore heap ins p = .ok r) : x.Moved r.2 := by
  unfold IState.setPhaseCore at h
  split at h
  · cases h; exact .refl _
  · obtain ⟨y, hy, h⟩ := bind_ok_iff.1 h
    have k : x.Moved y := by
      refine foldlM_inv (P := fun s : IState => x.Moved s) (b := { x with numActive := 0 }) ?_ _ (fun _ => ⟨rfl, fun _ => rfl⟩) hy
      intro s i s' hs he
      unfold IState.phaseStep at he
      obtain ⟨-, -, he⟩ := bind_ok_iff.1 he
      split at he
      · cases he; exact hs
      · obtain ⟨q, hq, he⟩ := bind_ok_iff.1 he
        obtain ⟨m1, m2⟩ := ISlot.setPhase_moved hq
        dsimp only at he
        split at he
        · cases he; exact hs.setSlot m1 m2
        · obtain ⟨n, -, he⟩ := bind_ok_iff.1 he
          cases he; exact hs.setSlot m1 m2
    dsimp only at h
    split at h
    · cases h; exact k
    · cases h; exact k
    · split at h
      · cases h; exact k
      · cases h; exact k

theorem IState.setPhase_moved {heap : SeqHeap} {ins : Instr} {x : IState} {p : SeqPhase} {r : List InstrEvent × IState}
    (h : x.setPhase heap ins p = .ok r) : x.Moved r.2 := by
  unfold IState.setPhase at h
  obtain ⟨y, hy, h⟩ := bind_ok_iff.1 h
  have k := IState.setPhaseCore_moved hy
  split at h
  · obtain ⟨z, hz, h⟩ := bind_ok_iff.1 h
    have k' := IState.setPhaseCore_moved hz
    cases h; exact k.trans k'
  · cases h; exact k

theorem IState.tick_moved {heap : SeqHeap} {ins : Instr} {x : IState} {b : Bool} {r : List InstrEvent × IState}
    (h : x.tick heap ins b = .ok r) : x.Moved r.2 := by
  unfold IState.tick at h
  refine foldlM_inv (P := fun s : List InstrEvent × IState => x.Moved s.2) ?_ _ (.refl x) h
  intro s i s' hs he
  unfold IState.tickStep at he
  obtain ⟨-, -, he⟩ := bind_ok_iff.1 he
  obtain ⟨q, hq, he⟩ := bind_ok_iff.1 he
  obtain ⟨m1, m2⟩ := ISlot.step_moved hq
  have k := hs.setSlot m1 m2
  dsimp only at he
  split at he
  · obtain ⟨n, -, he⟩ := bind_ok_iff.1 he
    split at he
    · obtain ⟨z, hz, he⟩ := bind_ok_iff.1 he
      have k' := IState.setPhase_moved hz
      cases he
      exact IState.Moved.trans k k'
    · cases he; exact k
  · cases he; exact k

/-- The same for the instrument state of a track. -/
structure IWorld.Moved (x : Nat) (w w' : IWorld) : Prop where
  owner : w'.links.owner x = w.links.owner x
  state : (w.states x).Moved (w'.states x)

theorem IWorld.Moved.refl (x : Nat) (w : IWorld) : IWorld.Moved x w w := ⟨rfl, .refl _⟩

theorem IWorld.Moved.trans {x : Nat} {a b c : IWorld} (h : IWorld.Moved x a b) (h' : IWorld.Moved x b c) :
    IWorld.Moved x a c := ⟨h'.owner.trans h.owner, h.state.trans h'.state⟩

theorem IWorld.setPhase_moved {x : Nat} {w w' : IWorld} {p : SeqPhase} (h : w.setPhase x p = .ok w') :
    IWorld.Moved x w w' := by
  unfold IWorld.setPhase at h
  split at h
  · cases h; exact .refl _ _
  · obtain ⟨r, hr, h⟩ := bind_ok_iff.1 h
    have k := IState.setPhase_moved hr
    cases h
    refine ⟨rfl, ?_⟩
    dsimp only
    rw [upd_self]
    exact k

theorem IWorld.tick_moved {x : Nat} {w w' : IWorld} {b : Bool} (h : w.tick x b = .ok w') :
    IWorld.Moved x w w' := by
  unfold IWorld.tick at h
  split at h
  · cases h
  · obtain ⟨r, hr, h⟩ := bind_ok_iff.1 h
    have k := IState.tick_moved hr
    cases h
    refine ⟨rfl, ?_⟩
    dsimp only
    rw [upd_self]
    exact k

/-- The duty cycle sequence of the instrument is known to the state. -/
def IWorld.Pointed (x : Nat) (w : IWorld) : Prop :=
  ∀ i, w.links.owner x = some i → (w.instrs i).sequences 3 ≠ none → ((w.states x).slots 3).seq ≠ none

theorem IWorld.initValues_moved {x : Nat} {w w' : IWorld} {d : Int} (hp : w.Pointed x)
    (h : w.initValues x d = .ok w') : IWorld.Moved x w w' := by
  unfold IWorld.initValues at h
  split at h
  · cases h; exact .refl _ _
  · rename_i i hi
    split at h
    · cases h; exact .refl _ _
    · rename_i id hid
      have hs := hp i hi (by rw [hid]; exact fun h => by cases h)
      obtain ⟨s, e, h⟩ := bind_ok_iff.1 h
      cases h
      refine ⟨rfl, ?_⟩
      dsimp only
      rw [upd_self]
      refine (IState.Moved.refl _).setSlot ?_ (fun h => absurd h hs)
      unfold ISlot.setValue at e
      split at e
      · cases e; rfl
      · obtain ⟨q, -, e⟩ := bind_ok_iff.1 e
        obtain ⟨st, -, e⟩ := bind_ok_iff.1 e
        cases e; rfl

theorem IWorld.attack_moved {x : Nat} {w w' : IWorld} {d : Int} (hp : w.Pointed x)
    (h : w.attack x d = .ok w') : IWorld.Moved x w w' := by
  unfold IWorld.attack at h
  obtain ⟨a, ha, h⟩ := bind_ok_iff.1 h
  exact (IWorld.initValues_moved hp ha).trans (IWorld.setPhase_moved h)

theorem IWorld.initValues_log {x : Nat} {w w' : IWorld} {d : Int} (h : w.initValues x d = .ok w') :
    w'.log = w.log := by
  unfold IWorld.initValues at h
  split at h
  · cases h; rfl
  · split at h
    · cases h; rfl
    · obtain ⟨s, e, h⟩ := bind_ok_iff.1 h
      cases h; rfl

theorem IWorld.setPhase_mutes {x : Nat} {w w' : IWorld} {p : SeqPhase} (h : w.setPhase x p = .ok w') :
    ∀ e ∈ w.news w' x, e = .mute := by
  rcases IWorld.setPhase_news h with e | e <;> rw [e] <;> simp

theorem IWorld.attack_mutes {x : Nat} {w w' : IWorld} {d : Int} (h : w.attack x d = .ok w') :
    ∀ e ∈ w.news w' x, e = .mute := by
  unfold IWorld.attack at h
  obtain ⟨a, ha, h⟩ := bind_ok_iff.1 h
  have := IWorld.setPhase_mutes h
  unfold IWorld.news at this ⊢
  rw [IWorld.initValues_log ha] at this
  exact this

/-! ### The own instrument state changes -/

/-- Current once the sequences are flagged. -/
def Track.Half (x : Nat) (w : IWorld) (p : Part) (t : Track) : Prop := (t.flagSeqs x w).Ok x w p

theorem IWorld.Moved.has {x : Nat} {w w' : IWorld} (h : IWorld.Moved x w w') (k : Nat) :
    w'.hasSeq x k = w.hasSeq x k := by
  unfold IWorld.hasSeq; rw [(h.state k).1]

theorem IWorld.Moved.value {x : Nat} {w w' : IWorld} (h : IWorld.Moved x w w') {k : Nat}
    (hk : w'.hasSeq x k = false) : w'.value x k = w.value x k := by
  rw [h.has k] at hk
  unfold IWorld.hasSeq at hk
  unfold IWorld.value
  rw [(h.state k).2 (by simpa using hk)]

theorem Track.Ok.moved {x : Nat} {w w' : IWorld} {t : Track} {p : Part} (h : t.Ok x w p)
    (hm : IWorld.Moved x w w') : t.Half x w' p := by
  unfold Track.Half
  have on : w'.on x = w.on x := by unfold IWorld.on; rw [hm.owner]
  cases hf : (t.flagSeqs x w').flag p with
  | true => exact Track.Ok.pending hf
  | false =>
    cases p with
    | vol =>
      have hf' : (t.updVolume || w'.hasSeq x 0 || w'.hasSeq x 1) = false := hf
      simp only [Bool.or_eq_false_iff] at hf'
      exact Track.VolOk.same h ⟨Iff.rfl, hf.trans hf'.1.1.symm, rfl, rfl, rfl, rfl, rfl, rfl, rfl, rfl, rfl, rfl,
        on, hm.value hf'.1.2, hm.value hf'.2⟩
    | note =>
      have hf' : (t.updNote || w'.hasSeq x 2) = false := hf
      simp only [Bool.or_eq_false_iff] at hf'
      exact Track.NoteOk.same h ⟨rfl, hf.trans hf'.1.symm, rfl, rfl, rfl, rfl, rfl, rfl, rfl, rfl, rfl, rfl, rfl,
        Or.inl rfl, on, hm.value hf'.2⟩
    | duty =>
      have hf' : (t.updDuty || w'.hasSeq x 3) = false := hf
      simp only [Bool.or_eq_false_iff] at hf'
      exact Track.DutyOk.same h ⟨hf.trans hf'.1.symm, rfl, rfl, on, hm.value hf'.2⟩

theorem Track.Half.told {x : Nat} {w : IWorld} {t t' : Track} {p : Part} (h : t.Half x w p)
    (he : t.told x w .mute = .ok t') : t'.Half x w p := by
  have sb := Track.told_same he
  obtain ⟨a1, a2, a3, a4, a5⟩ := Track.silence_flag he
  unfold Track.Half at h ⊢
  cases hf : (t'.flagSeqs x w).flag p with
  | true => exact Track.Ok.pending hf
  | false =>
    cases p with
    | vol =>
      have e : t'.updVolume = (t.updVolume || w.hasSeq x 0 || w.hasSeq x 1) := a1
      refine Track.VolOk.same h (Track.SameBut.volSame ?_ ?_ a4)
      · exact { sb with }
      · show (t'.updVolume || w.hasSeq x 0 || w.hasSeq x 1) = (t.updVolume || w.hasSeq x 0 || w.hasSeq x 1)
        rw [e]
        cases t.updVolume <;> cases w.hasSeq x 0 <;> cases w.hasSeq x 1 <;> rfl
    | note =>
      have hf' : (t'.updNote || w.hasSeq x 2) = false := hf
      rw [a3] at hf'
      cases hf'
    | duty =>
      have e : t'.updDuty = (t.updDuty || w.hasSeq x 3) := a2
      refine Track.DutyOk.same h (Track.SameBut.dutySame ?_ ?_ a5)
      · exact { sb with }
      · show (t'.updDuty || w.hasSeq x 3) = (t.updDuty || w.hasSeq x 3)
        rw [e]
        cases t.updDuty <;> cases w.hasSeq x 3 <;> rfl

theorem Track.Half.hear {x : Nat} {w w' : IWorld} {t t' : Track} {p : Part} (h : t.Half x w' p)
    (hm : ∀ e ∈ w.news w' x, e = .mute) (he : t.hear x w w' = .ok t') : t'.Half x w' p := by
  unfold Track.hear at he
  revert hm he
  generalize w.news w' x = l
  intro hm he
  induction l generalizing t with
  | nil => cases he; exact h
  | cons e l ih =>
    rw [List.foldlM_cons] at he
    have := hm e (by simp)
    subst this
    obtain ⟨u, hu, he2⟩ := bind_ok_iff.1 he
    exact ih (h.told hu) (fun e' h' => hm e' (by simp [h'])) he2

theorem Track.Ok.instrPhase {x : Nat} {w : IWorld} {t : Track} {p : Part} {q : SeqPhase} {r : IWorld × Track}
    (h : t.Ok x w p) (e : t.instrPhase x w q = .ok r) : r.2.Ok x r.1 p := by
  unfold Track.instrPhase at e
  obtain ⟨w', hw, e⟩ := bind_ok_iff.1 e
  obtain ⟨u, hu, e⟩ := bind_ok_iff.1 e
  have k := (h.moved (IWorld.setPhase_moved hw)).hear (IWorld.setPhase_mutes hw) hu
  cases e
  exact k

theorem Track.Ok.instrDiv {x : Nat} {w : IWorld} {t : Track} {p : Part} (h : t.Ok x w p) (d : DivState) :
    ({ t with instrDiv := d } : Track).Ok x w p := by
  cases p <;> exact h

theorem Track.Ok.instrAttack {x : Nat} {w : IWorld} {t : Track} {p : Part} {r : IWorld × Track}
    (h : t.Ok x w p) (hp : w.Pointed x) (e : t.instrAttack x w = .ok r) : r.2.Ok x r.1 p := by
  unfold Track.instrAttack at e
  obtain ⟨w', hw, e⟩ := bind_ok_iff.1 e
  obtain ⟨u, hu, e⟩ := bind_ok_iff.1 e
  have k := ((h.instrDiv _).moved (IWorld.attack_moved hp hw)).hear (IWorld.attack_mutes hw) hu
  cases e
  exact k

theorem Track.Ok.instrTick {x : Nat} {w : IWorld} {t : Track} {p : Part} {r : IWorld × Track}
    (h : t.Ok x w p) (e : t.instrTick x w = .ok r) : r.2.Ok x r.1 p := by
  unfold Track.instrTick at e
  split at e
  · obtain ⟨d, -, e⟩ := bind_ok_iff.1 e
    obtain ⟨w', hw, e⟩ := bind_ok_iff.1 e
    obtain ⟨u, hu, e⟩ := bind_ok_iff.1 e
    have k := ((h.instrDiv _).moved (IWorld.tick_moved hw)).hear (IWorld.tick_news hw).1 hu
    cases e
    exact k
  · cases e; exact h

/-! ### Notes -/

theorem Track.Ok.notes {x : Nat} {w : IWorld} {t : Track} {p : Part} (h : t.Ok x w p) (hp : p ≠ .note)
    (s : Slide) (n : Int) (a : Arp) : ({ t with note := s, curNote := n, arp := a } : Track).Ok x w p := by
  cases p
  · exact h
  · exact absurd rfl hp
  · exact h

theorem Track.Ok.silence {x : Nat} {w : IWorld} {t t' : Track} {p : Part} (h : t.Ok x w p)
    (e : t.silence = .ok t') : t'.Ok x w p := by
  obtain ⟨a1, a2, a3, a4, a5⟩ := Track.silence_flag e
  have sb := (Track.silence_same e).1
  cases p
  · exact Track.VolOk.same h (sb.volSame a1 a4)
  · exact Track.Ok.pending a3
  · exact Track.DutyOk.same h (sb.dutySame a2 a5)

theorem Track.Ok.setNote {x : Nat} {w : IWorld} {t : Track} {p : Part} {n : Int} {r : IWorld × Track}
    (h : p ≠ .note → t.Ok x w p) (hp : w.Pointed x) (e : t.setNote x w n = .ok r) : r.2.Ok x r.1 p := by
  unfold Track.setNote at e
  obtain ⟨q, hq, e⟩ := bind_ok_iff.1 e
  cases e
  by_cases hn : p = .note
  · subst hn; exact Track.Ok.pending rfl
  have h := h hn
  have k : q.2.Ok x q.1 p := by
    unfold Track.noteCase at hq
    split at hq
    · unfold Track.playNote at hq
      obtain ⟨s, -, hq⟩ := bind_ok_iff.1 hq
      obtain ⟨u, hu, hq⟩ := bind_ok_iff.1 hq
      obtain ⟨a, ha, hq⟩ := bind_ok_iff.1 hq
      obtain ⟨b, hb, hq⟩ := bind_ok_iff.1 hq
      obtain ⟨c, hc, hq⟩ := bind_ok_iff.1 hq
      have k1 : u.2.Ok x u.1 p := by
        unfold Track.startNote at hu
        dsimp only at hu
        split at hu
        · split at hu
          · obtain ⟨z, hz, hu⟩ := bind_ok_iff.1 hu
            have k := Track.Ok.instrAttack (h.notes hn (s.halt true) t.curNote t.arp) hp hz
            cases hu
            exact k.notes hn z.2.note z.2.curNote _
          · cases hu
            exact h.notes hn (s.halt true) t.curNote _
        · cases hu
          exact h.notes hn s t.curNote t.arp
      have k2 : a.Ok x u.1 p := by
        unfold Track.startSample at ha
        split at ha
        · exact k1.setUnit rfl ha
        · cases ha; exact k1
      have k3 := (k2.notes hn a.note (cclamp n 0 (96 * U20)) a.arp).setUnit rfl hb
      have k4 := k3.setUnit rfl hc
      cases hq
      exact k4
    · split at hq
      · unfold Track.releaseNote at hq
        dsimp only at hq
        have h' := h.notes hn t.note (-1) t.arp
        split at hq
        · obtain ⟨u, hu, hq⟩ := bind_ok_iff.1 hq
          obtain ⟨a, ha, hq⟩ := bind_ok_iff.1 hq
          have k := (Track.Ok.instrPhase h' hu).setUnit rfl ha
          cases hq; exact k
        · split at hq
          · obtain ⟨a, ha, hq⟩ := bind_ok_iff.1 hq
            have k := Track.Ok.setUnit h' rfl ha
            cases hq; exact k
          · obtain ⟨a, ha, hq⟩ := bind_ok_iff.1 hq
            have k := Track.Ok.setUnit (h.notes hn (t.note.halt false) (-1) t.arp) rfl ha
            cases hq; exact k
      · split at hq
        · unfold Track.muteNote at hq
          dsimp only at hq
          have h' := h.notes hn (t.note.halt true) (-1) t.arp
          split at hq
          · obtain ⟨u, hu, hq⟩ := bind_ok_iff.1 hq
            obtain ⟨a, ha, hq⟩ := bind_ok_iff.1 hq
            have k := (Track.Ok.instrPhase h' hu).silence ha
            cases hq; exact k
          · rw [ok_bind] at hq
            obtain ⟨a, ha, hq⟩ := bind_ok_iff.1 hq
            have k := Track.Ok.silence h' ha
            cases hq; exact k
        · cases hq; exact h
  cases p
  · exact k
  · exact absurd rfl hn
  · exact k

theorem Track.setInstrument_ok {x : Nat} {w : IWorld} {t : Track} {p : Part} {i : Option Nat} {r : IWorld × Track}
    (e : t.setInstrument x w i = .ok r) : r.2.Ok x r.1 p := by
  unfold Track.setInstrument at e
  dsimp only at e
  split at e
  · obtain ⟨q, -, e⟩ := bind_ok_iff.1 e
    cases e; exact Track.Ok.flagAll
  · cases e; exact Track.Ok.flagAll

/-! ### Effects and ticks -/

theorem Track.Ok.setEffect {x : Nat} {w : IWorld} {t t' : Track} {p : Part} {e : Effect} {vals : List Int}
    (h : t.Ok x w p) (he : t.setEffect e vals = .ok t') : t'.Ok x w p := by
  cases e <;> unfold Track.setEffect at he <;> dsimp only at he
  · obtain ⟨s, -, he⟩ := bind_ok_iff.1 he
    cases he
    cases p
    · exact Track.Ok.pending rfl
    · exact h
    · exact h
  · obtain ⟨s, -, he⟩ := bind_ok_iff.1 he
    cases he
    cases p
    · exact Track.Ok.pending rfl
    · exact h
    · exact h
  · obtain ⟨s, -, he⟩ := bind_ok_iff.1 he
    cases he
    cases p
    · exact h
    · exact Track.Ok.pending rfl
    · exact h
  · obtain ⟨d, -, he⟩ := bind_ok_iff.1 he
    obtain ⟨n, -, he⟩ := bind_ok_iff.1 he
    split at he
    · obtain ⟨o, -, he⟩ := bind_ok_iff.1 he
      cases he
      cases p
      · exact Track.Ok.pending rfl
      · exact h
      · exact h
    · cases he
      cases p
      · exact Track.Ok.pending rfl
      · exact h
      · exact h
  · obtain ⟨d, -, he⟩ := bind_ok_iff.1 he
    obtain ⟨n, -, he⟩ := bind_ok_iff.1 he
    split at he
    · obtain ⟨o, -, he⟩ := bind_ok_iff.1 he
      cases he
      cases p
      · exact h
      · exact Track.Ok.pending rfl
      · exact h
    · cases he
      cases p
      · exact h
      · exact Track.Ok.pending rfl
      · exact h

/-- Part that an effect changes. -/
def Effect.part : Effect → Part
  | .volumeSlide | .panningSlide | .tremolo => .vol
  | .portamento | .vibrato => .note

theorem Track.setEffect_ok {x : Nat} {w : IWorld} {t t' : Track} {e : Effect} {vals : List Int}
    (he : t.setEffect e vals = .ok t') : t'.Ok x w e.part := by
  cases e <;> unfold Track.setEffect at he <;> dsimp only at he
  · obtain ⟨s, -, he⟩ := bind_ok_iff.1 he
    cases he; exact Track.Ok.pending rfl
  · obtain ⟨s, -, he⟩ := bind_ok_iff.1 he
    cases he; exact Track.Ok.pending rfl
  · obtain ⟨s, -, he⟩ := bind_ok_iff.1 he
    cases he; exact Track.Ok.pending rfl
  · obtain ⟨d, -, he⟩ := bind_ok_iff.1 he
    obtain ⟨n, -, he⟩ := bind_ok_iff.1 he
    split at he
    · obtain ⟨o, -, he⟩ := bind_ok_iff.1 he
      cases he; exact Track.Ok.pending rfl
    · cases he; exact Track.Ok.pending rfl
  · obtain ⟨d, -, he⟩ := bind_ok_iff.1 he
    obtain ⟨n, -, he⟩ := bind_ok_iff.1 he
    split at he
    · obtain ⟨o, -, he⟩ := bind_ok_iff.1 he
      cases he; exact Track.Ok.pending rfl
    · cases he; exact Track.Ok.pending rfl

theorem Track.Ok.flagEffects {x : Nat} {w : IWorld} {t : Track} {p : Part} (h : t.Ok x w p) :
    t.flagEffects.Ok x w p := by
  cases hf : t.flagEffects.flag p with
  | true => exact Track.Ok.pending hf
  | false =>
    cases p with
    | vol =>
      have hf' : (t.updVolume || t.volumeSlide || t.panningSlide || t.tremoloOn) = false := hf
      simp only [Bool.or_eq_false_iff] at hf'
      exact Track.VolOk.same h ⟨Iff.rfl, hf.trans hf'.1.1.1.symm, rfl, rfl, rfl, rfl, rfl, rfl, rfl, rfl, rfl, rfl,
        rfl, rfl, rfl⟩
    | note =>
      have hf' : (t.updNote || t.portamento || t.vibratoOn) = false := hf
      simp only [Bool.or_eq_false_iff] at hf'
      exact Track.NoteOk.same h ⟨rfl, hf.trans hf'.1.1.symm, rfl, rfl, rfl, rfl, rfl, rfl, rfl, rfl, rfl, rfl, rfl,
        Or.inl rfl, rfl, rfl⟩
    | duty => exact h

theorem Track.Ok.arpeggioTick {x : Nat} {w : IWorld} {t t' : Track} {p : Part} (h : t.Ok x w p)
    (e : t.arpeggioTick = .ok t') : t'.Ok x w p := by
  unfold Track.arpeggioTick at e
  split at e
  · obtain ⟨d, -, e⟩ := bind_ok_iff.1 e
    dsimp only at e
    split at e
    · obtain ⟨a, -, e⟩ := bind_ok_iff.1 e
      cases e
      cases p
      · exact h
      · exact Track.Ok.pending rfl
      · exact h
    · cases e
      cases p <;> exact h
  · cases e; exact h

theorem Slide.tickIf_false {s s' : Slide} (h : s.tickIf false = .ok s') : s' = s := by
  cases h; rfl

theorem tickOsc_false {o : Osc} {d n : Slide} {r : Osc × Slide × Slide} (h : tickOsc false o d n = .ok r) :
    r = (o, d, n) := by
  cases h; rfl

theorem Track.Ok.effectsTick {x : Nat} {w : IWorld} {t t' : Track} {p : Part} (h : t.Ok x w p)
    (e : t.effectsTick = .ok t') : t'.Ok x w p := by
  unfold Track.effectsTick at e
  split at e
  · obtain ⟨d, -, e⟩ := bind_ok_iff.1 e
    dsimp only at e
    split at e
    · unfold Track.effectTick at e
      obtain ⟨n, hn, e⟩ := bind_ok_iff.1 e
      obtain ⟨v, hv, e⟩ := bind_ok_iff.1 e
      obtain ⟨q, hq, e⟩ := bind_ok_iff.1 e
      obtain ⟨a, ha, e⟩ := bind_ok_iff.1 e
      obtain ⟨b, hb, e⟩ := bind_ok_iff.1 e
      cases e
      dsimp only at hn hv hq ha hb
      cases p with
      | vol =>
        intro h1 h2 h3 h4 h5
        have h3 : t.volumeSlide = false := h3
        have h4 : t.panningSlide = false := h4
        have h5 : t.tremoloOn = false := h5
        rw [h3] at hv; rw [h4] at hq; rw [h5] at ha
        have e1 := Slide.tickIf_false hv
        have e2 := Slide.tickIf_false hq
        have e3 := tickOsc_false ha
        subst e1; subst e2; subst e3
        exact h h1 h2 h3 h4 h5
      | note =>
        intro h1 h2 h3
        have h2 : t.portamento = false := h2
        have h3 : t.vibratoOn = false := h3
        rw [h2] at hn; rw [h3] at hb
        have e1 := Slide.tickIf_false hn
        have e3 := tickOsc_false hb
        subst e1; subst e3
        exact h h1 h2 h3
      | duty => exact h
    · cases e
      cases p <;> exact h
  · cases e; exact h

theorem Track.Ok.tick {x : Nat} {w : IWorld} {t : Track} {p : Part} {r : IWorld × Track} (h : t.Ok x w p)
    (e : t.tick x w = .ok r) : r.2.Ok x r.1 p := by
  unfold Track.tick at e
  obtain ⟨a, ha, e⟩ := bind_ok_iff.1 e
  obtain ⟨b, hb, e⟩ := bind_ok_iff.1 e
  obtain ⟨c, hc, e⟩ := bind_ok_iff.1 e
  obtain ⟨d, hd, e⟩ := bind_ok_iff.1 e
  have k := (((h.flagEffects.arpeggioTick ha).instrTick hb).updateUnit hc).effectsTick hd
  cases e
  exact k

end BK
