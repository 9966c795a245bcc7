import Verif.Lemmas.Current4
/-!
All calls on tracks and instruments keep the parts of all units current.
-/
namespace BK

/-! ### Calls on one track do not reach the instrument states of others -/

theorem Track.instrPhase_touches {x : Nat} {w : IWorld} {t : Track} {q : SeqPhase} {r : IWorld × Track}
    (e : t.instrPhase x w q = .ok r) : Touches x w r.1 := by
  unfold Track.instrPhase at e
  obtain ⟨w', hw, e⟩ := bind_ok_iff.1 e
  obtain ⟨u, hu, e⟩ := bind_ok_iff.1 e
  cases e
  exact setPhase_touches hw

theorem Track.instrAttack_touches {x : Nat} {w : IWorld} {t : Track} {r : IWorld × Track}
    (e : t.instrAttack x w = .ok r) : Touches x w r.1 := by
  unfold Track.instrAttack at e
  obtain ⟨w', hw, e⟩ := bind_ok_iff.1 e
  obtain ⟨u, hu, e⟩ := bind_ok_iff.1 e
  cases e
  exact attack_touches hw

theorem Track.setNote_touches {x : Nat} {w : IWorld} {t : Track} {n : Int} {r : IWorld × Track}
    (e : t.setNote x w n = .ok r) : Touches x w r.1 := by
  unfold Track.setNote at e
  obtain ⟨q, hq, e⟩ := bind_ok_iff.1 e
  cases e
  unfold Track.noteCase at hq
  split at hq
  · unfold Track.playNote at hq
    obtain ⟨s, -, hq⟩ := bind_ok_iff.1 hq
    obtain ⟨u, hu, hq⟩ := bind_ok_iff.1 hq
    obtain ⟨a, ha, hq⟩ := bind_ok_iff.1 hq
    obtain ⟨b, hb, hq⟩ := bind_ok_iff.1 hq
    obtain ⟨c, hc, hq⟩ := bind_ok_iff.1 hq
    cases hq
    unfold Track.startNote at hu
    dsimp only at hu
    split at hu
    · split at hu
      · obtain ⟨z, hz, hu⟩ := bind_ok_iff.1 hu
        have k := Track.instrAttack_touches hz
        cases hu
        exact k
      · cases hu
        exact .refl _ _
    · cases hu
      exact .refl _ _
  · split at hq
    · unfold Track.releaseNote at hq
      dsimp only at hq
      split at hq
      · obtain ⟨u, hu, hq⟩ := bind_ok_iff.1 hq
        obtain ⟨a, ha, hq⟩ := bind_ok_iff.1 hq
        have k := Track.instrPhase_touches hu
        cases hq; exact k
      · split at hq
        · obtain ⟨a, ha, hq⟩ := bind_ok_iff.1 hq
          cases hq; exact .refl _ _
        · obtain ⟨a, ha, hq⟩ := bind_ok_iff.1 hq
          cases hq; exact .refl _ _
    · split at hq
      · unfold Track.muteNote at hq
        dsimp only at hq
        split at hq
        · obtain ⟨u, hu, hq⟩ := bind_ok_iff.1 hq
          obtain ⟨a, ha, hq⟩ := bind_ok_iff.1 hq
          have k := Track.instrPhase_touches hu
          cases hq; exact k
        · rw [ok_bind] at hq
          obtain ⟨a, ha, hq⟩ := bind_ok_iff.1 hq
          cases hq; exact .refl _ _
      · cases hq; exact .refl _ _

theorem Track.setInstrument_touches {x : Nat} {w : IWorld} {t : Track} {i : Option Nat} {r : IWorld × Track}
    (e : t.setInstrument x w i = .ok r) : Touches x w r.1 := by
  unfold Track.setInstrument at e
  dsimp only at e
  split at e
  · obtain ⟨q, hq, e⟩ := bind_ok_iff.1 e
    cases e
    dsimp only
    cases i with
    | none =>
      unfold Track.changeInstrument at hq
      dsimp only at hq
      obtain ⟨w1, h1, hq⟩ := bind_ok_iff.1 hq
      have k := BK.setInstrument_touches h1
      split at hq
      · have k' := Track.setNote_touches hq
        exact k.trans k'
      · cases hq; exact k
    | some i =>
      unfold Track.changeInstrument at hq
      dsimp only at hq
      obtain ⟨w1, h1, hq⟩ := bind_ok_iff.1 hq
      obtain ⟨w2, h2, hq⟩ := bind_ok_iff.1 hq
      have k := (BK.setInstrument_touches h1).trans (initValues_touches h2)
      split at hq
      · have k' := Track.instrPhase_touches hq
        exact k.trans k'
      · have k' := Track.instrAttack_touches hq
        exact k.trans k'
  · cases e; exact .refl _ _

theorem Track.setAttr_touches {x : Nat} {w : IWorld} {t : Track} {a : TAttr} {v : Int} {r : Ret × IWorld × Track}
    (e : t.setAttr x w a v = .ok r) : Touches x w r.2.1 := by
  cases a with
  | note =>
    obtain ⟨q, hq, e⟩ := bind_ok_iff.1 e
    have k := Track.setNote_touches hq
    cases e; exact k
  | slide ef =>
    unfold Track.setAttr at e
    dsimp only at e
    split at e
    · cases e; exact .refl _ _
    · obtain ⟨u, hu, e⟩ := bind_ok_iff.1 e
      cases e; exact .refl _ _
  | _ =>
    first
    | (cases e; exact .refl _ _; done)
    | (obtain ⟨q, hq, e⟩ := bind_ok_iff.1 e
       cases e; exact .refl _ _)

theorem IWorld.wipe_touches (x : Nat) (w : IWorld) : Touches x w (w.wipe x) :=
  ⟨rfl, rfl, fun _ _ => rfl, fun _ hz => upd_ne _ _ hz, fun _ _ => rfl⟩

theorem Track.clear_touches {x : Nat} {w : IWorld} {t : Track} {r : IWorld × Track}
    (h : t.clear x w = .ok r) : Touches x w r.1 := by
  unfold Track.clear at h
  obtain ⟨u, hu, h⟩ := bind_ok_iff.1 h
  obtain ⟨r1, h1, h⟩ := bind_ok_iff.1 h
  dsimp only at h
  obtain ⟨r2, h2, h⟩ := bind_ok_iff.1 h
  obtain ⟨r3, h3, h⟩ := bind_ok_iff.1 h
  obtain ⟨r4, h4, h⟩ := bind_ok_iff.1 h
  obtain ⟨r5, h5, h⟩ := bind_ok_iff.1 h
  obtain ⟨r6, h6, h⟩ := bind_ok_iff.1 h
  obtain ⟨r7, h7, h⟩ := bind_ok_iff.1 h
  cases h
  exact (((Track.setInstrument_touches h1).trans (IWorld.wipe_touches x _)).trans
    (Track.setAttr_touches h6)).trans (Track.setAttr_touches h7)

theorem Track.reset_touches {x : Nat} {w : IWorld} {t : Track} {r : IWorld × Track}
    (h : t.reset x w = .ok r) : Touches x w r.1 := by
  unfold Track.reset at h
  obtain ⟨u, -, h⟩ := bind_ok_iff.1 h
  obtain ⟨q, hq, h⟩ := bind_ok_iff.1 h
  exact (Track.setAttr_touches hq).trans (Track.clear_touches h)

theorem Track.init_touches {x : Nat} {w : IWorld} {v : Int} {r : IWorld × Track}
    (h : Track.init x w v = .ok r) : Touches x w r.1 := by
  unfold Track.init at h
  obtain ⟨u, -, h⟩ := bind_ok_iff.1 h
  obtain ⟨q, hq, h⟩ := bind_ok_iff.1 h
  exact (Track.setAttr_touches hq).trans (Track.reset_touches h)

theorem Track.tick_touches {x : Nat} {w : IWorld} {t : Track} {r : IWorld × Track}
    (e : t.tick x w = .ok r) : Touches x w r.1 := by
  unfold Track.tick at e
  obtain ⟨a, ha, e⟩ := bind_ok_iff.1 e
  obtain ⟨b, hb, e⟩ := bind_ok_iff.1 e
  obtain ⟨c, hc, e⟩ := bind_ok_iff.1 e
  obtain ⟨d, hd, e⟩ := bind_ok_iff.1 e
  cases e
  unfold Track.instrTick at hb
  split at hb
  · obtain ⟨d, -, hb⟩ := bind_ok_iff.1 hb
    obtain ⟨w', hw, hb⟩ := bind_ok_iff.1 hb
    obtain ⟨u, hu, hb⟩ := bind_ok_iff.1 hb
    cases hb
    exact BK.tick_touches hw
  · cases hb; exact .refl _ _

theorem Track.exec_touches {x : Nat} {w : IWorld} {t : Track} {op : TOp} {r : IWorld × Track}
    (e : t.exec x w op = .ok r) : Touches x w r.1 := by
  cases op with
  | attr a v =>
    obtain ⟨q, hq, e⟩ := bind_ok_iff.1 e
    have k := Track.setAttr_touches hq
    cases e; exact k
  | instrument i => exact Track.setInstrument_touches e
  | clear => exact Track.clear_touches e
  | reset => exact Track.reset_touches e
  | tick => exact Track.tick_touches e
  | _ =>
    first
    | (cases e; exact .refl _ _; done)
    | (obtain ⟨q, hq, e⟩ := bind_ok_iff.1 e
       cases e; exact .refl _ _)

/-! ### Calls on instruments tell every track that they reach -/

/-- Tracks whose instrument state changes are told so. -/
def IWorld.Informs (w w' : IWorld) : Prop :=
  ∃ l, w'.log = w.log ++ l ∧ ∀ y, (∃ e, (y, e) ∈ l ∧ e ≠ .mute) ∨
    (w'.links.owner y = w.links.owner y ∧ w'.states y = w.states y)

theorem IWorld.Informs.refl (w : IWorld) : w.Informs w := ⟨[], by simp, fun _ => Or.inr ⟨rfl, rfl⟩⟩

theorem IWorld.Informs.trans {a b c : IWorld} (h : a.Informs b) (h' : b.Informs c) : a.Informs c := by
  obtain ⟨l, e, h⟩ := h
  obtain ⟨l', e', h'⟩ := h'
  refine ⟨l ++ l', by rw [e', e, List.append_assoc], fun y => ?_⟩
  rcases h y with ⟨ev, h1, h2⟩ | ⟨h1, h2⟩
  · exact Or.inl ⟨ev, List.mem_append_left _ h1, h2⟩
  · rcases h' y with ⟨ev, h3, h4⟩ | ⟨h3, h4⟩
    · exact Or.inl ⟨ev, List.mem_append_right _ h3, h4⟩
    · exact Or.inr ⟨h3.trans h1, h4.trans h2⟩

theorem IWorld.disposeBody_informs {w w' : IWorld} {x : Nat} (h : w.disposeBody x = .ok w') : w.Informs w' := by
  unfold IWorld.disposeBody at h
  dsimp only at h
  obtain ⟨a, ha, h⟩ := bind_ok_iff.1 h
  have k := (setInstrument_touches ha).trans (setInstrument_touches h)
  have e : w'.log = w.log ++ [(x, InstrEvent.dispose)] := by
    cases ha; cases h; rfl
  refine ⟨[(x, .dispose)], e, fun y => ?_⟩
  by_cases hy : y = x
  · subst hy; exact Or.inl ⟨.dispose, by simp, by decide⟩
  · exact Or.inr ⟨k.owner y hy, k.states y hy⟩

theorem IWorld.forBefore_informs {body : IWorld → Nat → C IWorld}
    (hb : ∀ w x w', body w x = .ok w' → w.Informs w') :
    ∀ (fuel : Nat) {w w' : IWorld} {s : Option Nat}, IWorld.forBefore body fuel w s = .ok w' → w.Informs w'
  | 0, w, w', none, h => by cases h; exact .refl _
  | 0, w, w', some x, h => by cases h
  | n + 1, w, w', none, h => by cases h; exact .refl _
  | n + 1, w, w', some x, h => by
    unfold IWorld.forBefore at h
    dsimp only at h
    obtain ⟨a, ha, h⟩ := bind_ok_iff.1 h
    exact (hb _ _ _ ha).trans (IWorld.forBefore_informs hb n h)

theorem IWorld.detach_informs {w w' : IWorld} {fuel i : Nat} (h : w.detach fuel i = .ok w') : w.Informs w' :=
  IWorld.forBefore_informs (fun _ _ _ h => IWorld.disposeBody_informs h) fuel h

theorem IWorld.dispose_informs {w w' : IWorld} {fuel i : Nat} (h : w.dispose fuel i = .ok w') : w.Informs w' := by
  unfold IWorld.dispose at h
  obtain ⟨a, ha, h⟩ := bind_ok_iff.1 h
  obtain ⟨b, hb, h⟩ := bind_ok_iff.1 h
  have k := IWorld.detach_informs ha
  cases h
  exact k

/-- States visited by a loop. -/
def Links.visits (L : Links) : Nat → Option Nat → List Nat
  | _, none => []
  | 0, some _ => []
  | n + 1, some x => x :: Links.visits L n (L.next x)

/-- Only the states in `l` change. -/
structure IWorld.Within (l : List Nat) (w w' : IWorld) : Prop where
  links : w'.links = w.links
  log : ∃ m, w'.log = w.log ++ m
  states : ∀ y, y ∉ l → w'.states y = w.states y

theorem IWorld.Within.refl (l : List Nat) (w : IWorld) : IWorld.Within l w w :=
  ⟨rfl, ⟨[], by simp⟩, fun _ _ => rfl⟩

theorem IWorld.Within.trans {l : List Nat} {a b c : IWorld} (h : IWorld.Within l a b) (h' : IWorld.Within l b c) :
    IWorld.Within l a c := by
  obtain ⟨m, hm⟩ := h.log
  obtain ⟨m', hm'⟩ := h'.log
  exact ⟨h'.links.trans h.links, ⟨m ++ m', by rw [hm', hm, List.append_assoc]⟩,
    fun y hy => (h'.states y hy).trans (h.states y hy)⟩

theorem IWorld.forAfter_within {body : IWorld → Nat → C IWorld}
    (hb : ∀ w x w', body w x = .ok w' → IWorld.Within [x] w w') :
    ∀ (fuel : Nat) {w w' : IWorld} {s : Option Nat}, IWorld.forAfter body fuel w s = .ok w' →
      IWorld.Within (w.links.visits fuel s) w w'
  | 0, w, w', none, h => by cases h; exact .refl _ _
  | 0, w, w', some x, h => by cases h
  | n + 1, w, w', none, h => by cases h; exact .refl _ _
  | n + 1, w, w', some x, h => by
    unfold IWorld.forAfter at h
    obtain ⟨a, ha, h⟩ := bind_ok_iff.1 h
    have k := hb _ _ _ ha
    have k' := IWorld.forAfter_within hb n h
    rw [k.links] at k'
    unfold Links.visits
    refine IWorld.Within.trans (b := a) ⟨k.links, k.log, fun y hy => k.states y fun e => hy ?_⟩
      ⟨k'.links, k'.log, fun y hy => k'.states y fun e => hy (List.mem_cons_of_mem _ e)⟩
    rw [List.mem_singleton.1 e]; exact List.mem_cons_self

theorem IWorld.pointBody_within {slot : Nat} {id : Option Nat} {w w' : IWorld} {x : Nat}
    (h : IWorld.pointBody slot id w x = .ok w') : IWorld.Within [x] w w' := by
  cases h
  exact ⟨rfl, ⟨[], by simp⟩, fun y hy => upd_ne _ _ (by simpa using hy)⟩

theorem IWorld.muteBody_within {w w' : IWorld} {x : Nat}
    (h : IWorld.muteBody w x = .ok w') : IWorld.Within [x] w w' := by
  unfold IWorld.muteBody at h
  obtain ⟨s, -, h⟩ := bind_ok_iff.1 h
  refine IWorld.Within.trans (b := { w with states := upd w.states x s })
    ⟨rfl, ⟨[], by simp⟩, fun y hy => upd_ne _ _ (by simpa using hy)⟩ ?_
  unfold IWorld.setPhase at h
  split at h
  · cases h; exact .refl _ _
  · obtain ⟨r, -, h⟩ := bind_ok_iff.1 h
    cases h
    exact ⟨rfl, ⟨_, rfl⟩, fun y hy => upd_ne _ _ (by simpa using hy)⟩

theorem IWorld.resets {fuel : Nat} : ∀ {w w' : IWorld} {s : Option Nat},
    IWorld.forBefore IWorld.resetBody fuel w s = .ok w' → w'.links = w.links ∧ w'.states = w.states ∧
      w'.log = w.log ++ (w.links.visits fuel s).map fun y => (y, InstrEvent.reset) := by
  induction fuel with
  | zero =>
    intro w w' s h
    cases s with
    | none => cases h; exact ⟨rfl, rfl, by simp [Links.visits]⟩
    | some x => cases h
  | succ n ih =>
    intro w w' s h
    cases s with
    | none => cases h; exact ⟨rfl, rfl, by simp [Links.visits]⟩
    | some x =>
      unfold IWorld.forBefore at h
      dsimp only at h
      obtain ⟨a, ha, h⟩ := bind_ok_iff.1 h
      cases ha
      obtain ⟨h1, h2, h3⟩ := ih h
      refine ⟨h1, h2, ?_⟩
      rw [h3]
      dsimp only
      rw [Links.visits, List.map_cons, List.append_assoc]
      rfl

theorem IWorld.replace_informs {w w' : IWorld} {fuel i slot : Nat} {q : Option Sequence}
    (h : w.replace fuel i slot q = .ok w') : w.Informs w' := by
  unfold IWorld.replace at h
  dsimp only at h
  have e1 : (w.store q).2.links = w.links ∧ (w.store q).2.states = w.states ∧ (w.store q).2.log = w.log := by
    unfold IWorld.store; cases q <;> exact ⟨rfl, rfl, rfl⟩
  generalize (w.store q).2 = w0 at h e1
  obtain ⟨hp, -, h⟩ := bind_ok_iff.1 h
  obtain ⟨a, ha, h⟩ := bind_ok_iff.1 h
  obtain ⟨b, hb, h⟩ := bind_ok_iff.1 h
  have k1 := IWorld.forAfter_within (fun _ _ _ h => IWorld.pointBody_within h) fuel ha
  have k2 := IWorld.forAfter_within (fun _ _ _ h => IWorld.muteBody_within h) fuel hb
  obtain ⟨h1, h2, h3⟩ := IWorld.resets h
  have l1 : a.links = w0.links := k1.links
  have l2 : b.links = w0.links := k2.links.trans l1
  obtain ⟨m1, hm1⟩ := k1.log
  obtain ⟨m2, hm2⟩ := k2.log
  dsimp only at hm1 hm2
  rw [hm2, hm1, e1.2.2, l2, List.append_assoc, List.append_assoc] at h3
  refine ⟨_, h3, fun y => ?_⟩
  by_cases hy : y ∈ w0.links.visits fuel (w0.links.first i)
  · left
    refine ⟨.reset, ?_, by decide⟩
    exact List.mem_append_right _ (List.mem_append_right _ (List.mem_map.2 ⟨y, hy, rfl⟩))
  · right
    refine ⟨by rw [h1, l2, e1.1], ?_⟩
    rw [h2]
    have s1 := k1.states y hy
    have s2 := k2.states y (by dsimp only; rw [l1]; exact hy)
    rw [s2]
    dsimp only
    rw [s1]
    dsimp only
    rw [e1.2.1]

theorem IWorld.setSequence_informs {w : IWorld} {fuel i slot : Nat} {new : NewSeq} {r : Bool × IWorld}
    (h : w.setSequence fuel i slot new = .ok r) : w.Informs r.2 := by
  unfold IWorld.setSequence at h
  split at h
  · obtain ⟨q, -, h⟩ := bind_ok_iff.1 h
    cases q with
    | none => cases h; exact .refl _
    | some q =>
      dsimp only at h
      obtain ⟨a, ha, h⟩ := bind_ok_iff.1 h
      cases h
      exact IWorld.replace_informs ha
  · cases h; exact .refl _

/-! ### Sequences of calls -/

theorem TWorld.hear_ok {s s' : TWorld} {iw : IWorld} {x : Nat} {p : Part} (hi : s.iw.Informs iw)
    (h : s.hear iw = .ok s') (hs : ∀ t, s.tracks x = some t → t.Ok x s.iw p) :
    ∀ t, s'.tracks x = some t → t.Ok x s'.iw p := by
  unfold TWorld.hear at h
  obtain ⟨ts, hts, h⟩ := bind_ok_iff.1 h
  cases h
  dsimp only
  obtain ⟨l, hl, hi⟩ := hi
  rw [hl, List.drop_left] at hts
  have key : ∀ (l : List (Nat × InstrEvent)) (ts0 ts : Nat → Option Track),
      l.foldlM (TWorld.tell iw) ts0 = .ok ts →
      ((∃ e, (x, e) ∈ l ∧ e ≠ .mute) ∨ ∀ t, ts0 x = some t → t.Ok x iw p) → ∀ t, ts x = some t → t.Ok x iw p := by
    intro l
    induction l with
    | nil =>
      intro ts0 ts h h0
      cases h
      rcases h0 with ⟨e, he, -⟩ | h0
      · cases he
      · exact h0
    | cons e l ih =>
      intro ts0 ts h h0
      rw [List.foldlM_cons] at h
      obtain ⟨ts1, h1, h⟩ := bind_ok_iff.1 h
      refine ih ts1 ts h ?_
      unfold TWorld.tell at h1
      by_cases hx : e.1 = x
      · split at h1
        · rename_i hn
          cases h1
          right
          intro t ht
          rw [hx, ht] at hn
          cases hn
        · rename_i t0 ht0
          obtain ⟨t1, ht1, h1⟩ := bind_ok_iff.1 h1
          cases h1
          rw [hx] at ht1 ht0
          by_cases hm : e.2 = .mute
          · rcases h0 with ⟨e', he', hn⟩ | h0
            · rcases List.mem_cons.1 he' with he' | he'
              · rw [← he'] at hm; exact absurd hm hn
              · exact Or.inl ⟨e', he', hn⟩
            · right
              intro t ht
              rw [hx, upd_self] at ht
              cases ht
              exact (h0 t0 ht0).told ht1
          · right
            intro t ht
            rw [hx, upd_self] at ht
            cases ht
            exact Track.told_ok hm ht1
      · have hsame : ts1 x = ts0 x := by
          split at h1
          · cases h1; rfl
          · obtain ⟨t1, ht1, h1⟩ := bind_ok_iff.1 h1
            cases h1
            exact upd_ne _ _ (fun h => hx h.symm)
        rcases h0 with ⟨e', he', hn⟩ | h0
        · rcases List.mem_cons.1 he' with he' | he'
          · rw [← he'] at hx; exact absurd rfl hx
          · exact Or.inl ⟨e', he', hn⟩
        · right
          rw [hsame]
          exact h0
  refine key l _ _ hts ?_
  rcases hi x with he | ⟨h1, h2⟩
  · exact Or.inl he
  · exact Or.inr fun t ht => (hs t ht).world h1 h2

theorem IWorld.Good.pointed {n : Nat} {w : IWorld} (h : w.Good n) (x : Nat) : w.Pointed x := by
  obtain ⟨A, h, -⟩ := h
  intro i hi hs
  rw [(h.inv.att x i hi).has.pt 3 (by decide)]
  exact hs

theorem TWorld.exec_ok {fuel : Nat} {s s' : TWorld} {x : Nat} {p : Part} {op : WOp} {b : Bool}
    (hp : s.iw.Pointed x) (hs : b = false → ∀ t, s.tracks x = some t → t.Ok x s.iw p)
    (e : s.exec fuel op = .ok s') (hb : op.stale x p b = false) : ∀ t, s'.tracks x = some t → t.Ok x s'.iw p := by
  cases op with
  | init y wf =>
    have hs := hs hb
    unfold TWorld.exec at e
    dsimp only at e
    split at e
    · cases e; exact hs
    · obtain ⟨r, hr, e⟩ := bind_ok_iff.1 e
      cases e
      intro t ht
      dsimp only at ht ⊢
      by_cases hx : x = y
      · subst hx
        rw [upd_self] at ht
        cases ht
        exact (Track.init_flagged hr).ok p
      · rw [upd_ne _ _ hx] at ht
        have k := Track.init_touches hr
        exact (hs t ht).world (k.owner x hx) (k.states x hx)
  | track y op =>
    unfold TWorld.exec at e
    dsimp only at e
    unfold WOp.stale at hb
    dsimp only at hb
    split at e
    · rename_i hn
      cases e
      intro t ht
      have hx : y ≠ x := fun h => by rw [h, ht] at hn; cases hn
      rw [if_neg hx] at hb
      exact hs hb t ht
    · rename_i u hu
      obtain ⟨r, hr, e⟩ := bind_ok_iff.1 e
      cases e
      intro t ht
      dsimp only at ht ⊢
      by_cases hx : x = y
      · subst hx
        rw [upd_self] at ht
        cases ht
        rw [if_pos rfl] at hb
        refine Track.Ok.exec hp ?_ hr
        cases hren : op.renews p with
        | true => exact Or.inl rfl
        | false =>
          rw [hren] at hb
          simp only [Bool.false_eq_true, if_false, Bool.or_eq_false_iff] at hb
          exact Or.inr ⟨hs hb.1 u hu, hb.2⟩
      · rw [upd_ne _ _ hx] at ht
        rw [if_neg (fun h => hx h.symm)] at hb
        have k := Track.exec_touches hr
        exact (hs hb t ht).world (k.owner x hx) (k.states x hx)
  | setSequence i slot new =>
    obtain ⟨r, hr, e⟩ := bind_ok_iff.1 e
    exact TWorld.hear_ok (IWorld.setSequence_informs hr) e (hs hb)
  | detachInstr i =>
    obtain ⟨r, hr, e⟩ := bind_ok_iff.1 e
    exact TWorld.hear_ok (IWorld.detach_informs hr) e (hs hb)
  | disposeInstr i =>
    obtain ⟨r, hr, e⟩ := bind_ok_iff.1 e
    exact TWorld.hear_ok (IWorld.dispose_informs hr) e (hs hb)

theorem TWorld.run_ok {N fuel : Nat} {x : Nat} {p : Part} : ∀ (ops : List WOp) {n : Nat} {s s' : TWorld} {b : Bool},
    s.Inv n N → n + ops.length ≤ fuel → s.LegalRun N fuel ops →
    (b = false → ∀ t, s.tracks x = some t → t.Ok x s.iw p) → s.run fuel ops = .ok s' →
    ops.foldl (WOp.stale x p) b = false → ∀ t, s'.tracks x = some t → t.Ok x s'.iw p
  | [], n, s, s', b, _, _, _, hs, h, hb => by cases h; exact hs hb
  | op :: ops, n, s, s', b, hi, hf, hl, hs, h, hb => by
    unfold TWorld.run at h
    rw [List.length_cons] at hf
    obtain ⟨s1, h1, h⟩ := bind_ok_iff.1 h
    have k := hi.exec (fuel := fuel) (by omega) hl.1
    rw [h1] at k
    exact TWorld.run_ok ops k (by omega) (hl.2 s1 h1)
      (fun hb1 => TWorld.exec_ok (hi.good.pointed x) hs h1 hb1) h hb

/-! ### No update is left after rendering -/

theorem Track.setUnit_flags {t t' : Track} {a : UAttr} {v : Int} (h : t.setUnit a v = .ok t') :
    t'.updVolume = t.updVolume ∧ t'.updNote = t.updNote ∧ t'.updDuty = t.updDuty := by
  obtain ⟨r, hr, rfl⟩ := Track.setUnit_eq h
  exact ⟨rfl, rfl, rfl⟩

theorem Track.updateNote_flags {x : Nat} {w : IWorld} {t t' : Track} (h : t.updateNote x w = .ok t') :
    t'.updVolume = t.updVolume ∧ t'.updDuty = t.updDuty := by
  unfold Track.updateNote at h
  split at h
  · cases h; exact ⟨rfl, rfl⟩
  · obtain ⟨n, hn, h⟩ := bind_ok_iff.1 h
    split at h
    · obtain ⟨p, hp, h⟩ := bind_ok_iff.1 h
      obtain ⟨q, hq, h⟩ := bind_ok_iff.1 h
      exact ⟨(Track.setUnit_flags h).1, (Track.setUnit_flags h).2.2⟩
    · obtain ⟨p, hp, h⟩ := bind_ok_iff.1 h
      obtain ⟨q, hq, h⟩ := bind_ok_iff.1 h
      exact ⟨(Track.setUnit_flags h).1, (Track.setUnit_flags h).2.2⟩

theorem Track.updateUnit_clean {x : Nat} {w : IWorld} {t t' : Track} (h : t.updateUnit x w = .ok t') :
    t'.updVolume = false ∧ t'.updNote = false ∧ t'.updDuty = false := by
  unfold Track.updateUnit at h
  obtain ⟨a, ha, h⟩ := bind_ok_iff.1 h
  obtain ⟨b, hb, h⟩ := bind_ok_iff.1 h
  have h1 : a.updVolume = false := by
    unfold Track.flushVolume at ha
    split at ha
    · obtain ⟨u, hu, ha⟩ := bind_ok_iff.1 ha
      cases ha; rfl
    · rename_i hn
      cases ha; simpa using hn
  have h2 : b.updVolume = false ∧ b.updNote = false := by
    unfold Track.flushNote at hb
    split at hb
    · obtain ⟨u, hu, hb⟩ := bind_ok_iff.1 hb
      have k := (Track.updateNote_flags hu).1.trans h1
      cases hb; exact ⟨k, rfl⟩
    · rename_i hn
      cases hb; exact ⟨h1, by simpa using hn⟩
  unfold Track.flushDuty at h
  split at h
  · obtain ⟨u, hu, h⟩ := bind_ok_iff.1 h
    have k := Track.setUnit_flags hu
    have k1 := k.1.trans h2.1
    have k2 := k.2.1.trans h2.2
    cases h; exact ⟨k1, k2, rfl⟩
  · rename_i hn
    cases h; exact ⟨h2.1, h2.2, by simpa using hn⟩

theorem Track.run_clean {x : Nat} {w : IWorld} {t : Track} {e : Int} {r : Track × List Pulse}
    (h : t.run x w e = .ok r) :
    r.1.updVolume = false ∧ (r.1.updNote = false ∧ r.1.updDuty = false) ∧ t.SameBut r.1 := by
  unfold Track.run at h
  obtain ⟨a, ha, h⟩ := bind_ok_iff.1 h
  obtain ⟨q, hq, h⟩ := bind_ok_iff.1 h
  have k := Track.updateUnit_clean ha
  have sb := (Track.updateUnit_same ha).1
  cases h
  exact ⟨k.1, k.2, { sb with }⟩

end BK
