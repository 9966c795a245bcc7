import Verif.Spec.ReadBack
import Verif.Lemmas.Current5
import Verif.Lemmas.TrackSafe4
/-!
Which calls keep the instrument of a track.
-/
namespace BK

theorem IWorld.setPhase_links {w w' : IWorld} {x : Nat} {p : SeqPhase} (h : w.setPhase x p = .ok w') : w'.links = w.links := by
  unfold IWorld.setPhase at h
  split at h
  · cases h; rfl
  · obtain ⟨r, -, h⟩ := bind_ok_iff.1 h
    cases h; rfl

theorem IWorld.initValues_links {w w' : IWorld} {x : Nat} {d : Int} (h : w.initValues x d = .ok w') : w'.links = w.links := by
  unfold IWorld.initValues at h
  split at h
  · cases h; rfl
  · split at h
    · cases h; rfl
    · obtain ⟨r, -, h⟩ := bind_ok_iff.1 h
      cases h; rfl

theorem IWorld.attack_links {w w' : IWorld} {x : Nat} {d : Int} (h : w.attack x d = .ok w') : w'.links = w.links := by
  obtain ⟨a, ha, h⟩ := bind_ok_iff.1 h
  exact (IWorld.setPhase_links h).trans (IWorld.initValues_links ha)

theorem Track.instrPhase_links {x : Nat} {w : IWorld} {t : Track} {q : SeqPhase} {r : IWorld × Track}
    (e : t.instrPhase x w q = .ok r) : r.1.links = w.links := by
  unfold Track.instrPhase at e
  obtain ⟨w', hw, e⟩ := bind_ok_iff.1 e
  obtain ⟨u, -, e⟩ := bind_ok_iff.1 e
  cases e
  exact IWorld.setPhase_links hw

theorem Track.instrAttack_links {x : Nat} {w : IWorld} {t : Track} {r : IWorld × Track}
    (e : t.instrAttack x w = .ok r) : r.1.links = w.links := by
  unfold Track.instrAttack at e
  obtain ⟨w', hw, e⟩ := bind_ok_iff.1 e
  obtain ⟨u, -, e⟩ := bind_ok_iff.1 e
  cases e
  exact IWorld.attack_links hw

theorem Track.setNote_links {x : Nat} {w : IWorld} {t : Track} {n : Int} {r : IWorld × Track}
    (e : t.setNote x w n = .ok r) : r.1.links = w.links := by
  unfold Track.setNote at e
  obtain ⟨q, hq, e⟩ := bind_ok_iff.1 e
  cases e
  unfold Track.noteCase at hq
  split at hq
  · unfold Track.playNote at hq
    obtain ⟨s, -, hq⟩ := bind_ok_iff.1 hq
    obtain ⟨u, hu, hq⟩ := bind_ok_iff.1 hq
    obtain ⟨a, ha, hq⟩ := bind_ok_iff.1 hq
    obtain ⟨b, hb, hq⟩ := bind_ok_iff.1 hq
    obtain ⟨c, hc, hq⟩ := bind_ok_iff.1 hq
    cases hq
    unfold Track.startNote at hu
    dsimp only at hu
    split at hu
    · split at hu
      · obtain ⟨z, hz, hu⟩ := bind_ok_iff.1 hu
        have k := Track.instrAttack_links hz
        cases hu
        exact k
      · cases hu
        rfl
    · cases hu
      rfl
  · split at hq
    · unfold Track.releaseNote at hq
      dsimp only at hq
      split at hq
      · obtain ⟨u, hu, hq⟩ := bind_ok_iff.1 hq
        obtain ⟨a, ha, hq⟩ := bind_ok_iff.1 hq
        have k := Track.instrPhase_links hu
        cases hq; exact k
      · split at hq
        · obtain ⟨a, ha, hq⟩ := bind_ok_iff.1 hq
          cases hq; rfl
        · obtain ⟨a, ha, hq⟩ := bind_ok_iff.1 hq
          cases hq; rfl
    · split at hq
      · unfold Track.muteNote at hq
        dsimp only at hq
        split at hq
        · obtain ⟨u, hu, hq⟩ := bind_ok_iff.1 hq
          obtain ⟨a, ha, hq⟩ := bind_ok_iff.1 hq
          have k := Track.instrPhase_links hu
          cases hq; exact k
        · rw [ok_bind] at hq
          obtain ⟨a, ha, hq⟩ := bind_ok_iff.1 hq
          cases hq; rfl
      · cases hq; rfl

theorem Track.setAttr_links {x : Nat} {w : IWorld} {t : Track} {a : TAttr} {v : Int} {r : Ret × IWorld × Track}
    (e : t.setAttr x w a v = .ok r) : r.2.1.links = w.links := by
  cases a with
  | note =>
    obtain ⟨q, hq, e⟩ := bind_ok_iff.1 e
    have k := Track.setNote_links hq
    cases e; exact k
  | slide ef =>
    unfold Track.setAttr at e
    dsimp only at e
    split at e
    · cases e; rfl
    · obtain ⟨u, hu, e⟩ := bind_ok_iff.1 e
      cases e; rfl
  | _ =>
    first
    | (cases e; rfl; done)
    | (obtain ⟨q, hq, e⟩ := bind_ok_iff.1 e
       cases e; rfl)

theorem Track.tick_links {x : Nat} {w : IWorld} {t : Track} {r : IWorld × Track}
    (e : t.tick x w = .ok r) : r.1.links = w.links := by
  unfold Track.tick at e
  obtain ⟨a, ha, e⟩ := bind_ok_iff.1 e
  obtain ⟨b, hb, e⟩ := bind_ok_iff.1 e
  obtain ⟨c, hc, e⟩ := bind_ok_iff.1 e
  obtain ⟨d, hd, e⟩ := bind_ok_iff.1 e
  cases e
  unfold Track.instrTick at hb
  split at hb
  · obtain ⟨d, -, hb⟩ := bind_ok_iff.1 hb
    obtain ⟨w', hw, hb⟩ := bind_ok_iff.1 hb
    obtain ⟨u, hu, hb⟩ := bind_ok_iff.1 hb
    cases hb
    exact IWorld.tick_links hw
  · cases hb; rfl

theorem Track.exec_links {x : Nat} {w : IWorld} {t : Track} {op : TOp} {r : IWorld × Track}
    (h1 : ∀ i, op ≠ .instrument i) (h2 : op ≠ .clear) (h3 : op ≠ .reset) (e : t.exec x w op = .ok r) : r.1.links = w.links := by
  cases op with
  | attr a v =>
    obtain ⟨q, hq, e⟩ := bind_ok_iff.1 e
    have k := Track.setAttr_links hq
    cases e; exact k
  | instrument i => exact absurd rfl (h1 i)
  | clear => exact absurd rfl h2
  | reset => exact absurd rfl h3
  | tick => exact Track.tick_links e
  | _ =>
    first
    | (cases e; rfl; done)
    | (obtain ⟨q, hq, e⟩ := bind_ok_iff.1 e
       cases e; rfl)

theorem IWorld.replace_links {w w' : IWorld} {fuel i slot : Nat} {q : Option Sequence}
    (h : w.replace fuel i slot q = .ok w') : w'.links = w.links := by
  unfold IWorld.replace at h
  dsimp only at h
  have e1 : (w.store q).2.links = w.links := by
    unfold IWorld.store; cases q <;> rfl
  generalize (w.store q).2 = w0 at h e1
  obtain ⟨hp, -, h⟩ := bind_ok_iff.1 h
  obtain ⟨a, ha, h⟩ := bind_ok_iff.1 h
  obtain ⟨b, hb, h⟩ := bind_ok_iff.1 h
  have k1 := IWorld.forAfter_within (fun _ _ _ h => IWorld.pointBody_within h) fuel ha
  have k2 := IWorld.forAfter_within (fun _ _ _ h => IWorld.muteBody_within h) fuel hb
  obtain ⟨h1, -, -⟩ := IWorld.resets h
  have l1 : a.links = w0.links := k1.links
  have l2 : b.links = w0.links := k2.links.trans l1
  rw [h1, l2, e1]

theorem IWorld.setSequence_links {w : IWorld} {fuel i slot : Nat} {new : NewSeq} {r : Bool × IWorld}
    (h : w.setSequence fuel i slot new = .ok r) : r.2.links = w.links := by
  unfold IWorld.setSequence at h
  split at h
  · obtain ⟨q, -, h⟩ := bind_ok_iff.1 h
    cases q with
    | none => cases h; rfl
    | some q =>
      dsimp only at h
      obtain ⟨a, ha, h⟩ := bind_ok_iff.1 h
      cases h
      exact IWorld.replace_links ha
  · cases h; rfl

/-- Emptying one list. -/
theorem Links.HRepr.gone {h h' : Links} {A A' : Lists} (hr : h.HRepr A) (hr' : h'.HRepr A') {j : Nat} (e1 : A' j = [])
    (e2 : ∀ d, d ≠ j → A' d = A d) {x : Nat} (hx : h.owner x ≠ some j) : h'.owner x = h.owner x := by
  apply Option.ext
  intro c
  rw [hr'.owner, hr.owner]
  by_cases hc : c = j
  · subst hc
    rw [e1]
    refine ⟨fun k => by simp at k, fun k => absurd ((hr.owner x c).2 k) hx⟩
  · rw [e2 c hc]

/-- What a track's own calls do with its instrument. -/
theorem Track.setInstrument_owner {x : Nat} {w : IWorld} {t : Track} {i : Option Nat} {r : IWorld × Track}
    (e : t.setInstrument x w i = .ok r) : r.1.links.owner x = i := by
  unfold Track.setInstrument at e
  dsimp only at e
  split at e
  · obtain ⟨q, hq, e⟩ := bind_ok_iff.1 e
    cases e
    dsimp only
    cases i with
    | none =>
      unfold Track.changeInstrument at hq
      dsimp only at hq
      obtain ⟨w1, h1, hq⟩ := bind_ok_iff.1 hq
      have k : w1.links.owner x = none := by
        unfold IWorld.setInstrument at h1
        cases h1
        show (w.links.removeState x).owner x = none
        rw [Links.owner_removeState, if_pos rfl]
      split at hq
      · rw [Track.setNote_links hq, k]
      · cases hq; exact k
    | some i =>
      unfold Track.changeInstrument at hq
      dsimp only at hq
      obtain ⟨w1, h1, hq⟩ := bind_ok_iff.1 hq
      obtain ⟨w2, h2, hq⟩ := bind_ok_iff.1 hq
      have k : w1.links.owner x = some i := by
        unfold IWorld.setInstrument at h1
        dsimp only at h1
        obtain ⟨a, -, h1⟩ := bind_ok_iff.1 h1
        obtain ⟨b, -, h1⟩ := bind_ok_iff.1 h1
        rw [IWorld.setPhase_links h1]
        show ((w.links.removeState x).addState x i).owner x = some i
        rw [Links.owner_addState _ _ _ _ (by rw [Links.owner_removeState, if_pos rfl]), if_pos rfl]
      split at hq
      · rw [Track.instrPhase_links hq, IWorld.initValues_links h2, k]
      · rw [Track.instrAttack_links hq, IWorld.initValues_links h2, k]
  · rename_i hn
    cases e
    exact (Classical.not_not.1 hn).symm

theorem TWorld.hear_iw {s s' : TWorld} {iw : IWorld} (h : s.hear iw = .ok s') : s'.iw = iw := by
  unfold TWorld.hear at h
  obtain ⟨ts, -, h⟩ := bind_ok_iff.1 h
  cases h; rfl

theorem TWorld.hear_has {s s' : TWorld} {iw : IWorld} {x : Nat} (hs : s.tracks x ≠ none) (h : s.hear iw = .ok s') : s'.tracks x ≠ none := by
  unfold TWorld.hear at h
  obtain ⟨ts, hts, h⟩ := bind_ok_iff.1 h
  cases h
  exact foldlM_inv (P := fun ts : Nat → Option Track => ts x ≠ none)
    (fun ts e ts' h0 he => by
      unfold TWorld.tell at he
      split at he
      · cases he; exact h0
      · obtain ⟨t', -, he⟩ := bind_ok_iff.1 he
        cases he
        by_cases hx : x = e.1
        · subst hx; rw [upd_self]; simp
        · rw [upd_ne _ _ hx]; exact h0) _ hs hts

/-- One call that leaves the instrument of track `x` alone. -/
theorem TWorld.exec_owner {n N fuel x : Nat} {s s' : TWorld} (hi : s.Inv n N) (hf : n ≤ fuel) (hx : s.tracks x ≠ none) {op : WOp}
    (ho : op.leavesInstrument x (s.iw.links.owner x)) (h : s.exec fuel op = .ok s') :
    s'.iw.links.owner x = s.iw.links.owner x ∧ s'.tracks x ≠ none := by
  unfold TWorld.exec at h
  cases op <;> dsimp only at h
  case init y wf =>
    split at h
    · cases h; exact ⟨rfl, hx⟩
    · rename_i hy
      have hxy : x ≠ y := by rintro rfl; exact hx hy
      obtain ⟨r, hr, h⟩ := bind_ok_iff.1 h
      cases h
      exact ⟨(Track.init_touches hr).owner x hxy, by show upd _ _ _ x ≠ none; rw [upd_ne _ _ hxy]; exact hx⟩
  case track y o =>
    split at h
    · cases h; exact ⟨rfl, hx⟩
    · obtain ⟨r, hr, h⟩ := bind_ok_iff.1 h
      cases h
      by_cases hxy : x = y
      · subst hxy
        refine ⟨?_, by show upd _ _ _ x ≠ none; rw [upd_self]; simp⟩
        show r.1.links.owner x = _
        rw [Track.exec_links (fun i c => by subst c; exact ho rfl) (fun c => by subst c; exact ho rfl)
          (fun c => by subst c; exact ho rfl) hr]
      · exact ⟨(Track.exec_touches hr).owner x hxy, by show upd _ _ _ x ≠ none; rw [upd_ne _ _ hxy]; exact hx⟩
  case setSequence i k new =>
    obtain ⟨r, hr, h⟩ := bind_ok_iff.1 h
    exact ⟨by rw [TWorld.hear_iw h, IWorld.setSequence_links hr], TWorld.hear_has hx h⟩
  case detachInstr i =>
    obtain ⟨w, hw, h⟩ := bind_ok_iff.1 h
    refine ⟨?_, TWorld.hear_has hx h⟩
    obtain ⟨A, ha, hl⟩ := hi.good
    obtain ⟨w', A', e, h1, h2, h3, -⟩ := IWorld.detach_inv ha.inv i fuel (Nat.le_trans (hl i) hf)
    rw [hw] at e
    cases e
    rw [TWorld.hear_iw h]
    exact ha.inv.repr.gone h1.repr h2 h3 (fun c => ho c.symm)
  case disposeInstr i =>
    obtain ⟨w, hw, h⟩ := bind_ok_iff.1 h
    refine ⟨?_, TWorld.hear_has hx h⟩
    obtain ⟨A, ha, hl⟩ := hi.good
    obtain ⟨w', A', e, h1, h2, h3, -⟩ := IWorld.dispose_inv ha.inv i fuel (Nat.le_trans (hl i) hf)
    rw [hw] at e
    cases e
    rw [TWorld.hear_iw h]
    exact ha.inv.repr.gone h1.repr h2 h3 (fun c => ho c.symm)

theorem TWorld.run_owner {N fuel x : Nat} {i : Option Nat} : ∀ (ops : List WOp) {n : Nat} {s s' : TWorld}, s.Inv n N →
    n + ops.length ≤ fuel → s.LegalRun N fuel ops → s.tracks x ≠ none → s.iw.links.owner x = i →
    (∀ op ∈ ops, op.leavesInstrument x i) → s.run fuel ops = .ok s' → s'.iw.links.owner x = i
  | [], n, s, s', _, _, _, _, ho, _, h => by cases h; exact ho
  | op :: ops, n, s, s', hi, hf, hl, hx, ho, hops, h => by
    rw [List.length_cons] at hf
    unfold TWorld.run at h
    obtain ⟨s1, h1, h⟩ := bind_ok_iff.1 h
    have hi1 := hi.exec (fuel := fuel) (by omega) hl.1
    rw [h1] at hi1
    have hi1 : s1.Inv (n + 1) N := hi1
    obtain ⟨k1, k2⟩ := TWorld.exec_owner hi (by omega) hx (by rw [ho]; exact hops op List.mem_cons_self) h1
    exact TWorld.run_owner ops hi1 (by omega) (hl.2 s1 h1) k2 (k1.trans ho) (fun o h => hops o (List.mem_cons_of_mem _ h)) h

end BK
