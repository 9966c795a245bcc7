import Verif.Lemmas.TrackTick
/-!
The arpeggio of a track through any calls.
-/
namespace BK

/-- What holds for every arpeggio. -/
structure Arp.Wf (a : Arp) : Prop where
  len : a.notes.length = 8
  count : 0 ≤ a.count ∧ a.count ≤ 8
  offset : 0 ≤ a.offset ∧ (a.offset < a.count ∨ a.offset = 0)

theorem Arp.Wf.start {a : Arp} (h : a.Wf) : Arp.Wf { a with offset := 0 } :=
  ⟨h.len, h.count, ⟨Int.le_refl _, Or.inr rfl⟩⟩

theorem Arp.Wf.set {a a' : Arp} (h : a.Wf) {ws : List Int} (hs : a.set ws = .ok a') : a'.Wf := by
  have hl := h.len
  have ho := h.offset
  have hc := h.count
  unfold Arp.set at hs
  split at hs
  · cases hs
    refine ⟨hl, ⟨Int.le_refl 0, show (0 : Int) ≤ 8 by decide⟩, ?_⟩
    dsimp only
    split <;> omega
  · rename_i c ns
    dsimp only at hs
    split at hs
    · cases hs
    · rename_i hn
      cases hs
      have h8 : cmin c 8 ≤ 8 := by unfold cmin; split <;> omega
      refine ⟨?_, ⟨show 0 ≤ cmin c 8 by omega, h8⟩, ?_⟩
      · dsimp only
        rw [List.length_append, List.length_take, List.length_drop]
        omega
      · dsimp only
        split <;> omega

theorem Arp.Wf.tick {a a' : Arp} (h : a.Wf) (ht : a.tick = .ok a') : a'.Wf := by
  have ho := h.offset
  have hc := h.count
  unfold Arp.tick at ht
  obtain ⟨d, hd, ht⟩ := bind_ok_iff.1 ht
  obtain ⟨o, h1, ht⟩ := bind_ok_iff.1 ht
  obtain ⟨-, rfl⟩ := i32_eq_ok_iff.1 h1
  cases ht
  refine ⟨h.len, h.count, ?_⟩
  dsimp only
  split <;> omega

/-- Values set by attributes are within their limits. -/
def Track.InRange (t : Track) : Prop :=
  (0 ≤ t.masterVolume ∧ t.masterVolume ≤ 32767) ∧ (-50331648 ≤ t.pitch ∧ t.pitch ≤ 50331648)

/-- The arpeggio of a track is in order. -/
structure Track.ArpInv (t : Track) : Prop where
  wf : t.arp.Wf
  on : t.arpeggioOn = decide (t.arp.count > 0)
  rng : t.InRange

/-- The arpeggio is as before or at its start. -/
structure Track.ArpKept (t t' : Track) : Prop where
  arp : t'.arp = t.arp ∨ t'.arp = { t.arp with offset := 0 }
  on : t'.arpeggioOn = t.arpeggioOn
  rng : t.InRange → t'.InRange

theorem Track.ArpKept.inv {t t' : Track} (h : t.ArpKept t') (hi : t.ArpInv) : t'.ArpInv := by
  refine ⟨?_, ?_, h.rng hi.rng⟩
  · rcases h.arp with e | e <;> rw [e]
    · exact hi.wf
    · exact hi.wf.start
  · rw [h.on, hi.on]
    rcases h.arp with e | e <;> rw [e]

theorem Track.SameBut.kept {t t' : Track} (h : t.SameBut t') : t.ArpKept t' :=
  ⟨Or.inl h.arp, h.arpeggioOn, by unfold Track.InRange; rw [h.masterVolume, h.pitch]; exact id⟩

theorem Track.ArpKept.refl (t : Track) : t.ArpKept t := ⟨Or.inl rfl, rfl, id⟩

theorem Track.ArpKept.trans {a b c : Track} (h : a.ArpKept b) (h' : b.ArpKept c) : a.ArpKept c := by
  refine ⟨?_, by rw [h'.on, h.on], fun hr => h'.rng (h.rng hr)⟩
  rcases h.arp with e | e <;> rcases h'.arp with e' | e' <;> rw [e', e]
  · exact Or.inl rfl
  · exact Or.inr rfl
  · exact Or.inr rfl
  · exact Or.inr rfl

theorem Track.instrAttack_kept {x : Nat} {w : IWorld} {t : Track} {r : IWorld × Track}
    (h : t.instrAttack x w = .ok r) : t.ArpKept r.2 := by
  unfold Track.instrAttack at h
  obtain ⟨w', -, h⟩ := bind_ok_iff.1 h
  obtain ⟨t', ht, h⟩ := bind_ok_iff.1 h
  cases h
  have := (Track.hear_same ht).kept
  exact ⟨this.arp, this.on, this.rng⟩

theorem Track.instrPhase_same {x : Nat} {w : IWorld} {t : Track} {p : SeqPhase} {r : IWorld × Track}
    (h : t.instrPhase x w p = .ok r) : t.SameBut r.2 := by
  unfold Track.instrPhase at h
  obtain ⟨w', -, h⟩ := bind_ok_iff.1 h
  obtain ⟨t', ht, h⟩ := bind_ok_iff.1 h
  cases h
  exact (Track.hear_same ht).flags _ _ _

theorem Track.startNote_kept {x : Nat} {w : IWorld} {t : Track} {r : IWorld × Track}
    (h : t.startNote x w = .ok r) : t.ArpKept r.2 := by
  unfold Track.startNote at h
  split at h
  · dsimp only at h
    split at h
    · obtain ⟨r', h1, h⟩ := bind_ok_iff.1 h
      cases h
      have := Track.instrAttack_kept h1
      refine ⟨Or.inr ?_, this.on, this.rng⟩
      dsimp only
      rcases this.arp with e | e <;> rw [e]
    · cases h
      exact ⟨Or.inr rfl, rfl, id⟩
  · cases h; exact .refl _

theorem Track.startSample_same {t t' : Track} (h : t.startSample = .ok t') : t.SameBut t' := by
  unfold Track.startSample at h
  split at h
  · exact Track.setUnit_same h
  · cases h; exact .refl _

theorem Track.playNote_kept {x : Nat} {w : IWorld} {t : Track} {n : Int} {r : IWorld × Track}
    (h : t.playNote x w n = .ok r) : t.ArpKept r.2 := by
  unfold Track.playNote at h
  obtain ⟨s, -, h⟩ := bind_ok_iff.1 h
  obtain ⟨r', h1, h⟩ := bind_ok_iff.1 h
  obtain ⟨t1, h2, h⟩ := bind_ok_iff.1 h
  obtain ⟨t2, h3, h⟩ := bind_ok_iff.1 h
  obtain ⟨t3, h4, h⟩ := bind_ok_iff.1 h
  cases h
  have k1 := Track.startNote_kept h1
  have k2 := (Track.startSample_same h2).kept
  have k3 := (Track.setUnit_same h3).kept
  have k4 := (Track.setUnit_same h4).kept
  have k12 := k1.trans k2
  exact (Track.ArpKept.trans ⟨k12.arp, k12.on, k12.rng⟩ (Track.ArpKept.trans ⟨k3.arp, k3.on, k3.rng⟩ k4))

theorem Track.releaseNote_kept {x : Nat} {w : IWorld} {t : Track} {r : IWorld × Track}
    (h : t.releaseNote x w = .ok r) : t.ArpKept r.2 := by
  unfold Track.releaseNote at h
  dsimp only at h
  split at h
  · obtain ⟨r', h1, h⟩ := bind_ok_iff.1 h
    obtain ⟨t1, h2, h⟩ := bind_ok_iff.1 h
    cases h
    have k1 := (Track.instrPhase_same h1).kept
    exact Track.ArpKept.trans ⟨k1.arp, k1.on, k1.rng⟩ (Track.setUnit_same h2).kept
  · split at h
    · obtain ⟨t1, h2, h⟩ := bind_ok_iff.1 h
      cases h
      have k1 := (Track.setUnit_same h2).kept
      exact ⟨k1.arp, k1.on, k1.rng⟩
    · obtain ⟨t1, h2, h⟩ := bind_ok_iff.1 h
      cases h
      have k1 := (Track.setUnit_same h2).kept
      exact ⟨k1.arp, k1.on, k1.rng⟩

theorem Track.muteNote_same {x : Nat} {w : IWorld} {t : Track} {r : IWorld × Track}
    (h : t.muteNote x w = .ok r) : t.SameBut r.2 := by
  unfold Track.muteNote at h
  dsimp only at h
  split at h
  · obtain ⟨r', h1, h⟩ := bind_ok_iff.1 h
    obtain ⟨t1, h2, h⟩ := bind_ok_iff.1 h
    cases h
    exact (t.stopNote_same.trans (Track.instrPhase_same h1)).trans (Track.silence_same h2).1
  · obtain ⟨r', h1, h⟩ := bind_ok_iff.1 h
    obtain ⟨t1, h2, h⟩ := bind_ok_iff.1 h
    cases h1
    cases h
    exact t.stopNote_same.trans (Track.silence_same h2).1

theorem Track.setNote_kept {x : Nat} {w : IWorld} {t : Track} {n : Int} {r : IWorld × Track}
    (h : t.setNote x w n = .ok r) : t.ArpKept r.2 := by
  unfold Track.setNote at h
  obtain ⟨r', h1, h⟩ := bind_ok_iff.1 h
  cases h
  have k : t.ArpKept r'.2 := by
    unfold Track.noteCase at h1
    split at h1
    · exact Track.playNote_kept h1
    · split at h1
      · exact Track.releaseNote_kept h1
      · split at h1
        · exact (Track.muteNote_same h1).kept
        · cases h1; exact .refl _
  exact ⟨k.arp, k.on, k.rng⟩

theorem Track.setInstrument_kept {x : Nat} {w : IWorld} {t : Track} {i : Option Nat}
    {r : IWorld × Track} (h : t.setInstrument x w i = .ok r) : t.ArpKept r.2 := by
  unfold Track.setInstrument at h
  split at h
  · obtain ⟨r', h1, h⟩ := bind_ok_iff.1 h
    cases h
    have k : t.ArpKept r'.2 := by
      cases i with
      | some i =>
        unfold Track.changeInstrument at h1
        dsimp only at h1
        obtain ⟨w1, -, h1⟩ := bind_ok_iff.1 h1
        obtain ⟨w2, -, h1⟩ := bind_ok_iff.1 h1
        split at h1
        · have k1 := (Track.instrPhase_same h1).kept
          exact ⟨k1.arp, k1.on, k1.rng⟩
        · have k1 := Track.instrAttack_kept h1
          exact ⟨k1.arp, k1.on, k1.rng⟩
      | none =>
        unfold Track.changeInstrument at h1
        dsimp only at h1
        obtain ⟨w1, -, h1⟩ := bind_ok_iff.1 h1
        split at h1
        · exact Track.setNote_kept h1
        · cases h1; exact .refl _
    exact ⟨k.arp, k.on, k.rng⟩
  · cases h
    exact ⟨Or.inl rfl, rfl, id⟩

theorem Track.setEffect_kept {t t' : Track} {e : Effect} {vals : List Int}
    (h : t.setEffect e vals = .ok t') : t.ArpKept t' := by
  unfold Track.setEffect at h
  cases e <;> dsimp only at h
  · obtain ⟨s, -, h⟩ := bind_ok_iff.1 h
    cases h; exact ⟨Or.inl rfl, rfl, id⟩
  · obtain ⟨s, -, h⟩ := bind_ok_iff.1 h
    cases h; exact ⟨Or.inl rfl, rfl, id⟩
  · obtain ⟨s, -, h⟩ := bind_ok_iff.1 h
    cases h; exact ⟨Or.inl rfl, rfl, id⟩
  · obtain ⟨s, -, h⟩ := bind_ok_iff.1 h
    obtain ⟨s2, -, h⟩ := bind_ok_iff.1 h
    split at h
    · obtain ⟨s3, -, h⟩ := bind_ok_iff.1 h
      cases h; exact ⟨Or.inl rfl, rfl, id⟩
    · cases h; exact ⟨Or.inl rfl, rfl, id⟩
  · obtain ⟨s, -, h⟩ := bind_ok_iff.1 h
    obtain ⟨s2, -, h⟩ := bind_ok_iff.1 h
    split at h
    · obtain ⟨s3, -, h⟩ := bind_ok_iff.1 h
      cases h; exact ⟨Or.inl rfl, rfl, id⟩
    · cases h; exact ⟨Or.inl rfl, rfl, id⟩

theorem Track.setWaveform_kept {x : Nat} {w : IWorld} {t : Track} {v : Int} {r : Ret × Track}
    (h : t.setWaveform x w v = .ok r) : t.ArpKept r.2 := by
  unfold Track.setWaveform at h
  obtain ⟨q, -, h⟩ := bind_ok_iff.1 h
  dsimp only at h
  split at h
  · obtain ⟨t1, h1, h⟩ := bind_ok_iff.1 h
    cases h
    have k1 := (Track.updateNote_same h1).1.kept
    exact ⟨k1.arp, k1.on, k1.rng⟩
  · cases h; exact ⟨Or.inl rfl, rfl, id⟩

theorem Track.setAttr_kept {x : Nat} {w : IWorld} {t : Track} {a : TAttr} {v : Int}
    {r : Ret × IWorld × Track} (h : t.setAttr x w a v = .ok r) : t.ArpKept r.2.2 := by
  unfold Track.setAttr at h
  cases a <;> dsimp only at h
  · cases h; exact ⟨Or.inl rfl, rfl, fun hr => ⟨cclamp_in (by decide), hr.2⟩⟩
  · obtain ⟨s, -, h⟩ := bind_ok_iff.1 h
    cases h; exact ⟨Or.inl rfl, rfl, id⟩
  · obtain ⟨s, -, h⟩ := bind_ok_iff.1 h
    cases h; exact ⟨Or.inl rfl, rfl, id⟩
  · obtain ⟨s, h1, h⟩ := bind_ok_iff.1 h
    cases h; exact Track.setWaveform_kept h1
  · obtain ⟨s, h1, h⟩ := bind_ok_iff.1 h
    cases h
    unfold Track.setDuty at h1
    obtain ⟨q, -, h1⟩ := bind_ok_iff.1 h1
    cases h1; exact ⟨Or.inl rfl, rfl, id⟩
  · obtain ⟨s, h1, h⟩ := bind_ok_iff.1 h
    cases h; exact Track.setNote_kept h1
  · cases h; exact ⟨Or.inl rfl, rfl, fun hr => ⟨hr.1, cclamp_in (by decide)⟩⟩
  · cases h; exact ⟨Or.inl rfl, rfl, id⟩
  · cases h; exact ⟨Or.inl rfl, rfl, id⟩
  · cases h; exact ⟨Or.inl rfl, rfl, id⟩
  · cases h; exact ⟨Or.inl rfl, rfl, id⟩
  · cases h; exact ⟨Or.inl rfl, rfl, id⟩
  · split at h
    · cases h; exact .refl _
    · obtain ⟨s, h1, h⟩ := bind_ok_iff.1 h
      cases h; exact Track.setEffect_kept h1
  · obtain ⟨s, -, h⟩ := bind_ok_iff.1 h
    cases h; exact ⟨Or.inl rfl, rfl, id⟩

theorem Track.setData_kept {x : Nat} {w : IWorld} {t : Track} {a : DataAttr} {d : Option DataArg}
    {r : Ret × Track} (h : t.setData x w a d = .ok r) : t.ArpKept r.2 := by
  unfold Track.setData at h
  obtain ⟨q, hq, h⟩ := bind_ok_iff.1 h
  have k : t.ArpKept q.2 := by
    unfold Track.setUnitData at hq
    split at hq
    · cases hq; exact .refl _
    · obtain ⟨z, -, hq⟩ := bind_ok_iff.1 hq
      cases hq; exact ⟨Or.inl rfl, rfl, id⟩
  split at h
  · dsimp only at h
    obtain ⟨t1, h1, h⟩ := bind_ok_iff.1 h
    cases h
    have k1 := (Track.updateNote_same h1).1.kept
    exact k.trans ⟨k1.arp, k1.on, k1.rng⟩
  · cases h; exact k

theorem Track.clear_arp {x : Nat} {w : IWorld} {t : Track} {r : IWorld × Track}
    (h : t.clear x w = .ok r) : r.2.ArpInv := by
  unfold Track.clear at h
  obtain ⟨u, -, h⟩ := bind_ok_iff.1 h
  obtain ⟨r1, -, h⟩ := bind_ok_iff.1 h
  dsimp only at h
  obtain ⟨r2, h2, h⟩ := bind_ok_iff.1 h
  obtain ⟨r3, h3, h⟩ := bind_ok_iff.1 h
  obtain ⟨r4, h4, h⟩ := bind_ok_iff.1 h
  obtain ⟨r5, h5, h⟩ := bind_ok_iff.1 h
  obtain ⟨r6, h6, h⟩ := bind_ok_iff.1 h
  obtain ⟨r7, h7, h⟩ := bind_ok_iff.1 h
  cases h
  have k := ((((Track.setAttr_kept h2).trans (Track.setAttr_kept h3)).trans
    (Track.setAttr_kept h4)).trans (Track.setAttr_kept h5)).trans ((Track.setAttr_kept h6).trans
    (Track.setAttr_kept h7))
  exact k.inv ⟨⟨rfl, ⟨Int.le_refl 0, show (0 : Int) ≤ 8 by decide⟩, ⟨Int.le_refl 0, Or.inr rfl⟩⟩, rfl,
    ⟨⟨Int.le_refl 0, show (0 : Int) ≤ 32767 by decide⟩, show (-50331648 : Int) ≤ 0 by decide,
      show (0 : Int) ≤ 50331648 by decide⟩⟩

theorem Track.reset_arp {x : Nat} {w : IWorld} {t : Track} {r : IWorld × Track}
    (h : t.reset x w = .ok r) : r.2.ArpInv := by
  unfold Track.reset at h
  obtain ⟨u, -, h⟩ := bind_ok_iff.1 h
  obtain ⟨r1, -, h⟩ := bind_ok_iff.1 h
  exact Track.clear_arp h

theorem Track.tick_range {x : Nat} {w : IWorld} {t : Track} {s : IWorld × Track}
    (h : t.tick x w = .ok s) (hr : t.InRange) : s.2.InRange := by
  obtain ⟨t1, r, t2, h1, hr', h2, h3, e⟩ := Track.tick_stages h
  obtain ⟨a, d, n, rfl⟩ := Track.arpeggioTick_same h1
  obtain ⟨d', sb, hl, -, -⟩ := Track.instrTick_same hr'
  have su := (Track.updateUnit_same h2).1
  obtain ⟨a', b, c, d'', e', f, g, i, j, k, h3⟩ := Track.effectsTick_same h3
  rw [h3]
  unfold Track.InRange
  dsimp only
  rw [su.masterVolume, su.pitch, sb.masterVolume, sb.pitch]
  exact hr

theorem Track.exec_arp {x : Nat} {w : IWorld} {t : Track} {op : TOp} {r : IWorld × Track}
    (hi : t.ArpInv) (h : t.exec x w op = .ok r) : r.2.ArpInv := by
  unfold Track.exec at h
  cases op <;> dsimp only at h
  · obtain ⟨s, h1, h⟩ := bind_ok_iff.1 h
    cases h; exact (Track.setAttr_kept h1).inv hi
  · obtain ⟨s, h1, h⟩ := bind_ok_iff.1 h
    cases h; exact (Track.setEffect_kept h1).inv hi
  · obtain ⟨s, h1, h⟩ := bind_ok_iff.1 h
    cases h
    unfold Track.setArpeggio at h1
    obtain ⟨a, ha, h1⟩ := bind_ok_iff.1 h1
    cases h1
    exact ⟨hi.wf.set ha, rfl, hi.rng⟩
  · exact (Track.setInstrument_kept h).inv hi
  · obtain ⟨s, h1, h⟩ := bind_ok_iff.1 h
    cases h; exact (Track.setData_kept h1).inv hi
  · obtain ⟨s, h1, h⟩ := bind_ok_iff.1 h
    cases h; exact ⟨hi.wf, hi.on, hi.rng⟩
  · obtain ⟨s, h1, h⟩ := bind_ok_iff.1 h
    cases h; exact ⟨hi.wf, hi.on, hi.rng⟩
  · cases h; exact ⟨hi.wf, hi.on, hi.rng⟩
  · exact Track.clear_arp h
  · exact Track.reset_arp h
  · obtain ⟨s, h1, h⟩ := bind_ok_iff.1 h
    cases h
    unfold Track.attach at h1
    split at h1
    · cases h1; exact hi
    · obtain ⟨t1, h2, h1⟩ := bind_ok_iff.1 h1
      cases h1
      exact (Track.updateUnit_same h2).1.kept.inv ⟨hi.wf, hi.on, hi.rng⟩
  · cases h; exact ⟨hi.wf, hi.on, hi.rng⟩
  · have ha := Track.tick_arp h
    have hs := (Track.tick_switches h).1
    by_cases hon : t.arpeggioOn = true
    · obtain ⟨q, -, -, e⟩ := ha.1 hon
      have hw : r.2.arp.Wf ∧ r.2.arp.count = t.arp.count := by
        split at e
        · refine ⟨hi.wf.tick e, ?_⟩
          unfold Arp.tick at e
          obtain ⟨d, -, e⟩ := bind_ok_iff.1 e
          obtain ⟨o, -, e⟩ := bind_ok_iff.1 e
          injection e with e
          rw [← e]
        · injection e with e
          rw [← e]; exact ⟨hi.wf, rfl⟩
      exact ⟨hw.1, by rw [hs, hi.on, hw.2], Track.tick_range h hi.rng⟩
    · have e := (ha.2 (by simpa using hon)).2
      exact ⟨by rw [e]; exact hi.wf, by rw [hs, hi.on, e], Track.tick_range h hi.rng⟩
  · obtain ⟨s, h1, h⟩ := bind_ok_iff.1 h
    cases h
    unfold Track.run at h1
    obtain ⟨t1, h2, h1⟩ := bind_ok_iff.1 h1
    obtain ⟨q, -, h1⟩ := bind_ok_iff.1 h1
    cases h1
    have := (Track.updateUnit_same h2).1.kept.inv hi
    exact ⟨this.wf, this.on, this.rng⟩
  · cases h; exact ⟨hi.wf, hi.on, hi.rng⟩

/-- Something that holds for every track of a world. -/
def TWorld.All (P : Track → Prop) (s : TWorld) : Prop := ∀ x t, s.tracks x = some t → P t

theorem TWorld.hear_all {P : Track → Prop}
    (hP : ∀ x w t e t', P t → Track.told x w t e = .ok t' → P t') {s s' : TWorld} {iw : IWorld}
    (hs : s.All P) (h : s.hear iw = .ok s') : s'.All P := by
  unfold TWorld.hear at h
  obtain ⟨ts, hts, h⟩ := bind_ok_iff.1 h
  cases h
  exact foldlM_inv (P := fun ts : Nat → Option Track => ∀ x t, ts x = some t → P t)
    (fun ts e ts' h0 he => by
      unfold TWorld.tell at he
      split at he
      · cases he; exact h0
      · rename_i t ht
        obtain ⟨t', h1, he⟩ := bind_ok_iff.1 he
        cases he
        intro x u hu
        by_cases hx : x = e.1
        · subst hx
          rw [show upd ts e.1 (some t') e.1 = some t' by unfold upd; simp] at hu
          cases hu
          exact hP _ _ _ _ _ (h0 _ _ ht) h1
        · rw [show upd ts e.1 (some t') x = ts x by unfold upd; simp [hx]] at hu
          exact h0 x u hu) _ hs hts

/-- Induction over calls. -/
theorem TWorld.run_all {P : Track → Prop} {fuel : Nat}
    (hP : ∀ x w t e t', P t → Track.told x w t e = .ok t' → P t')
    (hinit : ∀ x w wf r, Track.init x w wf = .ok r → P r.2)
    (hexec : ∀ x w t op r, P t → Track.exec x w t op = .ok r → P r.2) :
    ∀ (ops : List WOp) {s s' : TWorld}, s.All P → s.run fuel ops = .ok s' → s'.All P
  | [], s, s', hs, h => by cases h; exact hs
  | op :: ops, s, s', hs, h => by
    unfold TWorld.run at h
    obtain ⟨s1, h1, h⟩ := bind_ok_iff.1 h
    refine TWorld.run_all hP hinit hexec ops ?_ h
    have put : ∀ (ts : Nat → Option Track) (x : Nat) (t : Track),
        (∀ y u, ts y = some u → P u) → P t → ∀ y u, upd ts x (some t) y = some u → P u := by
      intro ts x t h0 ht y u hu
      by_cases hy : y = x
      · subst hy
        rw [show upd ts y (some t) y = some t by unfold upd; simp] at hu
        cases hu; exact ht
      · rw [show upd ts x (some t) y = ts y by unfold upd; simp [hy]] at hu
        exact h0 y u hu
    cases op <;> unfold TWorld.exec at h1 <;> dsimp only at h1
    · split at h1
      · cases h1; exact hs
      · obtain ⟨r, hr, h1⟩ := bind_ok_iff.1 h1
        cases h1
        exact put _ _ _ hs (hinit _ _ _ _ hr)
    · split at h1
      · cases h1; exact hs
      · rename_i t ht
        obtain ⟨r, hr, h1⟩ := bind_ok_iff.1 h1
        cases h1
        exact put _ _ _ hs (hexec _ _ _ _ _ (hs _ _ ht) hr)
    · obtain ⟨r, hr, h1⟩ := bind_ok_iff.1 h1
      exact TWorld.hear_all hP hs h1
    · obtain ⟨r, hr, h1⟩ := bind_ok_iff.1 h1
      exact TWorld.hear_all hP hs h1
    · obtain ⟨r, hr, h1⟩ := bind_ok_iff.1 h1
      exact TWorld.hear_all hP hs h1

theorem Track.init_arp {x : Nat} {w : IWorld} {wf : Int} {r : IWorld × Track}
    (h : Track.init x w wf = .ok r) : r.2.ArpInv := by
  unfold Track.init at h
  obtain ⟨u, -, h⟩ := bind_ok_iff.1 h
  dsimp only at h
  obtain ⟨q, -, h⟩ := bind_ok_iff.1 h
  exact Track.reset_arp h

/-- The arpeggio of every track after any calls. -/
theorem TWorld.run_arp {fuel : Nat} {ops : List WOp} {s : TWorld}
    (h : ({} : TWorld).run fuel ops = .ok s) : s.All Track.ArpInv :=
  TWorld.run_all (fun _ _ _ _ _ hi h => (Track.told_same h).kept.inv hi)
    (fun _ _ _ _ h => Track.init_arp h) (fun _ _ _ _ _ hi h => Track.exec_arp hi h) ops
    (fun _ _ h => by cases h) h

end BK
