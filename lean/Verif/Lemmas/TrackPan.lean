import Verif.Lemmas.TrackArp
/-!
Panning is on just for tracks in contexts with two channels.
-/
namespace BK

/-- Context and panning are as before. -/
structure Track.Sides (t t' : Track) : Prop where
  ctx : t'.ctx = t.ctx
  pan : t'.panningOn = t.panningOn

theorem Track.SameBut.sides {t t' : Track} (h : t.SameBut t') : t.Sides t' := ⟨h.ctx, h.panningOn⟩

theorem Track.Sides.refl (t : Track) : t.Sides t := ⟨rfl, rfl⟩

theorem Track.Sides.trans {a b c : Track} (h : a.Sides b) (h' : b.Sides c) : a.Sides c :=
  ⟨h'.ctx.trans h.ctx, h'.pan.trans h.pan⟩

theorem Track.instrAttack_sides {x : Nat} {w : IWorld} {t : Track} {r : IWorld × Track}
    (h : t.instrAttack x w = .ok r) : t.Sides r.2 := by
  unfold Track.instrAttack at h
  obtain ⟨w', -, h⟩ := bind_ok_iff.1 h
  obtain ⟨t', ht, h⟩ := bind_ok_iff.1 h
  cases h
  have := (Track.hear_same ht).sides
  exact ⟨this.ctx, this.pan⟩

theorem Track.startNote_sides {x : Nat} {w : IWorld} {t : Track} {r : IWorld × Track}
    (h : t.startNote x w = .ok r) : t.Sides r.2 := by
  unfold Track.startNote at h
  split at h
  · dsimp only at h
    split at h
    · obtain ⟨r', h1, h⟩ := bind_ok_iff.1 h
      cases h
      have := Track.instrAttack_sides h1
      exact ⟨this.ctx, this.pan⟩
    · cases h
      exact ⟨rfl, rfl⟩
  · cases h; exact .refl _

theorem Track.playNote_sides {x : Nat} {w : IWorld} {t : Track} {n : Int} {r : IWorld × Track}
    (h : t.playNote x w n = .ok r) : t.Sides r.2 := by
  unfold Track.playNote at h
  obtain ⟨s, -, h⟩ := bind_ok_iff.1 h
  obtain ⟨r', h1, h⟩ := bind_ok_iff.1 h
  obtain ⟨t1, h2, h⟩ := bind_ok_iff.1 h
  obtain ⟨t2, h3, h⟩ := bind_ok_iff.1 h
  obtain ⟨t3, h4, h⟩ := bind_ok_iff.1 h
  cases h
  have k1 := Track.startNote_sides h1
  have k2 := (Track.startSample_same h2).sides
  have k3 := (Track.setUnit_same h3).sides
  have k4 := (Track.setUnit_same h4).sides
  have k12 := k1.trans k2
  exact (Track.Sides.trans ⟨k12.ctx, k12.pan⟩ (Track.Sides.trans ⟨k3.ctx, k3.pan⟩ k4))

theorem Track.releaseNote_sides {x : Nat} {w : IWorld} {t : Track} {r : IWorld × Track}
    (h : t.releaseNote x w = .ok r) : t.Sides r.2 := by
  unfold Track.releaseNote at h
  dsimp only at h
  split at h
  · obtain ⟨r', h1, h⟩ := bind_ok_iff.1 h
    obtain ⟨t1, h2, h⟩ := bind_ok_iff.1 h
    cases h
    have k1 := (Track.instrPhase_same h1).sides
    exact Track.Sides.trans ⟨k1.ctx, k1.pan⟩ (Track.setUnit_same h2).sides
  · split at h
    · obtain ⟨t1, h2, h⟩ := bind_ok_iff.1 h
      cases h
      have k1 := (Track.setUnit_same h2).sides
      exact ⟨k1.ctx, k1.pan⟩
    · obtain ⟨t1, h2, h⟩ := bind_ok_iff.1 h
      cases h
      have k1 := (Track.setUnit_same h2).sides
      exact ⟨k1.ctx, k1.pan⟩

theorem Track.setNote_sides {x : Nat} {w : IWorld} {t : Track} {n : Int} {r : IWorld × Track}
    (h : t.setNote x w n = .ok r) : t.Sides r.2 := by
  unfold Track.setNote at h
  obtain ⟨r', h1, h⟩ := bind_ok_iff.1 h
  cases h
  have k : t.Sides r'.2 := by
    unfold Track.noteCase at h1
    split at h1
    · exact Track.playNote_sides h1
    · split at h1
      · exact Track.releaseNote_sides h1
      · split at h1
        · exact (Track.muteNote_same h1).sides
        · cases h1; exact .refl _
  exact ⟨k.ctx, k.pan⟩

theorem Track.setInstrument_sides {x : Nat} {w : IWorld} {t : Track} {i : Option Nat}
    {r : IWorld × Track} (h : t.setInstrument x w i = .ok r) : t.Sides r.2 := by
  unfold Track.setInstrument at h
  split at h
  · obtain ⟨r', h1, h⟩ := bind_ok_iff.1 h
    cases h
    have k : t.Sides r'.2 := by
      cases i with
      | some i =>
        unfold Track.changeInstrument at h1
        dsimp only at h1
        obtain ⟨w1, -, h1⟩ := bind_ok_iff.1 h1
        obtain ⟨w2, -, h1⟩ := bind_ok_iff.1 h1
        split at h1
        · have k1 := (Track.instrPhase_same h1).sides
          exact ⟨k1.ctx, k1.pan⟩
        · have k1 := Track.instrAttack_sides h1
          exact ⟨k1.ctx, k1.pan⟩
      | none =>
        unfold Track.changeInstrument at h1
        dsimp only at h1
        obtain ⟨w1, -, h1⟩ := bind_ok_iff.1 h1
        split at h1
        · exact Track.setNote_sides h1
        · cases h1; exact .refl _
    exact ⟨k.ctx, k.pan⟩
  · cases h
    exact ⟨rfl, rfl⟩

theorem Track.setEffect_sides {t t' : Track} {e : Effect} {vals : List Int}
    (h : t.setEffect e vals = .ok t') : t.Sides t' := by
  unfold Track.setEffect at h
  cases e <;> dsimp only at h
  · obtain ⟨s, -, h⟩ := bind_ok_iff.1 h
    cases h; exact ⟨rfl, rfl⟩
  · obtain ⟨s, -, h⟩ := bind_ok_iff.1 h
    cases h; exact ⟨rfl, rfl⟩
  · obtain ⟨s, -, h⟩ := bind_ok_iff.1 h
    cases h; exact ⟨rfl, rfl⟩
  · obtain ⟨s, -, h⟩ := bind_ok_iff.1 h
    obtain ⟨s2, -, h⟩ := bind_ok_iff.1 h
    split at h
    · obtain ⟨s3, -, h⟩ := bind_ok_iff.1 h
      cases h; exact ⟨rfl, rfl⟩
    · cases h; exact ⟨rfl, rfl⟩
  · obtain ⟨s, -, h⟩ := bind_ok_iff.1 h
    obtain ⟨s2, -, h⟩ := bind_ok_iff.1 h
    split at h
    · obtain ⟨s3, -, h⟩ := bind_ok_iff.1 h
      cases h; exact ⟨rfl, rfl⟩
    · cases h; exact ⟨rfl, rfl⟩

theorem Track.setWaveform_sides {x : Nat} {w : IWorld} {t : Track} {v : Int} {r : Ret × Track}
    (h : t.setWaveform x w v = .ok r) : t.Sides r.2 := by
  unfold Track.setWaveform at h
  obtain ⟨q, -, h⟩ := bind_ok_iff.1 h
  dsimp only at h
  split at h
  · obtain ⟨t1, h1, h⟩ := bind_ok_iff.1 h
    cases h
    have k1 := (Track.updateNote_same h1).1.sides
    exact ⟨k1.ctx, k1.pan⟩
  · cases h; exact ⟨rfl, rfl⟩

theorem Track.setAttr_sides {x : Nat} {w : IWorld} {t : Track} {a : TAttr} {v : Int}
    {r : Ret × IWorld × Track} (h : t.setAttr x w a v = .ok r) : t.Sides r.2.2 := by
  unfold Track.setAttr at h
  cases a <;> dsimp only at h
  · cases h; exact ⟨rfl, rfl⟩
  · obtain ⟨s, -, h⟩ := bind_ok_iff.1 h
    cases h; exact ⟨rfl, rfl⟩
  · obtain ⟨s, -, h⟩ := bind_ok_iff.1 h
    cases h; exact ⟨rfl, rfl⟩
  · obtain ⟨s, h1, h⟩ := bind_ok_iff.1 h
    cases h; exact Track.setWaveform_sides h1
  · obtain ⟨s, h1, h⟩ := bind_ok_iff.1 h
    cases h
    unfold Track.setDuty at h1
    obtain ⟨q, -, h1⟩ := bind_ok_iff.1 h1
    cases h1; exact ⟨rfl, rfl⟩
  · obtain ⟨s, h1, h⟩ := bind_ok_iff.1 h
    cases h; exact Track.setNote_sides h1
  · cases h; exact ⟨rfl, rfl⟩
  · cases h; exact ⟨rfl, rfl⟩
  · cases h; exact ⟨rfl, rfl⟩
  · cases h; exact ⟨rfl, rfl⟩
  · cases h; exact ⟨rfl, rfl⟩
  · cases h; exact ⟨rfl, rfl⟩
  · split at h
    · cases h; exact .refl _
    · obtain ⟨s, h1, h⟩ := bind_ok_iff.1 h
      cases h; exact Track.setEffect_sides h1
  · obtain ⟨s, -, h⟩ := bind_ok_iff.1 h
    cases h; exact ⟨rfl, rfl⟩

theorem Track.setData_sides {x : Nat} {w : IWorld} {t : Track} {a : DataAttr} {d : Option DataArg}
    {r : Ret × Track} (h : t.setData x w a d = .ok r) : t.Sides r.2 := by
  unfold Track.setData at h
  obtain ⟨q, hq, h⟩ := bind_ok_iff.1 h
  have k : t.Sides q.2 := by
    unfold Track.setUnitData at hq
    split at hq
    · cases hq; exact .refl _
    · obtain ⟨z, -, hq⟩ := bind_ok_iff.1 hq
      cases hq; exact ⟨rfl, rfl⟩
  split at h
  · dsimp only at h
    obtain ⟨t1, h1, h⟩ := bind_ok_iff.1 h
    cases h
    have k1 := (Track.updateNote_same h1).1.sides
    exact k.trans ⟨k1.ctx, k1.pan⟩
  · cases h; exact k

theorem Track.clear_sides {x : Nat} {w : IWorld} {t : Track} {r : IWorld × Track}
    (h : t.clear x w = .ok r) : t.Sides r.2 := by
  unfold Track.clear at h
  obtain ⟨u, -, h⟩ := bind_ok_iff.1 h
  obtain ⟨r1, h1, h⟩ := bind_ok_iff.1 h
  dsimp only at h
  obtain ⟨r2, h2, h⟩ := bind_ok_iff.1 h
  obtain ⟨r3, h3, h⟩ := bind_ok_iff.1 h
  obtain ⟨r4, h4, h⟩ := bind_ok_iff.1 h
  obtain ⟨r5, h5, h⟩ := bind_ok_iff.1 h
  obtain ⟨r6, h6, h⟩ := bind_ok_iff.1 h
  obtain ⟨r7, h7, h⟩ := bind_ok_iff.1 h
  cases h
  have k1 := Track.setInstrument_sides h1
  have k := ((((Track.setAttr_sides h2).trans (Track.setAttr_sides h3)).trans
    (Track.setAttr_sides h4)).trans (Track.setAttr_sides h5)).trans ((Track.setAttr_sides h6).trans
    (Track.setAttr_sides h7))
  exact ⟨k.ctx.trans k1.ctx, k.pan.trans k1.pan⟩

theorem Track.reset_sides {x : Nat} {w : IWorld} {t : Track} {r : IWorld × Track}
    (h : t.reset x w = .ok r) : t.Sides r.2 := by
  unfold Track.reset at h
  obtain ⟨u, -, h⟩ := bind_ok_iff.1 h
  obtain ⟨r1, h1, h⟩ := bind_ok_iff.1 h
  have k1 := Track.setAttr_sides h1
  have k := Track.clear_sides h
  exact ⟨k.ctx.trans k1.ctx, k.pan.trans k1.pan⟩

theorem Track.tick_sides {x : Nat} {w : IWorld} {t : Track} {s : IWorld × Track}
    (h : t.tick x w = .ok s) : t.Sides s.2 := by
  obtain ⟨t1, r, t2, h1, hr', h2, h3, e⟩ := Track.tick_stages h
  obtain ⟨a, d, n, rfl⟩ := Track.arpeggioTick_same h1
  obtain ⟨d', sb, hl, -, -⟩ := Track.instrTick_same hr'
  have su := (Track.updateUnit_same h2).1
  obtain ⟨a', b, c, d'', e', f, g, i, j, k, h3⟩ := Track.effectsTick_same h3
  rw [h3]
  have k := sb.sides.trans su.sides
  exact ⟨k.ctx, k.pan⟩

/-- Panning is on if and only if the context has two channels. -/
def Track.Sided (t : Track) : Prop := t.panningOn = true ↔ ∃ r, t.ctx = some (r, 2)

theorem Track.Sides.sided {t t' : Track} (h : t.Sides t') (hs : t.Sided) : t'.Sided := by
  unfold Track.Sided; rw [h.ctx, h.pan]; exact hs

theorem Track.exec_sided {x : Nat} {w : IWorld} {t : Track} {op : TOp} {r : IWorld × Track}
    (hi : t.Sided) (h : t.exec x w op = .ok r) : r.2.Sided := by
  unfold Track.exec at h
  cases op <;> dsimp only at h
  · obtain ⟨s, h1, h⟩ := bind_ok_iff.1 h
    cases h; exact (Track.setAttr_sides h1).sided hi
  · obtain ⟨s, h1, h⟩ := bind_ok_iff.1 h
    cases h; exact (Track.setEffect_sides h1).sided hi
  · obtain ⟨s, h1, h⟩ := bind_ok_iff.1 h
    cases h
    unfold Track.setArpeggio at h1
    obtain ⟨a, ha, h1⟩ := bind_ok_iff.1 h1
    cases h1
    exact hi
  · exact (Track.setInstrument_sides h).sided hi
  · obtain ⟨s, h1, h⟩ := bind_ok_iff.1 h
    cases h; exact (Track.setData_sides h1).sided hi
  · obtain ⟨s, h1, h⟩ := bind_ok_iff.1 h
    cases h; exact hi
  · obtain ⟨s, h1, h⟩ := bind_ok_iff.1 h
    cases h; exact hi
  · cases h; exact hi
  · exact (Track.clear_sides h).sided hi
  · exact (Track.reset_sides h).sided hi
  · obtain ⟨s, h1, h⟩ := bind_ok_iff.1 h
    cases h
    unfold Track.attach at h1
    split at h1
    · cases h1; exact hi
    · rename_i hn
      obtain ⟨t1, h2, h1⟩ := bind_ok_iff.1 h1
      cases h1
      refine (Track.updateUnit_same h2).1.sides.sided ?_
      have hp : t.panningOn = false := by
        cases e : t.panningOn with
        | false => rfl
        | true =>
          obtain ⟨q, hq⟩ := hi.1 e
          rw [hn] at hq; cases hq
      unfold Track.Sided
      dsimp only
      rw [hp]
      simp
  · cases h
    unfold Track.Sided Track.detach
    simp
  · exact (Track.tick_sides h).sided hi
  · obtain ⟨s, h1, h⟩ := bind_ok_iff.1 h
    cases h
    unfold Track.run at h1
    obtain ⟨t1, h2, h1⟩ := bind_ok_iff.1 h1
    obtain ⟨q, -, h1⟩ := bind_ok_iff.1 h1
    cases h1
    exact (Track.updateUnit_same h2).1.sides.sided hi
  · cases h; exact hi

theorem Track.init_sided {x : Nat} {w : IWorld} {wf : Int} {r : IWorld × Track}
    (h : Track.init x w wf = .ok r) : r.2.Sided := by
  unfold Track.init at h
  obtain ⟨u, -, h⟩ := bind_ok_iff.1 h
  obtain ⟨q, hq, h⟩ := bind_ok_iff.1 h
  refine ((Track.setAttr_sides hq).trans (Track.reset_sides h)).sided ?_
  unfold Track.Sided
  simp

theorem TWorld.run_sided {fuel : Nat} {ops : List WOp} {s : TWorld}
    (h : ({} : TWorld).run fuel ops = .ok s) : s.All Track.Sided :=
  TWorld.run_all (fun _ _ _ _ _ hi h => (Track.told_same h).sides.sided hi)
    (fun _ _ _ _ h => Track.init_sided h) (fun _ _ _ _ _ hi h => Track.exec_sided hi h) ops
    (fun _ _ h => by cases h) h

end BK
