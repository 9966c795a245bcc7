import Verif.Lemmas.ReadBackSample
import Verif.Spec.FollowData
/-!
Which calls keep it so that a track plays the contents of its data object.
-/
namespace BK

/-- The unit plays no data. -/
def UCore.Free (c : UCore) : Prop := c.waveform ≠ .custom ∧ c.waveform ≠ .sample

/-- A track that plays data plays the contents of its object. -/
def Track.Bound (datas : Nat → DataObj) (t : Track) : Prop :=
  t.unit.waveform = .custom ∨ t.unit.waveform = .sample →
    ∃ d, t.dataId = some d ∧ t.unit.data = some (datas d).data ∧ t.unit.toUCore.reads (datas d).data

theorem Track.Bound.free {datas : Nat → DataObj} {t : Track} (h : t.unit.toUCore.Free) : t.Bound datas :=
  fun e => (e.elim h.1 h.2).elim

theorem Track.picked_free {t t' : Track} (e : t'.picked = t.picked) (h : t.unit.toUCore.Free) : t'.unit.toUCore.Free := by
  have k : t'.unit.waveform = t.unit.waveform := congrArg (fun p => p.2.1) e
  unfold UCore.Free
  rw [k]; exact h

theorem UCore.picked_reads {c c' : UCore} (e : c'.picked = c.picked) {d : SampleData} (h : c.reads d) : c'.reads d := by
  unfold UCore.picked at e
  simp only [Prod.mk.injEq] at e
  obtain ⟨h1, h2, ⟨h3, h4⟩, h5, h6, h7, h8⟩ := e
  unfold UCore.reads at h ⊢
  rw [h1, h3, h4, h6, h7, h8]; exact h

theorem Track.Bound.of_picked {datas : Nat → DataObj} {t t' : Track} (h : t.Bound datas) (e : t'.picked = t.picked) : t'.Bound datas := by
  have k0 : t'.dataId = t.dataId := congrArg (fun p => p.1) e
  have k : t'.unit.waveform = t.unit.waveform := congrArg (fun p => p.2.1) e
  have k2 : t'.unit.data = t.unit.data := congrArg (fun p => p.2.2.1) e
  intro hw
  rw [k] at hw
  obtain ⟨d, h1, h2, h3⟩ := h hw
  exact ⟨d, k0.trans h1, k2.trans h2, UCore.picked_reads (congrArg (fun p => p.2) e) h3⟩

theorem waveOfAttr_free {v : Int} {p : Wave × Int} (h : waveOfAttr v = some p) : p.1 ≠ .custom ∧ p.1 ≠ .sample := by
  unfold waveOfAttr at h
  split at h
  · cases h; exact ⟨(fun k => nomatch k), (fun k => nomatch k)⟩
  split at h
  · cases h; exact ⟨(fun k => nomatch k), (fun k => nomatch k)⟩
  split at h
  · cases h; exact ⟨(fun k => nomatch k), (fun k => nomatch k)⟩
  split at h
  · cases h; exact ⟨(fun k => nomatch k), (fun k => nomatch k)⟩
  split at h
  · cases h; exact ⟨(fun k => nomatch k), (fun k => nomatch k)⟩
  split at h
  · cases h; exact ⟨(fun k => nomatch k), (fun k => nomatch k)⟩
  · cases h

/-- After setting a waveform nothing or the same data as before is played. -/
theorem UCore.setWaveform_free {c : UCore} {v : Int} {r : Ret × UCore} (h : c.setAttr .waveform v = .ok r) :
    (r.1 = .ok ∧ r.2.Free) ∨ (r.1 ≠ .ok ∧ r.2 = c) := by
  unfold UCore.setAttr at h
  dsimp only at h
  split at h
  · rename_i w n hw
    have k := waveOfAttr_free hw
    cases h
    refine Or.inl ⟨rfl, ?_⟩
    unfold UCore.Free
    dsimp only
    split
    · exact k
    · rename_i he
      have he : c.waveform = w := Decidable.not_not.1 he
      dsimp only
      rw [he]; exact k
  · cases h
    exact Or.inr ⟨(fun k => nomatch k), rfl⟩

theorem Track.setWaveform_cases {x : Nat} {w : IWorld} {t : Track} {v : Int} {r : Ret × Track} (h : t.setWaveform x w v = .ok r) :
    r.2.unit.toUCore.Free ∨ r.2 = t := by
  unfold Track.setWaveform at h
  obtain ⟨q, hq, h⟩ := bind_ok_iff.1 h
  dsimp only at h
  rcases UCore.setWaveform_free hq with ⟨h1, h2⟩ | ⟨h1, h2⟩
  · rw [if_pos h1] at h
    obtain ⟨t1, ht, h⟩ := bind_ok_iff.1 h
    cases h
    left
    have k := Track.updateNote_picked ht
    exact Track.picked_free (t := { t with unit := { t.unit with toUCore := q.2 }, dataId := none
                                           waveform := q.2.waveform.code }) (k.trans rfl) h2
  · rw [if_neg h1] at h
    cases h
    right
    dsimp only
    rw [h2]

/-- Removing data that can be removed. -/
theorem UCore.setData_none_free {c : UCore} {ctx : Option Int} {type : DataAttr} {r : Ret × UCore} (h : c.setData ctx type none = .ok r) :
    (r.2.waveform = c.waveform ∨ r.2.Free) ∧ (type = .waveform → r.2.waveform ≠ .custom) ∧ (type = .sample → r.2.waveform ≠ .sample) := by
  unfold UCore.setData at h
  obtain ⟨q, hq, h⟩ := bind_ok_iff.1 h
  have free : ∀ c : UCore, c.waveform = .none → c.Free := fun c e => by
    unfold UCore.Free; rw [e]; exact ⟨(fun k => nomatch k), (fun k => nomatch k)⟩
  unfold UCore.trySetData at hq
  split at hq
  · cases hq
    rw [if_neg (fun k => nomatch k)] at h
    dsimp only at h
    split at h
    · cases h
      exact ⟨Or.inr (free _ rfl), (fun _ k => nomatch k), (fun _ k => nomatch k)⟩
    · rename_i hn
      cases h
      exact ⟨Or.inl rfl, fun _ e => hn (Or.inl e), fun _ e => hn (Or.inr e)⟩
  · split at hq
    · injection hq with hq
      subst hq
      unfold UCore.trySetWave at h
      dsimp only at h
      by_cases hc : c.waveform = .custom
      · rw [if_pos hc, if_neg (fun k => nomatch k)] at h
        dsimp only at h
        rw [if_neg (fun k => nomatch k)] at h
        cases h
        exact ⟨Or.inr (free _ rfl), (fun _ k => nomatch k), (fun _ k => nomatch k)⟩
      · rw [if_neg hc, if_pos rfl] at h
        cases h
        exact ⟨Or.inl rfl, fun _ => hc, fun e => by cases e⟩
    · unfold UCore.trySetSample at hq
      dsimp only at hq
      by_cases hc : c.waveform = .sample
      · rw [if_pos hc] at hq
        cases hq
        rw [if_pos rfl] at h
        cases h
        exact ⟨Or.inr (free _ rfl), (fun _ k => nomatch k), (fun _ k => nomatch k)⟩
      · rw [if_neg hc] at hq
        cases hq
        rw [if_pos rfl] at h
        cases h
        exact ⟨Or.inl rfl, (fun e => nomatch e), fun _ => hc⟩

theorem UCore.clear_free {c c' : UCore} {ctx : Option Int} (h : c.clear ctx = .ok c') : c'.Free := by
  unfold UCore.clear at h
  obtain ⟨a, ha, h⟩ := bind_ok_iff.1 h
  obtain ⟨b, hb, h⟩ := bind_ok_iff.1 h
  cases h
  have h1 := UCore.setData_none_free ha
  have h2 := UCore.setData_none_free hb
  refine ⟨fun e => ?_, h2.2.2 rfl⟩
  rcases h2.1 with k | k
  · exact h1.2.1 rfl (k.symm.trans e)
  · exact k.1 e

theorem Track.setAttr_picked {x : Nat} {w : IWorld} {t : Track} {a : TAttr} {v : Int} {r : Ret × IWorld × Track} (ha : a ≠ .waveform)
    (h : t.setAttr x w a v = .ok r) : r.2.2.picked = t.picked := by
  refine Track.exec_picked (x := x) (w := w) (op := .attr a v) (r := r.2) ?_ ?_
  · cases a <;> first | exact absurd rfl ha | trivial
  · unfold Track.exec
    dsimp only
    rw [h]; rfl

theorem Track.clear_free {x : Nat} {w : IWorld} {t : Track} {r : IWorld × Track} (h : t.clear x w = .ok r) : r.2.unit.toUCore.Free := by
  unfold Track.clear at h
  obtain ⟨u, hu, h⟩ := bind_ok_iff.1 h
  dsimp only at h
  obtain ⟨r1, h1, h⟩ := bind_ok_iff.1 h
  obtain ⟨r2, h2, h⟩ := bind_ok_iff.1 h
  obtain ⟨r3, h3, h⟩ := bind_ok_iff.1 h
  obtain ⟨r4, h4, h⟩ := bind_ok_iff.1 h
  obtain ⟨r5, h5, h⟩ := bind_ok_iff.1 h
  obtain ⟨r6, h6, h⟩ := bind_ok_iff.1 h
  obtain ⟨r7, h7, h⟩ := bind_ok_iff.1 h
  cases h
  have k1 := Track.picked_free (Track.setInstrument_picked h1) (UCore.clear_free hu)
  have k2 : r2.2.2.unit.toUCore.Free := Track.picked_free (t := r1.2.wiped) (Track.setAttr_picked (by decide) h2) k1
  have k3 := Track.picked_free (Track.setAttr_picked (by decide) h3) k2
  have k4 : r4.2.2.unit.toUCore.Free := by
    unfold Track.setAttr at h4
    dsimp only at h4
    obtain ⟨q, hq, h4⟩ := bind_ok_iff.1 h4
    cases h4
    rcases Track.setWaveform_cases hq with e | e
    · exact e
    · dsimp only; rw [e]; exact k3
  have k5 := Track.picked_free (Track.setAttr_picked (by decide) h5) k4
  have k6 := Track.picked_free (Track.setAttr_picked (by decide) h6) k5
  exact Track.picked_free (Track.setAttr_picked (by decide) h7) k6

theorem Track.reset_free {x : Nat} {w : IWorld} {t : Track} {r : IWorld × Track} (h : t.reset x w = .ok r) : r.2.unit.toUCore.Free := by
  unfold Track.reset at h
  obtain ⟨u, hu, h⟩ := bind_ok_iff.1 h
  dsimp only at h
  obtain ⟨r1, h1, h⟩ := bind_ok_iff.1 h
  exact Track.clear_free h

theorem Track.init_free {x : Nat} {w : IWorld} {v : Int} {r : IWorld × Track} (h : Track.init x w v = .ok r) : r.2.unit.toUCore.Free := by
  unfold Track.init at h
  obtain ⟨u, hu, h⟩ := bind_ok_iff.1 h
  dsimp only at h
  obtain ⟨r1, h1, h⟩ := bind_ok_iff.1 h
  exact Track.reset_free h

/-- Data that is accepted is what the unit reads. -/
theorem UCore.trySetData_reads {c : UCore} {ctx : Option Int} {type : DataAttr} {d : SampleData} {r : Ret × UCore}
    (h : c.trySetData ctx type (some d) = .ok r) (hr : r.1 = .ok) :
    r.2.waveform = (match type with | .waveform => .custom | .sample => .sample) ∧ r.2.reads d := by
  unfold UCore.trySetData at h
  cases ctx with
  | none => cases h; cases hr
  | some n =>
    cases type with
    | waveform =>
      dsimp only at h
      injection h with h
      subst h
      unfold UCore.trySetWave at hr ⊢
      dsimp only at hr ⊢
      split at hr
      · rename_i hn
        rw [if_pos hn]
        refine ⟨rfl, rfl, ?_⟩
        dsimp only
        unfold cmin
        split <;> omega
      · cases hr
    | sample =>
      dsimp only at h
      unfold UCore.trySetSample at h
      dsimp only at h
      split at h
      · cases h; cases hr
      · split at h
        · cases h; cases hr
        · rename_i hn
          obtain ⟨p, -, h⟩ := bind_ok_iff.1 h
          cases h
          refine ⟨rfl, rfl, ?_⟩
          dsimp only
          rw [show min 0 d.numFrames = 0 from by omega, Int.zero_mul]
          rfl

theorem UCore.reads_data {c : UCore} {o : Option SampleData} {d : SampleData} (h : c.reads d) : ({ c with data := o } : UCore).reads d := h

theorem UCore.setData_cases {c : UCore} {ctx : Option Int} {type : DataAttr} {d : Option SampleData} {r : Ret × UCore}
    (h : c.setData ctx type d = .ok r) : (∃ q, c.trySetData ctx type d = .ok q ∧ q.1 = .ok ∧ r = (.ok, { q.2 with data := d })) ∨
      (r.1 ≠ .ok ∧ r.2.Free) := by
  unfold UCore.setData at h
  obtain ⟨q, hq, h⟩ := bind_ok_iff.1 h
  split at h
  · rename_i e
    cases h
    exact Or.inl ⟨q, hq, e, rfl⟩
  · rename_i e
    split at h
    · cases h
      exact Or.inr ⟨e, ⟨(fun k => nomatch k), (fun k => nomatch k)⟩⟩
    · rename_i hn
      cases h
      exact Or.inr ⟨e, fun e => hn (Or.inl e), fun e => hn (Or.inr e)⟩

theorem Track.setUnitData_bound {datas : Nat → DataObj} {t : Track} {type : DataAttr} {o : Option DataArg} {r : Ret × Track}
    (hb : t.Bound datas) (ho : ∀ a, o = some a → a.data = (datas a.id).data)
    (hn : o = none → (type = .sample → t.unit.waveform ≠ .custom) ∧ (type = .waveform → t.unit.waveform ≠ .sample))
    (h : t.setUnitData type o = .ok r) : r.2.Bound datas := by
  unfold Track.setUnitData at h
  split at h
  · cases h; exact hb
  · obtain ⟨q, hq, h⟩ := bind_ok_iff.1 h
    cases h
    cases o with
    | none =>
      obtain ⟨h1, h2, h3⟩ := UCore.setData_none_free hq
      obtain ⟨n1, n2⟩ := hn rfl
      refine Track.Bound.free ?_
      dsimp only
      rcases h1 with e | e
      · cases type with
        | waveform => exact ⟨h2 rfl, by rw [e]; exact n2 rfl⟩
        | sample => exact ⟨by rw [e]; exact n1 rfl, h3 rfl⟩
      · exact e
    | some a =>
      rcases UCore.setData_cases hq with ⟨p, hp, e, rfl⟩ | ⟨e, f⟩
      · intro _
        refine ⟨a.id, by dsimp only; rw [if_pos rfl]; rfl, ?_, ?_⟩
        · show some a.data = _
          rw [ho a rfl]
        · rw [← ho a rfl]
          exact UCore.reads_data (UCore.trySetData_reads hp e).2
      · exact Track.Bound.free f

theorem Track.setData_bound {datas : Nat → DataObj} {x : Nat} {w : IWorld} {t : Track} {type : DataAttr} {o : Option DataArg}
    {r : Ret × Track} (hb : t.Bound datas) (ho : ∀ a, o = some a → a.data = (datas a.id).data)
    (hn : o = none → (type = .sample → t.unit.waveform ≠ .custom) ∧ (type = .waveform → t.unit.waveform ≠ .sample))
    (h : t.setData x w type o = .ok r) : r.2.Bound datas := by
  unfold Track.setData at h
  obtain ⟨q, hq, h⟩ := bind_ok_iff.1 h
  have k := Track.setUnitData_bound hb ho hn hq
  split at h
  · dsimp only at h
    obtain ⟨t1, h1, h⟩ := bind_ok_iff.1 h
    cases h
    have k1 := Track.updateNote_picked h1
    exact k.of_picked (k1.trans rfl)
  · cases h; exact k

theorem UCore.updateSustainRange_picks {c c' : UCore} {a b : Int} (h : c.updateSustainRange a b = .ok c') :
    c'.waveform = c.waveform ∧ c'.data = c.data ∧ ∀ d, c.reads d → c'.reads d := by
  unfold UCore.updateSustainRange at h
  split at h
  · cases h; exact ⟨rfl, rfl, fun _ h => h⟩
  · obtain ⟨p, -, h⟩ := bind_ok_iff.1 h
    obtain ⟨q, -, h⟩ := bind_ok_iff.1 h
    cases h; exact ⟨rfl, rfl, fun _ h => h⟩

theorem rangeArg_in {len v r : Int} (hl : 0 ≤ len) (h : rangeArg len v = .ok r) : 0 ≤ r ∧ r ≤ len := by
  unfold rangeArg at h
  split at h
  · obtain ⟨a, -, h⟩ := bind_ok_iff.1 h
    obtain ⟨b, -, h⟩ := bind_ok_iff.1 h
    cases h
    exact cclamp_in hl
  · cases h
    exact cclamp_in hl

theorem Track.range_bound {datas : Nat → DataObj} {t : Track} {v : Option (Int × Int)} {r : Ret × UCore} (hb : t.Bound datas)
    (hw : ∀ d, t.unit.data = some d → d.Wf)
    (h : t.unit.toUCore.setRange v = .ok r) : ({ t with unit := { t.unit with toUCore := r.2 } } : Track).Bound datas := by
  unfold UCore.setRange at h
  split at h
  · cases h; exact hb
  · rename_i hs
    have hs : t.unit.waveform = .sample := Decidable.not_not.1 hs
    dsimp only at h
    obtain ⟨c1, h1, h⟩ := bind_ok_iff.1 h
    obtain ⟨c2, h2, h⟩ := bind_ok_iff.1 h
    cases h
    obtain ⟨d, b1, b2, b3⟩ := hb (Or.inr hs)
    have hf := hw _ b2
    intro _
    obtain ⟨e1, e2, e3⟩ := UCore.updateSustainRange_picks h2
    unfold UCore.updateSampleRange at h1
    rw [b2] at h1
    dsimp only at h1
    obtain ⟨p, hp, h1⟩ := bind_ok_iff.1 h1
    obtain ⟨q, hq, h1⟩ := bind_ok_iff.1 h1
    obtain ⟨a, -, h1⟩ := bind_ok_iff.1 h1
    obtain ⟨l, -, h1⟩ := bind_ok_iff.1 h1
    obtain ⟨k, -, h1⟩ := bind_ok_iff.1 h1
    obtain ⟨s, -, h1⟩ := bind_ok_iff.1 h1
    cases h1
    have p1 := rangeArg_in hf.count.1 hp
    have q1 := rangeArg_in hf.count.1 hq
    refine ⟨d, b1, e2.trans rfl, e3 _ ?_⟩
    unfold UCore.reads at b3 ⊢
    rw [hs] at b3
    dsimp only at b3 ⊢
    rw [hs]
    dsimp only
    refine ⟨b3.1, ?_⟩
    have hm : cmin p q = min p q := by unfold cmin; split <;> omega
    rw [hm, b3.1]
    have m0 : 0 ≤ min p q := by omega
    have m1 : min p q ≤ (datas d).data.numFrames := by omega
    have m2 : min p q * (datas d).data.numChannels ≤ (datas d).data.numFrames * (datas d).data.numChannels :=
      Int.mul_le_mul_of_nonneg_right m1 (by have := hf.chans.1; omega)
    have m3 : 0 ≤ min p q * (datas d).data.numChannels := Int.mul_nonneg m0 (by have := hf.chans.1; omega)
    have m4 := hf.count.2
    have e : wrapU32 (min p q * (datas d).data.numChannels) = min p q * (datas d).data.numChannels := by
      unfold wrapU32; omega
    rw [e]

theorem Track.sustain_bound {datas : Nat → DataObj} {t : Track} {v : Option (Int × Int)} {r : Ret × UCore} (hb : t.Bound datas)
    (h : t.unit.toUCore.setSustainRange v = .ok r) :
    ({ t with unit := { t.unit with toUCore := r.2 } } : Track).Bound datas := by
  unfold UCore.setSustainRange at h
  split at h
  · cases h; exact hb
  · dsimp only at h
    obtain ⟨c1, h1, h⟩ := bind_ok_iff.1 h
    cases h
    obtain ⟨e1, e2, e3⟩ := UCore.updateSustainRange_picks h1
    intro hw
    dsimp only at hw
    rw [e1] at hw
    obtain ⟨d, b1, b2, b3⟩ := hb hw
    exact ⟨d, b1, e2.trans b2, e3 _ b3⟩

/-- Calls on a track that do not set data. -/
theorem Track.exec_bound {datas : Nat → DataObj} {x : Nat} {w : IWorld} {t : Track} {op : TOp} {r : IWorld × Track}
    (hb : t.Bound datas) (hw : ∀ d, t.unit.data = some d → d.Wf) (ho : ∀ type d, op ≠ .data type d)
    (h : t.exec x w op = .ok r) : r.2.Bound datas := by
  by_cases hl : op.leavesSample
  · exact hb.of_picked (Track.exec_picked hl h)
  · unfold Track.exec at h
    cases op <;> dsimp only at h <;> try exact (hl trivial).elim
    case attr a v =>
      cases a <;> try exact (hl trivial).elim
      obtain ⟨q, hq, h⟩ := bind_ok_iff.1 h
      cases h
      unfold Track.setAttr at hq
      dsimp only at hq
      obtain ⟨z, hz, hq⟩ := bind_ok_iff.1 hq
      cases hq
      rcases Track.setWaveform_cases hz with e | e
      · exact Track.Bound.free e
      · dsimp only; rw [e]; exact hb
    case data type d => exact absurd rfl (ho type d)
    case range v =>
      obtain ⟨q, hq, h⟩ := bind_ok_iff.1 h
      cases h
      exact Track.range_bound hb hw hq
    case sustain v =>
      obtain ⟨q, hq, h⟩ := bind_ok_iff.1 h
      cases h
      exact Track.sustain_bound hb hq
    case clear => exact Track.Bound.free (Track.clear_free h)
    case reset => exact Track.Bound.free (Track.reset_free h)

end BK
