import Verif.Lemmas.FollowData
import Verif.Lemmas.Current5
/-!
What tracks do when their data object changes.
-/
namespace BK

/-! ### One track -/

theorem UCore.Fine.noData {N : Nat} {Z : Prop} {c : UCore} (h : c.Fine N Z) : ({ c with data := none } : UCore).Fine N Z :=
  { h with inv := { h.inv with data := fun _ e => nomatch e }
           spre := ⟨h.spre.speed, h.spre.frac, fun e => { h.spre.sample e with data := fun _ e => nomatch e }⟩
           data := fun _ _ e => nomatch e }

theorem UCore.Fine.noSustain {N : Nat} {Z : Prop} {c : UCore} (h : c.Fine N Z) :
    ({ c with sustainRange := false, sustainJump := false } : UCore).Fine N Z :=
  { h with inv := { h.inv with }
           spre := ⟨h.spre.speed, h.spre.frac, fun e => { h.spre.sample e with sustain := fun e => nomatch e }⟩
           sus := fun _ e => nomatch e
           stray := fun e => nomatch e }

/-- The data that a track gets with the call. -/
def newData (new : Option SampleData) (n : Int) : Prop :=
  ∀ d, new = some d → d.Wf ∧ d.numFrames ≤ 1073741824 ∧ 2 ≤ d.numFrames ∧ (d.numChannels = 1 ∨ d.numChannels = n)

theorem UCore.trySetSample_fine {N : Nat} {Z : Prop} {c : UCore} (h : c.Fine N Z) (hw : c.waveform = .sample) {new : Option SampleData}
    (hn : newData new N) : ∃ q, c.trySetSample new N = .ok q ∧ q.1 = .ok ∧ ({ q.2 with data := new } : UCore).Fine N Z := by
  obtain ⟨r, hr⟩ := UCore.setData_total h.noSustain.spre (some (N : Int)) .sample new
  have hf := UCore.setData_fine h.noSustain (ctx := some (N : Int)) (fun n e => by cases e; rfl) (t := .sample) (d := new)
    ⟨fun x e => ⟨(hn x e).1, fun _ => (hn x e).2.1⟩, fun e => nomatch e⟩ hr
  unfold UCore.setData at hr
  obtain ⟨q, hq, hr⟩ := bind_ok_iff.1 hr
  have e : c.trySetSample new N = .ok q := by
    rw [← hq]
    unfold UCore.trySetData UCore.trySetSample
    cases new with
    | none => dsimp only; rw [if_pos hw, if_pos hw]
    | some d =>
      dsimp only
      obtain ⟨k1, k2, k3, k4⟩ := hn d rfl
      rw [if_neg (by rcases k4 with e | e <;> simp [e]), if_neg (by omega), if_neg (by rcases k4 with e | e <;> simp [e]), if_neg (by omega)]
  have e1 : q.1 = .ok := by
    unfold UCore.trySetSample at e
    cases new with
    | none => dsimp only at e; rw [if_pos hw] at e; cases e; rfl
    | some d =>
      dsimp only at e
      obtain ⟨k1, k2, k3, k4⟩ := hn d rfl
      rw [if_neg (by rcases k4 with e | e <;> simp [e]), if_neg (by omega)] at e
      obtain ⟨p, -, e⟩ := bind_ok_iff.1 e
      cases e; rfl
  rw [if_pos e1] at hr
  cases hr
  exact ⟨q, e, e1, hf⟩

theorem UCore.trySetWave_fine {N : Nat} {Z : Prop} {c : UCore} (h : c.Fine N Z) (hw : c.waveform = .custom) {new : SampleData}
    (hn : new.Wf) (h2 : 2 ≤ new.numFrames) :
    (c.trySetWave (some new)).1 = .ok ∧ ({ (c.trySetWave (some new)).2 with data := some new } : UCore).Fine N Z := by
  have e1 : (c.trySetWave (some new)).1 = .ok := by
    unfold UCore.trySetWave; dsimp only; rw [if_pos h2]
  refine ⟨e1, ?_⟩
  have hr : c.setData (some (N : Int)) .waveform (some new) = .ok (.ok, { (c.trySetWave (some new)).2 with data := some new }) := by
    unfold UCore.setData UCore.trySetData
    dsimp only
    rw [ok_bind, if_pos e1]; rfl
  exact UCore.setData_fine h (ctx := some (N : Int)) (fun n e => by cases e; rfl) (t := .waveform) (d := some new)
    ⟨fun x e => by cases e; exact ⟨hn, fun e => nomatch e⟩, fun a b => by
      have := h.stray a b
      rw [hw] at this; cases this⟩ hr

theorem UCore.trySetWave_none_fine {N : Nat} {Z : Prop} {c : UCore} (h : c.Fine N Z) (hw : c.waveform = .custom) :
    (c.trySetWave none).1 ≠ .ok ∧ (c.trySetWave none).2.waveform = .none ∧ (c.trySetWave none).2.Fine N Z := by
  have e1 : c.trySetWave none = (.failed, { c with waveform := .none, offset := 0, stop := 0, frames := [] }) := by
    unfold UCore.trySetWave; dsimp only; rw [if_pos hw]
  have hr : c.setData (some (N : Int)) .waveform none = .ok (c.trySetWave none) := by
    unfold UCore.setData UCore.trySetData
    dsimp only
    rw [ok_bind, e1, if_neg (fun k => nomatch k)]
    dsimp only
    rw [if_neg (fun k => k.elim (fun k => nomatch k) (fun k => nomatch k))]; rfl
  have hf := UCore.setData_fine h (ctx := some (N : Int)) (fun n e => by cases e; rfl) (t := .waveform) (d := none)
    ⟨(fun x e => nomatch e), fun a b => by
      have := h.stray a b
      rw [hw] at this; cases this⟩ hr
  refine ⟨?_, ?_, hf⟩ <;> rw [e1]
  exact fun k => nomatch k

/-- The unit of a track is told about new frames. -/
theorem UCore.dataCallback_fine {N : Nat} {Z : Prop} {c : UCore} (h : c.Fine N Z) {new : SampleData}
    (hn : new.Wf ∧ new.numFrames ≤ 1073741824 ∧ 2 ≤ new.numFrames)
    (hc : c.waveform = .sample → new.numChannels = 1 ∨ new.numChannels = N) :
    ∃ q, c.dataCallback (some (N : Int)) (some new) = .ok q ∧
      ((c.Free ∧ q.1 ≠ .ok ∧ q.2 = c) ∨
       (q.1 = .ok ∧ q.2.waveform = c.waveform ∧ q.2.reads new ∧ ({ q.2 with data := some new } : UCore).Fine N Z)) := by
  unfold UCore.dataCallback
  split
  · rename_i hw
    obtain ⟨e1, e2⟩ := UCore.trySetWave_fine h hw hn.1 hn.2.2
    have k := UCore.trySetData_reads (c := c) (ctx := some (N : Int)) (type := .waveform) (d := new) rfl e1
    exact ⟨_, rfl, Or.inr ⟨e1, k.1.trans hw.symm, k.2, e2⟩⟩
  · rename_i hw
    obtain ⟨q, e0, e1, e2⟩ := UCore.trySetSample_fine h hw (new := some new) (fun d e => by
      cases e; exact ⟨hn.1, hn.2.1, hn.2.2, hc hw⟩)
    have k := UCore.trySetData_reads (c := c) (ctx := some (N : Int)) (type := .sample) (d := new) e0 e1
    exact ⟨q, e0, Or.inr ⟨e1, k.1.trans hw.symm, k.2, e2⟩⟩
  · rename_i h1 h2
    exact ⟨_, rfl, Or.inl ⟨⟨h1, h2⟩, (fun k => nomatch k), rfl⟩⟩

/-- The unit of a track is told that the data goes. -/
theorem UCore.dataCallback_gone {N : Nat} {Z : Prop} {c : UCore} (h : c.Fine N Z) :
    ∃ q, c.dataCallback (some (N : Int)) none = .ok q ∧ q.2.Free ∧ ({ q.2 with data := none } : UCore).Fine N Z ∧
      ∃ b, ({ q.2 with data := b } : UCore).Fine N Z ∧ q.2.data = b := by
  unfold UCore.dataCallback
  split
  · rename_i hw
    obtain ⟨e1, e2, e3⟩ := UCore.trySetWave_none_fine h hw
    refine ⟨_, rfl, ?_, e3.noData, _, e3, rfl⟩
    unfold UCore.Free; rw [e2]; exact ⟨by decide, by decide⟩
  · rename_i hw
    obtain ⟨q, e0, e1, e2⟩ := UCore.trySetSample_fine h hw (new := none) (fun d e => nomatch e)
    have e3 : q.2.waveform = .none := by
      unfold UCore.trySetSample at e0
      dsimp only at e0
      rw [if_pos hw] at e0
      cases e0; rfl
    refine ⟨q, e0, ?_, e2, q.2.data, ?_, rfl⟩
    · unfold UCore.Free; rw [e3]; exact ⟨by decide, by decide⟩
    · have k : ∀ d, q.2.data = some d → d.Wf := by
        have : q.2.data = c.data := by
          unfold UCore.trySetSample at e0
          dsimp only at e0
          rw [if_pos hw] at e0
          cases e0; rfl
        rw [this]; exact h.inv.data
      exact { e2 with inv := { e2.inv with data := k }
                      spre := ⟨e2.spre.speed, e2.spre.frac, fun e => by
                        have e : q.2.waveform = .sample := e
                        rw [e3] at e; cases e⟩
                      data := fun e => by
                        have e : q.2.waveform = .sample := e
                        rw [e3] at e; cases e }
  · rename_i h1 h2
    exact ⟨_, rfl, ⟨h1, h2⟩, h.noData, _, h, rfl⟩

theorem Track.Inv.chan {N : Nat} {Z : Prop} {t : Track} (h : t.Inv N Z) (hc : t.ctx ≠ none) : t.ctx.map (·.2) = some (N : Int) := by
  cases e : t.ctx with
  | none => exact absurd e hc
  | some c => rw [Option.map_some, (h.ctx c e).2.2]

/-- A track is told about new frames. -/
theorem Track.dataCallback_set {N n : Nat} {own : Bool} {x : Nat} {w : IWorld} {t : Track} (h : t.Inv N False) (hw : w.Good n)
    (hc : t.ctx ≠ none) {new : SampleData} (hn : new.Wf ∧ new.numFrames ≤ 1073741824 ∧ 2 ≤ new.numFrames)
    (hs : t.unit.waveform = .sample → new.numChannels = 1 ∨ new.numChannels = N) :
    ∃ t', t.dataCallback own x w (some new) = .ok t' ∧ t'.Inv N False ∧ t'.ctx = t.ctx ∧ t'.unit.waveform = t.unit.waveform ∧
      ((t.unit.toUCore.Free ∧ t'.dataId = none) ∨
       (t'.dataId = t.dataId ∧ t'.unit.data = some new ∧ t'.unit.toUCore.reads new)) := by
  unfold Track.dataCallback
  rw [h.chan hc]
  obtain ⟨q, e0, k⟩ := UCore.dataCallback_fine h.unit hn hs
  rw [e0, ok_bind]
  dsimp only
  rcases k with ⟨k1, k2, k3⟩ | ⟨k1, k2, k3, k4⟩
  · rw [if_neg (fun e => k2 e.2), ok_bind, if_neg (fun e => k2 e.1)]
    refine ⟨_, rfl, ?_, rfl, ?_, Or.inl ⟨k1, rfl⟩⟩
    · have := h.unit.noData
      dsimp only
      rw [k3]
      exact { h with unit := this }
    · dsimp only
      rw [k3]
  · have h1 : Track.Inv N False { t with unit := { t.unit with toUCore := { q.2 with data := some new } } } := { h with unit := k4 }
    by_cases ho : own = true
    · rw [if_pos ⟨ho, k1⟩]
      obtain ⟨t2, e2, h2⟩ := (h1.updateNote (x := x) hw).get trivial
      rw [e2, ok_bind, if_pos ⟨k1, fun e => nomatch e⟩]
      have p := Track.updateNote_picked e2
      have p0 : t2.dataId = t.dataId := congrArg (fun p => p.1) p
      have p1 : t2.unit.waveform = q.2.waveform := congrArg (fun p => p.2.1) p
      have p2 : t2.unit.data = some new := congrArg (fun p => p.2.2.1) p
      exact ⟨t2, rfl, h2, ((Track.updateNote_same e2).1.ctx).trans rfl, p1.trans k2, Or.inr ⟨p0, p2,
        UCore.picked_reads (c := { q.2 with data := some new }) (congrArg (fun p => p.2) p) (UCore.reads_data k3)⟩⟩
    · rw [if_neg (fun e => ho e.1), ok_bind, if_pos ⟨k1, fun e => nomatch e⟩]
      exact ⟨_, rfl, h1, rfl, k2, Or.inr ⟨rfl, rfl, UCore.reads_data k3⟩⟩

/-- A track is told that its data goes. -/
theorem Track.dataCallback_gone {N n : Nat} {own : Bool} {x : Nat} {w : IWorld} {t : Track} (h : t.Inv N False) (hw : w.Good n)
    (hc : t.ctx ≠ none) : ∃ t', t.dataCallback own x w none = .ok t' ∧ t'.Inv N False ∧ t'.ctx = t.ctx ∧ t'.dataId = none ∧
      t'.unit.toUCore.Free := by
  unfold Track.dataCallback
  rw [h.chan hc]
  obtain ⟨q, e0, k1, k2, b, k3, k4⟩ := UCore.dataCallback_gone h.unit
  rw [e0, ok_bind]
  dsimp only
  have k3 : q.2.Fine N False := by rw [← k4] at k3; exact k3
  have h1 : Track.Inv N False { t with unit := { t.unit with toUCore := q.2 } } := { h with unit := k3 }
  by_cases ho : own = true ∧ q.1 = .ok
  · rw [if_pos ho]
    obtain ⟨t2, e2, h2⟩ := (h1.updateNote (x := x) hw).get trivial
    rw [e2, ok_bind, if_neg (fun e => e.2 rfl)]
    have p := Track.updateNote_picked e2
    exact ⟨_, rfl, { h2 with unit := h2.unit.noData }, ((Track.updateNote_same e2).1.ctx).trans rfl, rfl,
      Track.picked_free (t := { t with unit := { t.unit with toUCore := q.2 } }) (t' := t2) p k1⟩
  · rw [if_neg ho, ok_bind, if_neg (fun e => e.2 rfl)]
    exact ⟨_, rfl, { h1 with unit := h1.unit.noData }, rfl, rfl, k1⟩

/-! ### All tracks -/

theorem AWorld.tellOne_spec {Q R : Nat → Track → Prop} {own : Nat → Bool} {iw : IWorld} {d : Nat} {new : Option SampleData}
    (h1 : ∀ x t, Q x t → t.dataId ≠ some d → R x t)
    (h2 : ∀ x t, Q x t → t.dataId = some d → ∃ t', t.dataCallback (own x) x iw new = .ok t' ∧ R x t')
    (ts : Nat → Option Track) (x : Nat) (hq : ∀ t, ts x = some t → Q x t) :
    ∃ ts', AWorld.tellOne own iw d new ts x = .ok ts' ∧ (∀ y, y ≠ x → ts' y = ts y) ∧ (∀ t, ts' x = some t → R x t) ∧
      (ts x = none → ts' x = none) ∧ (∀ t, ts x = some t → t.dataId ≠ some d → ts' x = some t) := by
  unfold AWorld.tellOne
  cases e : ts x with
  | none =>
    exact ⟨ts, rfl, fun _ _ => rfl, (fun t ht => by rw [e] at ht; cases ht), (fun _ => e), (fun t ht => nomatch ht)⟩
  | some t =>
    dsimp only
    by_cases hd : t.dataId = some d
    · rw [if_pos hd]
      obtain ⟨t', e1, e2⟩ := h2 x t (hq t e) hd
      rw [e1, ok_bind]
      refine ⟨_, rfl, fun y hy => upd_ne _ _ hy, fun u hu => ?_, (fun k => nomatch k), fun u hu k => ?_⟩
      · rw [upd_self] at hu; cases hu; exact e2
      · cases hu; exact absurd hd k
    · rw [if_neg hd]
      exact ⟨ts, rfl, fun _ _ => rfl, (fun u hu => by rw [e] at hu; cases hu; exact h1 x t (hq t e) hd), (fun k => nomatch k),
        fun u hu _ => by cases hu; exact e⟩

theorem AWorld.tellAll {Q R : Nat → Track → Prop} {own : Nat → Bool} {iw : IWorld} {d : Nat} {new : Option SampleData}
    (h0 : ∀ x t, R x t → Q x t) (h1 : ∀ x t, Q x t → t.dataId ≠ some d → R x t)
    (h2 : ∀ x t, Q x t → t.dataId = some d → ∃ t', t.dataCallback (own x) x iw new = .ok t' ∧ R x t') :
    ∀ (l : List Nat) (ts : Nat → Option Track), (∀ x t, ts x = some t → Q x t) →
    ∃ ts', l.foldlM (AWorld.tellOne own iw d new) ts = .ok ts' ∧ (∀ x t, ts' x = some t → Q x t) ∧
      (∀ x, x ∈ l → ∀ t, ts' x = some t → R x t) ∧
      (∀ x, (∀ t, ts x = some t → R x t) → ∀ t, ts' x = some t → R x t) ∧
      (∀ x, ts x = none → ts' x = none) ∧ (∀ x t, ts x = some t → t.dataId ≠ some d → ts' x = some t)
  | [], ts, hq => ⟨ts, rfl, hq, fun x hx => absurd hx List.not_mem_nil, fun _ h => h, fun _ h => h, fun _ _ h _ => h⟩
  | x :: l, ts, hq => by
    obtain ⟨ts1, a1, a2, a3, a4, a5⟩ := AWorld.tellOne_spec h1 h2 ts x (hq x)
    have hq1 : ∀ y t, ts1 y = some t → Q y t := by
      intro y t hy
      by_cases e : y = x
      · subst e; exact h0 _ _ (a3 t hy)
      · rw [a2 y e] at hy; exact hq y t hy
    obtain ⟨ts2, b1, b2, b3, b4, b5, b6⟩ := AWorld.tellAll h0 h1 h2 l ts1 hq1
    refine ⟨ts2, ?_, b2, ?_, ?_, ?_, ?_⟩
    · rw [List.foldlM_cons, a1, ok_bind]; exact b1
    · intro y hy
      rcases List.mem_cons.1 hy with e | e
      · subst e; exact b4 y a3
      · exact b3 y e
    · intro y hy
      refine b4 y ?_
      by_cases e : y = x
      · subst e; exact a3
      · rw [a2 y e]; exact hy
    · intro y hy
      refine b5 y ?_
      by_cases e : y = x
      · subst e; exact a4 hy
      · rw [a2 y e]; exact hy
    · intro y t hy hn
      refine b6 y t ?_ hn
      by_cases e : y = x
      · subst e; exact a5 t hy hn
      · rw [a2 y e]; exact hy

/-! ### Calls in sequence -/

/-- Holds between calls. -/
structure AWorld.Inv (n N : Nat) (s : AWorld) : Prop where
  tw : s.tw.Inv n N
  bound : ∀ x t, s.tw.tracks x = some t → t.Bound s.datas
  known : ∀ x t, s.tw.tracks x = some t → x ∈ s.known

theorem TWorld.Inv.keep {n N : Nat} {s : TWorld} (h : s.Inv n N) {ts : Nat → Option Track} (ht : ∀ x t, ts x = some t → t.Inv N False) :
    TWorld.Inv (n + 1) N { s with tracks := ts } := ⟨h.good.mono (Nat.le_succ n), ht⟩

theorem Track.Bound.other {datas : Nat → DataObj} {t : Track} (h : t.Bound datas) {d : Nat} {o : DataObj} (hd : t.dataId ≠ some d) :
    t.Bound (upd datas d o) := by
  intro hw
  obtain ⟨e, h1, h2, h3⟩ := h hw
  have k : e ≠ d := fun k => hd (by rw [h1, k])
  exact ⟨e, h1, by rw [upd_ne _ _ k]; exact h2, by rw [upd_ne _ _ k]; exact h3⟩

/-- Calls on tracks and instruments keep `Bound`, if data is set by `play`. -/
theorem TWorld.exec_bound {datas : Nat → DataObj} {fuel : Nat} {s s' : TWorld} {op : WOp}
    (hb : ∀ x t, s.tracks x = some t → t.Bound datas) (hw : ∀ x t, s.tracks x = some t → ∀ d, t.unit.data = some d → d.Wf)
    (hd : ∀ x type d, op = .track x (.data type d) → ∀ t, s.tracks x = some t →
      (∀ a, d = some a → a.data = (datas a.id).data) ∧
      (d = none → (type = .sample → t.unit.waveform ≠ .custom) ∧ (type = .waveform → t.unit.waveform ≠ .sample)))
    (h : s.exec fuel op = .ok s') : ∀ x t, s'.tracks x = some t → t.Bound datas := by
  have put : ∀ (y : Nat) (u : Track), u.Bound datas → ∀ x t, upd s.tracks y (some u) x = some t → t.Bound datas := by
    intro y u hu x t ht
    by_cases e : x = y
    · subst e; rw [upd_self] at ht; cases ht; exact hu
    · rw [upd_ne _ _ e] at ht; exact hb x t ht
  have hear : ∀ w, s.hear w = .ok s' → ∀ x t, s'.tracks x = some t → t.Bound datas := by
    intro w h
    unfold TWorld.hear at h
    obtain ⟨ts, hts, h⟩ := bind_ok_iff.1 h
    cases h
    refine foldlM_inv (P := fun ts : Nat → Option Track => ∀ x t, ts x = some t → t.Bound datas) ?_ _ hb hts
    intro ts e ts' hP h1
    unfold TWorld.tell at h1
    split at h1
    · cases h1; exact hP
    · rename_i t ht
      obtain ⟨t', h2, h1⟩ := bind_ok_iff.1 h1
      cases h1
      intro x u hu
      by_cases k : x = e.1
      · subst k
        rw [upd_self] at hu; cases hu
        exact (hP _ _ ht).of_picked (Track.told_picked h2)
      · rw [upd_ne _ _ k] at hu; exact hP x u hu
  unfold TWorld.exec at h
  cases op with
  | init y wf =>
    dsimp only at h
    split at h
    · cases h; exact hb
    · obtain ⟨r, hr, h⟩ := bind_ok_iff.1 h
      cases h
      exact put y r.2 (Track.Bound.free (Track.init_free hr))
  | track y op =>
    dsimp only at h
    split at h
    · cases h; exact hb
    · rename_i t ht
      obtain ⟨r, hr, h⟩ := bind_ok_iff.1 h
      cases h
      refine put y r.2 ?_
      by_cases k : ∃ type d, op = .data type d
      · obtain ⟨type, d, rfl⟩ := k
        obtain ⟨k1, k2⟩ := hd y type d rfl t ht
        unfold Track.exec at hr
        dsimp only at hr
        obtain ⟨q, hq, hr⟩ := bind_ok_iff.1 hr
        cases hr
        exact Track.setData_bound (hb y t ht) k1 k2 hq
      · exact Track.exec_bound (hb y t ht) (hw y t ht) (fun type d e => k ⟨type, d, e⟩) hr
  | setSequence i slot new =>
    dsimp only at h
    obtain ⟨r, hr, h⟩ := bind_ok_iff.1 h
    exact hear _ h
  | detachInstr i =>
    dsimp only at h
    obtain ⟨r, hr, h⟩ := bind_ok_iff.1 h
    exact hear _ h
  | disposeInstr i =>
    dsimp only at h
    obtain ⟨r, hr, h⟩ := bind_ok_iff.1 h
    exact hear _ h

/-- No call but `BKTrackInit` makes a track. -/
theorem TWorld.exec_none {fuel : Nat} {s s' : TWorld} {op : WOp} {x : Nat} (hx : s.tracks x = none) (hi : ∀ wf, op ≠ .init x wf)
    (h : s.exec fuel op = .ok s') : s'.tracks x = none := by
  have hear : ∀ w, s.hear w = .ok s' → s'.tracks x = none := by
    intro w h
    unfold TWorld.hear at h
    obtain ⟨ts, hts, h⟩ := bind_ok_iff.1 h
    cases h
    refine foldlM_inv (P := fun ts : Nat → Option Track => ts x = none) ?_ _ hx hts
    intro ts e ts' hP h1
    unfold TWorld.tell at h1
    split at h1
    · cases h1; exact hP
    · rename_i t ht
      obtain ⟨t', h2, h1⟩ := bind_ok_iff.1 h1
      cases h1
      by_cases k : x = e.1
      · subst k; rw [hP] at ht; cases ht
      · show upd _ _ _ x = _
        rw [upd_ne _ _ k]; exact hP
  unfold TWorld.exec at h
  cases op with
  | init y wf =>
    dsimp only at h
    split at h
    · cases h; exact hx
    · obtain ⟨r, hr, h⟩ := bind_ok_iff.1 h
      cases h
      have k : x ≠ y := fun k => hi wf (by rw [k])
      show upd _ _ _ x = _
      rw [upd_ne _ _ k]; exact hx
  | track y op =>
    dsimp only at h
    split at h
    · cases h; exact hx
    · rename_i t ht
      obtain ⟨r, hr, h⟩ := bind_ok_iff.1 h
      cases h
      have k : x ≠ y := fun k => by subst k; rw [hx] at ht; cases ht
      show upd _ _ _ x = _
      rw [upd_ne _ _ k]; exact hx
  | setSequence i slot new =>
    dsimp only at h
    obtain ⟨r, hr, h⟩ := bind_ok_iff.1 h
    exact hear _ h
  | detachInstr i =>
    dsimp only at h
    obtain ⟨r, hr, h⟩ := bind_ok_iff.1 h
    exact hear _ h
  | disposeInstr i =>
    dsimp only at h
    obtain ⟨r, hr, h⟩ := bind_ok_iff.1 h
    exact hear _ h

theorem AWorld.knownAfter_mem {s : AWorld} {op : WOp} {x : Nat} (h : x ∈ s.known) : x ∈ s.knownAfter op := by
  unfold AWorld.knownAfter
  split
  · split
    · exact List.mem_append_left _ h
    · exact h
  · exact h

theorem AWorld.exec_known {fuel : Nat} {s : AWorld} {tw : TWorld} {op : WOp} (hk : ∀ x t, s.tw.tracks x = some t → x ∈ s.known)
    (h : s.tw.exec fuel op = .ok tw) : ∀ x t, tw.tracks x = some t → x ∈ s.knownAfter op := by
  intro x t ht
  cases e : s.tw.tracks x with
  | some u => exact AWorld.knownAfter_mem (hk x u e)
  | none =>
    by_cases hi : ∃ wf, op = .init x wf
    · obtain ⟨wf, rfl⟩ := hi
      unfold AWorld.knownAfter
      dsimp only
      rw [e]
      exact List.mem_append_right _ (List.mem_singleton.2 rfl)
    · rw [TWorld.exec_none e (fun wf k => hi ⟨wf, k⟩) h] at ht
      cases ht

/-- All tracks are told about new frames. -/
theorem AWorld.Inv.set {n N : Nat} {s : AWorld} (h : s.Inv n N) {d : Nat} {new : SampleData}
    (hn : new.Wf ∧ new.numFrames ≤ 1073741824 ∧ 2 ≤ new.numFrames)
    (hl : ∀ x t, s.tw.tracks x = some t → t.dataId = some d → t.ctx ≠ none ∧
      (t.unit.waveform = .sample → new.numChannels = 1 ∨ new.numChannels = N)) :
    ∃ s', { s with datas := upd s.datas d { s.datas d with data := new } }.tell d (some new) = .ok s' ∧ s'.Inv (n + 1) N ∧
      s'.datas = upd s.datas d { s.datas d with data := new } ∧
      (∀ x t, s.tw.tracks x = some t → t.dataId ≠ some d → s'.tw.tracks x = some t) := by
  have hd : (upd s.datas d { s.datas d with data := new } d).data = new := by rw [upd_self]
  obtain ⟨ts, a1, a2, a3, a4, a5, a6⟩ := AWorld.tellAll (own := s.own) (iw := s.tw.iw) (d := d) (new := some new)
    (Q := fun x t => t.Inv N False ∧ (t.dataId ≠ some d → t.Bound (upd s.datas d { s.datas d with data := new })) ∧
      (t.dataId = some d → t.ctx ≠ none ∧ (t.unit.waveform = .sample → new.numChannels = 1 ∨ new.numChannels = N)))
    (R := fun x t => t.Inv N False ∧ t.Bound (upd s.datas d { s.datas d with data := new }) ∧
      (t.dataId = some d → t.ctx ≠ none ∧ (t.unit.waveform = .sample → new.numChannels = 1 ∨ new.numChannels = N)))
    (fun x t k => ⟨k.1, fun _ => k.2.1, k.2.2⟩) (fun x t k e => ⟨k.1, k.2.1 e, k.2.2⟩)
    (fun x t k e => by
      obtain ⟨k1, k2⟩ := k.2.2 e
      obtain ⟨t', b1, b2, b3, b4, b5⟩ := Track.dataCallback_set (own := s.own x) (x := x) k.1 h.tw.good k1 hn k2
      refine ⟨t', b1, b2, ?_, fun _ => ⟨by rw [b3]; exact k1, by rw [b4]; exact k2⟩⟩
      rcases b5 with ⟨b5, b6⟩ | ⟨b5, b6, b7⟩
      · refine Track.Bound.free ?_
        unfold UCore.Free
        rw [b4]; exact b5
      · exact fun _ => ⟨d, b5.trans e, by rw [hd]; exact b6, by rw [hd]; exact b7⟩)
    s.known s.tw.tracks (fun x t ht => ⟨h.tw.tracks x t ht, fun e => (h.bound x t ht).other e, hl x t ht⟩)
  unfold AWorld.tell
  dsimp only
  rw [a1, ok_bind]
  have key : ∀ x t, ts x = some t → x ∈ s.known := by
    intro x t ht
    cases e : s.tw.tracks x with
    | none => rw [a5 x e] at ht; cases ht
    | some u => exact h.known x u e
  exact ⟨_, rfl, ⟨h.tw.keep fun x t ht => (a2 x t ht).1, fun x t ht => (a3 x (key x t ht) t ht).2.1, key⟩, rfl, a6⟩

/-- All tracks are told that the data goes. -/
theorem AWorld.Inv.gone {n N : Nat} {s : AWorld} (h : s.Inv n N) {d : Nat}
    (hl : ∀ x t, s.tw.tracks x = some t → t.dataId = some d → t.ctx ≠ none) :
    ∃ s', s.tell d none = .ok s' ∧ s'.Inv (n + 1) N ∧ s'.datas = s.datas ∧ (∀ x t, s'.tw.tracks x = some t → t.dataId ≠ some d) ∧
      (∀ x t, s.tw.tracks x = some t → t.dataId ≠ some d → s'.tw.tracks x = some t) ∧
      (∀ x t t', s.tw.tracks x = some t → t.dataId = some d → s'.tw.tracks x = some t' → t'.unit.toUCore.Free) := by
  obtain ⟨ts, a1, a2, a3, a4, a5, a6⟩ := AWorld.tellAll (own := s.own) (iw := s.tw.iw) (d := d) (new := none)
    (Q := fun x t => t.Inv N False ∧ t.Bound s.datas ∧ (t.dataId = some d → t.ctx ≠ none) ∧
      ((∃ u, s.tw.tracks x = some u ∧ u.dataId = some d) → t.dataId = some d ∨ t.unit.toUCore.Free))
    (R := fun x t => t.Inv N False ∧ t.Bound s.datas ∧ t.dataId ≠ some d ∧
      ((∃ u, s.tw.tracks x = some u ∧ u.dataId = some d) → t.unit.toUCore.Free))
    (fun x t k => ⟨k.1, k.2.1, fun e => absurd e k.2.2.1, fun e => Or.inr (k.2.2.2 e)⟩)
    (fun x t k e => ⟨k.1, k.2.1, e, fun m => (k.2.2.2 m).elim (fun m => absurd m e) id⟩)
    (fun x t k e => by
      obtain ⟨t', b1, b2, b3, b4, b5⟩ := Track.dataCallback_gone (own := s.own x) (x := x) k.1 h.tw.good (k.2.2.1 e)
      exact ⟨t', b1, b2, Track.Bound.free b5, (by rw [b4]; exact fun e => nomatch e), fun _ => b5⟩)
    s.known s.tw.tracks (fun x t ht => ⟨h.tw.tracks x t ht, h.bound x t ht, hl x t ht, fun ⟨u, hu, hd⟩ => by
      rw [ht] at hu; cases hu; exact Or.inl hd⟩)
  unfold AWorld.tell
  rw [a1, ok_bind]
  have key : ∀ x t, ts x = some t → x ∈ s.known := by
    intro x t ht
    cases e : s.tw.tracks x with
    | none => rw [a5 x e] at ht; cases ht
    | some u => exact h.known x u e
  exact ⟨_, rfl, ⟨h.tw.keep fun x t ht => (a2 x t ht).1, fun x t ht => (a2 x t ht).2.1, key⟩, rfl,
    fun x t ht => (a3 x (key x t ht) t ht).2.2.1, a6,
    fun x t t' ht hd ht' => (a3 x (key x t' ht') t' ht').2.2.2 ⟨t, ht, hd⟩⟩

/-- One call. -/
theorem AWorld.Inv.exec {n N fuel : Nat} {s : AWorld} (h : s.Inv n N) (hf : n ≤ fuel) {op : AOp} (hl : op.Legal N s) :
    ∃ s', s.exec fuel op = .ok s' ∧ s'.Inv (n + 1) N := by
  have hwf : ∀ x t, s.tw.tracks x = some t → ∀ d, t.unit.data = some d → d.Wf :=
    fun x t ht => (h.tw.tracks x t ht).unit.inv.data
  unfold AWorld.exec
  cases op with
  | call op =>
    dsimp only
    obtain ⟨tw, e, h1⟩ := (h.tw.exec hf hl.1).get trivial
    rw [e, ok_bind]
    exact ⟨_, rfl, h1, TWorld.exec_bound h.bound hwf (fun x type d k => absurd k (hl.2 x type d)) e, AWorld.exec_known h.known e⟩
  | play x type d =>
    dsimp only
    obtain ⟨tw, e, h1⟩ := (h.tw.exec hf hl.1).get trivial
    rw [e, ok_bind]
    refine ⟨_, rfl, h1, TWorld.exec_bound h.bound hwf ?_ e, ?_⟩
    · intro y ty o k t ht
      cases k
      refine ⟨?_, ?_⟩
      · intro a ha
        cases d with
        | none => cases ha
        | some d => cases ha; rfl
      · intro ho
        cases d with
        | none => exact hl.2 rfl t ht
        | some d => cases ho
    · exact AWorld.exec_known h.known e
  | setFrames d new =>
    dsimp only
    split
    · exact ⟨s, rfl, ⟨h.tw.good.mono (Nat.le_succ n), h.tw.tracks⟩, h.bound, h.known⟩
    · rename_i k
      have k1 := hl.1 (by omega) (by omega) (by omega)
      obtain ⟨s', e, h1, -⟩ := h.set (new := new) ⟨k1.1, k1.2, by omega⟩ hl.2
      exact ⟨s', e, h1⟩
  | setPitch d p =>
    refine ⟨_, rfl, ⟨h.tw.good.mono (Nat.le_succ n), h.tw.tracks⟩, ?_, h.known⟩
    intro x t ht hw
    obtain ⟨e, h1, h2, h3⟩ := h.bound x t ht hw
    have k : (upd s.datas d { s.datas d with pitch := cclamp p (-48 * U20) (48 * U20) } e).data = (s.datas e).data := by
      by_cases c : e = d
      · subst c; rw [upd_self]
      · rw [upd_ne _ _ c]
    exact ⟨e, h1, by dsimp only; rw [k]; exact h2, by dsimp only; rw [k]; exact h3⟩
  | detachData d =>
    obtain ⟨s', e, h1, -⟩ := h.gone hl
    exact ⟨s', e, h1⟩
  | disposeData d =>
    dsimp only
    obtain ⟨s', e, h1, h2, h3, -⟩ := h.gone hl
    rw [e, ok_bind]
    exact ⟨_, rfl, h1.tw, fun x t ht => (h1.bound x t ht).other (h3 x t ht), h1.known⟩

theorem AWorld.Inv.init (N : Nat) : ({} : AWorld).Inv 0 N :=
  ⟨TWorld.Inv.init N, (fun _ _ e => nomatch e), (fun _ _ e => nomatch e)⟩

theorem AWorld.Inv.run {N fuel : Nat} : ∀ (ops : List AOp) {n : Nat} {s : AWorld}, s.Inv n N → n + ops.length ≤ fuel →
    s.LegalRun N fuel ops → ∃ s', s.run fuel ops = .ok s' ∧ s'.Inv (n + ops.length) N
  | [], n, s, h, _, _ => ⟨s, rfl, h⟩
  | op :: ops, n, s, h, hf, hl => by
    rw [List.length_cons] at hf ⊢
    obtain ⟨s1, e1, h1⟩ := h.exec (fuel := fuel) (by omega) hl.1
    obtain ⟨s2, e2, h2⟩ := AWorld.Inv.run ops h1 (by omega) (hl.2 s1 e1)
    refine ⟨s2, ?_, ?_⟩
    · unfold AWorld.run
      rw [e1, ok_bind]; exact e2
    · rwa [show n + 1 + ops.length = n + (ops.length + 1) by omega] at h2

/-! ### The tone -/

theorem UCore.trySetData_tone {c : UCore} {n : Option Int} {a : DataAttr} {d : Option SampleData} {q : Ret × UCore}
    (h : c.trySetData n a d = .ok q) : q.2.dutyCycle = c.dutyCycle ∧ q.2.volume = c.volume ∧ (q.1 ≠ .ok → c.SameTone q.2) := by
  unfold UCore.trySetData at h
  cases n with
  | none => cases h; exact ⟨rfl, rfl, fun _ => .refl _⟩
  | some n =>
    cases a with
    | waveform =>
      dsimp only at h
      injection h with h
      subst h
      unfold UCore.trySetWave
      cases d with
      | some d =>
        dsimp only
        split
        · exact ⟨rfl, rfl, fun k => absurd rfl k⟩
        · exact ⟨rfl, rfl, fun _ => .refl _⟩
      | none =>
        dsimp only
        split
        · exact ⟨rfl, rfl, fun _ => ⟨rfl, rfl, rfl, rfl, Or.inl rfl⟩⟩
        · exact ⟨rfl, rfl, fun _ => .refl _⟩
    | sample =>
      dsimp only at h
      unfold UCore.trySetSample at h
      cases d with
      | some d =>
        dsimp only at h
        split at h
        · cases h; exact ⟨rfl, rfl, fun _ => .refl _⟩
        · split at h
          · cases h; exact ⟨rfl, rfl, fun _ => .refl _⟩
          · obtain ⟨s, -, h⟩ := bind_ok_iff.1 h
            cases h; exact ⟨rfl, rfl, fun k => absurd rfl k⟩
      | none =>
        dsimp only at h
        split at h
        · cases h; exact ⟨rfl, rfl, fun k => absurd rfl k⟩
        · cases h; exact ⟨rfl, rfl, fun k => absurd rfl k⟩

theorem UCore.dataCallback_tone {c : UCore} {n : Option Int} {d : Option SampleData} {q : Ret × UCore}
    (h : c.dataCallback n d = .ok q) : q.2.dutyCycle = c.dutyCycle ∧ q.2.volume = c.volume ∧ (q.1 ≠ .ok → c.SameTone q.2) := by
  unfold UCore.dataCallback at h
  split at h
  · exact UCore.trySetData_tone h
  · exact UCore.trySetData_tone h
  · cases h; exact ⟨rfl, rfl, fun _ => .refl _⟩

theorem Track.Ok.lostData {x : Nat} {w : IWorld} {t : Track} {p : Part} (h : t.Ok x w p) :
    ({ t with unit := { t.unit with data := none }, dataId := none } : Track).Ok x w p := by cases p <;> exact h

/-- With its own callback a track is in tune with its new data. -/
theorem Track.Ok.dataCallback {x : Nat} {w : IWorld} {t t' : Track} {p : Part} {new : Option SampleData} (h : t.Ok x w p)
    (e : t.dataCallback true x w new = .ok t') : t'.Ok x w p := by
  unfold Track.dataCallback at e
  obtain ⟨q, hq, e⟩ := bind_ok_iff.1 e
  dsimp only at e
  obtain ⟨k1, k2, k3⟩ := UCore.dataCallback_tone hq
  have last : ∀ t2 : Track, t2.Ok x w p → ∀ {b : Prop} [Decidable b],
      (if b then pure t2 else pure { t2 with unit := { t2.unit with data := none }, dataId := none } : C Track) = .ok t' → t'.Ok x w p := by
    intro t2 key b _ e
    split at e
    · cases e; exact key
    · cases e; exact key.lostData
  by_cases hr : q.1 = .ok
  · rw [if_pos ⟨rfl, hr⟩] at e
    obtain ⟨t2, h2, e⟩ := bind_ok_iff.1 e
    refine last t2 ?_ e
    obtain ⟨a1, a2, a3, a4, a5⟩ := Track.updateNote_else h2
    have sb := (Track.updateNote_same h2).1
    cases p with
    | note => exact Track.NoteOk.now (Track.updateNote_now h2)
    | vol =>
      have v : t2.unit.volume = t.unit.volume := by
        rw [a1]; cases new <;> exact k2
      exact Track.VolOk.same h ⟨by rw [sb.ctx], a3, sb.volumeSlide, sb.panningSlide, sb.tremoloOn, sb.tremolo, sb.volume, sb.panning,
        sb.ignores, sb.panningOn, sb.masterVolume, v, rfl, rfl, rfl⟩
    | duty =>
      have v : t2.unit.dutyCycle = t.unit.dutyCycle := by
        rw [a2]; cases new <;> exact k1
      exact Track.DutyOk.same h ⟨a5, sb.dutyCycle, v, rfl, rfl⟩
  · rw [if_neg (fun k => hr k.2), ok_bind] at e
    refine last _ ?_ e
    have k := k3 hr
    cases new with
    | none => exact h.unit (u := { t.unit with toUCore := q.2 }) k
    | some d => exact h.unit (u := { t.unit with toUCore := { q.2 with data := some d } }) ⟨k.period, k.volume, k.duty, k.count, k.speed⟩

theorem AWorld.tell_tone {s s' : AWorld} {d : Nat} {new : Option SampleData} {x : Nat} {p : Part} {b : Bool}
    (ho : ∀ t, s.tw.tracks x = some t → s.own x = true)
    (h : s.tell d new = .ok s') (hs : b = false → ∀ t, s.tw.tracks x = some t → t.Ok x s.tw.iw p) :
    (∀ t, s'.tw.tracks x = some t → s'.own x = true) ∧ (b = false → ∀ t, s'.tw.tracks x = some t → t.Ok x s'.tw.iw p) := by
  unfold AWorld.tell at h
  obtain ⟨ts, hts, h⟩ := bind_ok_iff.1 h
  cases h
  dsimp only
  have key : ∀ t, ts x = some t → (b = false → t.Ok x s.tw.iw p) ∧ s.own x = true := by
    refine foldlM_inv (P := fun ts : Nat → Option Track => ∀ t, ts x = some t → (b = false → t.Ok x s.tw.iw p) ∧ s.own x = true) ?_ _
      (fun t ht => ⟨fun k => hs k t ht, ho t ht⟩) hts
    intro ts y ts' hP h1
    unfold AWorld.tellOne at h1
    split at h1
    · cases h1; exact hP
    · rename_i t ht
      split at h1
      · obtain ⟨t', h2, h1⟩ := bind_ok_iff.1 h1
        cases h1
        intro u hu
        by_cases k : x = y
        · subst k
          rw [upd_self] at hu; cases hu
          obtain ⟨k1, k2⟩ := hP t ht
          rw [k2] at h2
          exact ⟨fun k => Track.Ok.dataCallback (k1 k) h2, k2⟩
        · rw [upd_ne _ _ k] at hu; exact hP u hu
      · cases h1; exact hP
  exact ⟨fun t ht => (key t ht).2, fun k t ht => (key t ht).1 k⟩

/-- Which callback a track has. -/
theorem AWorld.ownAfter_own {fuel : Nat} {s : AWorld} {tw : TWorld} {op : WOp} {x : Nat} (hc : ¬ (AOp.call op).clears x)
    (ho : ∀ t, s.tw.tracks x = some t → s.own x = true) (h : s.tw.exec fuel op = .ok tw) :
    ∀ t, tw.tracks x = some t → s.ownAfter op x = true := by
  intro t ht
  have old : (∃ u, s.tw.tracks x = some u) ∨ ∃ wf, op = .init x wf := by
    cases e : s.tw.tracks x with
    | some u => exact Or.inl ⟨u, rfl⟩
    | none =>
      by_cases hi : ∃ wf, op = .init x wf
      · exact Or.inr hi
      · rw [TWorld.exec_none e (fun wf k => hi ⟨wf, k⟩) h] at ht
        cases ht
  have no : ∀ y, y ≠ x → (∃ u, s.tw.tracks x = some u) → upd s.own y false x = true := by
    intro y hy ⟨u, hu⟩
    rw [upd_ne _ _ (Ne.symm hy)]; exact ho u hu
  have keep : (∃ u, s.tw.tracks x = some u) → s.own x = true := fun ⟨u, hu⟩ => ho u hu
  unfold AWorld.ownAfter
  split
  · rename_i y wf
    cases e : s.tw.tracks y with
    | none =>
      dsimp only
      by_cases k : x = y
      · subst k; rw [upd_self]
      · rw [upd_ne _ _ k]
        rcases old with o | ⟨wf', o⟩
        · exact keep o
        · cases o; exact absurd rfl k
    | some u =>
      dsimp only
      rcases old with o | ⟨wf', o⟩
      · exact keep o
      · cases o; exact ho u e
  · rename_i y
    refine no y (fun k => hc (Or.inl (by rw [k]))) (old.elim id fun ⟨wf, k⟩ => nomatch k)
  · rename_i y
    refine no y (fun k => hc (Or.inr (by rw [k]))) (old.elim id fun ⟨wf, k⟩ => nomatch k)
  · rename_i k1 k2 k3
    exact keep (old.elim id fun ⟨wf, k⟩ => absurd k (k1 x wf))

theorem AWorld.exec_tone {n N fuel : Nat} {s s' : AWorld} {x : Nat} {p : Part} {op : AOp} {b : Bool} (hi : s.Inv n N)
    (hc : ¬ op.clears x) (ho : ∀ t, s.tw.tracks x = some t → s.own x = true)
    (hs : b = false → ∀ t, s.tw.tracks x = some t → t.Ok x s.tw.iw p) (h : s.exec fuel op = .ok s') :
    (∀ t, s'.tw.tracks x = some t → s'.own x = true) ∧
    (op.stale x p b = false → ∀ t, s'.tw.tracks x = some t → t.Ok x s'.tw.iw p) := by
  have hp : s.tw.iw.Pointed x := hi.tw.good.pointed x
  unfold AWorld.exec at h
  cases op with
  | call op =>
    dsimp only at h
    obtain ⟨tw, e, h⟩ := bind_ok_iff.1 h
    cases h
    exact ⟨AWorld.ownAfter_own hc ho e, fun k => TWorld.exec_ok hp hs e k⟩
  | play y type d =>
    dsimp only at h
    obtain ⟨tw, e, h⟩ := bind_ok_iff.1 h
    cases h
    refine ⟨fun t ht => ?_, fun k => TWorld.exec_ok (b := b) hp hs e ?_⟩
    · cases e0 : s.tw.tracks x with
      | some u => exact ho u e0
      | none =>
        rw [TWorld.exec_none e0 (fun wf k => by cases k) e] at ht
        cases ht
    · have k : b = false := k
      subst k
      unfold WOp.stale
      dsimp only
      split
      · cases p <;> rfl
      · rfl
  | setFrames d new =>
    dsimp only at h
    split at h
    · cases h; exact ⟨ho, hs⟩
    · exact AWorld.tell_tone (s := { s with datas := upd s.datas d { s.datas d with data := new } }) ho h hs
  | setPitch d p =>
    cases h
    exact ⟨ho, hs⟩
  | detachData d => exact AWorld.tell_tone ho h hs
  | disposeData d =>
    dsimp only at h
    obtain ⟨s1, e, h⟩ := bind_ok_iff.1 h
    cases h
    have k := AWorld.tell_tone (b := b) ho e hs
    exact ⟨k.1, k.2⟩

theorem AWorld.run_tone {N fuel : Nat} {x : Nat} {p : Part} : ∀ (ops : List AOp) {n : Nat} {s s' : AWorld} {b : Bool},
    s.Inv n N → n + ops.length ≤ fuel → s.LegalRun N fuel ops → (∀ op ∈ ops, ¬ op.clears x) →
    (∀ t, s.tw.tracks x = some t → s.own x = true) → (b = false → ∀ t, s.tw.tracks x = some t → t.Ok x s.tw.iw p) →
    s.run fuel ops = .ok s' → ops.foldl (AOp.stale x p) b = false → ∀ t, s'.tw.tracks x = some t → t.Ok x s'.tw.iw p
  | [], n, s, s', b, _, _, _, _, _, hs, h, hb => by cases h; exact hs hb
  | op :: ops, n, s, s', b, hi, hf, hl, hc, ho, hs, h, hb => by
    unfold AWorld.run at h
    obtain ⟨s1, e1, h⟩ := bind_ok_iff.1 h
    rw [List.length_cons] at hf
    obtain ⟨s1', e1', hi1⟩ := hi.exec (fuel := fuel) (by omega) hl.1
    rw [e1] at e1'
    cases e1'
    obtain ⟨k1, k2⟩ := AWorld.exec_tone hi (hc op List.mem_cons_self) ho hs e1
    exact AWorld.run_tone ops hi1 (by omega) (hl.2 s1 e1) (fun o m => hc o (List.mem_cons_of_mem _ m)) k1 k2 h hb

end BK
