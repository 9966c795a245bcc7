import Verif.Spec.Song
import Verif.Lemmas.Live
import Verif.Lemmas.TrackPan
import Verif.Lemmas.Current5
/-!
Tracks in a context: what is kept while it runs.
-/
namespace BK

variable {υ : Type}

/-! Units of tracks. -/

theorem coreOf_none {α : Type} {x : Nat} : ∀ (ids : List Nat) (cs : List α), x ∉ ids → coreOf ids cs x = none
  | [], _, _ => by unfold coreOf; rfl
  | y :: ids, [], _ => by unfold coreOf; rfl
  | y :: ids, c :: cs, h => by
    unfold coreOf
    rw [List.mem_cons, not_or] at h
    rw [if_neg h.1]
    exact coreOf_none ids cs h.2

theorem coreOf_some {α : Type} {x : Nat} : ∀ (ids : List Nat) (cs : List α), x ∈ ids → cs.length = ids.length →
    ∃ c ∈ cs, coreOf ids cs x = some c
  | [], _, h, _ => by cases h
  | y :: ids, [], _, hl => by cases hl
  | y :: ids, c :: cs, h, hl => by
    unfold coreOf
    by_cases hy : x = y
    · rw [if_pos hy]; exact ⟨c, List.mem_cons_self .., rfl⟩
    · rw [if_neg hy]
      obtain ⟨d, h1, h2⟩ := coreOf_some ids cs ((List.mem_cons.1 h).resolve_left hy) (by simpa using hl)
      exact ⟨d, List.mem_cons_of_mem _ h1, h2⟩

theorem coreOf_mem {α : Type} {x : Nat} {c : α} : ∀ (ids : List Nat) (cs : List α), coreOf ids cs x = some c → c ∈ cs ∧ x ∈ ids
  | [], _, h => by unfold coreOf at h; cases h
  | y :: ids, [], h => by unfold coreOf at h; cases h
  | y :: ids, d :: cs, h => by
    unfold coreOf at h
    split at h
    · rename_i e
      cases h; exact ⟨List.mem_cons_self .., e ▸ List.mem_cons_self ..⟩
    · have := coreOf_mem ids cs h
      exact ⟨List.mem_cons_of_mem _ this.1, List.mem_cons_of_mem _ this.2⟩

theorem TWorld.cores_length (s : TWorld) : ∀ (ids : List Nat) (cs : List UCore), (s.cores ids cs).length = cs.length
  | [], cs => by unfold TWorld.cores; rfl
  | x :: ids, [] => by unfold TWorld.cores; rfl
  | x :: ids, c :: cs => by
    unfold TWorld.cores
    rw [List.length_cons, List.length_cons, TWorld.cores_length s ids cs]

theorem TWorld.cores_mem {s : TWorld} {d : UCore} : ∀ (ids : List Nat) (cs : List UCore), cs.length = ids.length →
    (∀ x ∈ ids, ∃ t, s.tracks x = some t) → d ∈ s.cores ids cs → ∃ x ∈ ids, ∃ t, s.tracks x = some t ∧ t.unit.toUCore = d
  | [], [], _, _, h => by unfold TWorld.cores at h; cases h
  | [], c :: cs, hl, _, _ => by cases hl
  | x :: ids, [], hl, _, _ => by cases hl
  | x :: ids, c :: cs, hl, he, h => by
    unfold TWorld.cores at h
    obtain ⟨t, ht⟩ := he x (List.mem_cons_self ..)
    rw [ht] at h
    rcases List.mem_cons.1 h with h | h
    · exact ⟨x, List.mem_cons_self .., t, ht, h.symm⟩
    · obtain ⟨y, h1, h2⟩ := TWorld.cores_mem ids cs (by simpa using hl) (fun y hy => he y (List.mem_cons_of_mem _ hy)) h
      exact ⟨y, List.mem_cons_of_mem _ h1, h2⟩

/-- What was put in is taken out. -/
theorem TWorld.cores_load (s : TWorld) : ∀ (ids : List Nat) (cs : List UCore) (z : TWorld), ids.Nodup →
    (∀ x ∈ ids, ∃ t, z.tracks x = some t ∧ ∀ c, coreOf ids cs x = some c → t.unit.toUCore = c) → z.cores ids cs = cs
  | [], cs, z, _, _ => by unfold TWorld.cores; rfl
  | x :: ids, [], z, _, _ => by unfold TWorld.cores; rfl
  | x :: ids, c :: cs, z, hn, h => by
    unfold TWorld.cores
    rw [List.nodup_cons] at hn
    obtain ⟨t, h1, h2⟩ := h x (List.mem_cons_self ..)
    have e := h2 c (by unfold coreOf; rw [if_pos rfl])
    rw [h1]
    dsimp only
    rw [e, TWorld.cores_load s ids cs z hn.2 ?_]
    intro y hy
    obtain ⟨u, k1, k2⟩ := h y (List.mem_cons_of_mem _ hy)
    refine ⟨u, k1, fun d hd => k2 d ?_⟩
    unfold coreOf
    rw [if_neg (show ¬ y = x from fun e => hn.1 (e ▸ hy))]
    exact hd

/-! The invariant. -/

/-- A blank track that does not fault whatever fine unit it gets. -/
structure Track.Blank (N : Nat) (t : Track) : Prop where
  blank : t.unit = {}
  ctx : t.ctx ≠ none
  inv : ∀ c : UCore, c.Fine N False → Track.Inv N False { t with unit := { toUCore := c } }

/-- What a program with tracks keeps. -/
structure Band.Ok (N n : Nat) (b : Band υ) : Prop where
  good : b.world.iw.Good b.log.length
  len : b.ids.length = n
  nodup : b.ids.Nodup
  out : ∀ x t, b.world.tracks x = some t → x ∉ b.ids → t.Inv N False
  ins : ∀ x ∈ b.ids, ∃ t, b.world.tracks x = some t ∧ t.Blank N

/-- Attached tracks exist and are attached. -/
def TWorld.Attached (ids : List Nat) (s : TWorld) : Prop := ∀ x ∈ ids, ∃ t, s.tracks x = some t ∧ t.ctx ≠ none

theorem Band.Ok.load {N n : Nat} {b : Band υ} (h : b.Ok N n) {cs : List UCore} (hl : cs.length = n)
    (hc : ∀ c ∈ cs, c.Fine N False) :
    (b.world.load b.ids cs).Inv b.log.length N ∧ (b.world.load b.ids cs).Attached b.ids := by
  have hl' : cs.length = b.ids.length := hl.trans h.len.symm
  refine ⟨⟨h.good, ?_⟩, ?_⟩
  · intro x t ht
    unfold TWorld.load at ht
    dsimp only at ht
    obtain ⟨t0, h0, ht⟩ := Option.map_eq_some_iff.1 ht
    by_cases hx : x ∈ b.ids
    · obtain ⟨c, hm, e⟩ := coreOf_some b.ids cs hx hl'
      rw [e] at ht
      dsimp only at ht
      obtain ⟨t1, h1, h2⟩ := h.ins x hx
      rw [h0] at h1
      cases h1
      rw [← ht]
      exact h2.inv c (hc c hm)
    · rw [coreOf_none _ _ hx] at ht
      dsimp only at ht
      rw [← ht]
      exact h.out x t0 h0 hx
  · intro x hx
    obtain ⟨t, h1, h2⟩ := h.ins x hx
    obtain ⟨c, hm, e⟩ := coreOf_some b.ids cs hx hl'
    unfold TWorld.load
    dsimp only
    rw [h1, Option.map_some, e]
    exact ⟨_, rfl, h2.ctx⟩

theorem Track.Inv.blank {N : Nat} {t : Track} (h : t.Inv N False) (hc : t.ctx ≠ none) : Track.Blank N { t with unit := {} } :=
  ⟨rfl, hc, fun _ hf => { h with unit := hf }⟩

theorem TWorld.Inv.unload {N : Nat} {b : Band υ} {s : TWorld} {log : List WOp} (h : s.Inv log.length N) (ha : s.Attached b.ids)
    (hn : b.ids.Nodup) {u : υ} {sc : List (Int × List WOp)} {cs : List UCore} (hl : cs.length = b.ids.length) :
    Band.Ok N b.ids.length { world := s.strip b.ids, log := log, ids := b.ids, score := sc, user := u } ∧
    ∀ c ∈ s.cores b.ids cs, c.Fine N False := by
  refine ⟨⟨h.good, rfl, hn, ?_, ?_⟩, ?_⟩
  · intro x t ht hx
    unfold TWorld.strip at ht
    dsimp only at ht hx
    obtain ⟨t0, h0, ht⟩ := Option.map_eq_some_iff.1 ht
    rw [if_neg hx] at ht
    rw [← ht]
    exact h.tracks x t0 h0
  · intro x hx
    dsimp only at hx
    obtain ⟨t, h1, h2⟩ := ha x hx
    unfold TWorld.strip
    dsimp only
    rw [h1, Option.map_some, if_pos hx]
    exact ⟨_, rfl, (h.tracks x t h1).blank h2⟩
  · intro c hc
    obtain ⟨x, hx, t, h1, h2⟩ := TWorld.cores_mem b.ids cs hl (fun x hx => (ha x hx).imp fun t h => h.1) hc
    rw [← h2]
    exact (h.tracks x t h1).unit

/-! Calls keep tracks attached. -/

theorem Track.exec_quiet {x : Nat} {w : IWorld} {t : Track} {op : TOp} {r : IWorld × Track} (hq : op.Quiet)
    (h : t.exec x w op = .ok r) : r.2.ctx = t.ctx := by
  unfold Track.exec at h
  cases op <;> dsimp only at h
  · obtain ⟨s, h1, h⟩ := bind_ok_iff.1 h
    cases h; exact (Track.setAttr_sides h1).ctx
  · obtain ⟨s, h1, h⟩ := bind_ok_iff.1 h
    cases h; exact (Track.setEffect_sides h1).ctx
  · obtain ⟨s, h1, h⟩ := bind_ok_iff.1 h
    cases h
    unfold Track.setArpeggio at h1
    obtain ⟨a, ha, h1⟩ := bind_ok_iff.1 h1
    cases h1
    rfl
  · exact (Track.setInstrument_sides h).ctx
  · obtain ⟨s, h1, h⟩ := bind_ok_iff.1 h
    cases h; exact (Track.setData_sides h1).ctx
  · obtain ⟨s, h1, h⟩ := bind_ok_iff.1 h
    cases h; rfl
  · obtain ⟨s, h1, h⟩ := bind_ok_iff.1 h
    cases h; rfl
  · cases h; rfl
  · exact (Track.clear_sides h).ctx
  · cases hq
  · cases hq
  · cases hq
  · exact (Track.tick_sides h).ctx
  · cases hq
  · cases hq

theorem TWorld.Attached.put {ids : List Nat} {s : TWorld} (h : s.Attached ids) {x : Nat} {t t' : Track} {iw : IWorld}
    (ht : s.tracks x = some t) (hc : t'.ctx = t.ctx) : TWorld.Attached ids { iw := iw, tracks := upd s.tracks x (some t') } := by
  intro y hy
  obtain ⟨u, h1, h2⟩ := h y hy
  dsimp only
  by_cases e : y = x
  · subst e
    rw [ht] at h1
    cases h1
    rw [upd_self]
    exact ⟨t', rfl, hc ▸ h2⟩
  · rw [upd_ne _ _ e]
    exact ⟨u, h1, h2⟩

theorem TWorld.tell_attached {ids : List Nat} {iw iw' : IWorld} : ∀ (es : List (Nat × InstrEvent)) {ts ts' : Nat → Option Track},
    TWorld.Attached ids { iw := iw', tracks := ts } → es.foldlM (TWorld.tell iw) ts = .ok ts' →
    TWorld.Attached ids { iw := iw', tracks := ts' }
  | [], ts, ts', h, e => by cases e; exact h
  | ev :: es, ts, ts', h, e => by
    rw [List.foldlM_cons] at e
    obtain ⟨u, h1, e⟩ := bind_ok_iff.1 e
    refine TWorld.tell_attached es ?_ e
    unfold TWorld.tell at h1
    split at h1
    · cases h1; exact h
    · rename_i t ht
      obtain ⟨t', h2, h1⟩ := bind_ok_iff.1 h1
      cases h1
      exact h.put ht (Track.told_same h2).ctx

theorem TWorld.exec_attached {ids : List Nat} {fuel : Nat} {s s' : TWorld} {op : WOp} (hq : op.Quiet) (h : s.Attached ids)
    (e : s.exec fuel op = .ok s') : s'.Attached ids := by
  have hear : ∀ (w : IWorld), s.hear w = .ok s' → s'.Attached ids := by
    intro w e
    unfold TWorld.hear at e
    obtain ⟨ts, h1, e⟩ := bind_ok_iff.1 e
    cases e
    have := TWorld.tell_attached (iw' := s.iw) _ h h1
    exact this
  cases op <;> unfold TWorld.exec at e <;> dsimp only at e
  · split at e
    · cases e; exact h
    · rename_i x wf hx
      obtain ⟨r, -, e⟩ := bind_ok_iff.1 e
      cases e
      intro y hy
      obtain ⟨u, h1, h2⟩ := h y hy
      dsimp only
      rw [upd_ne _ _ (by rintro rfl; rw [hx] at h1; cases h1)]
      exact ⟨u, h1, h2⟩
  · split at e
    · cases e; exact h
    · rename_i t ht
      obtain ⟨r, hr, e⟩ := bind_ok_iff.1 e
      cases e
      exact h.put ht (Track.exec_quiet hq hr)
  · obtain ⟨r, -, e⟩ := bind_ok_iff.1 e
    exact hear _ e
  · obtain ⟨r, -, e⟩ := bind_ok_iff.1 e
    exact hear _ e
  · obtain ⟨r, -, e⟩ := bind_ok_iff.1 e
    exact hear _ e

theorem TWorld.run_attached {ids : List Nat} {fuel : Nat} : ∀ (ops : List WOp) {s s' : TWorld}, (∀ op ∈ ops, op.Quiet) →
    s.Attached ids → s.run fuel ops = .ok s' → s'.Attached ids
  | [], s, s', _, h, e => by cases e; exact h
  | op :: ops, s, s', hq, h, e => by
    unfold TWorld.run at e
    obtain ⟨s1, h1, e⟩ := bind_ok_iff.1 e
    exact TWorld.run_attached ops (fun o ho => hq o (List.mem_cons_of_mem _ ho))
      (TWorld.exec_attached (hq op (List.mem_cons_self ..)) h h1) e

/-- Calls of a program. -/
theorem Band.Ok.perform {N n : Nat} {b : Band υ} (h : b.Ok N n) {cs : List UCore} (hl : cs.length = n)
    (hc : ∀ c ∈ cs, c.Fine N False) {ops : List WOp} (hq : ∀ op ∈ ops, op.Quiet)
    (hg : (b.world.load b.ids cs).LegalRun N (b.log.length + ops.length) ops) :
    ∃ r, b.perform cs ops = .ok r ∧ r.1.Ok N n ∧ r.2.length = cs.length ∧ (∀ c ∈ r.2, c.Fine N False) ∧ r.1.ids = b.ids := by
  obtain ⟨h1, h2⟩ := h.load hl hc
  obtain ⟨s, e, h3⟩ := (h1.run ops (Nat.le_refl _) hg).get trivial
  rw [← List.length_append] at h3
  have h4 := TWorld.run_attached ops hq h2 e
  have h5 := h3.unload h4 h.nodup (u := b.user) (sc := b.score) (cs := cs) (hl.trans h.len.symm)
  rw [h.len] at h5
  refine ⟨({ b with world := s.strip b.ids, log := b.log ++ ops }, s.cores b.ids cs), ?_, h5.1,
    TWorld.cores_length s b.ids cs, h5.2, rfl⟩
  unfold Band.perform
  rw [e]; rfl

/-! Bringing units up to date. -/

/-- Nothing is left to do. -/
def Track.Clean (t : Track) : Prop := t.updVolume = false ∧ t.updNote = false ∧ t.updDuty = false

theorem Track.Clean.updateUnit {t : Track} (h : t.Clean) (x : Nat) (w : IWorld) : t.updateUnit x w = .ok t := by
  obtain ⟨h1, h2, h3⟩ := h
  unfold Track.updateUnit Track.flushVolume
  rw [h1, if_neg (by simp), ok_bind]
  unfold Track.flushNote
  rw [h2, if_neg (by simp), ok_bind]
  unfold Track.flushDuty
  rw [h3, if_neg (by simp)]

/-- A track is clean if it exists. -/
def TWorld.CleanAt (s : TWorld) (x : Nat) : Prop := ∀ t, s.tracks x = some t → t.Clean

theorem TWorld.flushTrack_ok {ids : List Nat} {n N : Nat} {s : TWorld} (h : s.Inv n N) (ha : s.Attached ids) (x : Nat) :
    ∃ s', s.flushTrack x = .ok s' ∧ s'.Inv n N ∧ s'.Attached ids ∧ s'.CleanAt x ∧ (∀ y, s.CleanAt y → s'.CleanAt y) ∧
      (s.CleanAt x → s' = s) := by
  unfold TWorld.flushTrack
  cases hx : s.tracks x with
  | none =>
    exact ⟨s, rfl, h, ha, (fun t e => by rw [hx] at e; cases e), (fun y hy => hy), (fun _ => rfl)⟩
  | some t =>
    dsimp only
    obtain ⟨t', e, ht'⟩ := ((h.tracks x t hx).updateUnit (x := x) h.good).get trivial
    rw [e, ok_bind]
    have hclean : t'.Clean := Track.updateUnit_clean e
    refine ⟨_, rfl, h.put (r := (s.iw, t')) ⟨h.good, ht'⟩, ha.put hx (Track.updateUnit_ctx e), ?_, ?_, ?_⟩
    · intro u hu
      dsimp only at hu
      rw [upd_self] at hu
      cases hu; exact hclean
    · intro y hy u hu
      dsimp only at hu
      by_cases e : y = x
      · subst e
        rw [upd_self] at hu
        cases hu; exact hclean
      · rw [upd_ne _ _ e] at hu
        exact hy u hu
    · intro hc
      rw [(hc t hx).updateUnit] at e
      cases e
      show ({ iw := s.iw, tracks := upd s.tracks x (some t) } : TWorld) = s
      have : upd s.tracks x (some t) = s.tracks := by
        funext y
        by_cases e : y = x
        · subst e; rw [upd_self, hx]
        · rw [upd_ne _ _ e]
      rw [this]

theorem TWorld.flushAll_ok {ids : List Nat} {n N : Nat} : ∀ (l : List Nat) {s : TWorld}, s.Inv n N → s.Attached ids →
    ∃ s', l.foldlM TWorld.flushTrack s = .ok s' ∧ s'.Inv n N ∧ s'.Attached ids ∧ (∀ x ∈ l, s'.CleanAt x) ∧
      (∀ y, s.CleanAt y → s'.CleanAt y) ∧ ((∀ x ∈ l, s.CleanAt x) → s' = s)
  | [], s, h, ha => ⟨s, rfl, h, ha, (fun _ hx => absurd hx List.not_mem_nil), (fun _ hy => hy), (fun _ => rfl)⟩
  | x :: l, s, h, ha => by
    obtain ⟨s1, a1, a2, a3, a4, a5, a6⟩ := TWorld.flushTrack_ok h ha x
    obtain ⟨s2, b1, b2, b3, b4, b5, b6⟩ := TWorld.flushAll_ok l a2 a3
    refine ⟨s2, ?_, b2, b3, ?_, fun y hy => b5 y (a5 y hy), ?_⟩
    · rw [List.foldlM_cons, a1, ok_bind]; exact b1
    · intro y hy
      rcases List.mem_cons.1 hy with rfl | hy
      · exact b5 _ a4
      · exact b4 y hy
    · intro hc
      have e := a6 (hc x (List.mem_cons_self ..))
      rw [b6 ?_, e]
      intro y hy
      rw [e]
      exact hc y (List.mem_cons_of_mem _ hy)

/-- If no track of a list has anything to do, nothing is done. -/
theorem TWorld.flush_clean : ∀ (l : List Nat) {s : TWorld}, (∀ x ∈ l, s.CleanAt x) → l.foldlM TWorld.flushTrack s = .ok s
  | [], s, _ => rfl
  | x :: l, s, h => by
    have e : s.flushTrack x = .ok s := by
      unfold TWorld.flushTrack
      cases hx : s.tracks x with
      | none => rfl
      | some t =>
        dsimp only
        rw [((h x (List.mem_cons_self ..)) t hx).updateUnit, ok_bind]
        have : upd s.tracks x (some t) = s.tracks := by
          funext y
          by_cases e : y = x
          · subst e; rw [upd_self, hx]
          · rw [upd_ne _ _ e]
        rw [this]; rfl
    rw [List.foldlM_cons, e, ok_bind]
    exact TWorld.flush_clean l fun y hy => h y (List.mem_cons_of_mem _ hy)

/-- What is blank stays so. -/
theorem TWorld.strip_load {s : TWorld} {ids : List Nat} (hb : ∀ x ∈ ids, ∀ t, s.tracks x = some t → t.unit = {})
    (cs : List UCore) : (s.load ids cs).strip ids = s := by
  have e : ((s.load ids cs).strip ids).tracks = s.tracks := by
    funext x
    unfold TWorld.load TWorld.strip
    dsimp only
    cases hx : s.tracks x with
    | none => rfl
    | some t =>
      rw [Option.map_some, Option.map_some]
      by_cases hi : x ∈ ids
      · have hu := hb x hi t hx
        rw [if_pos hi]
        cases coreOf ids cs x with
        | none => dsimp only; rw [← hu]
        | some c => dsimp only; rw [← hu]
      · rw [if_neg hi, coreOf_none _ _ hi]
  have e2 : (s.load ids cs).strip ids = { s with tracks := ((s.load ids cs).strip ids).tracks } := rfl
  rw [e2, e]

theorem Band.Ok.flush {N n : Nat} {b : Band υ} (h : b.Ok N n) {cs : List UCore} (hl : cs.length = n)
    (hc : ∀ c ∈ cs, c.Fine N False) :
    ∃ r, b.flush cs = .ok r ∧ r.1.Ok N n ∧ r.2.length = cs.length ∧ (∀ c ∈ r.2, c.Fine N False) ∧
      ∀ cs' : List UCore, cs'.length = cs.length → r.1.flush cs' = .ok (r.1, cs') := by
  obtain ⟨h1, h2⟩ := h.load hl hc
  obtain ⟨s, e, h3, h4, h5, -, -⟩ := TWorld.flushAll_ok b.ids h1 h2
  have h6 := h3.unload h4 h.nodup (u := b.user) (sc := b.score) (cs := cs) (hl.trans h.len.symm)
  rw [h.len] at h6
  refine ⟨({ b with world := s.strip b.ids }, s.cores b.ids cs), ?_, h6.1, TWorld.cores_length s b.ids cs, h6.2, ?_⟩
  · unfold Band.flush
    rw [e]; rfl
  · intro cs' hl'
    have hstrip : ∀ x ∈ b.ids, ∀ t, (s.strip b.ids).tracks x = some t → t.unit = {} ∧ t.Clean := by
      intro x hx t ht
      unfold TWorld.strip at ht
      dsimp only at ht
      obtain ⟨t0, h0, ht⟩ := Option.map_eq_some_iff.1 ht
      rw [if_pos hx] at ht
      subst ht
      exact ⟨rfl, h5 x hx t0 h0⟩
    unfold Band.flush
    dsimp only
    rw [TWorld.flush_clean, ok_bind]
    · have e1 : ((s.strip b.ids).load b.ids cs').strip b.ids = s.strip b.ids :=
        TWorld.strip_load (fun x hx t ht => (hstrip x hx t ht).1) cs'
      have e2 : ((s.strip b.ids).load b.ids cs').cores b.ids cs' = cs' := by
        refine TWorld.cores_load s b.ids cs' _ h.nodup ?_
        intro x hx
        obtain ⟨t, k1, k2⟩ := h6.1.ins x hx
        dsimp only at k1
        unfold TWorld.load
        dsimp only
        rw [k1, Option.map_some]
        refine ⟨_, rfl, fun c hc => ?_⟩
        rw [hc]
      rw [e1, e2]
      rfl
    · intro x hx t ht
      unfold TWorld.load at ht
      dsimp only at ht
      obtain ⟨t0, h0, ht⟩ := Option.map_eq_some_iff.1 ht
      have k := (hstrip x hx t0 h0).2
      rw [← ht]
      split
      · exact k
      · exact k

/-- For programs with tracks. -/
def bandKept (υ : Type) (N : Nat) : Kept (Band υ) := ⟨UCore.Fine N False, Band.Ok N⟩

theorem band_stable {N : Nat} : Stable N (bandKept υ N) := by
  refine ⟨fun c h => ⟨h.inv, h.sinv⟩, ?_⟩
  intro c t0 e t c' ps h h0 he0 he hr
  have k := UCore.render_fine h t0 he0 he
  rw [hr] at k
  exact k

theorem Program.Plays.ok {N : Nat} {p : Program υ} (h : p.Plays N) : CbOk (bandKept υ N) p.cb := by
  constructor
  · intro k t b us ht hb hu
    have hb' : Band.Ok N us.length ({ b with
        user := (p k t b.user (b.world.load b.ids us)).2.1
        score := b.score ++ [(t, (p k t b.user (b.world.load b.ids us)).2.2)] } : Band υ) :=
      ⟨hb.good, hb.len, hb.nodup, hb.out, hb.ins⟩
    obtain ⟨r, e, h1, h2, h3, -⟩ := hb'.perform rfl hu (h.quiet k t b.user (b.world.load b.ids us))
      (h.legal k t b.user (b.world.load b.ids us) _)
    refine ⟨((p k t b.user (b.world.load b.ids us)).1, r.1, r.2), ?_, h.next k t _ _ ht, h2, h1, h3⟩
    show (do let q ← Band.perform _ us _; _ : C _) = _
    rw [e]; rfl
  · intro b us hb hu
    obtain ⟨r, e, h1, h2, h3, h4⟩ := hb.flush rfl hu
    exact ⟨r, e, h1, h2, h3, h4⟩

end BK
