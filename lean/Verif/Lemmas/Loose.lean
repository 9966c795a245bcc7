import Verif.Lemmas.Script
import Verif.Lemmas.Mixed
/-!
Tracks that are not attached, and all steps of a pass over the units.
-/
namespace BK

variable {υ : Type} {N : Nat} {p : Program υ}

/-- Other tracks are not attached. -/
def TWorld.Loose (ids : List Nat) (s : TWorld) : Prop := ∀ y t, s.tracks y = some t → y ∉ ids → t.ctx = none

theorem TWorld.Loose.put {ids : List Nat} {s : TWorld} (h : s.Loose ids) {x : Nat} {t' : Track} {iw : IWorld}
    (hc : x ∉ ids → t'.ctx = none) : TWorld.Loose ids { iw := iw, tracks := upd s.tracks x (some t') } := by
  intro y u hu hy
  dsimp only at hu
  by_cases e : y = x
  · subst e
    rw [upd_self] at hu
    cases hu
    exact hc hy
  · rw [upd_ne _ _ e] at hu
    exact h y u hu hy

theorem TWorld.tell_loose {ids : List Nat} {iw iw' : IWorld} : ∀ (es : List (Nat × InstrEvent)) {ts ts' : Nat → Option Track},
    TWorld.Loose ids { iw := iw', tracks := ts } → es.foldlM (TWorld.tell iw) ts = .ok ts' →
    TWorld.Loose ids { iw := iw', tracks := ts' }
  | [], ts, ts', h, e => by cases e; exact h
  | ev :: es, ts, ts', h, e => by
    rw [List.foldlM_cons] at e
    obtain ⟨u, h1, e⟩ := bind_ok_iff.1 e
    refine TWorld.tell_loose es ?_ e
    unfold TWorld.tell at h1
    split at h1
    · cases h1; exact h
    · rename_i t ht
      obtain ⟨t', h2, h1⟩ := bind_ok_iff.1 h1
      cases h1
      exact h.put fun hx => (Track.told_same h2).ctx.trans (h _ _ ht hx)

theorem Track.init_ctx {x : Nat} {w : IWorld} {wf : Int} {r : IWorld × Track} (h : Track.init x w wf = .ok r) : r.2.ctx = none := by
  unfold Track.init at h
  obtain ⟨u, -, h⟩ := bind_ok_iff.1 h
  obtain ⟨q, h1, h⟩ := bind_ok_iff.1 h
  rw [(Track.reset_sides h).ctx, (Track.setAttr_sides h1).ctx]

theorem TWorld.exec_loose {ids : List Nat} {fuel : Nat} {s s' : TWorld} {op : WOp} (hq : op.Quiet) (h : s.Loose ids)
    (e : s.exec fuel op = .ok s') : s'.Loose ids := by
  have hear : ∀ (w : IWorld), s.hear w = .ok s' → s'.Loose ids := by
    intro w e
    unfold TWorld.hear at e
    obtain ⟨ts, h1, e⟩ := bind_ok_iff.1 e
    cases e
    have := TWorld.tell_loose (iw' := s.iw) _ h h1
    exact this
  cases op <;> unfold TWorld.exec at e <;> dsimp only at e
  · split at e
    · cases e; exact h
    · obtain ⟨r, h1, e⟩ := bind_ok_iff.1 e
      cases e
      exact h.put fun _ => Track.init_ctx h1
  · split at e
    · cases e; exact h
    · rename_i t ht
      obtain ⟨r, hr, e⟩ := bind_ok_iff.1 e
      cases e
      exact h.put fun hx => (Track.exec_quiet hq hr).trans (h _ _ ht hx)
  · obtain ⟨r, -, e⟩ := bind_ok_iff.1 e
    exact hear _ e
  · obtain ⟨r, -, e⟩ := bind_ok_iff.1 e
    exact hear _ e
  · obtain ⟨r, -, e⟩ := bind_ok_iff.1 e
    exact hear _ e

theorem TWorld.run_loose {ids : List Nat} {fuel : Nat} : ∀ (ops : List WOp) {s s' : TWorld}, (∀ op ∈ ops, op.Quiet) →
    s.Loose ids → s.run fuel ops = .ok s' → s'.Loose ids
  | [], s, s', _, h, e => by cases e; exact h
  | op :: ops, s, s', hq, h, e => by
    unfold TWorld.run at e
    obtain ⟨s1, h1, e⟩ := bind_ok_iff.1 e
    exact TWorld.run_loose ops (fun o ho => hq o (List.mem_cons_of_mem _ ho))
      (TWorld.exec_loose (hq op (List.mem_cons_self ..)) h h1) e

theorem TWorld.Loose.load {ids : List Nat} {s : TWorld} (h : s.Loose ids) (cs : List UCore) : (s.load ids cs).Loose ids := by
  intro y t ht hy
  unfold TWorld.load at ht
  dsimp only at ht
  rw [coreOf_none _ _ hy] at ht
  obtain ⟨u, h1, h2⟩ := Option.map_eq_some_iff.1 ht
  rw [← h2]
  exact h y u h1 hy

theorem TWorld.Loose.strip {ids : List Nat} {s : TWorld} (h : s.Loose ids) : (s.strip ids).Loose ids := by
  intro y t ht hy
  unfold TWorld.strip at ht
  dsimp only at ht
  obtain ⟨u, h1, h2⟩ := Option.map_eq_some_iff.1 ht
  rw [if_neg hy] at h2
  rw [← h2]
  exact h y u h1 hy

theorem Band.perform_loose {b : Band υ} (h : b.world.Loose b.ids) {cs : List UCore} {ops : List WOp} (hq : ∀ op ∈ ops, op.Quiet)
    {r : Band υ × List UCore} (e : b.perform cs ops = .ok r) : r.1.world.Loose r.1.ids := by
  unfold Band.perform at e
  obtain ⟨s, h1, e⟩ := bind_ok_iff.1 e
  cases e
  exact (TWorld.run_loose ops hq (h.load cs) h1).strip

theorem Band.flush_loose {b : Band υ} (h : b.world.Loose b.ids) (hn : b.ids.Nodup) {cs : List UCore}
    {r : Band υ × List UCore} (e : b.flush cs = .ok r) : r.1.world.Loose r.1.ids := by
  unfold Band.flush at e
  obtain ⟨s, h1, e⟩ := bind_ok_iff.1 e
  cases e
  refine TWorld.Loose.strip ?_
  obtain ⟨-, a2, -⟩ := TWorld.flush_each b.ids hn h1
  intro y t ht hy
  rw [a2 y hy] at ht
  exact h.load cs y t ht hy

/-! All steps of a pass. -/

/-- The steps of the unit of a track. -/
def stepsOf (n : Nat) (e : Int) (ids : List Nat) (us : List BUnit) (y : Nat) : List Pulse :=
  match coreOf ids us y with
  | none => []
  | some u =>
    match u.toUCore.render u.time e n with
    | .ok q => q.2.2
    | .error _ => []

theorem rendered_each {n : Nat} {e : Int} : ∀ (ids : List Nat) (us : List BUnit) {us' : List BUnit} {P : List Pulse} {T : List Int},
    ids.Nodup → us.length = ids.length → rendered n e us = .ok (us', P, T) →
    P = ids.flatMap (stepsOf n e ids us) ∧
    ∀ y u, coreOf ids us y = some u → ∃ q, u.toUCore.render u.time e n = .ok q ∧
      coreOf ids us' y = some { toUCore := q.2.1, time := q.1 } ∧ stepsOf n e ids us y = q.2.2
  | [], [], us', P, T, _, _, h => by
    cases h
    exact ⟨rfl, fun y u hu => by unfold coreOf at hu; cases hu⟩
  | [], u :: us, _, _, _, _, hl, _ => by cases hl
  | x :: ids, [], _, _, _, _, hl, _ => by cases hl
  | x :: ids, u :: us, us', P, T, hn, hl, h => by
    unfold rendered at h
    obtain ⟨q, h1, h⟩ := bind_ok_iff.1 h
    obtain ⟨⟨vs, Q, S⟩, h2, h⟩ := bind_ok_iff.1 h
    cases h
    rw [List.nodup_cons] at hn
    obtain ⟨a1, a2⟩ := rendered_each ids us hn.2 (by simpa using hl) h2
    have k1 : stepsOf n e (x :: ids) (u :: us) x = q.2.2 := by
      unfold stepsOf coreOf
      rw [if_pos rfl]
      dsimp only
      rw [h1]
    have k2 : ∀ y, y ≠ x → stepsOf n e (x :: ids) (u :: us) y = stepsOf n e ids us y := by
      intro y hy
      unfold stepsOf
      rw [show coreOf (x :: ids) (u :: us) y = coreOf ids us y by rw [coreOf, if_neg hy]]
    refine ⟨?_, ?_⟩
    · rw [List.flatMap_cons, k1]
      congr 1
      dsimp only
      rw [a1, List.flatMap_def, List.flatMap_def]
      congr 1
      exact List.map_congr_left fun y hy => (k2 y fun e => hn.1 (e ▸ hy)).symm
    · intro y v hv
      by_cases hy : y = x
      · subst hy
        rw [coreOf, if_pos rfl] at hv
        cases hv
        exact ⟨q, h1, by rw [coreOf, if_pos rfl], k1⟩
      · rw [coreOf, if_neg hy] at hv
        obtain ⟨r, b1, b2, b3⟩ := a2 y v hv
        exact ⟨r, b1, by rw [coreOf, if_neg hy]; exact b2, (k2 y hy).trans b3⟩

theorem TWorld.trace_each {f : Nat} {e : Int} {G : TWorld} {ps : Nat → List Pulse} : ∀ (l : List Nat) {Z : TWorld}, l.Nodup → Z.iw = G.iw →
    (∀ y, y ∉ l → Z.tracks y = G.tracks y) →
    (∀ y ∈ l, ∃ t t', Z.tracks y = some t ∧ t.run y G.iw e = .ok (t', ps y) ∧ G.tracks y = some t') →
    Z.trace f (l.map fun y => .track y (.run e)) = .ok (G, l.flatMap ps)
  | [], Z, _, hi, ho, _ => by
    exact congrArg (fun z => Except.ok (z, [])) (TWorld.same hi (funext fun y => ho y (by simp)))
  | x :: l, Z, hn, hi, ho, h => by
    rw [List.nodup_cons] at hn
    obtain ⟨t, t', h1, h3, h4⟩ := h x (List.mem_cons_self ..)
    have e1 : Z.exec f (.track x (.run e)) = .ok { iw := Z.iw, tracks := upd Z.tracks x (some t') } := by
      unfold TWorld.exec
      dsimp only
      rw [h1]
      dsimp only
      unfold Track.exec
      dsimp only
      rw [hi, h3]; rfl
    have e2 : Z.pulsesOf (.track x (.run e)) = ps x := by
      unfold TWorld.pulsesOf
      dsimp only
      rw [h1]
      dsimp only
      rw [hi, h3]
    have ih := TWorld.trace_each (f := f) (e := e) (G := G) (ps := ps) l (Z := { iw := Z.iw, tracks := upd Z.tracks x (some t') })
      hn.2 hi (by
        intro y hy
        dsimp only
        by_cases e : y = x
        · subst e; rw [upd_self, h4]
        · rw [upd_ne _ _ e]
          exact ho y (by rw [List.mem_cons, not_or]; exact ⟨e, hy⟩)) (by
        intro y hy
        dsimp only
        rw [upd_ne _ _ (show y ≠ x from fun e => hn.1 (e ▸ hy))]
        exact h y (List.mem_cons_of_mem _ hy))
    rw [List.map_cons]
    unfold TWorld.trace
    rw [e1, ok_bind, ih, ok_bind, e2]
    rfl

/-- Bringing units up to date and rendering them, with the steps. -/
theorem Script.render {T : Nat} {P : List Pulse} {b : Band υ} {us : List BUnit} (hb : b.Ok N us.length)
    (hu : ∀ u ∈ us, u.toUCore.Fine N False) {r : Band υ × List UCore} (hr : b.flush (us.map (·.toUCore)) = .ok r) {e : Int}
    {us' : List BUnit} {P1 : List Pulse} {T1 : List Int} (hq : rendered N e (setCores us r.2) = .ok (us', P1, T1))
    (h : Script T P (b.world.withUnits b.ids us) b.log) :
    Script T (P ++ P1.map (Pulse.later (T * U20))) (r.1.world.withUnits r.1.ids us') r.1.log := by
  unfold Band.flush at hr
  obtain ⟨s, hs, hr⟩ := bind_ok_iff.1 hr
  cases hr
  dsimp only at hq ⊢
  have hcf : ∀ c ∈ us.map (·.toUCore), c.Fine N False := by
    intro c hc; obtain ⟨u, hu', rfl⟩ := List.mem_map.1 hc; exact hu u hu'
  obtain ⟨hinv, ha⟩ := hb.load (cs := us.map (·.toUCore)) (by simp) hcf
  obtain ⟨a1, a2, a3⟩ := TWorld.flush_each b.ids hb.nodup hs
  have hex : ∀ x ∈ b.ids, ∃ t, s.tracks x = some t := by
    intro x hx
    obtain ⟨t, ht, -⟩ := ha x hx
    obtain ⟨t', -, k⟩ := a3 x hx t ht
    exact ⟨t', k⟩
  have hsl : (setCores us (s.cores b.ids (us.map (·.toUCore)))).length = b.ids.length := by
    have := congrArg List.length (setCores_time (us := us) (cs := s.cores b.ids (us.map (·.toUCore)))
      (by rw [TWorld.cores_length]; simp)).1
    rw [List.length_map, List.length_map] at this
    rw [this, hb.len]
  obtain ⟨p1, p2⟩ := rendered_each b.ids _ hb.nodup hsl hq
  have := h.more (TWorld.trace_each (f := 0) (e := e) (G := (s.strip b.ids).withUnits b.ids us')
    (ps := stepsOf N e b.ids (setCores us (s.cores b.ids (us.map (·.toUCore))))) b.ids hb.nodup
      (a1.symm : b.world.iw = s.iw) ?_ ?_) (Nat.zero_le _)
  · rw [← p1, List.filter_eq_nil_iff.2, List.append_nil] at this
    · exact this
    · intro o ho
      obtain ⟨y, -, rfl⟩ := List.mem_map.1 ho
      simp [WOp.isCall]
  · intro y hy
    rw [TWorld.withUnits_moved]
    unfold TWorld.movedBy TWorld.withUnits TWorld.strip timesOf
    dsimp only
    rw [coreOf_none _ _ hy, coreOf_none _ _ hy, a2 y hy]
    cases (b.world.load b.ids (us.map (·.toUCore))).tracks y with
    | none => rfl
    | some t =>
      simp only [Option.map_some, Option.map_none]
      rw [if_neg hy]
      rfl
  · intro y hy
    obtain ⟨t, ht, hc⟩ := ha y hy
    obtain ⟨t', h1, h2⟩ := a3 y hy t ht
    obtain ⟨u, -, hu'⟩ := coreOf_some b.ids us hy hb.len.symm
    have hz : (b.world.withUnits b.ids us).tracks y = some (t.moved u.time) := by
      rw [TWorld.withUnits_moved]
      unfold TWorld.movedBy timesOf
      dsimp only
      rw [ht, hu']
      rfl
    have hco := coreOf_cores (s := s) y b.ids us (us.map (·.toUCore)) (by simp) hex
    rw [hu', h2] at hco
    obtain ⟨q, h3, h4, h5⟩ := p2 y _ hco
    dsimp only at h3
    refine ⟨_, { t' with unit := { toUCore := q.2.1, time := q.1 } }, hz, ?_, ?_⟩
    · have hiw : s.iw = (b.world.load b.ids (us.map (·.toUCore))).iw := a1
      show (t.moved u.time).run y s.iw e = _
      rw [hiw, Track.moved_run, h1, ok_bind, h5]
      have hctx : t'.ctx = t.ctx := Track.updateUnit_ctx h1
      cases hcx : t.ctx with
      | none => exact absurd hcx hc
      | some c =>
        have := ((hinv.tracks y t ht).ctx c hcx).2.2
        rw [hctx, hcx]
        dsimp only
        rw [this, Int.toNat_natCast, h3]
        rfl
    · unfold TWorld.withUnits TWorld.strip
      dsimp only
      rw [h2, h4, Option.map_some, if_pos hy]
      rfl

/-- Time passes for the units of a context. -/
theorem TWorld.withUnits_pass {s : TWorld} {ids : List Nat} {us : List BUnit} (hl : s.Loose ids) (hlen : us.length = ids.length)
    (ha : s.Attached ids) (d : Int) : (s.withUnits ids us).pass d = s.withUnits ids (us.map (BUnit.earlier d)) := by
  refine TWorld.same rfl (funext fun y => ?_)
  unfold TWorld.pass TWorld.withUnits
  dsimp only
  rw [coreOf_map]
  cases ht : s.tracks y with
  | none => rfl
  | some t =>
    by_cases hy : y ∈ ids
    · obtain ⟨u, -, hu⟩ := coreOf_some ids us hy hlen
      obtain ⟨t', h1, h2⟩ := ha y hy
      rw [ht] at h1
      cases h1
      rw [hu]
      simp only [Option.map_some]
      rw [if_neg h2]
      rfl
    · rw [coreOf_none _ _ hy]
      simp only [Option.map_some, Option.map_none]
      rw [if_pos (hl y t ht hy)]

theorem TWorld.withUnits_upto {s : TWorld} {ids : List Nat} {us : List BUnit} (hl : s.Loose ids) (hlen : us.length = ids.length)
    {d : Int} (hd : ∀ u ∈ us, d ≤ u.time) : (s.withUnits ids us).Upto d := by
  intro y t ht hc
  unfold TWorld.withUnits at ht
  dsimp only at ht
  obtain ⟨t0, h0, ht⟩ := Option.map_eq_some_iff.1 ht
  by_cases hy : y ∈ ids
  · obtain ⟨u, hm, hu⟩ := coreOf_some ids us hy hlen
    rw [hu] at ht
    rw [← ht]
    exact hd u hm
  · rw [coreOf_none _ _ hy] at ht
    dsimp only at ht
    subst ht
    exact absurd (hl y t0 h0 hy) hc

end BK
