import Verif.Lemmas.MovedWorld
import Verif.Lemmas.Song
/-!
What happens to the tracks of a song is what happens when their calls are made one after another.
-/
namespace BK

variable {υ : Type}

theorem TWorld.same {s s' : TWorld} (h : s.iw = s'.iw) (h' : s.tracks = s'.tracks) : s = s' := by
  cases s; cases s'; cases h; cases h'; rfl

/-! Units of tracks. -/

theorem coreOf_map {α β : Type} (f : α → β) (y : Nat) : ∀ (ids : List Nat) (us : List α),
    coreOf ids (us.map f) y = (coreOf ids us y).map f
  | [], us => by unfold coreOf; rfl
  | x :: ids, [] => rfl
  | x :: ids, u :: us => by
    rw [List.map_cons]
    unfold coreOf
    split
    · rfl
    · exact coreOf_map f y ids us

theorem coreOf_append {α : Type} {ids : List Nat} {us : List α} (hl : us.length = ids.length) {x : Nat} {u : α} (hx : x ∉ ids) (y : Nat) :
    coreOf (ids ++ [x]) (us ++ [u]) y = if y = x then some u else coreOf ids us y := by
  induction ids generalizing us with
  | nil =>
    cases us with
    | nil => rfl
    | cons v us => cases hl
  | cons i ids ih =>
    cases us with
    | nil => cases hl
    | cons v us =>
      rw [List.mem_cons, not_or] at hx
      rw [List.cons_append, List.cons_append]
      unfold coreOf
      rw [ih (by simpa using hl) hx.2]
      by_cases h : y = i
      · rw [if_pos h, if_pos h, if_neg (by rintro rfl; exact hx.1 h)]
      · rw [if_neg h, if_neg h]

theorem dropUnit_map {α β : Type} (f : α → β) (y : Nat) : ∀ (ids : List Nat) (us : List α),
    dropUnit ids (us.map f) y = (dropUnit ids us y).map f
  | [], us => by unfold dropUnit; rfl
  | x :: ids, [] => rfl
  | x :: ids, u :: us => by
    rw [List.map_cons]
    unfold dropUnit
    split
    · rfl
    · rw [List.map_cons, dropUnit_map f y ids us]

theorem coreOf_drop {α : Type} {x : Nat} (y : Nat) : ∀ (ids : List Nat) (us : List α), us.length = ids.length → ids.Nodup → x ∈ ids →
    coreOf (ids.erase x) (dropUnit ids us x) y = if y = x then none else coreOf ids us y
  | [], us, _, _, h => by cases h
  | i :: ids, [], hl, _, _ => by cases hl
  | i :: ids, u :: us, hl, hn, h => by
    rw [List.nodup_cons] at hn
    unfold dropUnit
    rw [List.erase_cons]
    by_cases hx : x = i
    · subst hx
      rw [if_pos rfl, if_pos (by simp)]
      by_cases hy : y = x
      · subst hy
        rw [if_pos rfl, coreOf_none _ _ hn.1]
      · rw [if_neg hy]
        conv_rhs => unfold coreOf
        rw [if_neg hy]
    · rw [if_neg hx, if_neg (by simpa using fun e : i = x => hx e.symm)]
      unfold coreOf
      rw [coreOf_drop y ids us (by simpa using hl) hn.2 (by rcases List.mem_cons.1 h with h | h; exacts [absurd h hx, h])]
      by_cases hy : y = i
      · rw [if_pos hy, if_pos hy, if_neg fun e => hx (e.symm.trans hy)]
      · rw [if_neg hy, if_neg hy]

/-- Detaching a track of a context is the call on the track. -/
theorem Ctx.detachTrack_world {N : Nat} {x : Ctx (Band υ)} (hb : x.user.Ok N x.units.length) {id : Nat} (hi : id ∈ x.user.ids)
    (f : BUnit → BUnit) (hf : ∀ u, (f u).toUCore = u.toUCore) (fuel : Nat) :
    (x.user.world.withUnits x.user.ids (x.units.map f)).exec fuel (.track id .detach) =
      .ok ((x.detachTrack id).user.world.withUnits (x.detachTrack id).user.ids ((x.detachTrack id).units.map f)) := by
  rcases Ctx.detachTrack_eq hb rfl id with ⟨c, -⟩ | ⟨t, u, -, h1, h2, -, h4, e⟩
  · exact absurd hi c
  rw [e]
  have hz : (x.user.world.withUnits x.user.ids (x.units.map f)).tracks id = some { t with unit := f u } := by
    unfold TWorld.withUnits
    dsimp only
    rw [h1, coreOf_map, h4]; rfl
  unfold TWorld.exec
  dsimp only
  rw [hz]
  dsimp only
  unfold Track.exec
  rw [ok_bind]
  refine congrArg Except.ok (TWorld.same rfl ?_)
  funext y
  unfold TWorld.withUnits
  dsimp only
  rw [← dropUnit_map, coreOf_drop y _ _ (by simpa using hb.len.symm) hb.nodup hi]
  by_cases hy : y = id
  · subst hy
    rw [upd_self, upd_self, if_pos rfl, Option.map_some]
    dsimp only
    refine congrArg some ?_
    have hc : t.ctx ≠ none := h2.ctx
    unfold Track.detach
    dsimp only
    rw [if_neg hc, if_neg hc]
    have := hf u
    cases hu : f u
    cases u
    rw [hu] at this
    dsimp only at this ⊢
    rw [this]
  · rw [upd_ne _ _ hy, upd_ne _ _ hy, if_neg hy]

theorem coreOf_cores {s : TWorld} (y : Nat) : ∀ (ids : List Nat) (us : List BUnit) (cs : List UCore), cs.length = us.length →
    (∀ x ∈ ids, ∃ t, s.tracks x = some t) →
    coreOf ids (setCores us (s.cores ids cs)) y =
      (coreOf ids us y).bind fun u => (s.tracks y).map fun t => { toUCore := t.unit.toUCore, time := u.time }
  | [], us, cs, _, _ => by unfold coreOf; rfl
  | x :: ids, [], cs, hl, _ => rfl
  | x :: ids, u :: us, [], hl, _ => by cases hl
  | x :: ids, u :: us, c :: cs, hl, h => by
    obtain ⟨t, ht⟩ := h x (List.mem_cons_self ..)
    have ih := coreOf_cores (s := s) y ids us cs (by simpa using hl) fun z hz => h z (List.mem_cons_of_mem _ hz)
    unfold TWorld.cores setCores
    rw [List.zipWith_cons_cons, ht]
    unfold coreOf
    by_cases e : y = x
    · rw [if_pos e, if_pos e, e, ht]
      rfl
    · rw [if_neg e, if_neg e]
      exact ih

/-- The times of units. -/
def timesOf (ids : List Nat) (us : List BUnit) (y : Nat) : Option Int := (coreOf ids us y).map (·.time)

theorem timesOf_mem {ids : List Nat} {us : List BUnit} (y : Nat) (h : timesOf ids us y ≠ none) : y ∈ ids := by
  unfold timesOf at h
  cases e : coreOf ids us y with
  | none => rw [e] at h; exact absurd rfl h
  | some u => exact (coreOf_mem ids us e).2

theorem TWorld.withUnits_moved (s : TWorld) (ids : List Nat) (us : List BUnit) :
    s.withUnits ids us = (s.load ids (us.map (·.toUCore))).movedBy (timesOf ids us) := by
  have e : (s.withUnits ids us).tracks = ((s.load ids (us.map (·.toUCore))).movedBy (timesOf ids us)).tracks := by
    funext y
    unfold TWorld.withUnits TWorld.load TWorld.movedBy timesOf
    dsimp only
    rw [coreOf_map]
    cases s.tracks y with
    | none => rfl
    | some t => cases coreOf ids us y <;> rfl
  exact TWorld.same rfl e

theorem TWorld.withUnits_strip {s : TWorld} {ids : List Nat} {us : List BUnit} {cs : List UCore} (hl : us.length = ids.length)
    (hc : cs.length = us.length) (h : ∀ x ∈ ids, ∃ t, s.tracks x = some t) :
    (s.strip ids).withUnits ids (setCores us (s.cores ids cs)) = s.movedBy (timesOf ids us) := by
  have e : ((s.strip ids).withUnits ids (setCores us (s.cores ids cs))).tracks = (s.movedBy (timesOf ids us)).tracks := by
    funext y
    unfold TWorld.withUnits TWorld.strip TWorld.movedBy timesOf
    dsimp only
    rw [coreOf_cores y ids us cs hc h]
    cases hs : s.tracks y with
    | none => rfl
    | some t =>
      by_cases hy : y ∈ ids
      · obtain ⟨u, -, hu⟩ := coreOf_some ids us hy hl
        rw [hu]
        rw [Option.map_some, if_pos hy]
        rfl
      · rw [coreOf_none _ _ hy, Option.map_some, if_neg hy]
        rfl
  exact TWorld.same rfl e

/-! Calls that were made. -/

/-- A state that is reached by calls, which are those in a log and others by which a context renders. -/
def Played (N : Nat) (s : TWorld) (log : List WOp) : Prop :=
  ∃ ops : List WOp, ops.filter WOp.isCall = log ∧
    ∀ fuel, ops.length ≤ fuel → ({} : TWorld).LegalRun N fuel ops ∧ ({} : TWorld).run fuel ops = .ok s

theorem Played.more {N f : Nat} {s s' : TWorld} {log ops : List WOp} (h : Played N s log) (hr : s.run f ops = .ok s')
    (hl : s.LegalRun N f ops) (hf : f ≤ log.length + ops.length) : Played N s' (log ++ ops.filter WOp.isCall) := by
  obtain ⟨os, h1, h2⟩ := h
  refine ⟨os ++ ops, by rw [List.filter_append, h1], ?_⟩
  intro F hF
  have hlen : log.length ≤ os.length := by rw [← h1]; exact List.length_filter_le ..
  rw [List.length_append] at hF
  obtain ⟨k1, k2⟩ := h2 F (by omega)
  obtain ⟨k3, k4⟩ := TWorld.run_more (N := N) (show f ≤ F by omega) ops hr hl
  exact ⟨TWorld.legalRun_append os ops k2 k1 k4, TWorld.run_append os ops k2 k3⟩

theorem quiet_calls {ops : List WOp} (h : ∀ op ∈ ops, op.Quiet) : ops.filter WOp.isCall = ops := by
  refine List.filter_eq_self.2 fun op ho => ?_
  have := h op ho
  cases op with
  | track x o => cases o <;> first | rfl | exact this.elim
  | _ => rfl

theorem Played.perform {N : Nat} {b : Band υ} {us : List BUnit} (hb : b.Ok N us.length) (hu : ∀ u ∈ us, u.toUCore.Fine N False)
    {ops : List WOp} (hq : ∀ op ∈ ops, op.Quiet)
    (hg : (b.world.load b.ids (us.map (·.toUCore))).LegalRun N (b.log.length + ops.length) ops)
    {r : Band υ × List UCore} (hr : b.perform (us.map (·.toUCore)) ops = .ok r) (h : Played N (b.world.withUnits b.ids us) b.log) :
    Played N (r.1.world.withUnits r.1.ids (setCores us r.2)) r.1.log := by
  unfold Band.perform at hr
  obtain ⟨s, e, hr⟩ := bind_ok_iff.1 hr
  cases hr
  dsimp only
  obtain ⟨-, ha⟩ := hb.load (cs := us.map (·.toUCore)) (by simp) (by
    intro c hc; obtain ⟨u, hu', rfl⟩ := List.mem_map.1 hc; exact hu u hu')
  have hm := TWorld.run_moved (timesOf_mem (ids := b.ids) (us := us)) (fuel := b.log.length + ops.length) ops ha hq
  have hlm := TWorld.legal_moved (N := N) (timesOf_mem (ids := b.ids) (us := us)) ops ha hq hg
  rw [← TWorld.withUnits_moved] at hm hlm
  rw [e] at hm
  have ha' := TWorld.run_attached ops hq ha e
  rw [TWorld.withUnits_strip hb.len.symm (by simp) fun x hx => (ha' x hx).imp fun t h => h.1]
  have := h.more (s' := s.movedBy (timesOf b.ids us)) hm hlm (Nat.le_refl _)
  rw [quiet_calls hq] at this
  exact this

/-! One call on every track. -/

theorem TWorld.run_each {N f : Nat} {op : TOp} {G : TWorld} : ∀ (l : List Nat) {Z : TWorld}, l.Nodup → Z.iw = G.iw →
    (∀ y, y ∉ l → Z.tracks y = G.tracks y) →
    (∀ y ∈ l, ∃ t t', Z.tracks y = some t ∧ op.Legal N t ∧ t.exec y G.iw op = .ok (G.iw, t') ∧ G.tracks y = some t') →
    Z.run f (l.map fun y => .track y op) = .ok G ∧ Z.LegalRun N f (l.map fun y => .track y op)
  | [], Z, _, hi, ho, _ => by
    exact ⟨congrArg Except.ok (TWorld.same hi (funext fun y => ho y (by simp))), trivial⟩
  | x :: l, Z, hn, hi, ho, h => by
    rw [List.nodup_cons] at hn
    obtain ⟨t, t', h1, h2, h3, h4⟩ := h x (List.mem_cons_self ..)
    have e : Z.exec f (.track x op) = .ok { iw := Z.iw, tracks := upd Z.tracks x (some t') } := by
      unfold TWorld.exec
      dsimp only
      rw [h1]
      dsimp only
      rw [hi, h3]; rfl
    have ih := TWorld.run_each (N := N) (f := f) (op := op) (G := G) l (Z := { iw := Z.iw, tracks := upd Z.tracks x (some t') })
      hn.2 hi (by
        intro y hy
        dsimp only
        by_cases e : y = x
        · subst e; rw [upd_self, h4]
        · rw [upd_ne _ _ e]
          exact ho y (by rw [List.mem_cons, not_or]; exact ⟨e, hy⟩)) (by
        intro y hy
        dsimp only
        rw [upd_ne _ _ (show y ≠ x from fun e => hn.1 (e ▸ hy))]
        exact h y (List.mem_cons_of_mem _ hy))
    rw [List.map_cons]
    unfold TWorld.run
    rw [e, ok_bind]
    refine ⟨ih.1, ?_, ?_⟩
    · intro u hu
      rw [h1] at hu
      cases hu
      exact h2
    · intro s' hs'
      rw [e] at hs'
      cases hs'
      exact ih.2

theorem Played.each {N : Nat} {op : TOp} {G Z : TWorld} {log : List WOp} (h : Played N Z log) (l : List Nat) (hn : l.Nodup)
    (hi : Z.iw = G.iw) (ho : ∀ y, y ∉ l → Z.tracks y = G.tracks y) (hop : ∀ y, WOp.isCall (.track y op) = false)
    (ht : ∀ y ∈ l, ∃ t t', Z.tracks y = some t ∧ op.Legal N t ∧ t.exec y G.iw op = .ok (G.iw, t') ∧ G.tracks y = some t') :
    Played N G log := by
  obtain ⟨h1, h2⟩ := TWorld.run_each (N := N) (f := 0) l hn hi ho ht
  have := h.more h1 h2 (Nat.zero_le _)
  rw [List.filter_eq_nil_iff.2, List.append_nil] at this
  · exact this
  · intro o ho
    obtain ⟨y, -, rfl⟩ := List.mem_map.1 ho
    rw [hop]; simp

/-! Rendering. -/

theorem TWorld.flush_each : ∀ (l : List Nat) {s s' : TWorld}, l.Nodup → l.foldlM TWorld.flushTrack s = .ok s' →
    s'.iw = s.iw ∧ (∀ y, y ∉ l → s'.tracks y = s.tracks y) ∧
    ∀ y ∈ l, ∀ t, s.tracks y = some t → ∃ t', t.updateUnit y s.iw = .ok t' ∧ s'.tracks y = some t'
  | [], s, s', _, h => by
    cases h
    exact ⟨rfl, fun _ _ => rfl, fun _ hy => absurd hy List.not_mem_nil⟩
  | x :: l, s, s', hn, h => by
    rw [List.foldlM_cons] at h
    rw [List.nodup_cons] at hn
    obtain ⟨s1, h1, h⟩ := bind_ok_iff.1 h
    obtain ⟨a1, a2, a3⟩ := TWorld.flush_each l hn.2 h
    have key : s1.iw = s.iw ∧ (∀ y, y ≠ x → s1.tracks y = s.tracks y) ∧
        ∀ t, s.tracks x = some t → ∃ t', t.updateUnit x s.iw = .ok t' ∧ s1.tracks x = some t' := by
      unfold TWorld.flushTrack at h1
      cases hx : s.tracks x with
      | none =>
        rw [hx] at h1
        cases h1
        exact ⟨rfl, fun _ _ => rfl, fun t ht => by cases ht⟩
      | some t =>
        rw [hx] at h1
        dsimp only at h1
        obtain ⟨t', h2, h1⟩ := bind_ok_iff.1 h1
        cases h1
        refine ⟨rfl, fun y hy => upd_ne _ _ hy, fun u hu => ?_⟩
        cases hu
        exact ⟨t', h2, upd_self ..⟩
    obtain ⟨k1, k2, k3⟩ := key
    refine ⟨a1.trans k1, ?_, ?_⟩
    · intro y hy
      rw [List.mem_cons, not_or] at hy
      rw [a2 y hy.2, k2 y hy.1]
    · intro y hy t ht
      rcases List.mem_cons.1 hy with rfl | hy
      · obtain ⟨t', c1, c2⟩ := k3 t ht
        exact ⟨t', c1, by rw [a2 _ hn.1, c2]⟩
      · have hne : y ≠ x := fun e => hn.1 (e ▸ hy)
        obtain ⟨t', c1, c2⟩ := a3 y hy t (by rw [k2 y hne, ht])
        exact ⟨t', by rw [← k1]; exact c1, c2⟩

theorem mixPulse_length {chk : Bool} {chans chans' : List Buf} {p : Pulse} (h : mixPulse chk chans p = .ok chans') :
    chans'.length = chans.length := by
  unfold mixPulse at h
  obtain ⟨b, -, h⟩ := bind_ok_iff.1 h
  obtain ⟨c, -, h⟩ := bind_ok_iff.1 h
  unfold wr at h
  split at h <;> cases h
  simp

theorem mixAll_length {chk : Bool} : ∀ (ps : List Pulse) {chans chans' : List Buf}, ps.foldlM (mixPulse chk) chans = .ok chans' →
    chans'.length = chans.length
  | [], _, _, h => by cases h; rfl
  | p :: ps, _, _, h => by
    rw [List.foldlM_cons] at h
    obtain ⟨b, h1, h⟩ := bind_ok_iff.1 h
    rw [mixAll_length ps h, mixPulse_length h1]

theorem runUnits_each {chk : Bool} {e : Int} (y : Nat) : ∀ (ids : List Nat) (us : List BUnit) {chans : List Buf}
    {r : List BUnit × List Buf}, runUnits chk e us chans = .ok r →
    r.1.length = us.length ∧ ∀ u, coreOf ids us y = some u → ∃ q, u.toUCore.render u.time e chans.length = .ok q ∧
      coreOf ids r.1 y = some { toUCore := q.2.1, time := q.1 }
  | ids, [], chans, r, h => by
    cases h
    refine ⟨rfl, fun u hu => ?_⟩
    have : u ∈ ([] : List BUnit) := (coreOf_mem ids [] hu).1
    cases this
  | ids, u :: us, chans, r, h => by
    unfold runUnits at h
    obtain ⟨a, h1, h⟩ := bind_ok_iff.1 h
    obtain ⟨b, h2, h⟩ := bind_ok_iff.1 h
    cases h
    unfold BUnit.run at h1
    obtain ⟨q, h3, h1⟩ := bind_ok_iff.1 h1
    obtain ⟨cs, h4, h1⟩ := bind_ok_iff.1 h1
    cases h1
    have hl : (cs.map fun b => b.endAt q.1).length = chans.length := by
      rw [List.length_map, mixAll_length _ h4]
    refine ⟨by rw [List.length_cons, List.length_cons, (runUnits_each y ids us h2).1], ?_⟩
    intro v hv
    cases ids with
    | nil => unfold coreOf at hv; cases hv
    | cons x ids =>
      unfold coreOf at hv ⊢
      split at hv
      · rename_i e'
        cases hv
        rw [if_pos e']
        exact ⟨q, h3, rfl⟩
      · rename_i e'
        rw [if_neg e']
        have := (runUnits_each y ids us h2).2 v hv
        rw [hl] at this
        exact this

/-- Bringing units up to date and rendering them is a call on every track. -/
theorem Played.render {N : Nat} {b : Band υ} {us : List BUnit} (hb : b.Ok N us.length) (hu : ∀ u ∈ us, u.toUCore.Fine N False)
    {r : Band υ × List UCore} (hr : b.flush (us.map (·.toUCore)) = .ok r) {chk : Bool} {e : Int} (he0 : 0 ≤ e) (he : e ≤ 2145386496)
    {chans : List Buf} (hN : chans.length = N) {q : List BUnit × List Buf} (hq : runUnits chk e (setCores us r.2) chans = .ok q)
    (h : Played N (b.world.withUnits b.ids us) b.log) : Played N (r.1.world.withUnits r.1.ids q.1) r.1.log := by
  unfold Band.flush at hr
  obtain ⟨s, hs, hr⟩ := bind_ok_iff.1 hr
  cases hr
  dsimp only at hq ⊢
  have hcf : ∀ c ∈ us.map (·.toUCore), c.Fine N False := by
    intro c hc; obtain ⟨u, hu', rfl⟩ := List.mem_map.1 hc; exact hu u hu'
  obtain ⟨hinv, ha⟩ := hb.load (cs := us.map (·.toUCore)) (by simp) hcf
  obtain ⟨a1, a2, a3⟩ := TWorld.flush_each b.ids hb.nodup hs
  have hex : ∀ x ∈ b.ids, ∃ t, s.tracks x = some t := by
    intro x hx
    obtain ⟨t, ht, -⟩ := ha x hx
    obtain ⟨t', -, k⟩ := a3 x hx t ht
    exact ⟨t', k⟩
  refine h.each (op := .run e) b.ids hb.nodup (a1.symm : b.world.iw = s.iw) ?_ (fun _ => rfl) ?_
  · intro y hy
    rw [TWorld.withUnits_moved]
    unfold TWorld.movedBy TWorld.withUnits TWorld.strip timesOf
    dsimp only
    rw [coreOf_none _ _ hy, coreOf_none _ _ hy, a2 y hy]
    cases (b.world.load b.ids (us.map (·.toUCore))).tracks y with
    | none => rfl
    | some t =>
      simp only [Option.map_some, Option.map_none]
      rw [if_neg hy]
      rfl
  · intro y hy
    obtain ⟨t, ht, hc⟩ := ha y hy
    obtain ⟨t', h1, h2⟩ := a3 y hy t ht
    obtain ⟨u, -, hu'⟩ := coreOf_some b.ids us hy hb.len.symm
    have hz : (b.world.withUnits b.ids us).tracks y = some (t.moved u.time) := by
      rw [TWorld.withUnits_moved]
      unfold TWorld.movedBy timesOf
      dsimp only
      rw [ht, hu']
      rfl
    have hco := coreOf_cores (s := s) y b.ids us (us.map (·.toUCore)) (by simp) hex
    rw [hu', h2] at hco
    obtain ⟨p, h3, h4⟩ := (runUnits_each y b.ids _ hq).2 _ hco
    dsimp only at h3
    refine ⟨_, { t' with unit := { toUCore := p.2.1, time := p.1 } }, hz, ⟨hc, he0, he⟩, ?_, ?_⟩
    · unfold Track.exec
      dsimp only
      have hiw : s.iw = (b.world.load b.ids (us.map (·.toUCore))).iw := a1
      show (do let r ← (t.moved u.time).run y s.iw e; _ : C _) = _
      rw [hiw, Track.moved_run, h1, ok_bind]
      have hctx : t'.ctx = t.ctx := Track.updateUnit_ctx h1
      cases hcx : t.ctx with
      | none => exact absurd hcx hc
      | some c =>
        have := ((hinv.tracks y t ht).ctx c hcx).2.2
        rw [hctx, hcx]
        dsimp only
        rw [this, Int.toNat_natCast, ← hN, h3]
        rfl
    · unfold TWorld.withUnits TWorld.strip
      dsimp only
      rw [h2, h4, Option.map_some, if_pos hy]
      rfl

/-- Moving the time of all units is a call on every track. -/
theorem Played.endAt {N : Nat} {b : Band υ} {us : List BUnit} (hb : b.Ok N us.length) {e : Int}
    (h : Played N (b.world.withUnits b.ids us) b.log) : Played N (b.world.withUnits b.ids (us.map fun u => u.endAt e)) b.log := by
  refine h.each (op := .endAt e) b.ids hb.nodup rfl ?_ (fun _ => rfl) ?_
  · intro y hy
    unfold TWorld.withUnits
    dsimp only
    rw [coreOf_none _ _ hy, coreOf_none _ _ hy]
  · intro y hy
    obtain ⟨t, ht, -⟩ := hb.ins y hy
    obtain ⟨u, -, hu'⟩ := coreOf_some b.ids us hy hb.len.symm
    refine ⟨{ t with unit := u }, { t with unit := u.endAt e }, ?_, trivial, rfl, ?_⟩
    · unfold TWorld.withUnits
      dsimp only
      rw [ht, hu']; rfl
    · unfold TWorld.withUnits
      dsimp only
      rw [ht, coreOf_map, hu']; rfl

end BK
