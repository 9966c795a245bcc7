import Verif.Lemmas.Refine
/-!
Tracks while a context runs.
-/
namespace BK

variable {υ : Type} {N : Nat} {p : Program υ}

/-- The tracks of a context are in a state that is reached by the calls in the log. -/
def Heard (N : Nat) (b : Band υ) (us : List BUnit) : Prop := Played N (b.world.withUnits b.ids us) b.log

/-- What is kept in between. -/
structure Held (N : Nat) (b : Band υ) (us : List BUnit) : Prop where
  ok : b.Ok N us.length
  fine : ∀ u ∈ us, u.toUCore.Fine N False
  heard : Heard N b us

theorem Held.perform {b : Band υ} {us : List BUnit} (h : Held N b us) {ops : List WOp} (hq : ∀ op ∈ ops, op.Quiet)
    (hg : (b.world.load b.ids (us.map (·.toUCore))).LegalRun N (b.log.length + ops.length) ops)
    {r : Band υ × List UCore} (hr : b.perform (us.map (·.toUCore)) ops = .ok r) : Held N r.1 (setCores us r.2) := by
  have hh := Played.perform h.ok h.fine hq hg hr h.heard
  obtain ⟨r', e, h1, h2, h3, -⟩ := h.ok.perform (cs := us.map (·.toUCore)) (by simp)
    (by intro c hc; obtain ⟨u, hu', rfl⟩ := List.mem_map.1 hc; exact h.fine u hu') hq hg
  rw [hr] at e
  cases e
  have hl : r.2.length = us.length := by simpa using h2
  obtain ⟨t1, t2⟩ := setCores_time hl
  have hlen : (setCores us r.2).length = us.length := by
    have := congrArg List.length t1
    simpa using this
  refine ⟨by rw [hlen]; exact h1, ?_, hh⟩
  intro u hu
  exact h3 _ (t2 ▸ List.mem_map.2 ⟨u, hu, rfl⟩)

theorem Held.ticks (hp : p.Plays N) {now : Int} : ∀ (cs : List Clk) (k : Nat) {s s' : Ticked (Band υ)}, Held N s.user s.units →
    tickAll p.cb now k cs s = .ok s' → Held N s'.user s'.units
  | [], k, s, s', h, e => by cases e; exact h
  | c :: cs, k, s, s', h, e => by
    unfold tickAll at e
    obtain ⟨s1, h1, e⟩ := bind_ok_iff.1 e
    refine Held.ticks hp cs (k + 1) ?_ e
    unfold Ticked.step at h1
    split at h1
    · obtain ⟨r, h2, h1⟩ := bind_ok_iff.1 h1
      obtain ⟨c', -, h1⟩ := bind_ok_iff.1 h1
      cases h1
      dsimp only
      obtain ⟨q, h3, h2⟩ := bind_ok_iff.1 (show (do
        let q ← ({ s.user with
          user := (p k c.time s.user.user (s.user.world.load s.user.ids (s.units.map (·.toUCore)))).2.1
          score := s.user.score ++ [(c.time, (p k c.time s.user.user (s.user.world.load s.user.ids (s.units.map (·.toUCore)))).2.2)] } : Band υ).perform
          (s.units.map (·.toUCore)) (p k c.time s.user.user (s.user.world.load s.user.ids (s.units.map (·.toUCore)))).2.2
        return ((p k c.time s.user.user (s.user.world.load s.user.ids (s.units.map (·.toUCore)))).1, q.1, q.2) : C _) = .ok r from h2)
      cases h2
      have h' : Held N ({ s.user with
          user := (p k c.time s.user.user (s.user.world.load s.user.ids (s.units.map (·.toUCore)))).2.1
          score := s.user.score ++ [(c.time, (p k c.time s.user.user (s.user.world.load s.user.ids (s.units.map (·.toUCore)))).2.2)] } : Band υ)
          s.units := ⟨⟨h.ok.good, h.ok.len, h.ok.nodup, h.ok.out, h.ok.ins⟩, h.fine, h.heard⟩
      exact h'.perform (hp.quiet _ _ _ _) (hp.legal _ _ _ _ _) h3
    · cases h1
      exact h

theorem Held.clocks (hp : p.Plays N) {x : Ctx (Band υ)} (h : Held N x.user x.units) {r : Int × Ctx (Band υ)}
    (e : x.clocksAdvance p.cb = .ok r) : Held N r.2.user r.2.units ∧ r.2.chans = x.chans := by
  unfold Ctx.clocksAdvance at e
  obtain ⟨s, h1, e⟩ := bind_ok_iff.1 e
  obtain ⟨d, -, e⟩ := bind_ok_iff.1 e
  obtain ⟨cs, -, e⟩ := bind_ok_iff.1 e
  obtain ⟨n, -, e⟩ := bind_ok_iff.1 e
  have k := Held.ticks hp x.clocks 0 (s := { clocks := [], next := timeMax, user := x.user, units := x.units, ticks := x.ticks }) h h1
  cases e
  exact ⟨k, rfl⟩

theorem Held.render {x y : Ctx (Band υ)} (h : Held N x.user x.units) (e : x.flush p.cb = .ok y) {chk : Bool} {t : Int} (h0 : 0 ≤ t)
    (ht : t ≤ 2145386496) (hN : x.chans.length = N) {q : List BUnit × List Buf} (hq : runUnits chk t y.units y.chans = .ok q) :
    Heard N y.user q.1 := by
  unfold Ctx.flush at e
  obtain ⟨r, h1, e⟩ := bind_ok_iff.1 e
  cases e
  dsimp only at hq ⊢
  exact Played.render h.ok h.fine h1 h0 ht hN hq h.heard

variable {K : Int} {Q : Kept (Band υ)}

theorem CtxOk.held {t : Int} {x : Ctx (Band υ)} (h : CtxOk N (bandKept υ N) t x) (hh : Heard N x.user x.units) :
    Held N x.user x.units := ⟨h.user, fun u hu => (h.unit u hu).1, hh⟩

theorem LoopOk.heard (hp : p.Plays N) (hK : K ≤ 2305843000000000000) {e : Int} (he : e ≤ 1073741824) : ∀ (n : Nat) {t : Int}
    {x : Ctx (Band υ)} {r : Int × Ctx (Band υ)}, LoopOk K N (bandKept υ N) t x → Heard N x.user x.units →
    Ctx.runLoop false p.cb e n t x = .ok r → Heard N r.2.user r.2.units
  | 0, t, x, r, _, h, hr => by
    unfold Ctx.runLoop at hr
    split at hr <;> cases hr
    exact h
  | n + 1, t, x, r, hx, h, hr => by
    unfold Ctx.runLoop at hr
    split at hr
    · rename_i hlt
      obtain ⟨t1, x1, a1, a2, a3, a4, -⟩ := hx.step band_stable hp.ok hK (by omega)
      rw [a1, ok_bind] at hr
      have h0 := hx.ctx.t0
      refine LoopOk.heard hp hK he n a4 ?_ hr
      unfold Ctx.runStep at a1
      obtain ⟨c, c1, a1⟩ := bind_ok_iff.1 a1
      obtain ⟨y, c2, a1⟩ := bind_ok_iff.1 a1
      obtain ⟨q, c3, a1⟩ := bind_ok_iff.1 a1
      obtain ⟨k1, k2⟩ := (hx.ctx.held h).clocks hp c1
      cases a1
      exact k1.render c2 (by omega) (by omega) (by rw [k2]; exact hx.ctx.chans) c3
    · cases hr
      exact h

theorem Rest.heardRun (hp : p.Plays N) {x y : Ctx (Band υ)} (hx : Rest K N (bandKept υ N) x) (hK : K ≤ 2305843000000000000)
    (h : Heard N x.user x.units) {k : Nat} (hk : k ≤ 1024) (e : x.run false p.cb (k * U20) = .ok y) : Heard N y.user y.units := by
  unfold Ctx.run at e
  rcases hx with ⟨hx, -⟩ | ⟨hc, hx, -⟩
  · rw [if_pos hx.ne] at e
    obtain ⟨r, h1, e⟩ := bind_ok_iff.1 e
    cases e
    exact LoopOk.heard hp hK (by omega) _ hx h h1
  · rw [if_neg (by simpa using hc)] at e
    obtain ⟨z, h1, e⟩ := bind_ok_iff.1 e
    obtain ⟨q, h2, e⟩ := bind_ok_iff.1 e
    cases e
    exact (hx.held h).render h1 (by omega) (by omega) hx.chans h2

theorem Rest.bandOk {x : Ctx (Band υ)} (h : Rest K N (bandKept υ N) x) : x.user.Ok N x.units.length := by
  rcases h with ⟨h, -⟩ | ⟨-, h, -⟩
  · exact h.ctx.user
  · exact h.user

theorem genLoop_heard (hp : p.Plays N) : ∀ (f r : Nat) {K w base : Int} {x : Ctx (Band υ)}
    {o : Int × Ctx (Band υ) × List (Int × Int)}, Rest K N (bandKept υ N) x → K + r * U20 ≤ 2305842000000000000 →
    Heard N x.user x.units → Ctx.genLoop false p.cb f r w base x = .ok o → Heard N o.2.1.user o.2.1.units
  | 0, r, K, w, base, x, o, _, _, _, e => by cases e
  | f + 1, r, K, w, base, x, o, hx, hK, h, e => by
    have hmin : cmin (r : Int) 1024 = ((min r 1024 : Nat) : Int) := by unfold cmin; split <;> omega
    obtain ⟨x1, s1, a1, a2, -, w1, a4, -⟩ := hx.gen band_stable hp.ok (by omega) (k := min r 1024) (by omega)
    have hw : wrapU32 (((min r 1024 : Nat) : Int) * U20) = ((min r 1024 : Nat) : Int) * U20 := by unfold wrapU32; omega
    have h1 : Heard N x1.user x1.units := by
      obtain ⟨y, g1, -, -⟩ := a1
      have hy := hx.heardRun hp (by omega) h (by omega) g1
      obtain ⟨z, b1, b2⟩ := bind_ok_iff.1 a4
      unfold Ctx.endAt at b1
      rw [g1, ok_bind] at b1
      have hneg : ¬ wrapI32 (((min r 1024 : Nat) : Int) * U20) < 0 := by unfold wrapI32; omega
      rw [if_neg hneg] at b1
      unfold Ctx.read at b2
      obtain ⟨c, -, b2⟩ := bind_ok_iff.1 b2
      have hu : x1.user = y.user ∧ x1.units = y.units.map fun u => u.endAt (((min r 1024 : Nat) : Int) * U20) := by
        cases b1
        have := congrArg (fun o : Int × Ctx (Band υ) × List (Int × Int) => o.2.1) (Except.ok.inj b2)
        dsimp only at this
        rw [← this]
        exact ⟨rfl, rfl⟩
      have ho : y.user.Ok N y.units.length := by
        have := a2.bandOk
        rw [hu.1, hu.2, List.length_map] at this
        exact this
      rw [hu.1, hu.2]
      exact Played.endAt ho hy
    obtain ⟨y, e1, e2⟩ := bind_ok_iff.1 a4
    unfold Ctx.genLoop at e
    dsimp only at e
    rw [hmin, hw, e1, ok_bind, e2, ok_bind] at e
    dsimp only at e
    by_cases hr : r ≤ 1024
    · have hrm : min r 1024 = r := by omega
      rw [hrm] at e
      rw [if_pos (by split <;> omega)] at e
      cases e
      exact h1
    · obtain ⟨c, hrm, hc⟩ : ∃ c : Nat, min r 1024 = c ∧ c = 1024 := ⟨_, rfl, by omega⟩
      rw [hrm] at e a2
      rw [if_neg (show ¬ (c : Int) = 0 by omega), if_neg (show ¬ (r : Int) - (c : Int) = 0 by omega),
        show (r : Int) - (c : Int) = ((r - c : Nat) : Int) by omega] at e
      obtain ⟨o1, e3, e⟩ := bind_ok_iff.1 e
      have := genLoop_heard hp f (r - c) a2 (by omega) h1 e3
      cases e
      exact this

theorem Rest.generate_heard (hp : p.Plays N) {x : Ctx (Band υ)} {k : Nat} {o : Int × Ctx (Band υ) × List (Int × Int)}
    (hx : Rest K N (bandKept υ N) x) (hK : K + k * U20 ≤ 2305842000000000000) (h : Heard N x.user x.units)
    (e : x.generate false p.cb k = .ok o) : Heard N o.2.1.user o.2.1.units := by
  unfold Ctx.generate at e
  obtain ⟨r, h1, e⟩ := bind_ok_iff.1 e
  have := genLoop_heard hp _ k hx hK h h1
  cases e
  exact this

/-! Attaching. -/

theorem Track.updateUnit_time {x : Nat} {w : IWorld} {t t' : Track} (h : t.updateUnit x w = .ok t') : t'.unit.time = t.unit.time := by
  have e : t.updateUnit x w = (t.updateUnit x w).map (Track.moved t.unit.time) := Track.moved_updateUnit (τ := t.unit.time) (t := t)
  rw [h] at e
  have := congrArg (fun t : Track => t.unit.time) (Except.ok.inj e)
  exact this

theorem Track.attach_time {x : Nat} {w : IWorld} {t : Track} {rate chans delta : Int} {r : Ret × Track}
    (h : t.attach x w rate chans delta = .ok r) (hr : r.1 = .ok) : r.2.unit.time = delta := by
  unfold Track.attach at h
  split at h
  · cases h; cases hr
  · obtain ⟨u, h1, h⟩ := bind_ok_iff.1 h
    have := Track.updateUnit_time h1
    cases h
    exact this

theorem SongOk.attach_heard {T : Int} {x x' : Ctx (Band υ)} (hx : SongOk N T x) (h : Heard N x.user x.units) {id : Nat}
    (e : x.attachTrack id = .ok x') : Heard N x'.user x'.units := by
  unfold Ctx.attachTrack at e
  cases ht : x.user.world.tracks id with
  | none => rw [ht] at e; cases e; exact h
  | some t =>
    rw [ht] at e
    dsimp only at e
    obtain ⟨r, h1, e⟩ := bind_ok_iff.1 e
    cases hk : r.1 <;> rw [hk] at e <;> try (cases e; exact h)
    obtain ⟨hb, hw, hu⟩ := hx.band
    have hi : id ∉ x.user.ids := by
      intro hi
      obtain ⟨t', k1, k2⟩ := hb.ins id hi
      rw [ht] at k1
      cases k1
      exact k2.ctx (Track.attach_ok_ctx h1 hk).1
    have htime := Track.attach_time h1 hk
    have hz : (x.user.world.withUnits x.user.ids x.units).tracks id = some t := by
      unfold TWorld.withUnits
      dsimp only
      rw [ht, coreOf_none _ _ hi]; rfl
    have hex : (x.user.world.withUnits x.user.ids x.units).exec 0 (.track id (.attach x.sampleRate x.chans.length x.deltaTime)) =
        .ok { iw := x.user.world.iw, tracks := upd (x.user.world.withUnits x.user.ids x.units).tracks id (some r.2) } := by
      unfold TWorld.exec
      dsimp only
      rw [hz]
      dsimp only
      unfold Track.exec
      dsimp only
      rw [show (x.user.world.withUnits x.user.ids x.units).iw = x.user.world.iw from rfl, h1]
      rfl
    have := Played.more (f := 0) (ops := [.track id (.attach x.sampleRate x.chans.length x.deltaTime)]) h
      (by unfold TWorld.run; rw [hex]; rfl) (by
        refine ⟨?_, fun _ _ => trivial⟩
        intro u hu'
        exact ⟨hx.low, hx.high, by rw [hw]⟩) (Nat.zero_le _)
    cases e
    refine (?_ : Played N _ _)
    dsimp only
    rw [show [WOp.track id (.attach x.sampleRate x.chans.length x.deltaTime)].filter WOp.isCall =
      [WOp.track id (.attach x.sampleRate x.chans.length x.deltaTime)] from rfl] at this
    convert this using 1
    refine TWorld.same rfl ?_
    funext y
    unfold TWorld.withUnits
    dsimp only
    rw [coreOf_append hb.len.symm hi]
    by_cases hy : y = id
    · subst hy
      rw [upd_self, upd_self, if_pos rfl, Option.map_some]
      dsimp only
      rw [← htime]
    · rw [upd_ne _ _ hy, upd_ne _ _ hy, if_neg hy]

theorem SongOk.detach_heard {T : Int} {x : Ctx (Band υ)} (hx : SongOk N T x) (h : Heard N x.user x.units) (id : Nat) :
    Heard N (x.detachTrack id).user (x.detachTrack id).units := by
  obtain ⟨hb, hw, hu⟩ := hx.band
  rcases Ctx.detachTrack_eq hb rfl id with ⟨-, e⟩ | ⟨t, u, hi, h1, h2, -, h4, e⟩
  · rw [e]; exact h
  have hex := Ctx.detachTrack_world hb hi (fun u => u) (fun _ => rfl) 0
  rw [List.map_id', List.map_id'] at hex
  have := Played.more (f := 0) (ops := [.track id .detach]) h
    (by unfold TWorld.run; rw [hex]; rfl) ⟨fun _ _ => trivial, fun _ _ => trivial⟩ (Nat.zero_le _)
  refine (?_ : Played N _ _)
  rw [show [WOp.track id .detach].filter WOp.isCall = [WOp.track id .detach] from rfl] at this
  rw [show (x.detachTrack id).user.log = x.user.log ++ [.track id .detach] by rw [e]]
  exact this

/-- The tracks of a song are in the state that follows from their calls. -/
theorem Song.heard (hp : p.Plays N) {T : Int} {x : Ctx (Band υ)} (h : Song N p T x) : Heard N x.user x.units := by
  induction h with
  | init hc hl =>
    refine ⟨[], rfl, fun fuel _ => ⟨trivial, congrArg Except.ok (TWorld.same rfl ?_)⟩⟩
    rfl
  | clock h h0 hd h1 h2 ih => exact ih
  | calls h hq hl e ih =>
    obtain ⟨hb, -, hu⟩ := (h.ok hp).band
    unfold Ctx.perform at e
    obtain ⟨r, h1, e⟩ := bind_ok_iff.1 e
    cases e
    exact Played.perform hb hu hq hl h1 ih
  | data h ih => exact ih
  | attach h e ih => exact (h.ok hp).attach_heard ih e
  | detach h hne ih => exact (h.ok hp).detach_heard ih _
  | generate h hne hk hT e ih =>
    obtain ⟨h0, hr⟩ := h.rest hp hne
    exact hr.generate_heard hp (by omega) ih e

end BK
