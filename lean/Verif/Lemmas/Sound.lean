import Verif.Lemmas.Loose
/-!
What a song delivers are the steps of its tracks.
-/
namespace BK

variable {υ : Type} {N : Nat} {p : Program υ} {T : Nat} {P : List Pulse} {K : Int}

/-- What is kept: tracks and channels tell of the same steps. -/
structure Tells (N T : Nat) (P : List Pulse) (S : List Int) (x : Ctx (Band υ)) : Prop where
  script : Script T P (x.user.world.withUnits x.user.ids x.units) x.user.log
  loose : x.user.world.Loose x.user.ids
  mixed : Mixed T P x.chans
  sound : S = soundOf N T P

variable {S : List Int}

theorem tick_quiet {ops : List WOp} (h : ∀ op ∈ ops, op.Quiet) : ∀ op ∈ ops, ∀ w : TWorld, w.pulsesOf op = [] :=
  fun op ho _ => pulsesOf_quiet (h op ho)

theorem Script.perform {b : Band υ} {us : List BUnit} (hb : b.Ok N us.length) (hu : ∀ u ∈ us, u.toUCore.Fine N False)
    {ops : List WOp} (hq : ∀ op ∈ ops, op.Quiet) {r : Band υ × List UCore} (hr : b.perform (us.map (·.toUCore)) ops = .ok r)
    (h : Script T P (b.world.withUnits b.ids us) b.log) : Script T P (r.1.world.withUnits r.1.ids (setCores us r.2)) r.1.log := by
  unfold Band.perform at hr
  obtain ⟨s, e, hr⟩ := bind_ok_iff.1 hr
  cases hr
  dsimp only
  obtain ⟨-, ha⟩ := hb.load (cs := us.map (·.toUCore)) (by simp) (by
    intro c hc; obtain ⟨u, hu', rfl⟩ := List.mem_map.1 hc; exact hu u hu')
  have hm := TWorld.run_moved (timesOf_mem (ids := b.ids) (us := us)) (fuel := b.log.length + ops.length) ops ha hq
  rw [← TWorld.withUnits_moved] at hm
  rw [e] at hm
  have ha' := TWorld.run_attached ops hq ha e
  rw [TWorld.withUnits_strip hb.len.symm (by simp) fun x hx => (ha' x hx).imp fun t h => h.1]
  have := h.calls (s' := s.movedBy (timesOf b.ids us)) hm (tick_quiet hq) (Nat.le_refl _)
  rw [quiet_calls hq] at this
  exact this

/-- Both for the units of a context. -/
structure Tells1 (N T : Nat) (P : List Pulse) (b : Band υ) (us : List BUnit) : Prop where
  ok : b.Ok N us.length
  fine : ∀ u ∈ us, u.toUCore.Fine N False
  script : Script T P (b.world.withUnits b.ids us) b.log
  loose : b.world.Loose b.ids

theorem Tells1.perform {b : Band υ} {us : List BUnit} (h : Tells1 N T P b us) {ops : List WOp} (hq : ∀ op ∈ ops, op.Quiet)
    (hg : (b.world.load b.ids (us.map (·.toUCore))).LegalRun N (b.log.length + ops.length) ops)
    {r : Band υ × List UCore} (hr : b.perform (us.map (·.toUCore)) ops = .ok r) : Tells1 N T P r.1 (setCores us r.2) := by
  have hh := Script.perform h.ok h.fine hq hr h.script
  obtain ⟨r', e, h1, h2, h3, -⟩ := h.ok.perform (cs := us.map (·.toUCore)) (by simp)
    (by intro c hc; obtain ⟨u, hu', rfl⟩ := List.mem_map.1 hc; exact h.fine u hu') hq hg
  rw [hr] at e
  cases e
  have hl : r.2.length = us.length := by simpa using h2
  obtain ⟨t1, t2⟩ := setCores_time hl
  have hlen : (setCores us r.2).length = us.length := by
    have := congrArg List.length t1
    simpa using this
  refine ⟨by rw [hlen]; exact h1, ?_, hh, Band.perform_loose h.loose hq hr⟩
  intro u hu
  exact h3 _ (t2 ▸ List.mem_map.2 ⟨u, hu, rfl⟩)

theorem Tells1.ticks (hp : p.Plays N) {now : Int} : ∀ (cs : List Clk) (k : Nat) {s s' : Ticked (Band υ)}, Tells1 N T P s.user s.units →
    tickAll p.cb now k cs s = .ok s' → Tells1 N T P s'.user s'.units
  | [], k, s, s', h, e => by cases e; exact h
  | c :: cs, k, s, s', h, e => by
    unfold tickAll at e
    obtain ⟨s1, h1, e⟩ := bind_ok_iff.1 e
    refine Tells1.ticks hp cs (k + 1) ?_ e
    unfold Ticked.step at h1
    split at h1
    · obtain ⟨r, h2, h1⟩ := bind_ok_iff.1 h1
      obtain ⟨c', -, h1⟩ := bind_ok_iff.1 h1
      cases h1
      dsimp only
      obtain ⟨q, h3, h2⟩ := bind_ok_iff.1 (show (do
        let q ← ({ s.user with
          user := (p k c.time s.user.user (s.user.world.load s.user.ids (s.units.map (·.toUCore)))).2.1
          score := s.user.score ++ [(c.time, (p k c.time s.user.user (s.user.world.load s.user.ids (s.units.map (·.toUCore)))).2.2)] } : Band υ).perform
          (s.units.map (·.toUCore)) (p k c.time s.user.user (s.user.world.load s.user.ids (s.units.map (·.toUCore)))).2.2
        return ((p k c.time s.user.user (s.user.world.load s.user.ids (s.units.map (·.toUCore)))).1, q.1, q.2) : C _) = .ok r from h2)
      cases h2
      have h' : Tells1 N T P ({ s.user with
          user := (p k c.time s.user.user (s.user.world.load s.user.ids (s.units.map (·.toUCore)))).2.1
          score := s.user.score ++ [(c.time, (p k c.time s.user.user (s.user.world.load s.user.ids (s.units.map (·.toUCore)))).2.2)] } : Band υ)
          s.units := ⟨⟨h.ok.good, h.ok.len, h.ok.nodup, h.ok.out, h.ok.ins⟩, h.fine, h.script, h.loose⟩
      exact h'.perform (hp.quiet _ _ _ _) (hp.legal _ _ _ _ _) h3
    · cases h1
      exact h

theorem Tells1.clocks (hp : p.Plays N) {x : Ctx (Band υ)} (h : Tells1 N T P x.user x.units) {r : Int × Ctx (Band υ)}
    (e : x.clocksAdvance p.cb = .ok r) : Tells1 N T P r.2.user r.2.units := by
  unfold Ctx.clocksAdvance at e
  obtain ⟨s, h1, e⟩ := bind_ok_iff.1 e
  obtain ⟨d, -, e⟩ := bind_ok_iff.1 e
  obtain ⟨cs, -, e⟩ := bind_ok_iff.1 e
  obtain ⟨n, -, e⟩ := bind_ok_iff.1 e
  have k := Tells1.ticks hp x.clocks 0 (s := { clocks := [], next := timeMax, user := x.user, units := x.units, ticks := x.ticks }) h h1
  cases e
  exact k

theorem Tells.one {x : Ctx (Band υ)} {t : Int} (h : Tells N T P S x) (hx : CtxOk N (bandKept υ N) t x) : Tells1 N T P x.user x.units :=
  ⟨hx.user, fun u hu => (hx.unit u hu).1, h.script, h.loose⟩

/-- Rendering adds the same steps to tracks and channels. -/
theorem Tells1.render {x y : Ctx (Band υ)} {t : Int} (hx : CtxOk N (bandKept υ N) t x) (h : Tells1 N T P x.user x.units)
    (hm : Mixed T P x.chans) (hs : S = soundOf N T P) (e : x.flush p.cb = .ok y) (hy : CtxOk N (bandKept υ N) t y)
    {t' : Int} (h0 : 0 ≤ t') (ht : t' ≤ 1789569706)
    {q : List BUnit × List Buf} (hq : runUnits false t' y.units y.chans = .ok q) :
    ∃ P', Tells N T P' S { y with units := q.1, chans := q.2 } := by
  have hch : y.chans = x.chans := by
    unfold Ctx.flush at e
    obtain ⟨r, h1, e⟩ := bind_ok_iff.1 e
    cases e; rfl
  obtain ⟨us, P1, T1, a1, a2, a3, a4, a5, -⟩ := rendered_ok (n := N) (e := t') (lo := t) (hi := 4294967295) hy.t0
    (by omega) h0 (by omega) y.units (fun u hu => ⟨band_stable.usable _ (hy.unit u hu).1, (hy.unit u hu).2⟩)
  have hwf : ∀ b ∈ y.chans, b.Wf := fun b hb => (hy.chan b hb).1.wf
  have hrun := runUnits_eff y.units hwf (by rw [hy.chans]; exact a1) (by rw [hy.chans]; exact fun p hp => (a5 p hp).1)
  rw [hq] at hrun
  cases hrun
  have hP : ∀ q ∈ P1, 0 ≤ q.time ∧ q.time ≤ 4294967295 := by
    intro q hq
    have := a5 q hq
    have := hy.t0
    omega
  refine ⟨P ++ P1.map (Pulse.later (T * U20)), ?_, ?_, ?_, ?_⟩
  · unfold Ctx.flush at e
    obtain ⟨r, h1, e⟩ := bind_ok_iff.1 e
    cases e
    exact Script.render h.ok h.fine h1 a1 h.script
  · unfold Ctx.flush at e
    obtain ⟨r, h1, e⟩ := bind_ok_iff.1 e
    cases e
    exact Band.flush_loose h.loose h.ok.nodup h1
  · exact Mixed.eff (by rw [hch]; exact hm) (fun b hb => (hy.chan b hb).1.time) hP
  · rw [hs, soundOf_later fun q hq => (hP q hq).1]

theorem LoopOk.tells (hp : p.Plays N) (hK : K ≤ 2305843000000000000) {e : Int} (he : e ≤ 1073741824) : ∀ (n : Nat) {t : Int}
    {x : Ctx (Band υ)} {r : Int × Ctx (Band υ)} {P : List Pulse}, LoopOk K N (bandKept υ N) t x → Tells N T P S x →
    Ctx.runLoop false p.cb e n t x = .ok r → ∃ P', Tells N T P' S r.2
  | 0, t, x, r, P, _, h, hr => by
    unfold Ctx.runLoop at hr
    split at hr <;> cases hr
    exact ⟨P, h⟩
  | n + 1, t, x, r, P, hx, h, hr => by
    unfold Ctx.runLoop at hr
    split at hr
    · rename_i hlt
      obtain ⟨t1, x1, a1, a2, a3, a4, -⟩ := hx.step band_stable hp.ok hK (by omega)
      rw [a1, ok_bind] at hr
      have h0 := hx.ctx.t0
      suffices ∃ P', Tells N T P' S x1 by
        obtain ⟨P', h'⟩ := this
        exact LoopOk.tells hp hK he n a4 h' hr
      have hsp := hx.span
      obtain ⟨d, y, c1, -, -, -, -, -, -, c8, c9, c10, c11⟩ :=
        clocksAdvance_ok hp.ok hx.clk (by omega) hx.ctx.user (fun u hu => (hx.ctx.unit u hu).1)
      have hy : CtxOk N (bandKept υ N) t y := by
        refine ⟨hx.ctx.pos, hx.ctx.few, by rw [c8]; exact hx.ctx.chans, by rw [c8]; exact hx.ctx.chan, ?_, ?_, h0, c11⟩
        · intro hc
          rw [hc] at c9
          exact hx.ctx.some (by simpa using c9.symm)
        · intro u hu
          refine ⟨c10 u hu, ?_⟩
          have : u.time ∈ x.units.map (·.time) := c9 ▸ List.mem_map.2 ⟨u, hu, rfl⟩
          obtain ⟨v, hv, hvt⟩ := List.mem_map.1 this
          have := (hx.ctx.unit v hv).2
          omega
      obtain ⟨z, d1, d2, -⟩ := hy.flush hp.ok
      have k := (h.one hx.ctx).clocks hp c1
      unfold Ctx.runStep at a1
      rw [c1, ok_bind] at a1
      dsimp only at a1 k
      rw [d1, ok_bind] at a1
      obtain ⟨q, e1, a1⟩ := bind_ok_iff.1 a1
      cases a1
      exact Tells1.render hy k (by rw [c8]; exact h.mixed) h.sound d1 d2 (by omega) (by omega) e1
    · cases hr
      exact ⟨P, h⟩

theorem Rest.tellsRun (hp : p.Plays N) {x y : Ctx (Band υ)} (hx : Rest K N (bandKept υ N) x) (hK : K ≤ 2305843000000000000)
    (h : Tells N T P S x) {k : Nat} (hk : k ≤ 1024) (e : x.run false p.cb (k * U20) = .ok y) : ∃ P', Tells N T P' S y := by
  unfold Ctx.run at e
  rcases hx with ⟨hx, -⟩ | ⟨hc, hx, -⟩
  · rw [if_pos hx.ne] at e
    obtain ⟨r, h1, e⟩ := bind_ok_iff.1 e
    cases e
    obtain ⟨P', h'⟩ := LoopOk.tells hp hK (by omega) _ hx h h1
    exact ⟨P', h'.script, h'.loose, h'.mixed, h'.sound⟩
  · rw [if_neg (by simpa using hc)] at e
    obtain ⟨z, h1, e⟩ := bind_ok_iff.1 e
    obtain ⟨q, h2, e⟩ := bind_ok_iff.1 e
    cases e
    obtain ⟨z', d1, d2, -⟩ := hx.flush hp.ok
    rw [h1] at d1
    cases d1
    exact (h.one hx).render hx h.mixed h.sound h1 d2 (by omega) (by omega) h2

theorem Rest.times {x : Ctx (Band υ)} (h : Rest K N (bandKept υ N) x) : ∀ u ∈ x.units, 0 ≤ u.time := by
  intro u hu
  rcases h with ⟨h, -⟩ | ⟨-, h, -⟩
  · have := (h.ctx.unit u hu).2
    have := h.ctx.t0
    omega
  · have := (h.unit u hu).2
    omega

/-- A block of frames. -/
theorem Rest.tellsGen (hp : p.Plays N) {x x' : Ctx (Band υ)} (hx : Rest K N (bandKept υ N) x) (hK : K ≤ 2305843000000000000)
    (h : Tells N T P S x) {k : Nat} (hk : k ≤ 1024) {s : List Int} (g : Gen p.cb k x x' s) : ∃ P', Tells N (T + k) P' (S ++ s) x' := by
  obtain ⟨x'', s'', a1, a2, -⟩ := hx.gen band_stable hp.ok hK hk
  obtain ⟨rfl, rfl⟩ := a1.det g
  obtain ⟨y, g1, g2, g3⟩ := g
  obtain ⟨P', h'⟩ := hx.tellsRun hp hK h hk g1
  have hw : y.chans.length = N := by
    have := a2.width
    rw [g2] at this
    simpa [Ctx.theta] using this
  have hb : y.user.Ok N y.units.length := by
    have := a2.band
    rw [g2] at this
    simpa [Ctx.theta] using this
  refine ⟨P', ?_, ?_, ?_, ?_⟩
  · rw [g2]
    show Script _ _ (y.user.world.withUnits y.user.ids (y.units.map (BUnit.earlier (k * U20)))) y.user.log
    rw [← TWorld.withUnits_pass h'.loose hb.len.symm (fun x hx => (hb.ins x hx).imp fun t h => ⟨h.1, h.2.ctx⟩)]
    refine h'.script.pass (TWorld.withUnits_upto h'.loose hb.len.symm ?_)
    intro u hu
    have := a2.times (u.earlier (k * U20)) (by rw [g2]; exact List.mem_map.2 ⟨u, hu, rfl⟩)
    unfold BUnit.earlier at this
    dsimp only at this
    omega
  · rw [g2]; exact h'.loose
  · rw [g2]; exact h'.mixed.theta k
  · rw [h'.mixed.samples hw, h'.sound, g3]

theorem Ones.tells (hp : p.Plays N) (k : Nat) {x x' : Ctx (Band υ)} {s : List Int} (hx : Rest K N (bandKept υ N) x)
    (hK : K + k * U20 ≤ 2305842000000000000) (h : Tells N T P S x) (g : Ones p.cb k x x' s) : ∃ P', Tells N (T + k) P' (S ++ s) x' := by
  induction k generalizing x' s with
  | zero => exact hx.tellsGen hp (by omega) h (by omega) g
  | succ k ih =>
    obtain ⟨y, a, b, g1, g2, g3⟩ := g
    obtain ⟨P1, h1⟩ := ih (by push_cast at hK; omega) g1
    have hy := Ones.rest band_stable hp.ok k hx (by push_cast at hK; omega) g1
    obtain ⟨P2, h2⟩ := hy.tellsGen hp (by push_cast at hK; omega) h1 (k := 1) (by omega) g2
    rw [List.append_assoc, ← g3] at h2
    exact ⟨P2, h2⟩

/-! Attaching. -/

theorem SongOk.attach_tells {T' : Int} {x x' : Ctx (Band υ)} (hx : SongOk N T' x) (h : Tells N T P S x) {id : Nat}
    (e : x.attachTrack id = .ok x') : Tells N T P S x' := by
  unfold Ctx.attachTrack at e
  cases ht : x.user.world.tracks id with
  | none => rw [ht] at e; cases e; exact h
  | some t =>
    rw [ht] at e
    dsimp only at e
    obtain ⟨r, h1, e⟩ := bind_ok_iff.1 e
    cases hk : r.1 <;> rw [hk] at e <;> try (cases e; exact h)
    obtain ⟨hb, hw, hu⟩ := hx.band
    have hi : id ∉ x.user.ids := by
      intro hi
      obtain ⟨t', k1, k2⟩ := hb.ins id hi
      rw [ht] at k1
      cases k1
      exact k2.ctx (Track.attach_ok_ctx h1 hk).1
    have htime := Track.attach_time h1 hk
    have hz : (x.user.world.withUnits x.user.ids x.units).tracks id = some t := by
      unfold TWorld.withUnits
      dsimp only
      rw [ht, coreOf_none _ _ hi]; rfl
    have hex : (x.user.world.withUnits x.user.ids x.units).exec 0 (.track id (.attach x.sampleRate x.chans.length x.deltaTime)) =
        .ok { iw := x.user.world.iw, tracks := upd (x.user.world.withUnits x.user.ids x.units).tracks id (some r.2) } := by
      unfold TWorld.exec
      dsimp only
      rw [hz]
      dsimp only
      unfold Track.exec
      dsimp only
      rw [show (x.user.world.withUnits x.user.ids x.units).iw = x.user.world.iw from rfl, h1]
      rfl
    have := Script.calls (f := 0) (ops := [.track id (.attach x.sampleRate x.chans.length x.deltaTime)]) h.script
      (by unfold TWorld.run; rw [hex]; rfl) (by
        intro op ho w
        rw [List.mem_singleton] at ho
        subst ho
        rfl) (Nat.zero_le _)
    cases e
    refine ⟨?_, ?_, h.mixed, h.sound⟩
    · dsimp only
      rw [show [WOp.track id (.attach x.sampleRate x.chans.length x.deltaTime)].filter WOp.isCall =
        [WOp.track id (.attach x.sampleRate x.chans.length x.deltaTime)] from rfl] at this
      convert this using 1
      refine TWorld.same rfl ?_
      funext y
      unfold TWorld.withUnits
      dsimp only
      rw [coreOf_append hb.len.symm hi]
      by_cases hy : y = id
      · subst hy
        rw [upd_self, upd_self, if_pos rfl, Option.map_some]
        dsimp only
        rw [← htime]
      · rw [upd_ne _ _ hy, upd_ne _ _ hy, if_neg hy]
    · intro y u hu' hy
      dsimp only at hu' hy
      rw [List.mem_append, List.mem_singleton, not_or] at hy
      rw [upd_ne _ _ hy.2] at hu'
      exact h.loose y u hu' hy.1

theorem Ctx.detachTrack_loose {x : Ctx (Band υ)} (hb : x.user.Ok N x.units.length) (h : x.user.world.Loose x.user.ids) (id : Nat) :
    (x.detachTrack id).user.world.Loose (x.detachTrack id).user.ids := by
  rcases Ctx.detachTrack_eq hb rfl id with ⟨-, e⟩ | ⟨t, u, hi, h1, h2, -, h4, e⟩
  · rw [e]; exact h
  · rw [e]
    intro y v hv hy
    dsimp only at hv hy
    by_cases hyi : y = id
    · subst hyi
      rw [upd_self] at hv
      cases hv
      rfl
    · rw [upd_ne _ _ hyi] at hv
      exact h y v hv fun c => hy ((List.mem_erase_of_ne hyi).2 c)

theorem SongOk.detach_tells {T' : Int} {x : Ctx (Band υ)} (hx : SongOk N T' x) (h : Tells N T P S x) (id : Nat) :
    Tells N T P S (x.detachTrack id) := by
  obtain ⟨hb, hw, hu⟩ := hx.band
  have hl := Ctx.detachTrack_loose hb h.loose id
  rcases Ctx.detachTrack_eq hb rfl id with ⟨-, e⟩ | ⟨t, u, hi, h1, h2, -, h4, e⟩
  · rw [e]; exact h
  have hex := Ctx.detachTrack_world hb hi (fun u => u) (fun _ => rfl) 0
  rw [List.map_id', List.map_id'] at hex
  have := Script.calls (f := 0) (ops := [.track id .detach]) h.script
    (by unfold TWorld.run; rw [hex]; rfl) (by
      intro op ho w
      rw [List.mem_singleton] at ho
      subst ho
      rfl) (Nat.zero_le _)
  refine ⟨?_, hl, ?_, h.sound⟩
  · rw [show [WOp.track id .detach].filter WOp.isCall = [WOp.track id .detach] from rfl] at this
    rw [show (x.detachTrack id).user.log = x.user.log ++ [.track id .detach] by rw [e]]
    exact this
  · rw [show (x.detachTrack id).chans = x.chans by rw [e]]
    exact h.mixed

theorem Recording.song {x : Ctx (Band υ)} (h : Recording N p T x S) : Song N p T x := by
  induction h with
  | init h1 h2 => exact .init h1 h2
  | clock _ h1 h2 h3 h4 ih => exact .clock ih h1 h2 h3 h4
  | calls _ h1 h2 h3 ih => exact .calls ih h1 h2 h3
  | data _ ih => exact .data ih
  | attach _ h1 ih => exact .attach ih h1
  | detach _ h1 ih => exact .detach ih h1
  | generate _ h1 h2 h3 h4 _ ih =>
    have := Song.generate ih h1 h2 (by exact_mod_cast h3) h4
    rw [Int.natCast_add]
    exact this

/-- A recording is what its tracks play. -/
theorem Recording.tells (hp : p.Plays N) {x : Ctx (Band υ)} (h : Recording N p T x S) : ∃ P, Tells N T P S x := by
  induction h with
  | init hc hl =>
    refine ⟨[], ⟨[], [], {}, [], [], rfl, rfl, rfl, fun fuel _ => ⟨rfl, rfl, trivial⟩⟩, ?_, ?_, rfl⟩
    · intro y t ht; cases ht
    · exact Mixed.init _
  | clock h h0 hd h1 h2 ih =>
    obtain ⟨P, ih⟩ := ih
    exact ⟨P, ih.script, ih.loose, ih.mixed, ih.sound⟩
  | calls h hq hl e ih =>
    obtain ⟨P, ih⟩ := ih
    obtain ⟨hb, -, hu⟩ := (h.song.ok hp).band
    unfold Ctx.perform at e
    obtain ⟨r, h1, e⟩ := bind_ok_iff.1 e
    cases e
    exact ⟨P, Script.perform hb hu hq h1 ih.script, Band.perform_loose ih.loose hq h1, ih.mixed, ih.sound⟩
  | data h ih =>
    obtain ⟨P, ih⟩ := ih
    exact ⟨P, ih.script, ih.loose, ih.mixed, ih.sound⟩
  | attach h e ih =>
    obtain ⟨P, ih⟩ := ih
    exact ⟨P, (h.song.ok hp).attach_tells ih e⟩
  | detach h hne ih =>
    obtain ⟨P, ih⟩ := ih
    exact ⟨P, (h.song.ok hp).detach_tells ih _⟩
  | generate h hne hk hT e hw ih =>
    obtain ⟨P, ih⟩ := ih
    obtain ⟨-, hr⟩ := h.song.rest hp hne
    obtain ⟨x'', s, ws, a1, a2, -, -, a5, -⟩ := generate_ok band_stable hp.ok hr (by omega) hk
    rw [e] at a1
    cases a1
    have := placed_inj _ _ (hw.symm.trans a2)
    subst this
    exact Ones.tells hp _ hr (by omega) ih a5

end BK
