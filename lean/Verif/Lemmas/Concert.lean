import Verif.Lemmas.Sound
import Verif.Lemmas.Score2
/-!
A context gives a performance of the calls that are made.
-/
namespace BK

variable {υ : Type} {N : Nat} {p : Program υ} {T : Nat} {P : List Pulse} {K : Int} {S : List Int}

/-- The tracks of a context play on. -/
theorem Band.waits {b : Band υ} {us : List BUnit} (hb : b.Ok N us.length) (hu : ∀ u ∈ us, u.toUCore.Fine N False)
    (hl : b.world.Loose b.ids) {r : Band υ × List UCore} (hr : b.flush (us.map (·.toUCore)) = .ok r) {e : Int}
    {us' : List BUnit} {P1 : List Pulse} {T1 : List Int} (hq : rendered N e (setCores us r.2) = .ok (us', P1, T1)) :
    ∃ ps, (b.world.withUnits b.ids us).Waits e (r.1.world.withUnits r.1.ids (us'.map (BUnit.earlier e))) ps ∧ P1 = b.ids.flatMap ps ∧
      (b.world.withUnits b.ids us).Lists b.ids := by
  unfold Band.flush at hr
  obtain ⟨s, hs, hr⟩ := bind_ok_iff.1 hr
  cases hr
  dsimp only at hq ⊢
  have hcf : ∀ c ∈ us.map (·.toUCore), c.Fine N False := by
    intro c hc; obtain ⟨u, hu', rfl⟩ := List.mem_map.1 hc; exact hu u hu'
  obtain ⟨hinv, ha⟩ := hb.load (cs := us.map (·.toUCore)) (by simp) hcf
  obtain ⟨a1, a2, a3⟩ := TWorld.flush_each b.ids hb.nodup hs
  have hex : ∀ x ∈ b.ids, ∃ t, s.tracks x = some t := by
    intro x hx
    obtain ⟨t, ht, -⟩ := ha x hx
    obtain ⟨t', -, k⟩ := a3 x hx t ht
    exact ⟨t', k⟩
  have hsl : (setCores us (s.cores b.ids (us.map (·.toUCore)))).length = b.ids.length := by
    have := congrArg List.length (setCores_time (us := us) (cs := s.cores b.ids (us.map (·.toUCore)))
      (by rw [TWorld.cores_length]; simp)).1
    rw [List.length_map, List.length_map] at this
    rw [this, hb.len]
  have hout : ∀ y t, (b.world.withUnits b.ids us).tracks y = some t → y ∉ b.ids → t.ctx = none := by
    intro y t ht hy
    unfold TWorld.withUnits at ht
    dsimp only at ht
    rw [coreOf_none _ _ hy] at ht
    obtain ⟨u, h1, h2⟩ := Option.map_eq_some_iff.1 ht
    rw [← h2]
    exact hl y u h1 hy
  have hin : ∀ y ∈ b.ids, ∃ t, (b.world.withUnits b.ids us).tracks y = some t ∧ t.ctx ≠ none := by
    intro y hy
    obtain ⟨t, ht, hc⟩ := ha y hy
    refine ⟨t.movedAt (timesOf b.ids us y), ?_, ?_⟩
    · rw [TWorld.withUnits_moved]
      unfold TWorld.movedBy
      dsimp only
      rw [ht, Option.map_some]
    · cases timesOf b.ids us y with
      | none => exact hc
      | some v => exact hc
  obtain ⟨p1, p2⟩ := rendered_each b.ids _ hb.nodup hsl hq
  refine ⟨stepsOf N e b.ids (setCores us (s.cores b.ids (us.map (·.toUCore)))), ⟨a1, ?_, ?_⟩, p1, hb.nodup, ?_⟩
  · intro y tz hz hcz
    have hy : y ∈ b.ids := by
      by_cases hy : y ∈ b.ids
      · exact hy
      · exact absurd (hout y tz hz hy) hcz
    obtain ⟨t, ht, hc⟩ := ha y hy
    obtain ⟨t', h1, h2⟩ := a3 y hy t ht
    obtain ⟨u, -, hu'⟩ := coreOf_some b.ids us hy hb.len.symm
    have hz' : (b.world.withUnits b.ids us).tracks y = some (t.moved u.time) := by
      rw [TWorld.withUnits_moved]
      unfold TWorld.movedBy timesOf
      dsimp only
      rw [ht, hu']
      rfl
    rw [hz] at hz'
    cases hz'
    have hco := coreOf_cores (s := s) y b.ids us (us.map (·.toUCore)) (by simp) hex
    rw [hu', h2] at hco
    obtain ⟨q, h3, h4, h5⟩ := p2 y _ hco
    dsimp only at h3
    refine ⟨{ t' with unit := { toUCore := q.2.1, time := q.1 } }, ?_, ?_⟩
    · have hiw : s.iw = (b.world.load b.ids (us.map (·.toUCore))).iw := a1
      show (t.moved u.time).run y (b.world.load b.ids (us.map (·.toUCore))).iw e = _
      rw [Track.moved_run, h1, ok_bind, h5]
      have hctx : t'.ctx = t.ctx := Track.updateUnit_ctx h1
      cases hcx : t.ctx with
      | none => exact absurd hcx hc
      | some c =>
        have := ((hinv.tracks y t ht).ctx c hcx).2.2
        rw [hctx, hcx]
        dsimp only
        rw [this, Int.toNat_natCast, h3]
        rfl
    · unfold TWorld.withUnits TWorld.strip
      dsimp only
      rw [h2, coreOf_map, h4]
      simp only [Option.map_some, if_pos hy]
      rfl
  · intro y hy
    have hy' : y ∉ b.ids := by
      intro hi
      obtain ⟨t, h1, h2⟩ := hin y hi
      exact h2 (hy t h1)
    rw [TWorld.withUnits_moved (s := b.world)]
    unfold TWorld.movedBy TWorld.withUnits TWorld.strip timesOf
    dsimp only
    rw [coreOf_none _ _ hy', coreOf_none _ _ hy', a2 y hy']
    cases (b.world.load b.ids (us.map (·.toUCore))).tracks y with
    | none => rfl
    | some t =>
      simp only [Option.map_some, Option.map_none]
      rw [if_neg hy']
      rfl
  · intro y
    refine ⟨hin y, ?_⟩
    rintro ⟨t, h1, h2⟩
    by_cases hy : y ∈ b.ids
    · exact hy
    · exact absurd (hout y t h1 hy) h2

theorem WOp.Quiet.here {op : WOp} (h : op.Quiet) : op.Here := by
  cases op with
  | track y o => cases o <;> first | exact h | exact h.elim
  | _ => exact h

theorem Performance.perform {b : Band υ} {us : List BUnit} (hb : b.Ok N us.length) (hu : ∀ u ∈ us, u.toUCore.Fine N False)
    {ops : List WOp} (hq : ∀ op ∈ ops, op.Quiet)
    (hg : (b.world.load b.ids (us.map (·.toUCore))).LegalRun N (b.log.length + ops.length) ops)
    {r : Band υ × List UCore} (hr : b.perform (us.map (·.toUCore)) ops = .ok r)
    {now : Int} {L : List (Int × List WOp)} (hL : callCount L = b.log.length) (h : Performance N now (b.world.withUnits b.ids us) P L) :
    Performance N now (r.1.world.withUnits r.1.ids (setCores us r.2)) P (L ++ [(now, ops)]) := by
  unfold Band.perform at hr
  obtain ⟨s, e, hr⟩ := bind_ok_iff.1 hr
  cases hr
  dsimp only
  obtain ⟨-, ha⟩ := hb.load (cs := us.map (·.toUCore)) (by simp) (by
    intro c hc; obtain ⟨u, hu', rfl⟩ := List.mem_map.1 hc; exact hu u hu')
  have hm := TWorld.run_moved (timesOf_mem (ids := b.ids) (us := us)) (fuel := b.log.length + ops.length) ops ha hq
  have hg' := TWorld.legal_moved (timesOf_mem (ids := b.ids) (us := us)) ops ha hq hg
  rw [← TWorld.withUnits_moved] at hm hg'
  rw [e] at hm
  have ha' := TWorld.run_attached ops hq ha e
  rw [TWorld.withUnits_strip hb.len.symm (by simp) fun x hx => (ha' x hx).imp fun t h => h.1]
  rw [← hL] at hm hg'
  exact .calls h (fun op ho => (hq op ho).here) hg' hm

theorem earlier_core (a : Int) (us : List BUnit) : (us.map (BUnit.earlier a)).map (·.toUCore) = us.map (·.toUCore) := by
  rw [List.map_map]; rfl

theorem earlier_set (a : Int) : ∀ (us : List BUnit) (cs : List UCore),
    setCores (us.map (BUnit.earlier a)) cs = (setCores us cs).map (BUnit.earlier a)
  | [], cs => by cases cs <;> rfl
  | u :: us, [] => rfl
  | u :: us, c :: cs => by
    have := earlier_set a us cs
    unfold setCores at this ⊢
    rw [List.map_cons, List.zipWith_cons_cons, List.zipWith_cons_cons, List.map_cons, this]
    rfl

theorem earlier_earlier (a b : Int) (us : List BUnit) : (us.map (BUnit.earlier a)).map (BUnit.earlier b) = us.map (BUnit.earlier (a + b)) := by
  rw [List.map_map]
  refine List.map_congr_left fun u _ => ?_
  show BUnit.earlier b (BUnit.earlier a u) = BUnit.earlier (a + b) u
  unfold BUnit.earlier
  dsimp only
  rw [show u.time - a - b = u.time - (a + b) by omega]

theorem setCores_length {us : List BUnit} {cs : List UCore} (h : cs.length = us.length) : (setCores us cs).length = us.length := by
  have := congrArg List.length (setCores_time h).1
  simpa using this

/-- What is kept while clocks tick. -/
structure Plays1 (N : Nat) (now t : Int) (P : List Pulse) (b : Band υ) (us : List BUnit) : Prop where
  ok : b.Ok N us.length
  fine : ∀ u ∈ us, u.toUCore.Fine N False
  perf : Performance N now (b.world.withUnits b.ids (us.map (BUnit.earlier t))) P b.score
  count : callCount b.score = b.log.length
  loose : b.world.Loose b.ids

theorem Plays1.perform {now t : Int} {b : Band υ} {us : List BUnit} (h : Plays1 N now t P b us) {ops : List WOp} (hq : ∀ op ∈ ops, op.Quiet)
    (hg : (b.world.load b.ids (us.map (·.toUCore))).LegalRun N (b.log.length + ops.length) ops)
    {r : Band υ × List UCore} (hr : b.perform (us.map (·.toUCore)) ops = .ok r) :
    Plays1 N now t P { r.1 with score := b.score ++ [(now, ops)] } (setCores us r.2) := by
  have hh := Performance.perform (us := us.map (BUnit.earlier t)) (by simpa using h.ok)
    (by intro u hu; obtain ⟨v, hv, rfl⟩ := List.mem_map.1 hu; exact h.fine v hv) hq (by rw [earlier_core]; exact hg)
    (by rw [earlier_core]; exact hr) h.count h.perf
  rw [earlier_set] at hh
  obtain ⟨r', e, h1, h2, h3, -⟩ := h.ok.perform (cs := us.map (·.toUCore)) (by simp)
    (by intro c hc; obtain ⟨u, hu', rfl⟩ := List.mem_map.1 hc; exact h.fine u hu') hq hg
  have hlog : r.1.log = b.log ++ ops := by
    unfold Band.perform at hr
    obtain ⟨s, -, hr⟩ := bind_ok_iff.1 hr
    cases hr; rfl
  rw [hr] at e
  cases e
  have hl : r.2.length = us.length := by simpa using h2
  obtain ⟨t1, t2⟩ := setCores_time hl
  refine ⟨by rw [setCores_length hl]; exact ⟨h1.good, h1.len, h1.nodup, h1.out, h1.ins⟩, ?_, hh, ?_, Band.perform_loose h.loose hq hr⟩
  · intro u hu
    exact h3 _ (t2 ▸ List.mem_map.2 ⟨u, hu, rfl⟩)
  · dsimp only
    rw [callCount_append, h.count, hlog, List.length_append]

theorem Plays1.ticks (hp : p.Plays N) {now t : Int} : ∀ (cs : List Clk) (k : Nat) {s s' : Ticked (Band υ)}, (∀ c ∈ cs, c.time = now) →
    Plays1 N now t P s.user s.units → tickAll p.cb now k cs s = .ok s' → Plays1 N now t P s'.user s'.units
  | [], k, s, s', _, h, e => by cases e; exact h
  | c :: cs, k, s, s', hc, h, e => by
    unfold tickAll at e
    obtain ⟨s1, h1, e⟩ := bind_ok_iff.1 e
    refine Plays1.ticks hp cs (k + 1) (fun c hm => hc c (List.mem_cons_of_mem _ hm)) ?_ e
    have hct := hc c (List.mem_cons_self ..)
    unfold Ticked.step at h1
    split at h1
    · obtain ⟨r, h2, h1⟩ := bind_ok_iff.1 h1
      obtain ⟨c', -, h1⟩ := bind_ok_iff.1 h1
      cases h1
      dsimp only
      rw [hct] at h2
      obtain ⟨q, h3, h2⟩ := bind_ok_iff.1 (show (do
        let q ← ({ s.user with
          user := (p k now s.user.user (s.user.world.load s.user.ids (s.units.map (·.toUCore)))).2.1
          score := s.user.score ++ [(now, (p k now s.user.user (s.user.world.load s.user.ids (s.units.map (·.toUCore)))).2.2)] } : Band υ).perform
          (s.units.map (·.toUCore)) (p k now s.user.user (s.user.world.load s.user.ids (s.units.map (·.toUCore)))).2.2
        return ((p k now s.user.user (s.user.world.load s.user.ids (s.units.map (·.toUCore)))).1, q.1, q.2) : C _) = .ok r from h2)
      cases h2
      unfold Band.perform at h3
      obtain ⟨w, h4, h3⟩ := bind_ok_iff.1 h3
      have h' : Plays1 N now t P ({ s.user with
          user := (p k now s.user.user (s.user.world.load s.user.ids (s.units.map (·.toUCore)))).2.1 } : Band υ)
          s.units := ⟨⟨h.ok.good, h.ok.len, h.ok.nodup, h.ok.out, h.ok.ins⟩, h.fine, h.perf, h.count, h.loose⟩
      have k := h'.perform (hp.quiet k now s.user.user (s.user.world.load s.user.ids (s.units.map (·.toUCore))))
        (hp.legal _ _ _ _ _) (show Band.perform _ _ _ = .ok _ by unfold Band.perform; rw [h4]; rfl)
      cases h3
      exact k
    · cases h1
      exact h

theorem Plays1.clocks (hp : p.Plays N) {x : Ctx (Band υ)} {t : Int} (hx : ClocksOk x) (h : Plays1 N x.currentTime t P x.user x.units)
    {r : Int × Ctx (Band υ)} (e : x.clocksAdvance p.cb = .ok r) : Plays1 N x.currentTime t P r.2.user r.2.units := by
  unfold Ctx.clocksAdvance at e
  obtain ⟨s, h1, e⟩ := bind_ok_iff.1 e
  obtain ⟨d, -, e⟩ := bind_ok_iff.1 e
  obtain ⟨cs, -, e⟩ := bind_ok_iff.1 e
  obtain ⟨n, -, e⟩ := bind_ok_iff.1 e
  have k := Plays1.ticks hp x.clocks 0 (s := { clocks := [], next := timeMax, user := x.user, units := x.units, ticks := x.ticks })
    (fun c hc => (hx.all c hc).time) h h1
  cases e
  exact k

/-- What is kept between. -/
structure Gives (N T : Nat) (t : Int) (P : List Pulse) (S : List Int) (x : Ctx (Band υ)) : Prop where
  perf : Performance N x.currentTime (x.user.world.withUnits x.user.ids (x.units.map (BUnit.earlier t))) P x.user.score
  count : callCount x.user.score = x.user.log.length
  now : x.currentTime = T * U20 + t
  loose : x.user.world.Loose x.user.ids
  mixed : Mixed T P x.chans
  sound : S = soundOf N T P

theorem Gives.one {x : Ctx (Band υ)} {t : Int} (h : Gives N T t P S x) (hx : CtxOk N (bandKept υ N) t x) :
    Plays1 N x.currentTime t P x.user x.units :=
  ⟨hx.user, fun u hu => (hx.unit u hu).1, h.perf, h.count, h.loose⟩

theorem Gives.render {x y : Ctx (Band υ)} {now t d : Int} (hx : CtxOk N (bandKept υ N) t x) (h : Plays1 N now t P x.user x.units)
    (hm : Mixed T P x.chans) (hs : S = soundOf N T P) (hnow : now = T * U20 + t) (hc : x.currentTime = now + d) (hd : 0 < d) (hd' : d ≤ maxStep)
    (e : x.flush p.cb = .ok y) (hy : CtxOk N (bandKept υ N) t y) (ht : t + d ≤ 1789569706)
    {q : List BUnit × List Buf} (hq : runUnits false (t + d) y.units y.chans = .ok q) :
    ∃ P', Gives N T (t + d) P' S { y with units := q.1, chans := q.2 } := by
  have hmax : maxStep = 715827882 := rfl
  have h0 := hx.t0
  have hch : y.chans = x.chans ∧ y.currentTime = x.currentTime := by
    unfold Ctx.flush at e
    obtain ⟨r, h1, e⟩ := bind_ok_iff.1 e
    cases e; exact ⟨rfl, rfl⟩
  obtain ⟨us, P1, T1, a1, a2, a3, a4, a5, a6⟩ := rendered_ok (n := N) (e := t + d) (lo := t) (hi := 4294967295) hy.t0
    (by omega) (by omega) (by omega) y.units (fun u hu => ⟨band_stable.usable _ (hy.unit u hu).1, (hy.unit u hu).2⟩)
  have hwf : ∀ b ∈ y.chans, b.Wf := fun b hb => (hy.chan b hb).1.wf
  have hrun := runUnits_eff y.units hwf (by rw [hy.chans]; exact a1) (by rw [hy.chans]; exact fun p hp => (a5 p hp).1)
  rw [hq] at hrun
  cases hrun
  have hP : ∀ q ∈ P1, 0 ≤ q.time ∧ q.time ≤ 4294967295 := by
    intro q hq
    have := a5 q hq
    omega
  have hsh := a6 t h0 (Int.le_refl _) (by omega)
  rw [show t + d - t = d by omega] at hsh
  have hlat : (P1.map (Pulse.earlier t)).map (Pulse.later now) = P1.map (Pulse.later (T * U20)) := by
    rw [List.map_map]
    refine List.map_congr_left fun q _ => ?_
    show Pulse.later now (Pulse.earlier t q) = _
    unfold Pulse.later Pulse.earlier
    dsimp only
    rw [show q.time - t + now = q.time + T * U20 by omega]
  refine ⟨P ++ P1.map (Pulse.later (T * U20)), ?_, ?_, ?_, ?_, ?_, ?_⟩
  · unfold Ctx.flush at e
    obtain ⟨r, h1, e⟩ := bind_ok_iff.1 e
    have hsc : r.1.score = x.user.score := by
      have h1' : Band.flush x.user (x.units.map (·.toUCore)) = .ok r := h1
      unfold Band.flush at h1'
      obtain ⟨s, -, h1'⟩ := bind_ok_iff.1 h1'
      cases h1'; rfl
    cases e
    dsimp only at hsh ⊢
    rw [← earlier_set] at hsh
    obtain ⟨ps, w1, w2, w3⟩ := Band.waits (us := x.units.map (BUnit.earlier t)) (by simpa using h.ok)
      (by intro u hu; obtain ⟨v, hv, rfl⟩ := List.mem_map.1 hu; exact h.fine v hv) h.loose
      (by rw [earlier_core]; exact h1) hsh
    have := Performance.wait h.perf hd (by omega) w3 w1
    rw [← w2, hlat, ← hc, earlier_earlier] at this
    rw [hsc]
    exact this
  · unfold Ctx.flush at e
    obtain ⟨r, h1, e⟩ := bind_ok_iff.1 e
    have h1' : Band.flush x.user (x.units.map (·.toUCore)) = .ok r := h1
    unfold Band.flush at h1'
    obtain ⟨s, -, h1'⟩ := bind_ok_iff.1 h1'
    cases e
    cases h1'
    exact h.count
  · dsimp only
    rw [hch.2, hc, hnow]
    omega
  · unfold Ctx.flush at e
    obtain ⟨r, h1, e⟩ := bind_ok_iff.1 e
    cases e
    exact Band.flush_loose h.loose h.ok.nodup h1
  · exact Mixed.eff (by rw [hch.1]; exact hm) (fun b hb => (hy.chan b hb).1.time) hP
  · rw [hs, soundOf_later fun q hq => (hP q hq).1]

theorem LoopOk.gives (hp : p.Plays N) (hK : K ≤ 2305843000000000000) {e : Int} (he : e ≤ 1073741824) : ∀ (n : Nat) {t : Int}
    {x : Ctx (Band υ)} {r : Int × Ctx (Band υ)} {P : List Pulse}, LoopOk K N (bandKept υ N) t x → Gives N T t P S x →
    Ctx.runLoop false p.cb e n t x = .ok r → ∃ P', Gives N T r.1 P' S r.2
  | 0, t, x, r, P, _, h, hr => by
    unfold Ctx.runLoop at hr
    split at hr <;> cases hr
    exact ⟨P, h⟩
  | n + 1, t, x, r, P, hx, h, hr => by
    unfold Ctx.runLoop at hr
    split at hr
    · rename_i hlt
      obtain ⟨t1, x1, a1, a2, a3, a4, -⟩ := hx.step band_stable hp.ok hK (by omega)
      rw [a1, ok_bind] at hr
      have h0 := hx.ctx.t0
      suffices ∃ P', Gives N T t1 P' S x1 by
        obtain ⟨P', h'⟩ := this
        exact LoopOk.gives hp hK he n a4 h' hr
      have hsp := hx.span
      have hmax : maxStep = 715827882 := rfl
      obtain ⟨d, y, c1, c2, c3, -, c5, -, -, c8, c9, c10, c11⟩ :=
        clocksAdvance_ok hp.ok hx.clk (by omega) hx.ctx.user (fun u hu => (hx.ctx.unit u hu).1)
      have hy : CtxOk N (bandKept υ N) t y := by
        refine ⟨hx.ctx.pos, hx.ctx.few, by rw [c8]; exact hx.ctx.chans, by rw [c8]; exact hx.ctx.chan, ?_, ?_, h0, c11⟩
        · intro hc
          rw [hc] at c9
          exact hx.ctx.some (by simpa using c9.symm)
        · intro u hu
          refine ⟨c10 u hu, ?_⟩
          have : u.time ∈ x.units.map (·.time) := c9 ▸ List.mem_map.2 ⟨u, hu, rfl⟩
          obtain ⟨v, hv, hvt⟩ := List.mem_map.1 this
          have := (hx.ctx.unit v hv).2
          omega
      obtain ⟨z, d1, d2, -⟩ := hy.flush hp.ok
      have k := (h.one hx.ctx).clocks hp hx.clk c1
      have hw : wrapU32 (t + d) = t + d := by unfold wrapU32; omega
      unfold Ctx.runStep at a1
      rw [c1, ok_bind] at a1
      dsimp only at a1 k
      rw [d1, ok_bind, hw] at a1
      obtain ⟨q, e1, a1⟩ := bind_ok_iff.1 a1
      cases a1
      exact Gives.render hy k (by rw [c8]; exact h.mixed) h.sound h.now c5 c2 c3 d1 d2 (by omega) e1
    · cases hr
      exact ⟨P, h⟩

theorem LoopOk.gone (hp : p.Plays N) (hK : K ≤ 2305843000000000000) {e : Int} (he : e ≤ 1073741824) {n : Nat} {t : Int}
    {x : Ctx (Band υ)} {r : Int × Ctx (Band υ)} (hn : (e - t).toNat ≤ n) (hx : LoopOk K N (bandKept υ N) t x)
    (hr : Ctx.runLoop false p.cb e n t x = .ok r) : LoopOk K N (bandKept υ N) r.1 r.2 ∧ e ≤ r.1 ∧
      (r.1 = t ∨ r.1 ≤ e + 715827881) := by
  obtain ⟨t', x', a1, -, a3, a4, -, a6, -⟩ := hx.run band_stable hp.ok hK he n hn
  rw [a1 n hn] at hr
  cases hr
  exact ⟨a3, a4, a6⟩

/-- A block of frames. -/
theorem Rest.givesGen (hp : p.Plays N) {x x' : Ctx (Band υ)} (hx : Rest K N (bandKept υ N) x) (hc : x.clocks ≠ [])
    (hK : K ≤ 2305843000000000000) (h : Gives N T x.deltaTime P S x) {k : Nat} (hk : k ≤ 1024) {s : List Int} (g : Gen p.cb k x x' s) :
    x'.clocks ≠ [] ∧ ∃ P', Gives N (T + k) x'.deltaTime P' (S ++ s) x' := by
  obtain ⟨x'', s'', a1, a2, -⟩ := hx.gen band_stable hp.ok hK hk
  obtain ⟨rfl, rfl⟩ := a1.det g
  obtain ⟨y, g1, g2, g3⟩ := g
  rcases hx with ⟨hx, hd⟩ | ⟨hn, -⟩
  rotate_left
  · exact absurd hn hc
  unfold Ctx.run at g1
  rw [if_pos hx.ne] at g1
  obtain ⟨r, h1, e⟩ := bind_ok_iff.1 g1
  obtain ⟨P', h'⟩ := LoopOk.gives hp hK (by omega) _ hx h h1
  have h0 := hx.ctx.t0
  obtain ⟨l1, l2, l3⟩ := LoopOk.gone hp hK (by omega) (by omega) hx h1
  cases e
  have hw : r.2.chans.length = N := l1.ctx.chans
  have hr := l1.ctx.t0
  have hu : wrapU32 (r.1 - k * U20) = r.1 - k * U20 := by unfold wrapU32; omega
  dsimp only at g2 g3
  rw [g2, hu]
  refine ⟨l1.ne, P', ?_, h'.count, ?_, h'.loose, h'.mixed.theta k, ?_⟩
  · show Performance _ _ (r.2.user.world.withUnits r.2.user.ids ((r.2.units.map (BUnit.earlier (k * U20))).map (BUnit.earlier (r.1 - k * U20)))) _ _
    rw [earlier_earlier, show (k : Int) * U20 + (r.1 - k * U20) = r.1 by omega]
    exact h'.perf
  · show r.2.currentTime = _
    rw [h'.now]
    show _ = _ + (r.1 - k * U20)
    push_cast
    omega
  · rw [h'.mixed.samples hw, h'.sound, g3]

theorem Ones.gives (hp : p.Plays N) (k : Nat) {x x' : Ctx (Band υ)} {s : List Int} (hx : Rest K N (bandKept υ N) x) (hc : x.clocks ≠ [])
    (hK : K + k * U20 ≤ 2305842000000000000) (h : Gives N T x.deltaTime P S x) (g : Ones p.cb k x x' s) :
    x'.clocks ≠ [] ∧ ∃ P', Gives N (T + k) x'.deltaTime P' (S ++ s) x' := by
  induction k generalizing x' s with
  | zero => exact hx.givesGen hp hc (by omega) h (by omega) g
  | succ k ih =>
    obtain ⟨y, a, b, g1, g2, g3⟩ := g
    obtain ⟨hy0, P1, h1⟩ := ih (by push_cast at hK; omega) g1
    have hy := Ones.rest band_stable hp.ok k hx (by push_cast at hK; omega) g1
    obtain ⟨h3, P2, h2⟩ := hy.givesGen hp hy0 (by push_cast at hK; omega) h1 (k := 1) (by omega) g2
    rw [List.append_assoc, ← g3] at h2
    exact ⟨h3, P2, h2⟩

theorem Concert.recording {x : Ctx (Band υ)} (h : Concert N p T x S) : Recording N p T x S := by
  induction h with
  | init h1 h2 => exact .init h1 h2
  | clock _ h1 h2 h3 h4 ih => exact .clock ih h1 h2 h3 h4
  | calls _ h1 h2 h3 ih => exact .calls ih h1 h2 h3
  | data _ ih => exact .data ih
  | attach _ h1 ih => exact .attach ih h1
  | detach _ h1 ih => exact .detach ih h1
  | generate _ _ h1 h2 h3 h4 h5 ih => exact .generate ih h1 h2 h3 h4 h5

theorem Track.attach_at {y : Nat} {w : IWorld} {t : Track} {rate chans delta : Int} {r : Ret × Track}
    (h : t.attach y w rate chans delta = .ok r) (τ : Int) (hr : r.1 = .ok) : t.attach y w rate chans τ = .ok (r.1, r.2.moved τ) := by
  unfold Track.attach at h ⊢
  cases hc : t.ctx with
  | some c => rw [hc] at h; cases h; cases hr
  | none =>
    rw [hc] at h
    dsimp only at h ⊢
    obtain ⟨u, h1, h⟩ := bind_ok_iff.1 h
    have := Track.moved_updateUnit (τ := τ) (x := y) (w := w) (t := { t with
      ctx := some (rate, chans), unit := { t.unit with time := delta }, panningOn := t.panningOn || decide (chans = 2), updVolume := true })
    rw [h1] at this
    unfold Track.moved at this
    dsimp only at this
    rw [this]
    cases h
    rfl

theorem SongOk.attach_gives {T' : Int} {x x' : Ctx (Band υ)} (hx : SongOk N T' x) (h : Gives N T x.deltaTime P S x) {id : Nat}
    (e : x.attachTrack id = .ok x') : Gives N T x'.deltaTime P S x' := by
  unfold Ctx.attachTrack at e
  cases ht : x.user.world.tracks id with
  | none => rw [ht] at e; cases e; exact h
  | some t =>
    rw [ht] at e
    dsimp only at e
    obtain ⟨r, h1, e⟩ := bind_ok_iff.1 e
    cases hk : r.1 <;> rw [hk] at e <;> try (cases e; exact h)
    obtain ⟨hb, hw, hu⟩ := hx.band
    have hi : id ∉ x.user.ids := by
      intro hi
      obtain ⟨t', k1, k2⟩ := hb.ins id hi
      rw [ht] at k1
      cases k1
      exact k2.ctx (Track.attach_ok_ctx h1 hk).1
    have h2 := Track.attach_at h1 0 hk
    have hz : (x.user.world.withUnits x.user.ids (x.units.map (BUnit.earlier x.deltaTime))).tracks id = some t := by
      unfold TWorld.withUnits
      dsimp only
      rw [ht, coreOf_none _ _ hi]; rfl
    have hex : ∀ f, (x.user.world.withUnits x.user.ids (x.units.map (BUnit.earlier x.deltaTime))).exec f
        (.track id (.attach x.sampleRate x.chans.length 0)) =
        .ok ⟨x.user.world.iw, upd (x.user.world.withUnits x.user.ids (x.units.map (BUnit.earlier x.deltaTime))).tracks id
          (some (r.2.moved 0))⟩ := by
      intro f
      unfold TWorld.exec
      dsimp only
      rw [hz]
      dsimp only
      unfold Track.exec
      dsimp only
      rw [show (x.user.world.withUnits x.user.ids (x.units.map (BUnit.earlier x.deltaTime))).iw = x.user.world.iw from rfl, h2]
      rfl
    have := Performance.calls (ops := [.track id (.attach x.sampleRate x.chans.length 0)]) h.perf
      (by
        intro op ho
        rw [List.mem_singleton] at ho
        subst ho
        rfl)
      ⟨fun t _ => ⟨hx.low, hx.high, by rw [hw]⟩, fun _ _ => trivial⟩
      (by unfold TWorld.run; rw [hex]; rfl)
    cases e
    refine ⟨?_, ?_, h.now, ?_, h.mixed, h.sound⟩
    · dsimp only
      convert this using 1
      refine TWorld.same rfl ?_
      funext y
      unfold TWorld.withUnits
      dsimp only
      rw [List.map_append, List.map_singleton, coreOf_append (by simpa using hb.len.symm) hi]
      by_cases hy : y = id
      · subst hy
        rw [upd_self, upd_self, if_pos rfl, Option.map_some]
        dsimp only
        unfold BUnit.earlier Track.moved
        dsimp only
        rw [Int.sub_self]
      · rw [upd_ne _ _ hy, upd_ne _ _ hy, if_neg hy]
    · dsimp only
      rw [callCount_append, h.count]
      simp
    · intro y u hu' hy
      dsimp only at hu' hy
      rw [List.mem_append, List.mem_singleton, not_or] at hy
      rw [upd_ne _ _ hy.2] at hu'
      exact h.loose y u hu' hy.1

theorem SongOk.detach_gives {T' : Int} {x : Ctx (Band υ)} (hx : SongOk N T' x) (h : Gives N T x.deltaTime P S x) (id : Nat) :
    Gives N T (x.detachTrack id).deltaTime P S (x.detachTrack id) := by
  obtain ⟨hb, hw, hu⟩ := hx.band
  have hl := Ctx.detachTrack_loose hb h.loose id
  rcases Ctx.detachTrack_eq hb rfl id with ⟨-, e⟩ | ⟨t, u, hi, h1, h2, -, h4, e⟩
  · rw [e]; exact h
  have hex := Ctx.detachTrack_world hb hi (BUnit.earlier x.deltaTime) (fun _ => rfl)
  have := Performance.calls (ops := [.track id .detach]) h.perf
    (by
      intro op ho
      rw [List.mem_singleton] at ho
      subst ho
      trivial)
    ⟨fun _ _ => trivial, fun _ _ => trivial⟩
    (by unfold TWorld.run; rw [hex]; rfl)
  have et : (x.detachTrack id).currentTime = x.currentTime := by rw [e]
  have ed : (x.detachTrack id).deltaTime = x.deltaTime := by rw [e]
  have es : (x.detachTrack id).user.score = x.user.score ++ [(x.currentTime, [.track id .detach])] := by rw [e]
  have el : (x.detachTrack id).user.log = x.user.log ++ [.track id .detach] := by rw [e]
  refine ⟨?_, ?_, ?_, hl, ?_, h.sound⟩
  · rw [et, ed, es]
    exact this
  · rw [es, el, callCount_append, h.count]
    simp
  · rw [et, ed]
    exact h.now
  · rw [show (x.detachTrack id).chans = x.chans by rw [e]]
    exact h.mixed

/-- A concert is a performance. -/
theorem Concert.gives (hp : p.Plays N) {x : Ctx (Band υ)} (h : Concert N p T x S) : ∃ P, Gives N T x.deltaTime P S x := by
  induction h with
  | init hc hl =>
    refine ⟨[], ?_, rfl, rfl, ?_, Mixed.init _, rfl⟩
    · exact Performance.start
    · intro y t ht; cases ht
  | clock h h0 hd h1 h2 ih =>
    obtain ⟨P, ih⟩ := ih
    exact ⟨P, ih.perf, ih.count, ih.now, ih.loose, ih.mixed, ih.sound⟩
  | @calls T x x' S ops h hq hl e ih =>
    obtain ⟨P, ih⟩ := ih
    obtain ⟨hb, -, hu⟩ := (h.recording.song.ok hp).band
    unfold Ctx.perform at e
    obtain ⟨r, h1, e⟩ := bind_ok_iff.1 e
    have k := Plays1.perform ⟨hb, hu, ih.perf, ih.count, ih.loose⟩ hq hl h1
    have hsc : r.1.score = x.user.score := by
      unfold Band.perform at h1
      obtain ⟨s, -, h1⟩ := bind_ok_iff.1 h1
      cases h1; rfl
    rw [← hsc] at k
    cases e
    exact ⟨P, k.perf, k.count, ih.now, k.loose, ih.mixed, ih.sound⟩
  | data h ih =>
    obtain ⟨P, ih⟩ := ih
    exact ⟨P, ih.perf, ih.count, ih.now, ih.loose, ih.mixed, ih.sound⟩
  | attach h e ih =>
    obtain ⟨P, ih⟩ := ih
    exact ⟨P, (h.recording.song.ok hp).attach_gives ih e⟩
  | detach h hne ih =>
    obtain ⟨P, ih⟩ := ih
    exact ⟨P, (h.recording.song.ok hp).detach_gives ih _⟩
  | generate h hc hne hk hT e hw ih =>
    obtain ⟨P, ih⟩ := ih
    obtain ⟨-, hr⟩ := h.recording.song.rest hp hne
    obtain ⟨x'', s, ws, a1, a2, -, -, a5, -⟩ := generate_ok band_stable hp.ok hr (by omega) hk
    rw [e] at a1
    cases a1
    have := placed_inj _ _ (hw.symm.trans a2)
    subst this
    exact (Ones.gives hp _ hr hc (by omega) ih a5).2

theorem Concert.future (hp : p.Plays N) {x : Ctx (Band υ)} (h : Concert N p T x S) : 0 ≤ x.deltaTime := by
  rcases (h.recording.song.ok hp).rest with hr | he
  · rcases hr with ⟨h, -⟩ | ⟨-, -, h⟩
    · exact h.ctx.t0
    · exact h.1
  · rw [he.delta]

end BK
