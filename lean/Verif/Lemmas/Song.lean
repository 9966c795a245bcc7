import Verif.Lemmas.Band
/-!
Contexts with tracks that were set up and used.
-/
namespace BK

/-! The sample rate stays. -/

section
variable {σ : Type} {cb : ClockCb σ} {chk : Bool}

theorem Ctx.flush_rate {x y : Ctx σ} (h : x.flush cb = .ok y) : y.sampleRate = x.sampleRate := by
  unfold Ctx.flush at h
  obtain ⟨r, -, h⟩ := bind_ok_iff.1 h
  cases h; rfl

theorem Ctx.clocksAdvance_rate {x : Ctx σ} {r : Int × Ctx σ} (h : x.clocksAdvance cb = .ok r) : r.2.sampleRate = x.sampleRate := by
  unfold Ctx.clocksAdvance at h
  obtain ⟨s, -, h⟩ := bind_ok_iff.1 h
  obtain ⟨d, -, h⟩ := bind_ok_iff.1 h
  obtain ⟨c, -, h⟩ := bind_ok_iff.1 h
  obtain ⟨n, -, h⟩ := bind_ok_iff.1 h
  cases h; rfl

theorem Ctx.runStep_rate {x : Ctx σ} {t : Int} {r : Int × Ctx σ} (h : x.runStep chk cb t = .ok r) : r.2.sampleRate = x.sampleRate := by
  unfold Ctx.runStep at h
  obtain ⟨a, h1, h⟩ := bind_ok_iff.1 h
  obtain ⟨y, h2, h⟩ := bind_ok_iff.1 h
  obtain ⟨b, -, h⟩ := bind_ok_iff.1 h
  cases h
  exact (Ctx.flush_rate h2).trans (Ctx.clocksAdvance_rate h1)

theorem Ctx.runLoop_rate {e : Int} : ∀ (n : Nat) {x : Ctx σ} {t : Int} {r : Int × Ctx σ}, Ctx.runLoop chk cb e n t x = .ok r →
    r.2.sampleRate = x.sampleRate
  | 0, x, t, r, h => by
    unfold Ctx.runLoop at h
    split at h <;> cases h
    rfl
  | n + 1, x, t, r, h => by
    unfold Ctx.runLoop at h
    split at h
    · obtain ⟨a, h1, h⟩ := bind_ok_iff.1 h
      exact (Ctx.runLoop_rate n h).trans (Ctx.runStep_rate h1)
    · cases h; rfl

theorem Ctx.run_rate {x y : Ctx σ} {e : Int} (h : x.run chk cb e = .ok y) : y.sampleRate = x.sampleRate := by
  unfold Ctx.run at h
  split at h
  · obtain ⟨a, h1, h⟩ := bind_ok_iff.1 h
    cases h
    exact Ctx.runLoop_rate _ h1
  · obtain ⟨a, h1, h⟩ := bind_ok_iff.1 h
    obtain ⟨b, -, h⟩ := bind_ok_iff.1 h
    have k := Ctx.flush_rate h1
    cases h
    exact k

theorem Ctx.endAt_rate {x y : Ctx σ} {e : Int} (h : x.endAt chk cb e = .ok y) : y.sampleRate = x.sampleRate := by
  unfold Ctx.endAt at h
  obtain ⟨a, h1, h⟩ := bind_ok_iff.1 h
  have k := Ctx.run_rate h1
  split at h <;> (cases h; exact k)

theorem Ctx.genLoop_rate : ∀ (k : Nat) {rem w base : Int} {x : Ctx σ} {r : Int × Ctx σ × List (Int × Int)},
    Ctx.genLoop chk cb k rem w base x = .ok r → r.2.1.sampleRate = x.sampleRate
  | 0, _, _, _, _, _, h => by cases h
  | k + 1, rem, w, base, x, r, h => by
    unfold Ctx.genLoop at h
    obtain ⟨y, h1, h⟩ := bind_ok_iff.1 h
    obtain ⟨z, h2, h⟩ := bind_ok_iff.1 h
    have e : z.2.1.sampleRate = x.sampleRate := by
      unfold Ctx.read at h2
      obtain ⟨a, -, h2⟩ := bind_ok_iff.1 h2
      have k := Ctx.endAt_rate h1
      cases h2
      exact k
    dsimp only at h
    generalize (if z.1 = 0 then rem else z.1) = skip at h
    by_cases hs : rem - skip = 0
    · rw [if_pos hs] at h
      cases h; exact e
    · rw [if_neg hs] at h
      obtain ⟨a, h3, h⟩ := bind_ok_iff.1 h
      have k := Ctx.genLoop_rate k h3
      cases h
      exact k.trans e

theorem Ctx.generate_rate {x : Ctx σ} {k : Int} {r : Int × Ctx σ × List (Int × Int)} (h : x.generate chk cb k = .ok r) :
    r.2.1.sampleRate = x.sampleRate := by
  unfold Ctx.generate at h
  obtain ⟨a, h1, h⟩ := bind_ok_iff.1 h
  have k := Ctx.genLoop_rate _ h1
  cases h
  exact k

end

variable {υ : Type} {N : Nat} {p : Program υ}

/-- A context with no tracks yet. -/
structure Empty (N : Nat) (x : Ctx (Band υ)) : Prop where
  pos : 1 ≤ N
  few : N ≤ 8
  chans : x.chans.length = N
  chan : ∀ b ∈ x.chans, BOk b ∧ 0 ≤ b.capacity
  units : x.units = []
  delta : x.deltaTime = 0
  now : x.currentTime = 0
  clk : ∀ c ∈ x.clocks, ClkOk 0 c
  user : x.user.Ok N 0

/-- What is kept by all calls. -/
structure SongOk (N : Nat) (T : Int) (x : Ctx (Band υ)) : Prop where
  time : 0 ≤ T
  low : 16000 ≤ x.sampleRate
  high : x.sampleRate ≤ 96000
  rest : Rest (T * U20) N (bandKept υ N) x ∨ Empty N x

theorem Rest.band {K : Int} {x : Ctx (Band υ)} (h : Rest K N (bandKept υ N) x) : x.user.Ok N x.units.length := by
  rcases h with ⟨h, -⟩ | ⟨-, h, -⟩
  · exact h.ctx.user
  · exact h.user

theorem Rest.width {K : Int} {Q : Kept υ} {x : Ctx υ} (h : Rest K N Q x) : x.chans.length = N := by
  rcases h with ⟨h, -⟩ | ⟨-, h, -⟩
  · exact h.ctx.chans
  · exact h.chans

theorem SongOk.band {T : Int} {x : Ctx (Band υ)} (h : SongOk N T x) : x.user.Ok N x.units.length ∧ x.chans.length = N ∧
    ∀ u ∈ x.units, u.toUCore.Fine N False := by
  rcases h.rest with h | h
  · exact ⟨h.band, h.width, h.units⟩
  · refine ⟨?_, h.chans, ?_⟩
    · rw [h.units]; exact h.user
    · rw [h.units]; intro u hu; cases hu

/-- New units and another state of the program. -/
theorem SongOk.change {T : Int} {x : Ctx (Band υ)} (h : SongOk N T x) {us : List BUnit} {b : Band υ} (hb : b.Ok N us.length)
    (hu : ∀ u ∈ us, u.toUCore.Fine N False ∧ (u.time = x.deltaTime ∨ ∃ v ∈ x.units, u.time = v.time))
    (hl : x.units ≠ [] → us ≠ []) : SongOk N T { x with user := b, units := us } := by
  refine ⟨h.time, h.low, h.high, ?_⟩
  have hT := h.time
  rcases h.rest with h | h
  · exact .inl (h.change (Q := bandKept υ N) hb (hl h.some) hu)
  · by_cases he : us = []
    · subst he
      exact .inr ⟨h.pos, h.few, h.chans, h.chan, rfl, h.delta, h.now, h.clk, hb⟩
    · refine .inl ?_
      have hc : CtxOk N (bandKept υ N) 0 { x with user := b, units := us } := by
        refine ⟨h.pos, h.few, h.chans, h.chan, he, ?_, Int.le_refl _, hb⟩
        intro u hu'
        obtain ⟨h1, h2⟩ := hu u hu'
        refine ⟨h1, ?_⟩
        rw [h.units, h.delta] at h2
        rcases h2 with h2 | ⟨v, hv, -⟩
        · omega
        · cases hv
      by_cases hk : x.clocks = []
      · exact .inr ⟨hk, hc, by show InU32 x.deltaTime; rw [h.delta]; decide⟩
      · refine .inl ⟨?_, by show x.deltaTime ≤ _; rw [h.delta]; omega⟩
        have hz : ∀ t : Int, t = 0 → CtxOk N (bandKept υ N) t { x with user := b, units := us } := fun t e => by
          subst e; exact hc
        refine ⟨hz _ h.delta, ⟨by show 0 ≤ x.currentTime; rw [h.now], ?_⟩, hk, by show x.currentTime - x.deltaTime ≤ _; rw [h.now, h.delta]; omega⟩
        show ∀ c ∈ x.clocks, ClkOk x.currentTime c
        rw [h.now]; exact h.clk

theorem SongOk.clock {T : Int} {x : Ctx (Band υ)} (h : SongOk N T x) {c : Clk} (h0 : x.currentTime = 0) (hd : x.deltaTime = 0)
    (h1 : 0 < c.period) (h2 : c.period ≤ 4611686018427387904) : SongOk N T (x.attachClock c) := by
  have hn : ClkOk 0 c.reset := ⟨rfl, Int.le_refl _, h1, (by decide : InI64 0), .inl h2⟩
  refine ⟨h.time, h.low, h.high, ?_⟩
  have hT := h.time
  rcases h.rest with h | h
  · refine .inl (.inl ⟨?_, by show x.deltaTime ≤ _; omega⟩)
    show LoopOk _ _ _ x.deltaTime _
    rw [hd]
    have hctx : CtxOk N (bandKept υ N) 0 x ∧ ∀ d ∈ x.clocks, ClkOk 0 d := by
      rcases h with ⟨h, -⟩ | ⟨hc, h, -⟩
      · have a := h.ctx
        have b := h.clk.all
        rw [hd] at a
        rw [h0] at b
        exact ⟨a, b⟩
      · refine ⟨h, ?_⟩
        rw [hc]; intro d hd; cases hd
    obtain ⟨a, b⟩ := hctx
    refine ⟨⟨a.pos, a.few, a.chans, a.chan, a.some, a.unit, a.t0, a.user⟩, ⟨by show 0 ≤ x.currentTime; omega, ?_⟩,
      by simp [Ctx.attachClock], by show x.currentTime - 0 ≤ _; rw [h0]; omega⟩
    show ∀ d ∈ x.clocks ++ [c.reset], ClkOk x.currentTime d
    rw [h0]
    intro d hd
    rcases List.mem_append.1 hd with hd | hd
    · exact b d hd
    · rw [List.mem_singleton] at hd
      rw [hd]; exact hn
  · refine .inr ⟨h.pos, h.few, h.chans, h.chan, h.units, h.delta, h.now, ?_, h.user⟩
    intro d hd
    rcases List.mem_append.1 hd with hd | hd
    · exact h.clk d hd
    · rw [List.mem_singleton] at hd
      rw [hd]; exact hn

theorem SongOk.perform {T : Int} {x : Ctx (Band υ)} (h : SongOk N T x) {ops : List WOp} (hq : ∀ op ∈ ops, op.Quiet)
    (hg : (x.user.world.load x.user.ids (x.units.map (·.toUCore))).LegalRun N (x.user.log.length + ops.length) ops) :
    ∃ x', x.perform ops = .ok x' ∧ SongOk N T x' := by
  obtain ⟨hb, -, hu⟩ := h.band
  obtain ⟨r, e, h1, h2, h3, -⟩ := hb.perform (cs := x.units.map (·.toUCore)) (by simp)
    (by intro c hc; obtain ⟨u, hu', rfl⟩ := List.mem_map.1 hc; exact hu u hu') hq hg
  have hl : r.2.length = x.units.length := by simpa using h2
  obtain ⟨t1, t2⟩ := setCores_time hl
  have hlen : (setCores x.units r.2).length = x.units.length := by
    have := congrArg List.length t1
    simpa using this
  refine ⟨_, ?_, h.change (us := setCores x.units r.2)
    (b := { r.1 with score := r.1.score ++ [(x.currentTime, ops)] }) ?_ ?_ ?_⟩
  · unfold Ctx.perform
    rw [e]; rfl
  · rw [hlen]; exact ⟨h1.good, h1.len, h1.nodup, h1.out, h1.ins⟩
  · intro u hu'
    refine ⟨h3 _ (t2 ▸ List.mem_map.2 ⟨u, hu', rfl⟩), .inr ?_⟩
    have : u.time ∈ x.units.map (·.time) := t1 ▸ List.mem_map.2 ⟨u, hu', rfl⟩
    obtain ⟨v, hv, hvt⟩ := List.mem_map.1 this
    exact ⟨v, hv, hvt.symm⟩
  · intro hne e'
    rw [e'] at hlen
    exact hne (List.length_eq_zero_iff.1 hlen.symm)

theorem Track.attach_ok_ctx {x : Nat} {w : IWorld} {t : Track} {rate chans delta : Int} {r : Ret × Track}
    (h : t.attach x w rate chans delta = .ok r) (hr : r.1 = .ok) : t.ctx = none ∧ r.2.ctx ≠ none := by
  unfold Track.attach at h
  split at h
  · cases h; cases hr
  · rename_i hc
    obtain ⟨u, h1, h⟩ := bind_ok_iff.1 h
    cases h
    refine ⟨hc, ?_⟩
    show u.ctx ≠ none
    rw [Track.updateUnit_ctx h1]
    simp

theorem SongOk.attachTrack {T : Int} {x : Ctx (Band υ)} (h : SongOk N T x) (id : Nat) :
    ∃ x', x.attachTrack id = .ok x' ∧ SongOk N T x' := by
  unfold Ctx.attachTrack
  cases ht : x.user.world.tracks id with
  | none => exact ⟨x, rfl, h⟩
  | some t =>
    dsimp only
    obtain ⟨hb, hw, hu⟩ := h.band
    by_cases hi : id ∈ x.user.ids
    · obtain ⟨t', h1, h2⟩ := hb.ins id hi
      rw [ht] at h1
      cases h1
      have e : t.attach id x.user.world.iw x.sampleRate x.chans.length x.deltaTime = .ok (.invalidState, t) := by
        unfold Track.attach
        cases hc : t.ctx with
        | none => exact absurd hc h2.ctx
        | some c => rfl
      rw [e]
      exact ⟨x, rfl, h⟩
    · obtain ⟨r, e, hr⟩ := ((hb.out id t ht hi).attach (x := id) hb.good (delta := x.deltaTime)
        (rate := x.sampleRate) (chans := x.chans.length) ⟨h.low, h.high, by rw [hw]⟩).get trivial
      rw [e, ok_bind]
      by_cases hk : r.1 = .ok
      · obtain ⟨-, hc⟩ := Track.attach_ok_ctx e hk
        rw [hk]
        refine ⟨_, rfl, h.change (us := x.units ++ [_]) (b := _) ?_ ?_ (by simp)⟩
        · refine ⟨hb.good.mono (by simp), by simp [hb.len], ?_, ?_, ?_⟩
          · dsimp only
            rw [List.nodup_append]
            refine ⟨hb.nodup, by simp, ?_⟩
            rintro a ha b hb' rfl
            rw [List.mem_singleton] at hb'
            subst hb'
            exact hi ha
          · intro y u hu' hy
            dsimp only at hu' hy
            rw [List.mem_append, List.mem_singleton, not_or] at hy
            rw [upd_ne _ _ hy.2] at hu'
            exact hb.out y u hu' hy.1
          · intro y hy
            dsimp only at hy ⊢
            by_cases e' : y = id
            · subst e'
              rw [upd_self]
              exact ⟨_, rfl, hr.blank hc⟩
            · rw [upd_ne _ _ e']
              rcases List.mem_append.1 hy with hy | hy
              · exact hb.ins y hy
              · exact absurd (List.mem_singleton.1 hy) e'
        · intro u hu'
          rcases List.mem_append.1 hu' with hu' | hu'
          · exact ⟨hu u hu', .inr ⟨u, hu', rfl⟩⟩
          · rw [List.mem_singleton] at hu'
            rw [hu']
            exact ⟨hr.unit, .inl rfl⟩
      · refine ⟨x, ?_, h⟩
        revert hk
        cases r.1 <;> intro hk <;> first | rfl | exact absurd rfl hk

theorem mem_dropUnit {α : Type} {y : Nat} : ∀ (ids : List Nat) (us : List α) {u : α}, u ∈ dropUnit ids us y → u ∈ us
  | [], us, u, h => by unfold dropUnit at h; exact h
  | x :: ids, [], u, h => by unfold dropUnit at h; exact h
  | x :: ids, c :: us, u, h => by
    unfold dropUnit at h
    split at h
    · exact List.mem_cons_of_mem _ h
    · rcases List.mem_cons.1 h with h | h
      · rw [h]; exact List.mem_cons_self
      · exact List.mem_cons_of_mem _ (mem_dropUnit ids us h)

theorem dropUnit_length {α : Type} {y : Nat} : ∀ (ids : List Nat) (us : List α), us.length = ids.length → y ∈ ids →
    (dropUnit ids us y).length = (ids.erase y).length
  | [], us, _, h => by cases h
  | x :: ids, [], hl, _ => by cases hl
  | x :: ids, c :: us, hl, h => by
    unfold dropUnit
    rw [List.erase_cons]
    by_cases hy : y = x
    · subst hy
      rw [if_pos rfl, if_pos (by simp)]
      simpa using hl
    · rw [if_neg hy, if_neg (by simpa using fun e : x = y => hy e.symm)]
      rw [List.length_cons, List.length_cons, dropUnit_length ids us (by simpa using hl)
        (by rcases List.mem_cons.1 h with h | h; exacts [absurd h hy, h])]

/-- What detaching does. -/
theorem Ctx.detachTrack_eq {x : Ctx (Band υ)} {n : Nat} (hb : x.user.Ok N n) (hl : x.units.length = n) (id : Nat) :
    (id ∉ x.user.ids ∧ x.detachTrack id = x) ∨
    ∃ t u, id ∈ x.user.ids ∧ x.user.world.tracks id = some t ∧ t.Blank N ∧ u ∈ x.units ∧ coreOf x.user.ids x.units id = some u ∧
      x.detachTrack id = { x with
        units := dropUnit x.user.ids x.units id
        user := { x.user with
          world := { x.user.world with tracks := upd x.user.world.tracks id (some ({ t with unit := u } : Track).detach) }
          ids := x.user.ids.erase id
          score := x.user.score ++ [(x.currentTime, [.track id .detach])]
          log := x.user.log ++ [.track id .detach] } } := by
  by_cases hi : id ∈ x.user.ids
  · right
    obtain ⟨t, h1, h2⟩ := hb.ins id hi
    obtain ⟨u, h3, h4⟩ := coreOf_some x.user.ids x.units hi (by rw [hl, hb.len])
    refine ⟨t, u, hi, h1, h2, h3, h4, ?_⟩
    unfold Ctx.detachTrack
    rw [h1, h4]
  · left
    refine ⟨hi, ?_⟩
    unfold Ctx.detachTrack
    rw [coreOf_none _ _ hi]
    cases x.user.world.tracks id <;> rfl

theorem SongOk.detachTrack {T : Int} {x : Ctx (Band υ)} (h : SongOk N T x) (id : Nat) (hne : (x.detachTrack id).units ≠ []) :
    SongOk N T (x.detachTrack id) := by
  obtain ⟨hb, hw, hu⟩ := h.band
  rcases Ctx.detachTrack_eq hb rfl id with ⟨-, e⟩ | ⟨t, u, hi, h1, h2, h3, h4, e⟩
  · rw [e]; exact h
  · rw [e] at hne ⊢
    have hlen : (dropUnit x.user.ids x.units id).length = (x.user.ids.erase id).length :=
      dropUnit_length _ _ hb.len.symm hi
    refine h.change (us := dropUnit x.user.ids x.units id) (b := _) ?_ ?_ (fun _ => hne)
    · refine ⟨hb.good.mono (by simp), hlen.symm, hb.nodup.erase id, ?_, ?_⟩
      · intro y v hv hy
        dsimp only at hv hy
        by_cases hyi : y = id
        · subst hyi
          rw [upd_self] at hv
          cases hv
          refine Track.Inv.detach ?_
          exact { h2.inv u.toUCore (hu u h3) with unit := hu u h3 }
        · rw [upd_ne _ _ hyi] at hv
          exact hb.out y v hv fun c => hy ((List.mem_erase_of_ne hyi).2 c)
      · intro y hy
        dsimp only at hy ⊢
        have hyi : y ≠ id := fun c => by subst c; exact hb.nodup.not_mem_erase hy
        rw [upd_ne _ _ hyi]
        exact hb.ins y (List.mem_of_mem_erase hy)
    · intro v hv
      have := mem_dropUnit _ _ hv
      exact ⟨hu v this, .inr ⟨v, this, rfl⟩⟩

theorem Song.ok (hp : p.Plays N) {T : Int} {x : Ctx (Band υ)} (h : Song N p T x) : SongOk N T x := by
  induction h with
  | init hc hl =>
    unfold Ctx.init at hl
    dsimp only at hl
    rw [List.length_replicate] at hl
    refine ⟨Int.le_refl _, ?_, ?_, .inr ⟨?_, ?_, ?_, ?_, rfl, rfl, rfl, by simp [Ctx.init], ?_⟩⟩
    · unfold Ctx.init; dsimp only; unfold cclamp; split <;> (try split) <;> omega
    · unfold Ctx.init; dsimp only; unfold cclamp; split <;> (try split) <;> omega
    · rw [← hl]; unfold cclamp; split <;> (try split) <;> omega
    · rw [← hl]; unfold cclamp; split <;> (try split) <;> omega
    · unfold Ctx.init; dsimp only; rw [List.length_replicate]; exact hl
    · intro b hb
      have := List.eq_of_mem_replicate hb
      subst this
      exact ⟨init_bok, by decide⟩
    · exact ⟨IWorld.Good.init 0, rfl, List.nodup_nil, (fun x t e => by cases e), (fun x hx => by cases hx)⟩
  | clock h h0 hd h1 h2 ih => exact ih.clock h0 hd h1 h2
  | calls h hq hl e ih =>
    obtain ⟨x', e', h'⟩ := ih.perform hq hl
    rw [e] at e'
    cases e'
    exact h'
  | data h ih =>
    rename_i T x u
    obtain ⟨hb, -, hu⟩ := ih.band
    exact ih.change (us := x.units) (b := { x.user with user := u }) ⟨hb.good, hb.len, hb.nodup, hb.out, hb.ins⟩
      (fun u hu' => ⟨hu u hu', .inr ⟨u, hu', rfl⟩⟩) id
  | attach h e ih =>
    rename_i T x x' i
    obtain ⟨x'', e', h'⟩ := ih.attachTrack i
    rw [e] at e'
    cases e'
    exact h'
  | detach h hne ih => exact ih.detachTrack _ hne
  | generate h hne hk hT e ih =>
    rename_i T x x' k r w
    have h0 := ih.time
    rcases ih.rest with hr | he
    · obtain ⟨x'', s, ws, a1, -, -, a4, -⟩ := generate_ok (r := k) band_stable hp.ok hr (by omega) hk
      have hrate := Ctx.generate_rate e
      rw [e] at a1
      cases a1
      exact ⟨by omega, by rw [hrate]; exact ih.low, by rw [hrate]; exact ih.high, .inl (by rw [Int.add_mul]; exact a4)⟩
    · exact absurd he.units hne

theorem Song.rest (hp : p.Plays N) {T : Int} {x : Ctx (Band υ)} (h : Song N p T x) (hne : x.units ≠ []) :
    0 ≤ T ∧ Rest (T * U20) N (bandKept υ N) x := by
  have k := h.ok hp
  refine ⟨k.time, k.rest.resolve_right fun e => hne e.units⟩

end BK
