import Verif.Lemmas.Generate
/-!
Contexts that were set up and used.
-/
namespace BK

variable {σ : Type} {n : Nat} {cb : ClockCb σ}

theorem Reached.usable {c : UCore} (h : Reached n c) : c.Usable n := by
  obtain ⟨t, ps, h⟩ := h
  exact ⟨h.inv fun _ _ h => h.1, h.sinv⟩

/-- A unit can be at any time. -/
theorem Reached.at {c : UCore} (h : Reached n c) {t : Int} (ht : InU32 t) :
    ∃ ps, Reach n (SampleGentle n) { toUCore := c, time := t } ps := by
  have hu := h.usable
  obtain ⟨t0, ps, h⟩ := h
  have hs : BUnit.step n { toUCore := c, time := t0 } (.endAt (t0 - t)) = .ok ({ toUCore := c, time := t }, []) := by
    show Except.ok (({ toUCore := c, time := wrapU32 (t0 - (t0 - t)) } : BUnit), ([] : List Pulse)) = _
    rw [show wrapU32 (t0 - (t0 - t)) = t by unfold InU32 at ht; unfold wrapU32; omega]
  refine ⟨_, h.step (op := .endAt (t0 - t)) trivial ⟨?_, ?_⟩ hs⟩
  · intro v hv; cases hv
  · intro r hr hw
    rw [hs] at hr
    cases hr
    exact hu.2.2 hw

/-- For programs with units only. -/
def reachedKept (σ : Type) (n : Nat) : Kept σ := ⟨Reached n, fun _ _ => True⟩

theorem reached_stable : Stable n (reachedKept σ n) := by
  refine ⟨fun c h => h.usable, ?_⟩
  intro c t0 e t c' ps h h0 he0 he hr
  have hu := h.usable
  obtain ⟨qs, hq⟩ := h.at h0
  have hs : BUnit.step n { toUCore := c, time := t0 } (.run e) = .ok ({ toUCore := c', time := t }, ps) := by
    unfold BUnit.step
    dsimp only
    rw [hr]
    rfl
  refine ⟨t, _, hq.step (op := .run e) ⟨he0, he⟩ ⟨?_, ?_⟩ hs⟩
  · intro v hv; cases hv
  · intro r hr' hw
    rw [hs] at hr'
    cases hr'
    unfold InU32 at h0
    obtain ⟨t'', c'', ps'', g1, g2, -⟩ := hu.render (t0 := t0) (e := e) (by omega) (by omega) he0 he
    rw [hr] at g1
    cases g1
    exact g2.2.2 hw

theorem CbFine.ok (h : CbFine n cb) : CbOk (reachedKept σ n) cb := by
  refine ⟨fun k t s us ht _ hu => ?_, fun s us _ hu => ⟨_, h.flush s us, trivial, rfl, hu, fun us' _ => h.flush s us'⟩⟩
  obtain ⟨r, r1, r2, r3, r4⟩ := h.tick k t s us ht hu
  exact ⟨r, r1, r2, r3, trivial, r4⟩

theorem init_bok : BOk Buf.init :=
  ⟨⟨by decide, by decide, by decide, fun _ => (by decide : InI32 0), .inr rfl⟩, rfl, fun _ _ => rfl⟩

/-- Everything about a context that is set up, before it has units. -/
structure SetupOk (n : Nat) (x : Ctx σ) : Prop where
  pos : 1 ≤ n
  few : n ≤ 8
  chans : x.chans.length = n
  chan : ∀ b ∈ x.chans, BOk b ∧ 0 ≤ b.capacity
  unit : ∀ u ∈ x.units, Reached n u.toUCore ∧ u.time = 0
  delta : x.deltaTime = 0
  now : x.currentTime = 0
  clk : ∀ c ∈ x.clocks, ClkOk 0 c

theorem Setup.ok {x : Ctx σ} (h : Setup n x) : SetupOk n x := by
  induction h with
  | init hc hl =>
    unfold Ctx.init at hl
    dsimp only at hl
    rw [List.length_replicate] at hl
    refine ⟨?_, ?_, ?_, ?_, by simp [Ctx.init], rfl, rfl, by simp [Ctx.init]⟩
    · rw [← hl]; unfold cclamp; split <;> (try split) <;> omega
    · rw [← hl]; unfold cclamp; split <;> (try split) <;> omega
    · unfold Ctx.init; dsimp only; rw [List.length_replicate]; exact hl
    · intro b hb
      have := List.eq_of_mem_replicate hb
      subst this
      exact ⟨init_bok, by decide⟩
  | clock _ h1 h2 ih =>
    refine ⟨ih.pos, ih.few, ih.chans, ih.chan, ih.unit, ih.delta, ih.now, ?_⟩
    intro d hd
    rcases List.mem_append.1 hd with hd | hd
    · exact ih.clk d hd
    · rw [List.mem_singleton] at hd
      subst hd
      exact ⟨rfl, Int.le_refl _, h1, (by decide : InI64 0), .inl h2⟩
  | unit _ h1 ih =>
    refine ⟨ih.pos, ih.few, ih.chans, ih.chan, ?_, ih.delta, ih.now, ih.clk⟩
    intro u hu
    rcases List.mem_append.1 hu with hu | hu
    · exact ih.unit u hu
    · rw [List.mem_singleton] at hu
      subst hu
      exact ⟨h1, ih.delta⟩

theorem SetupOk.rest {x : Ctx σ} (h : SetupOk n x) (hu : x.units ≠ []) : Rest 0 n (reachedKept σ n) x := by
  have hc : CtxOk n (reachedKept σ n) 0 x := ⟨h.pos, h.few, h.chans, h.chan, hu, fun u hu => by
    obtain ⟨h1, h2⟩ := h.unit u hu
    exact ⟨h1, by omega, by omega⟩, by omega, trivial⟩
  by_cases hk : x.clocks = []
  · exact .inr ⟨hk, hc, by rw [h.delta]; decide⟩
  · refine .inl ⟨?_, by rw [h.delta]; omega⟩
    rw [h.delta]
    exact ⟨hc, ⟨by rw [h.now], by rw [h.now]; exact h.clk⟩, hk, by rw [h.now]; decide⟩

theorem Rest.change {K : Int} {Q : Kept σ} {x : Ctx σ} (h : Rest K n Q x) {us : List BUnit} {user : σ} (hv : Q.user us.length user) (hne : us ≠ [])
    (hu : ∀ u ∈ us, Q u.toUCore ∧ (u.time = x.deltaTime ∨ ∃ v ∈ x.units, u.time = v.time)) :
    Rest K n Q { x with user := user, units := us } := by
  rcases h with ⟨h, hd⟩ | ⟨hc, h, hd⟩
  · refine .inl ⟨⟨⟨h.ctx.pos, h.ctx.few, h.ctx.chans, h.ctx.chan, hne, ?_, h.ctx.t0, hv⟩, ⟨h.clk.now, h.clk.all⟩, h.ne, h.span⟩, hd⟩
    intro u hu'
    have h0 := h.ctx.t0
    obtain ⟨h1, h2⟩ := hu u hu'
    refine ⟨h1, ?_⟩
    rcases h2 with h2 | ⟨v, hv, h2⟩
    · dsimp only; omega
    · have := (h.ctx.unit v hv).2
      dsimp only; omega
  · refine .inr ⟨hc, ⟨h.pos, h.few, h.chans, h.chan, hne, ?_, h.t0, hv⟩, hd⟩
    intro u hu'
    unfold InU32 at hd
    obtain ⟨h1, h2⟩ := hu u hu'
    refine ⟨h1, ?_⟩
    rcases h2 with h2 | ⟨v, hv, h2⟩
    · omega
    · have := (h.unit v hv).2
      omega

theorem Rest.some {K : Int} {Q : Kept σ} {x : Ctx σ} (h : Rest K n Q x) : x.units ≠ [] := by
  rcases h with ⟨h, -⟩ | ⟨-, h, -⟩
  · exact h.ctx.some
  · exact h.some

theorem Rest.units {K : Int} {Q : Kept σ} {x : Ctx σ} (h : Rest K n Q x) : ∀ u ∈ x.units, Q u.toUCore := by
  rcases h with ⟨h, -⟩ | ⟨-, h, -⟩
  · exact fun u hu => (h.ctx.unit u hu).1
  · exact fun u hu => (h.unit u hu).1

theorem Live.rest (hcb : CbFine n cb) {T : Int} {x : Ctx σ} (h : Live n cb T x) :
    0 ≤ T ∧ Rest (T * U20) n (reachedKept σ n) x := by
  induction h with
  | start hs hu => exact ⟨by omega, (hs.ok.rest hu)⟩
  | change h hl hc ih =>
    rename_i T x user cs
    refine ⟨ih.1, ih.2.change trivial ?_ ?_⟩
    · intro e
      have := (setCores_time hl).1
      rw [e] at this
      exact ih.2.some (by simpa using this.symm)
    · intro u hu
      obtain ⟨h1, h2⟩ := setCores_time hl
      refine ⟨hc _ (h2 ▸ List.mem_map.2 ⟨u, hu, rfl⟩), .inr ?_⟩
      have : u.time ∈ x.units.map (·.time) := h1 ▸ List.mem_map.2 ⟨u, hu, rfl⟩
      obtain ⟨v, hv, hvt⟩ := List.mem_map.1 this
      exact ⟨v, hv, hvt.symm⟩
  | unit h hc ih =>
    rename_i T x c
    refine ⟨ih.1, ih.2.change (user := x.user) trivial (by simp) ?_⟩
    intro u hu
    rcases List.mem_append.1 hu with hu | hu
    · exact ⟨ih.2.units u hu, .inr ⟨u, hu, rfl⟩⟩
    · rw [List.mem_singleton] at hu
      subst hu
      exact ⟨hc, .inl rfl⟩
  | generate h hk hT hg ih =>
    rename_i T x x' k r w
    have hT0 := ih.1
    obtain ⟨x'', s, ws, a1, -, -, a4, -⟩ := generate_ok (r := k) reached_stable hcb.ok ih.2 (by omega) hk
    rw [hg] at a1
    cases a1
    exact ⟨by omega, by rw [Int.add_mul]; exact a4⟩

theorem Gen.clocks {Q : Kept σ} (hQ : Stable n Q) (hcb : CbOk Q cb) {K : Int} {x x' : Ctx σ} {s : List Int} {k : Nat}
    (h : Rest K n Q x) (hK : K ≤ 2305843000000000000) (hk : k ≤ 1024) (hg : Gen cb k x x' s) :
    (x.clocks ≠ [] → x'.clocks ≠ []) ∧
    (x.clocks = [] → x'.clocks = [] ∧ x'.deltaTime = wrapU32 (x.deltaTime - k * U20)) := by
  obtain ⟨y, g1, g2, -⟩ := hg
  rcases h with ⟨h, hd⟩ | ⟨hc, h, hd⟩
  · have h0 := h.ctx.t0
    obtain ⟨t, z, a1, -, a3, -⟩ := h.run hQ hcb hK (e := k * U20) (by omega) _ (Nat.le_refl _)
    rw [Ctx.run_clocked h.ne (a1 _ (by omega))] at g1
    cases g1
    refine ⟨fun _ => ?_, fun hc => absurd hc h.ne⟩
    rw [g2]
    exact a3.ne
  · obtain ⟨z, c1, c2, c3, c4, ⟨c5, -⟩, -⟩ := h.flush hcb
    obtain ⟨us, bs, b1, -⟩ := c2.units hQ (e := k * U20) (by omega) (by omega)
    rw [Ctx.run_bare hc c1 b1] at g1
    cases g1
    refine ⟨fun hn => absurd hc hn, fun _ => ?_⟩
    rw [g2]
    exact ⟨c5.trans hc, by show wrapU32 (z.deltaTime - _) = _; rw [c4]⟩

theorem Ones.clocks {Q : Kept σ} (hQ : Stable n Q) (hcb : CbOk Q cb) {K : Int} (k : Nat) {x x' : Ctx σ} {s : List Int}
    (h : Rest K n Q x) (hK : K + k * U20 ≤ 2305842000000000000) (ho : Ones cb k x x' s) :
    (x.clocks ≠ [] → x'.clocks ≠ []) ∧
    (x.clocks = [] → x'.clocks = [] ∧ wrapU32 x'.deltaTime = wrapU32 (x.deltaTime - k * U20)) := by
  induction k generalizing x' s with
  | zero =>
    obtain ⟨h1, h2⟩ := Gen.clocks hQ hcb h (by omega) (k := 0) (by omega) ho
    refine ⟨h1, fun hc => ⟨(h2 hc).1, ?_⟩⟩
    rw [(h2 hc).2]
    unfold wrapU32; omega
  | succ k ih =>
    obtain ⟨y, a, b, h1, h2, h3⟩ := ho
    have hr := Ones.rest hQ hcb k h (by push_cast at hK; omega) h1
    obtain ⟨i1, i2⟩ := ih (by push_cast at hK; omega) h1
    obtain ⟨j1, j2⟩ := Gen.clocks hQ hcb hr (by push_cast at hK; omega) (by omega) h2
    refine ⟨fun hc => j1 (i1 hc), fun hc => ?_⟩
    obtain ⟨k1, k2⟩ := i2 hc
    obtain ⟨l1, l2⟩ := j2 k1
    refine ⟨l1, ?_⟩
    rw [l2]
    unfold wrapU32 at *
    push_cast
    omega

end BK
