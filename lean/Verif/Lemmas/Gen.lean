import Verif.Lemmas.Advance
/-!
Rendering a context: every pass succeeds, passes can be moved in time, and the loop can be cut.
-/
namespace BK

variable {σ : Type}

theorem rendered_stable {n : Nat} {Q : Kept σ} (hQ : Stable n Q) {e : Int} (he0 : 0 ≤ e)
    (he : e ≤ 2145386496) : ∀ (us : List BUnit) {us' : List BUnit} {P : List Pulse} {T : List Int},
    (∀ u ∈ us, Q u.toUCore ∧ InU32 u.time) → rendered n e us = .ok (us', P, T) → ∀ u ∈ us', Q u.toUCore
  | [], _, _, _, _, h => by cases h; simp
  | u :: us, us', P, T, hu, h => by
    unfold rendered at h
    obtain ⟨⟨t, c, p⟩, a1, h⟩ := bind_ok_iff.1 h
    obtain ⟨⟨vs, R, S⟩, a2, h⟩ := bind_ok_iff.1 h
    cases h
    have ih := rendered_stable hQ he0 he us (fun v hv => hu v (by simp [hv])) a2
    intro v hv
    rcases List.mem_cons.1 hv with rfl | hv
    · obtain ⟨h1, h2⟩ := hu u (by simp)
      exact hQ.render _ _ _ _ _ _ h1 h2 he0 he a1
    · exact ih v hv

/-- The context when `m` frames have been taken out. -/
def Ctx.theta (m : Nat) (d : Int) (x : Ctx σ) : Ctx σ :=
  { x with deltaTime := d
           units := x.units.map (BUnit.earlier (m * U20))
           chans := x.chans.map (Buf.theta m) }

/-- The samples in the first `k` frames of the channels, frame by frame. -/
def samplesOf (k : Nat) (bs : List Buf) : List Int :=
  (List.range k).flatMap fun j => bs.map fun b => outAmp (accN b.frames (j + 1) b.accum)

/-- A context while its units are at time `t`. -/
structure CtxOk (n : Nat) (Q : Kept σ) (t : Int) (x : Ctx σ) : Prop where
  pos : 1 ≤ n
  few : n ≤ 8
  chans : x.chans.length = n
  chan : ∀ b ∈ x.chans, BOk b ∧ t / U20 ≤ b.capacity
  some : x.units ≠ []
  unit : ∀ u ∈ x.units, Q u.toUCore ∧ t ≤ u.time ∧ u.time ≤ 4294967295
  t0 : 0 ≤ t
  user : Q.user x.units.length x.user

/-- Tracks can bring their units up to date. -/
theorem CtxOk.flush {n : Nat} {Q : Kept σ} {cb : ClockCb σ} (hcb : CbOk Q cb) {t : Int} {x : Ctx σ} (h : CtxOk n Q t x) :
    ∃ y, x.flush cb = .ok y ∧ CtxOk n Q t y ∧ y.chans = x.chans ∧ y.deltaTime = x.deltaTime ∧ SameClocks x y ∧
      (∀ (m : Nat) (δ : Int), (x.theta m δ).flush cb = .ok (y.theta m δ)) ∧
      ∀ z : Ctx σ, z.user = y.user → z.units.length = y.units.length → z.flush cb = .ok z := by
  obtain ⟨r, r1, r2, r3, r4, r5⟩ := hcb.flush x.user (x.units.map (·.toUCore)) (by rw [List.length_map]; exact h.user) (by
    intro d hd
    obtain ⟨u, hu, rfl⟩ := List.mem_map.1 hd
    exact (h.unit u hu).1)
  have hsc := setCores_time (us := x.units) (cs := r.2) (by simpa using r3)
  have hlen : (setCores x.units r.2).length = x.units.length := by
    have := congrArg List.length hsc.1
    simpa using this
  refine ⟨{ x with user := r.1, units := setCores x.units r.2 }, ?_, ?_, rfl, rfl, ⟨rfl, rfl, rfl⟩, ?_, ?_⟩
  · unfold Ctx.flush
    rw [r1]; rfl
  · refine ⟨h.pos, h.few, h.chans, h.chan, ?_, ?_, h.t0, by dsimp only; rw [hlen]; rw [List.length_map] at r2; exact r2⟩
    · intro hc
      have := hsc.1
      dsimp only at hc
      rw [hc] at this
      exact h.some (by simpa using this.symm)
    · intro u hu
      refine ⟨r4 _ (hsc.2 ▸ List.mem_map.2 ⟨u, hu, rfl⟩), ?_⟩
      have : u.time ∈ x.units.map (·.time) := hsc.1 ▸ List.mem_map.2 ⟨u, hu, rfl⟩
      obtain ⟨v, hv, hvt⟩ := List.mem_map.1 this
      have := (h.unit v hv).2
      omega
  · intro m δ
    unfold Ctx.flush Ctx.theta
    dsimp only
    rw [cores_earlier, r1, ok_bind, setCores_earlier]
    rfl
  · intro z hz hl
    dsimp only at hz hl
    unfold Ctx.flush
    rw [hz, r5 _ (by rw [List.length_map, List.length_map]; omega), ok_bind, ← hz]
    have : setCores z.units (z.units.map (·.toUCore)) = z.units := by
      unfold setCores
      generalize z.units = us
      induction us with
      | nil => rfl
      | cons u us ih => rw [List.map_cons, List.zipWith_cons_cons, ih]
    dsimp only
    rw [this]
    rfl

theorem onChan_mem {i : Nat} {P : List Pulse} {p : Pulse} (h : p ∈ onChan i P) : p ∈ P := by
  unfold onChan at h
  exact (List.mem_filter.1 h).1

theorem samplesOf_congr {m : Nat} {bs bs' : List Buf} (hl : bs'.length = bs.length)
    (h : ∀ i (hi : i < bs.length) (hi' : i < bs'.length), bs'[i].accum = bs[i].accum ∧ ∀ j, j < m → bs'[i].frames j = bs[i].frames j) :
    samplesOf m bs' = samplesOf m bs := by
  unfold samplesOf
  rw [List.flatMap_def, List.flatMap_def]
  congr 1
  refine List.map_congr_left fun j hj => ?_
  have hj := List.mem_range.1 hj
  refine List.ext_getElem (by simp [hl]) fun i h1 h2 => ?_
  simp only [List.getElem_map]
  rw [List.length_map] at h1 h2
  obtain ⟨g1, g2⟩ := h i h2 h1
  rw [g1, accN_congr (j + 1) fun l hl => g2 l (by omega)]

/-- Running all units up to `e`. -/
theorem CtxOk.units {n : Nat} {Q : Kept σ} (hQ : Stable n Q) {t e : Int} {x : Ctx σ} (h : CtxOk n Q t x)
    (he0 : 0 ≤ e) (he : e ≤ 1789569706) :
    ∃ us bs, runUnits false e x.units x.chans = .ok (us, bs) ∧
      (∀ y : Ctx σ, Q.user us.length y.user → CtxOk n Q e { y with units := us, chans := bs }) ∧ us.length = x.units.length ∧
      (∀ m : Nat, (m : Int) * U20 ≤ t → (m : Int) * U20 ≤ e → runUnits false (e - m * U20) (x.units.map (BUnit.earlier (m * U20)))
          (x.chans.map (Buf.theta m)) = .ok (us.map (BUnit.earlier (m * U20)), bs.map (Buf.theta m))) ∧
      ∀ m : Nat, (m : Int) * U20 ≤ t → samplesOf m bs = samplesOf m x.chans := by
  have ht0 := h.t0
  have hlen := h.chans
  obtain ⟨us, P, T, h1, h2, h3, h4, h5, h6⟩ := rendered_ok (n := n) (e := e) (lo := t) (hi := 4294967295) h.t0
    (by omega) he0 (by omega) x.units (fun u hu => ⟨hQ.usable _ (h.unit u hu).1, (h.unit u hu).2⟩)
  have hst := rendered_stable hQ he0 (by omega) x.units (fun u hu => ⟨(h.unit u hu).1, by
    have := (h.unit u hu).2; unfold InU32; omega⟩) h1
  have hwf : ∀ b ∈ x.chans, b.Wf := fun b hb => (h.chan b hb).1.wf
  have hrun := runUnits_eff x.units hwf (by rw [hlen]; exact h1) (by rw [hlen]; exact fun p hp => (h5 p hp).1)
  -- the times
  have hT : ∀ s ∈ T, e ≤ s ∧ s ≤ 4294967295 := by
    intro s hs
    rw [h4] at hs
    obtain ⟨u, hu, rfl⟩ := List.mem_map.1 hs
    have := h3 u hu
    omega
  have hTne : ∃ s, s ∈ T := by
    rw [h4]
    cases us with
    | nil => exact absurd (by simpa using h2.symm) h.some
    | cons u us => exact ⟨u.time, by simp⟩
  obtain ⟨s0, hs0⟩ := hTne
  have hP : ∀ p ∈ P, 0 ≤ p.time ∧ p.time ≤ 4294967295 ∧ ∃ s ∈ T, p.time < s + U20 := by
    intro p hp
    have := h5 p hp
    have := hT s0 hs0
    exact ⟨by omega, by omega, s0, hs0, by omega⟩
  refine ⟨us, _, hrun, ?_, h2, ?_, ?_⟩
  · intro y hy
    refine ⟨h.pos, h.few, by simpa using hlen, ?_, ?_, ?_, he0, hy⟩
    · intro b hb
      obtain ⟨i, hi, rfl⟩ := List.mem_iff_getElem.1 hb
      dsimp only at hi ⊢
      rw [List.length_mapIdx] at hi
      simp only [List.getElem_mapIdx]
      obtain ⟨b1, b2⟩ := h.chan _ (List.getElem_mem hi)
      refine ⟨b1.eff (fun p hp => hP p (onChan_mem hp)) (fun s hs => by have := hT s hs; omega), ?_⟩
      unfold Buf.eff
      dsimp only
      rw [b1.time]
      have := capAfter_mem hs0 (x.chans[i]).capacity
      have := hT s0 hs0
      unfold wrapU32 at *
      omega
    · intro hc
      dsimp only at hc
      rw [hc] at h2
      exact h.some (by simpa using h2.symm)
    · intro u hu
      have := h3 u hu
      exact ⟨hst u hu, by omega, by omega⟩
  · intro m hm hme
    have hr := h6 (m * U20) (by omega) hm hme
    have hwf' : ∀ b ∈ x.chans.map (Buf.theta m), b.Wf := by
      intro b hb
      obtain ⟨b', hb', rfl⟩ := List.mem_map.1 hb
      obtain ⟨b1, b2⟩ := h.chan b' hb'
      exact (b1.theta (by omega)).wf
    have := runUnits_eff (x.units.map (BUnit.earlier (m * U20))) hwf' (by rw [List.length_map, hlen]; exact hr) (by
      intro p hp
      obtain ⟨p', hp', rfl⟩ := List.mem_map.1 hp
      rw [List.length_map, hlen]
      exact (h5 p' hp').1)
    rw [this]
    congr 2
    refine List.ext_getElem (by simp) fun i g1 g2 => ?_
    have hi : i < x.chans.length := by simpa using g1
    simp only [List.getElem_mapIdx, List.getElem_map]
    rw [theta_eff (h.chan _ (List.getElem_mem hi)).1 (fun p hp => by
      have := h5 p (onChan_mem hp); omega) (fun s hs => by have := hT s hs; omega)]
    rw [onChan_earlier]
  · intro m hm
    refine samplesOf_congr (by simp) fun i hi hi' => ?_
    simp only [List.getElem_mapIdx]
    refine ⟨rfl, fun j hj => ?_⟩
    unfold Buf.eff
    dsimp only
    have hb := (h.chan _ (List.getElem_mem hi)).1
    rw [contribs_zero, Int.add_zero, wrapI32_of_in (hb.wf.frames j)]
    intro p hp
    have hp5 := h5 p (onChan_mem hp)
    have ho := (BOk.offset hb.time (t := p.time) (by omega) (by omega)).1
    exact contrib_out (.inl (by omega))

/-! Clocks. -/

theorem tickAll_earlier {cb : ClockCb σ} {now a : Int} : ∀ (cs : List Clk) (k : Nat) {s s' : Ticked σ},
    tickAll cb now k cs s = .ok s' → tickAll cb now k cs { s with units := s.units.map (BUnit.earlier a) } =
      .ok { s' with units := s'.units.map (BUnit.earlier a) }
  | [], _, s, s', h => by cases h; rfl
  | c :: cs, k, s, s', h => by
    unfold tickAll at h ⊢
    obtain ⟨s1, h1, h⟩ := bind_ok_iff.1 h
    have : Ticked.step cb now k c { s with units := s.units.map (BUnit.earlier a) } =
        .ok { s1 with units := s1.units.map (BUnit.earlier a) } := by
      unfold Ticked.step at h1 ⊢
      split at h1
      · rename_i he
        rw [if_pos he]
        obtain ⟨r, r1, h1⟩ := bind_ok_iff.1 h1
        obtain ⟨c', r2, h1⟩ := bind_ok_iff.1 h1
        cases h1
        dsimp only
        rw [cores_earlier, r1, ok_bind, r2, ok_bind, setCores_earlier]
        rfl
      · rename_i he
        rw [if_neg he]
        cases h1
        rfl
    rw [this, ok_bind]
    exact tickAll_earlier cs (k + 1) h

theorem clocksAdvance_theta {cb : ClockCb σ} {x y : Ctx σ} {d δ : Int} {m : Nat} (h : x.clocksAdvance cb = .ok (d, y)) :
    (x.theta m δ).clocksAdvance cb = .ok (d, y.theta m δ) := by
  unfold Ctx.clocksAdvance at h ⊢
  obtain ⟨s, h1, h⟩ := bind_ok_iff.1 h
  obtain ⟨v, h2, h⟩ := bind_ok_iff.1 h
  obtain ⟨cs, h3, h⟩ := bind_ok_iff.1 h
  obtain ⟨w, h4, h⟩ := bind_ok_iff.1 h
  cases h
  have := tickAll_earlier (a := m * U20) x.clocks 0 h1
  unfold Ctx.theta
  dsimp only at this ⊢
  rw [this, ok_bind, h2, ok_bind, h3, ok_bind, h4, ok_bind]
  rfl

/-- A context with clocks in the loop of a run. -/
structure LoopOk (K : Int) (n : Nat) (Q : Kept σ) (t : Int) (x : Ctx σ) : Prop where
  ctx : CtxOk n Q t x
  clk : ClocksOk x
  ne : x.clocks ≠ []
  span : x.currentTime - t ≤ K

theorem LoopOk.step {K : Int} {n : Nat} {Q : Kept σ} (hQ : Stable n Q) {cb : ClockCb σ} (hcb : CbOk Q cb)
    {t : Int} {x : Ctx σ} (h : LoopOk K n Q t x) (hK : K ≤ 2305843000000000000) (ht : t ≤ 1073741824) :
    ∃ t' x', x.runStep false cb t = .ok (t', x') ∧ t < t' ∧ t' ≤ t + 715827882 ∧ LoopOk K n Q t' x' ∧
      x'.deltaTime = x.deltaTime ∧
      (∀ (m : Nat) (δ : Int), (m : Int) * U20 ≤ t →
        (x.theta m δ).runStep false cb (t - m * U20) = .ok (t' - m * U20, x'.theta m δ)) ∧
      ∀ m : Nat, (m : Int) * U20 ≤ t → samplesOf m x'.chans = samplesOf m x.chans := by
  have ht0 := h.ctx.t0
  have hsp := h.span
  obtain ⟨d, y, a1, a2, a3, a4, a5, a6, a7, a8, a9, a10, a11⟩ :=
    clocksAdvance_ok hcb h.clk (by omega) h.ctx.user (fun u hu => (h.ctx.unit u hu).1)
  have hm : maxStep = 715827882 := rfl
  have hy : CtxOk n Q t y := by
    refine ⟨h.ctx.pos, h.ctx.few, by rw [a8]; exact h.ctx.chans, by rw [a8]; exact h.ctx.chan, ?_, ?_, ht0, a11⟩
    · intro hc
      rw [hc] at a9
      exact h.ctx.some (by simpa using a9.symm)
    · intro u hu
      refine ⟨a10 u hu, ?_⟩
      have : u.time ∈ x.units.map (·.time) := a9 ▸ List.mem_map.2 ⟨u, hu, rfl⟩
      obtain ⟨v, hv, hvt⟩ := List.mem_map.1 this
      have := (h.ctx.unit v hv).2
      omega
  have hw : wrapU32 (t + d) = t + d := by unfold wrapU32; omega
  obtain ⟨z, c1, c2, c3, c4, ⟨c5, c6, -⟩, c7, -⟩ := hy.flush hcb
  obtain ⟨us, bs, b1, b2, bl, b3, b4⟩ := c2.units hQ (e := t + d) (by omega) (by omega)
  refine ⟨t + d, { z with units := us, chans := bs }, ?_, by omega, by omega,
    ⟨b2 z (bl ▸ c2.user), ⟨by dsimp only; rw [c6]; exact a4.now, by dsimp only; rw [c5, c6]; exact a4.all⟩, ?_, ?_⟩, c4.trans a7, ?_, ?_⟩
  · unfold Ctx.runStep
    rw [a1, ok_bind]
    dsimp only
    rw [c1, ok_bind, hw, b1]
    rfl
  · intro hc
    dsimp only at hc
    rw [c5] at hc
    rw [hc] at a6
    exact h.ne (by simpa using a6.symm)
  · dsimp only; rw [c6]; omega
  · intro m δ hmt
    unfold Ctx.runStep
    rw [clocksAdvance_theta a1, ok_bind]
    dsimp only
    have hw' : wrapU32 (t - m * U20 + d) = t + d - m * U20 := by unfold wrapU32; omega
    rw [hw', c7 m δ, ok_bind]
    have := b3 m hmt (by omega)
    unfold Ctx.theta
    dsimp only
    rw [this]
    rfl
  · intro m hmt
    dsimp only
    rw [b4 m hmt, c3, a8]

/-- The loop of a run, without counting. -/
inductive RunTo (cb : ClockCb σ) (e : Int) : Int → Ctx σ → Int → Ctx σ → Prop
  | done {t : Int} {x : Ctx σ} : ¬ t < e → RunTo cb e t x t x
  | step {t t1 t2 : Int} {x x1 x2 : Ctx σ} : t < e → x.runStep false cb t = .ok (t1, x1) → RunTo cb e t1 x1 t2 x2 →
      RunTo cb e t x t2 x2

theorem RunTo.det {cb : ClockCb σ} {e t t1 t2 : Int} {x x1 x2 : Ctx σ} (h : RunTo cb e t x t1 x1) :
    RunTo cb e t x t2 x2 → t1 = t2 ∧ x1 = x2 := by
  induction h with
  | done h =>
    intro g
    cases g with
    | done => exact ⟨rfl, rfl⟩
    | step g => exact absurd g h
  | step h1 h2 _ ih =>
    intro g
    cases g with
    | done g => exact absurd h1 g
    | step g1 g2 g3 =>
      rw [h2] at g2
      cases g2
      exact ih g3

theorem RunTo.join {cb : ClockCb σ} {e1 e2 t t1 t2 : Int} {x x1 x2 : Ctx σ} (he : e1 ≤ e2) (h : RunTo cb e1 t x t1 x1) :
    RunTo cb e2 t1 x1 t2 x2 → RunTo cb e2 t x t2 x2 := by
  induction h with
  | done h => exact id
  | step h1 h2 _ ih => exact fun g => .step (by omega) h2 (ih g)

theorem LoopOk.run {K : Int} {n : Nat} {Q : Kept σ} (hQ : Stable n Q) {cb : ClockCb σ} (hcb : CbOk Q cb)
    (hK : K ≤ 2305843000000000000) {e : Int} (he : e ≤ 1073741824) : ∀ (N : Nat) {t : Int} {x : Ctx σ}, LoopOk K n Q t x →
    (e - t).toNat ≤ N → ∃ t' x', (∀ k, (e - t).toNat ≤ k → Ctx.runLoop false cb e k t x = .ok (t', x')) ∧
      RunTo cb e t x t' x' ∧ LoopOk K n Q t' x' ∧ e ≤ t' ∧ t ≤ t' ∧ (t' = t ∨ t' ≤ e + 715827881) ∧ x'.deltaTime = x.deltaTime ∧
      (∀ (m : Nat) (δ : Int), (m : Int) * U20 ≤ t →
        RunTo cb (e - m * U20) (t - m * U20) (x.theta m δ) (t' - m * U20) (x'.theta m δ)) ∧
      ∀ m : Nat, (m : Int) * U20 ≤ t → samplesOf m x'.chans = samplesOf m x.chans := by
  intro N
  induction N with
  | zero =>
    intro t x h hN
    have hte : ¬ t < e := by omega
    refine ⟨t, x, ?_, .done hte, h, by omega, by omega, .inl rfl, rfl, fun m δ _ => .done (by omega), fun _ _ => rfl⟩
    intro k _
    cases k <;> unfold Ctx.runLoop <;> rw [if_neg hte]
  | succ N ih =>
    intro t x h hN
    by_cases hte : t < e
    · obtain ⟨t1, x1, a1, a2, a3, a4, a5, a6, a7⟩ := h.step hQ hcb hK (by omega)
      obtain ⟨t2, x2, b1, b2, b3, b4, b5, b6, b7, b8, b9⟩ := ih a4 (by omega)
      refine ⟨t2, x2, ?_, .step hte a1 b2, b3, b4, by omega, by omega, b7.trans a5, ?_, ?_⟩
      · intro k hk
        cases k with
        | zero => omega
        | succ k =>
          unfold Ctx.runLoop
          rw [if_pos hte, a1, ok_bind]
          exact b1 k (by omega)
      · intro m δ hm
        exact .step (by omega) (a6 m δ hm) (b8 m δ (by omega))
      · intro m hm
        rw [b9 m (by omega), a7 m hm]
    · refine ⟨t, x, ?_, .done hte, h, by omega, by omega, .inl rfl, rfl, fun m δ _ => .done (by omega), fun _ _ => rfl⟩
      intro k _
      cases k <;> unfold Ctx.runLoop <;> rw [if_neg hte]

end BK
