import Verif.Lemmas.Gen
import Verif.Spec.Context
import Mathlib.Data.List.Flatten
/-!
Generating frames in pieces.
-/
namespace BK

variable {σ : Type}

theorem placed_append (base : Int) (a b : List Int) :
    placed base (a ++ b) = placed base a ++ placed (base + a.length) b := by
  induction a generalizing base with
  | nil => simp [placed]
  | cons v a ih =>
    simp only [List.cons_append, placed, ih, List.length_cons]
    rw [show base + 1 + (a.length : Int) = base + ((a.length + 1 : Nat) : Int) by push_cast; omega]

theorem placed_shift (base d : Int) (l : List Int) :
    (placed base l).map (fun w => (w.1 + d, w.2)) = placed (base + d) l := by
  induction l generalizing base with
  | nil => rfl
  | cons v l ih =>
    simp only [placed, List.map_cons, ih]
    rw [show base + 1 + d = base + d + 1 by omega]

/-! Reading. -/

/-- The writes of the channels from number `i` on. -/
def colWrites (N : Int) (k : Nat) : Nat → List Buf → List (Int × Int)
  | _, [] => []
  | i, b :: bs => ((List.range k).map fun j : Nat => ((j : Int) * N + i, outAmp (accN b.frames (j + 1) b.accum))) ++
      colWrites N k (i + 1) bs

theorem colWrites_succ (N : Int) (k : Nat) : ∀ (bs : List Buf) (i : Nat),
    (colWrites N (k + 1) i bs).Perm (colWrites N k i bs ++
      placed (k * N + i) (bs.map fun b => outAmp (accN b.frames (k + 1) b.accum)))
  | [], _ => by simp [colWrites, placed]
  | b :: bs, i => by
    have ih := colWrites_succ N k bs (i + 1)
    simp only [colWrites, List.map_cons, placed, List.range_succ, List.map_append, List.map_nil, List.append_assoc]
    refine List.Perm.append_left _ ?_
    rw [show (k : Int) * N + i + 1 = k * N + ((i + 1 : Nat) : Int) by push_cast; omega]
    calc [((k : Int) * N + i, outAmp (accN b.frames (k + 1) b.accum))] ++ colWrites N (k + 1) (i + 1) bs
        |>.Perm ([((k : Int) * N + i, outAmp (accN b.frames (k + 1) b.accum))] ++ (colWrites N k (i + 1) bs ++ _)) :=
          ih.append_left _
      _ |>.Perm _ := by
        rw [List.singleton_append]
        exact List.perm_middle.symm

theorem samplesOf_length (k : Nat) (bs : List Buf) : (samplesOf k bs).length = k * bs.length := by
  unfold samplesOf
  induction k with
  | zero => simp
  | succ k ih => rw [List.range_succ, List.flatMap_append, List.length_append, ih]; simp [Nat.succ_mul]

theorem samplesOf_succ (k : Nat) (bs : List Buf) :
    samplesOf (k + 1) bs = samplesOf k bs ++ bs.map fun b => outAmp (accN b.frames (k + 1) b.accum) := by
  unfold samplesOf
  rw [List.range_succ, List.flatMap_append]; simp

theorem colWrites_perm (bs : List Buf) : ∀ k : Nat,
    (colWrites bs.length k 0 bs).Perm (placed 0 (samplesOf k bs))
  | 0 => by
    have : ∀ (N : Int) (i : Nat) (l : List Buf), colWrites N 0 i l = [] := by
      intro N i l
      induction l generalizing i with
      | nil => rfl
      | cons b l ih => simp [colWrites, ih]
    rw [this]; exact List.Perm.refl _
  | k + 1 => by
    refine (colWrites_succ _ k bs 0).trans ?_
    rw [samplesOf_succ, placed_append, samplesOf_length]
    have h := colWrites_perm bs k
    have e : (k : Int) * bs.length + ((0 : Nat) : Int) = 0 + ((k * bs.length : Nat) : Int) := by push_cast; omega
    rw [e]
    exact h.append_right _

theorem accN_shift (f : Nat → Int) (m k : Nat) (a : Int) :
    accN (fun j => f (j + m)) k (accN f m a) = accN f (m + k) a := by
  induction k with
  | zero => rfl
  | succ k ih =>
    show wrapI32 (wrapI32 (accN (fun j => f (j + m)) k (accN f m a) - _ / 512) + f (k + m)) = _
    rw [ih, Nat.add_comm k m]
    rfl

theorem samplesOf_add (m k : Nat) (bs : List Buf) :
    samplesOf (m + k) bs = samplesOf m bs ++ samplesOf k (bs.map (Buf.theta m)) := by
  induction k with
  | zero => simp [samplesOf]
  | succ k ih =>
    rw [← Nat.add_assoc, samplesOf_succ, samplesOf_succ, ih, List.append_assoc, List.map_map]
    congr 2
    refine List.map_congr_left fun b _ => ?_
    show _ = outAmp (accN (fun j => b.frames (j + m)) (k + 1) (accN b.frames m b.accum))
    rw [accN_shift]
    rfl

theorem theta_theta (m k : Nat) (b : Buf) : (b.theta m).theta k = b.theta (m + k) := by
  unfold Buf.theta
  simp only [Buf.mk.injEq, true_and, and_true]
  refine ⟨by push_cast; omega, accN_shift _ _ _ _, ?_⟩
  funext j
  rw [Nat.add_assoc, Nat.add_comm k m]

theorem Ctx.theta_theta (m k : Nat) (d d' : Int) (x : Ctx σ) : (x.theta m d).theta k d' = x.theta (m + k) d' := by
  unfold Ctx.theta
  simp only [List.map_map]
  congr 1
  · refine List.map_congr_left fun u _ => ?_
    show ({ toUCore := u.toUCore, time := u.time - m * U20 - k * U20 } : BUnit) =
      { toUCore := u.toUCore, time := u.time - ((m + k : Nat) : Int) * U20 }
    rw [show u.time - m * U20 - k * U20 = u.time - ((m + k : Nat) : Int) * U20 by push_cast; omega]
  · refine List.map_congr_left fun b _ => ?_
    exact BK.theta_theta m k b

theorem readChans_ok {N : Int} (hN : 1 ≤ N) (k : Nat) : ∀ (bs : List Buf) (i : Nat),
    (∀ b ∈ bs, BOk b ∧ (k : Int) ≤ b.capacity) →
    readChans false N i (bs.map fun b => b.shift (k * U20)) k = .ok ((k : Int), bs.map (Buf.theta k), colWrites N k i bs)
  | [], i, _ => rfl
  | b :: bs, i, h => by
    obtain ⟨h1, h2⟩ := h b (by simp)
    rw [List.map_cons]
    unfold readChans
    rw [read_theta h1 h2 hN, ok_bind]
    dsimp only
    rw [List.length_map, List.length_range, readChans_ok hN k bs (i + 1) fun c hc => h c (by simp [hc]), ok_bind]
    simp only [pure_eq_ok, List.map_cons, colWrites, List.map_map]
    rfl

/-! A block of frames. -/

/-- A context between calls. -/
def Rest (K : Int) (n : Nat) (Q : Kept σ) (x : Ctx σ) : Prop :=
  (LoopOk K n Q x.deltaTime x ∧ x.deltaTime ≤ 715827882) ∨ (x.clocks = [] ∧ CtxOk n Q 0 x ∧ InU32 x.deltaTime)

/-- A block of `k` frames with the samples `s`. -/
def Gen (cb : ClockCb σ) (k : Nat) (x x' : Ctx σ) (s : List Int) : Prop :=
  ∃ y, x.run false cb (k * U20) = .ok y ∧ x' = y.theta k (wrapU32 (y.deltaTime - k * U20)) ∧ s = samplesOf k y.chans

theorem Gen.det {cb : ClockCb σ} {k : Nat} {x x' x'' : Ctx σ} {s s' : List Int} (h : Gen cb k x x' s) (h' : Gen cb k x x'' s') :
    x' = x'' ∧ s = s' := by
  obtain ⟨y, h1, h2, h3⟩ := h
  obtain ⟨y', h1', h2', h3'⟩ := h'
  rw [h1] at h1'
  cases h1'
  exact ⟨h2.trans h2'.symm, h3.trans h3'.symm⟩

theorem CtxOk.theta {n : Nat} {Q : Kept σ} {t : Int} {y : Ctx σ} (h : CtxOk n Q t y) {k : Nat} {d : Int} (hk : (k : Int) * U20 ≤ t) :
    CtxOk n Q (t - k * U20) (y.theta k d) := by
  refine ⟨h.pos, h.few, by simpa [Ctx.theta] using h.chans, ?_, by simpa [Ctx.theta] using h.some, ?_, by omega, by simpa [Ctx.theta] using h.user⟩
  · intro b hb
    obtain ⟨b', hb', rfl⟩ := List.mem_map.1 hb
    obtain ⟨h1, h2⟩ := h.chan b' hb'
    refine ⟨h1.theta (by omega), ?_⟩
    show (t - k * U20) / U20 ≤ b'.capacity - k
    omega
  · intro u hu
    obtain ⟨u', hu', rfl⟩ := List.mem_map.1 hu
    obtain ⟨h1, h2, h3⟩ := h.unit u' hu'
    refine ⟨h1, ?_, ?_⟩
    · show t - k * U20 ≤ u'.time - k * U20
      omega
    · show u'.time - k * U20 ≤ _
      omega

theorem Ctx.run_clocked {cb : ClockCb σ} {x : Ctx σ} (h : x.clocks ≠ []) {e t : Int} {y : Ctx σ}
    (hr : Ctx.runLoop false cb e e.toNat x.deltaTime x = .ok (t, y)) : x.run false cb e = .ok { y with deltaTime := t } := by
  unfold Ctx.run
  rw [if_pos h, hr]; rfl

theorem Ctx.run_bare {cb : ClockCb σ} {x y : Ctx σ} (h : x.clocks = []) (hf : x.flush cb = .ok y) {e : Int} {us : List BUnit}
    {bs : List Buf} (hr : runUnits false e y.units y.chans = .ok (us, bs)) :
    x.run false cb e = .ok { y with units := us, chans := bs } := by
  unfold Ctx.run
  rw [if_neg (by simpa using h), hf, ok_bind, hr]; rfl

variable {n : Nat} {Q : Kept σ} {cb : ClockCb σ}

/-- Every block can be made. -/
theorem Rest.gen (hQ : Stable n Q) (hcb : CbOk Q cb) {K : Int} {x : Ctx σ} (h : Rest K n Q x)
    (hK : K ≤ 2305843000000000000) {k : Nat} (hk : k ≤ 1024) :
    ∃ x' s, Gen cb k x x' s ∧ Rest (K + k * U20) n Q x' ∧ s.length = k * n ∧
      ∃ w, (do let y ← x.endAt false cb (k * U20); y.read false k : C (Int × Ctx σ × List (Int × Int))) = .ok ((k : Int), x', w) ∧
        w.Perm (placed 0 s) := by
  have hend : ∀ (y : Ctx σ) (t : Int), CtxOk n Q t y → (k : Int) * U20 ≤ t → x.run false cb (k * U20) = .ok y →
      ∃ w, (do let y ← x.endAt false cb (k * U20); y.read false k : C (Int × Ctx σ × List (Int × Int))) =
        .ok ((k : Int), y.theta k (wrapU32 (y.deltaTime - k * U20)), w) ∧ w.Perm (placed 0 (samplesOf k y.chans)) := by
    intro y t hy hkt hr
    have hw : ¬ wrapI32 ((k : Int) * U20) < 0 := by unfold wrapI32; omega
    have hus : y.units.map (fun u => u.endAt (k * U20)) = y.units.map (BUnit.earlier (k * U20)) := by
      refine List.map_congr_left fun u hu => ?_
      have := (hy.unit u hu).2
      unfold BUnit.endAt BUnit.earlier
      rw [show wrapU32 (u.time - k * U20) = u.time - k * U20 by unfold wrapU32; omega]
    have hlen : (y.chans.map fun b => b.shift (k * U20)).length = y.chans.length := by simp
    have hn := hy.pos
    have := readChans_ok (N := y.chans.length) (by rw [hy.chans]; omega) k y.chans 0 (fun b hb => by
      obtain ⟨b1, b2⟩ := hy.chan b hb
      exact ⟨b1, by omega⟩)
    refine ⟨_, ?_, colWrites_perm y.chans k⟩
    unfold Ctx.endAt
    rw [hr, ok_bind, if_neg hw]
    simp only [pure_eq_ok, ok_bind]
    unfold Ctx.read
    dsimp only
    rw [hlen, this, hus]
    rfl
  rcases h with ⟨h, hd⟩ | ⟨hc, h, hd⟩
  · have h0 := h.ctx.t0
    obtain ⟨t, y, a1, a2, a3, a4, a5, a6, a7, a8, a9⟩ := h.run hQ hcb hK (e := k * U20) (by omega) _ (Nat.le_refl _)
    have hr := Ctx.run_clocked h.ne (a1 _ (by omega))
    have hy : CtxOk n Q t { y with deltaTime := t } := ⟨a3.ctx.pos, a3.ctx.few, a3.ctx.chans, a3.ctx.chan, a3.ctx.some, a3.ctx.unit, a3.ctx.t0, a3.ctx.user⟩
    have hw : wrapU32 (t - k * U20) = t - k * U20 := by unfold wrapU32; omega
    refine ⟨_, _, ⟨_, hr, rfl, rfl⟩, .inl ?_, ?_, ?_⟩
    · dsimp only
      rw [hw]
      have hth := hy.theta (k := k) (d := t - k * U20) (by omega)
      refine ⟨⟨hth, ⟨a3.clk.now, a3.clk.all⟩, a3.ne, ?_⟩, ?_⟩
      · have := a3.span
        show y.currentTime - (t - k * U20) ≤ _
        omega
      · show t - k * U20 ≤ 715827882
        omega
    · rw [samplesOf_length, hy.chans]
    · exact hend _ t hy (by omega) hr
  · obtain ⟨y, c1, c2, c3, c4, ⟨c5, -⟩, c7, -⟩ := h.flush hcb
    obtain ⟨us, bs, b1, b2, bl, b3, b4⟩ := c2.units hQ (e := k * U20) (by omega) (by omega)
    have hr := Ctx.run_bare (cb := cb) hc c1 b1
    have hy := b2 y (bl ▸ c2.user)
    refine ⟨_, _, ⟨_, hr, rfl, rfl⟩, .inr ⟨c5.trans hc, ?_, ?_⟩, ?_, ?_⟩
    · have := hy.theta (k := k) (d := wrapU32 (y.deltaTime - k * U20)) (Int.le_refl _)
      rw [Int.sub_self] at this
      exact this
    · exact wrapU32_in _
    · rw [samplesOf_length, hy.chans]
    · exact hend _ _ hy (Int.le_refl _) hr

theorem units_join (hQ : Stable n Q) {x : Ctx σ} (h : CtxOk n Q 0 x) {e1 e2 : Int} (h1 : 0 ≤ e1) (h12 : e1 ≤ e2) (h2 : e2 ≤ 1789569706)
    {us1 us2 : List BUnit} {bs1 bs2 : List Buf} (r1 : runUnits false e1 x.units x.chans = .ok (us1, bs1))
    (r2 : runUnits false e2 us1 bs1 = .ok (us2, bs2)) : runUnits false e2 x.units x.chans = .ok (us2, bs2) := by
  have hlen := h.chans
  have hu : ∀ u ∈ x.units, u.toUCore.Usable n ∧ 0 ≤ u.time ∧ u.time ≤ 4294967295 :=
    fun u hu => ⟨hQ.usable _ (h.unit u hu).1, (h.unit u hu).2⟩
  have hwf : ∀ b ∈ x.chans, b.Wf := fun b hb => (h.chan b hb).1.wf
  obtain ⟨us, P1, T1, a1, a2, a3, a4, a5, -⟩ := rendered_ok (n := n) (e := e1) (lo := 0) (hi := 4294967295) (by omega)
    (by omega) h1 (by omega) x.units hu
  have e := runUnits_eff x.units hwf (by rw [hlen]; exact a1) (by rw [hlen]; exact fun p hp => (a5 p hp).1)
  rw [r1] at e
  cases e
  have hwf1 : ∀ b ∈ x.chans.mapIdx (fun i b => b.eff (onChan i P1) T1), b.Wf := by
    intro b hb
    obtain ⟨i, hi, rfl⟩ := List.mem_iff_getElem.1 hb
    rw [List.length_mapIdx] at hi
    simp only [List.getElem_mapIdx]
    exact (hwf _ (List.getElem_mem hi)).eff _ _
  obtain ⟨us', P2, T2, c1, c2, c3, c4, c5, -⟩ := rendered_ok (n := n) (e := e2) (lo := 0) (hi := 4294967295) (by omega)
    (by omega) (by omega) (by omega) us1 (fun u hu => ⟨(a3 u hu).1, by have := a3 u hu; omega, by have := a3 u hu; omega⟩)
  have e := runUnits_eff us1 hwf1 (by rw [List.length_mapIdx, hlen]; exact c1) (by
    rw [List.length_mapIdx, hlen]; exact fun p hp => (c5 p hp).1)
  rw [r2] at e
  cases e
  obtain ⟨P, d1, d2, d3⟩ := rendered_split h1 h12 (by omega) x.units (fun u hv => ⟨(hu u hv).1, by have := hu u hv; omega, by have := hu u hv; omega⟩) a1 c1
  obtain ⟨vs, P', T', f1, -, -, -, f5, -⟩ := rendered_ok (n := n) (e := e2) (lo := 0) (hi := 4294967295) (by omega)
    (by omega) (by omega) (by omega) x.units hu
  rw [d1] at f1
  cases f1
  rw [runUnits_eff x.units hwf (by rw [hlen]; exact d1) (by rw [hlen]; exact fun p hp => (f5 p hp).1)]
  congr 2
  refine List.ext_getElem (by simp) fun i g1 g2 => ?_
  have hi : i < x.chans.length := by simpa using g1
  simp only [List.getElem_mapIdx]
  rw [Buf.eff_eff]
  have hb := (h.chan _ (List.getElem_mem hi)).1
  unfold Buf.eff
  rw [hb.time, capAfter_absorb (T1 := T1) (T2 := T2) ?_ ?_ d3]
  · congr 1
    funext j
    rw [contribs_perm _ ((d2 i).map Pulse.op) j]
  · intro t ht
    rw [c4] at ht
    obtain ⟨u, hu, rfl⟩ := List.mem_map.1 ht
    have := c3 u hu
    omega
  · intro t ht
    rw [a4] at ht
    obtain ⟨u, hu, rfl⟩ := List.mem_map.1 ht
    have := a3 u hu
    omega

/-- Two blocks are one. -/
theorem Gen.join (hQ : Stable n Q) (hcb : CbOk Q cb) {K : Int} {x x1 x2 : Ctx σ} {s1 s2 : List Int} (h : Rest K n Q x)
    (hK : K ≤ 2305842000000000000) {m k : Nat} (hk : m + k ≤ 1024) (g1 : Gen cb m x x1 s1) (g2 : Gen cb k x1 x2 s2) :
    Gen cb (m + k) x x2 (s1 ++ s2) := by
  obtain ⟨y1, p1, p2, p3⟩ := g1
  obtain ⟨y2, q1, q2, q3⟩ := g2
  have hE : ((m + k : Nat) : Int) * U20 = m * U20 + k * U20 := by push_cast; omega
  rcases h with ⟨h, hd⟩ | ⟨hc, h, hd⟩
  · have h0 := h.ctx.t0
    obtain ⟨t, y, a1, a2, a3, a4, a5, a6, a7, a8, a9⟩ := h.run hQ hcb (by omega) (e := m * U20) (by omega) _ (Nat.le_refl _)
    rw [Ctx.run_clocked h.ne (a1 _ (by omega))] at p1
    cases p1
    have hw : wrapU32 (t - m * U20) = t - m * U20 := by unfold wrapU32; omega
    have p2 : x1 = y.theta m (t - m * U20) := by rw [p2]; dsimp only; rw [hw]; rfl
    subst p2
    obtain ⟨t', y', b1, b2, b3, b4, b5, b6, b7, b8, b9⟩ := a3.run hQ hcb (by omega) (e := ((m + k : Nat) : Int) * U20) (by omega) _ (Nat.le_refl _)
    have hj := RunTo.join (by omega) a2 b2
    have hth := b8 m (t - m * U20) (by omega)
    rw [show ((m + k : Nat) : Int) * U20 - m * U20 = k * U20 by omega] at hth
    -- the run from the moved state
    have hx1 : LoopOk (K + m * U20) n Q (t - m * U20) (y.theta m (t - m * U20)) := by
      refine ⟨a3.ctx.theta (by omega), ⟨a3.clk.now, a3.clk.all⟩, a3.ne, ?_⟩
      have := a3.span
      show y.currentTime - (t - m * U20) ≤ _
      omega
    obtain ⟨t'', y'', c1, c2, -⟩ := hx1.run hQ hcb (K := K + m * U20) (by omega) (e := k * U20) (by omega) _ (Nat.le_refl _)
    obtain ⟨rfl, rfl⟩ := c2.det hth
    rw [Ctx.run_clocked (x := y.theta m (t - m * U20)) a3.ne (c1 _ (by omega))] at q1
    cases q1
    -- the run at once
    obtain ⟨t3, y3, d1, d2, -⟩ := h.run hQ hcb (by omega) (e := ((m + k : Nat) : Int) * U20) (by omega) _ (Nat.le_refl _)
    obtain ⟨rfl, rfl⟩ := d2.det hj
    refine ⟨_, Ctx.run_clocked h.ne (d1 _ (by omega)), ?_, ?_⟩
    · rw [q2]
      dsimp only
      rw [show t3 - m * U20 - k * U20 = t3 - ((m + k : Nat) : Int) * U20 by omega]
      exact Ctx.theta_theta m k (t3 - m * U20) _ y3
    · rw [p3, q3]
      dsimp only
      rw [samplesOf_add, b9 m (by omega)]
      rfl
  · obtain ⟨y, f1, f2, f3, f4, ⟨f5, -⟩, f7, f8⟩ := h.flush hcb
    obtain ⟨us, bs, b1, b2, bl, b3, b4⟩ := f2.units hQ (e := m * U20) (by omega) (by omega)
    rw [Ctx.run_bare hc f1 b1] at p1
    cases p1
    obtain ⟨us', bs', c1, c2, -, c3, c4⟩ := (b2 y (bl ▸ f2.user)).units hQ (e := ((m + k : Nat) : Int) * U20) (by omega) (by omega)
    have hth := c3 m (Int.le_refl _) (by omega)
    rw [show ((m + k : Nat) : Int) * U20 - m * U20 = k * U20 by omega] at hth
    dsimp only at p2 p3 hth c1 c4
    subst p2
    have hfl := f8 (Ctx.theta m (wrapU32 (y.deltaTime - m * U20)) { y with units := us, chans := bs }) rfl (by
      show (List.map _ us).length = _
      rw [List.length_map]; exact bl)
    rw [Ctx.run_bare (x := Ctx.theta m (wrapU32 (y.deltaTime - m * U20)) { y with units := us, chans := bs }) (f5.trans hc) hfl hth] at q1
    cases q1
    refine ⟨_, Ctx.run_bare hc f1 (units_join hQ f2 (by omega) (by omega) (by omega) b1 c1), ?_, ?_⟩
    · rw [q2]
      have : wrapU32 (wrapU32 (y.deltaTime - m * U20) - k * U20) = wrapU32 (y.deltaTime - ((m + k : Nat) : Int) * U20) := by
        unfold wrapU32; omega
      show Ctx.theta k (wrapU32 (wrapU32 (y.deltaTime - m * U20) - k * U20)) _ = _
      rw [this]
      exact Ctx.theta_theta m k (wrapU32 (y.deltaTime - m * U20)) _ { y with units := us', chans := bs' }
    · rw [p3, q3]
      dsimp only
      rw [samplesOf_add, c4 m (Int.le_refl _)]

theorem Rest.mono {K K' : Int} {x : Ctx σ} (h : Rest K n Q x) (hK : K ≤ K') : Rest K' n Q x := by
  rcases h with ⟨h, hd⟩ | h
  · exact .inl ⟨⟨h.ctx, h.clk, h.ne, by have := h.span; omega⟩, hd⟩
  · exact .inr h

/-- `k` frames one by one, after a block of none. -/
def Ones (cb : ClockCb σ) : Nat → Ctx σ → Ctx σ → List Int → Prop
  | 0, x, x', s => Gen cb 0 x x' s
  | k + 1, x, x', s => ∃ y a b, Ones cb k x y a ∧ Gen cb 1 y x' b ∧ s = a ++ b

theorem Ones.det : ∀ (k : Nat) {x x' x'' : Ctx σ} {s s' : List Int}, Ones cb k x x' s → Ones cb k x x'' s' →
    x' = x'' ∧ s = s'
  | 0, _, _, _, _, _, h, h' => Gen.det h h'
  | k + 1, _, _, _, _, _, ⟨y, a, b, h1, h2, h3⟩, ⟨y', a', b', h1', h2', h3'⟩ => by
    obtain ⟨rfl, rfl⟩ := Ones.det k h1 h1'
    obtain ⟨rfl, rfl⟩ := h2.det h2'
    exact ⟨rfl, h3.trans h3'.symm⟩

theorem Ones.rest (hQ : Stable n Q) (hcb : CbOk Q cb) {K : Int} (k : Nat) {x x' : Ctx σ} {s : List Int} (h : Rest K n Q x)
    (hK : K + k * U20 ≤ 2305842000000000000) (ho : Ones cb k x x' s) : Rest (K + k * U20) n Q x' := by
  induction k generalizing x' s with
  | zero =>
    obtain ⟨y, t, a1, a2, -⟩ := h.gen hQ hcb (by omega) (k := 0) (by omega)
    obtain ⟨rfl, rfl⟩ := Gen.det ho a1
    exact a2
  | succ k ih =>
    obtain ⟨y, a, b, h1, h2, h3⟩ := ho
    have hr := ih (by push_cast at hK; omega) h1
    obtain ⟨y', t, a1, a2, -⟩ := hr.gen hQ hcb (by push_cast at hK; omega) (k := 1) (by omega)
    obtain ⟨rfl, rfl⟩ := Gen.det h2 a1
    exact a2.mono (by push_cast; omega)

/-- A block of no frames after others changes nothing. -/
theorem Ones.still (hQ : Stable n Q) (hcb : CbOk Q cb) {K : Int} (j : Nat) {x x1 x2 : Ctx σ} {s1 s2 : List Int}
    (h : Rest K n Q x) (hK : K + j * U20 ≤ 2305842000000000000) (ho : Ones cb j x x1 s1) (g : Gen cb 0 x1 x2 s2) :
    x2 = x1 ∧ s2 = [] := by
  have hs2 : s2 = [] := by
    obtain ⟨y, -, -, rfl⟩ := g
    rfl
  refine ⟨?_, hs2⟩
  cases j with
  | zero => exact ((Gen.join hQ hcb h (by omega) (m := 0) (k := 0) (by omega) ho g).det ho).1
  | succ j =>
    obtain ⟨y, a, b, h1, h2, rfl⟩ := ho
    have hr := Ones.rest hQ hcb j h (by push_cast at hK; omega) h1
    exact ((Gen.join hQ hcb hr (by push_cast at hK; omega) (m := 1) (k := 0) (by omega) h2 g).det h2).1

theorem Ones.snoc (hQ : Stable n Q) (hcb : CbOk Q cb) {K : Int} {j : Nat} {x x1 : Ctx σ} {s1 : List Int}
    (h : Rest K n Q x) (ho : Ones cb j x x1 s1) (k : Nat) {x2 : Ctx σ} {s2 : List Int} (hk : k ≤ 1024)
    (hK : K + (j + k : Nat) * U20 ≤ 2305842000000000000) (g : Gen cb k x1 x2 s2) : Ones cb (j + k) x x2 (s1 ++ s2) := by
  induction k generalizing x2 s2 with
  | zero =>
    obtain ⟨rfl, rfl⟩ := Ones.still hQ hcb j h (by push_cast at hK; omega) ho g
    rw [List.append_nil]; exact ho
  | succ k ih =>
    have hr := Ones.rest hQ hcb j h (by push_cast at hK; omega) ho
    obtain ⟨y, a, a1, a2, -⟩ := hr.gen hQ hcb (by push_cast at hK; omega) (k := k) (by omega)
    obtain ⟨y', b, b1, b2, -⟩ := a2.gen hQ hcb (by push_cast at hK; omega) (k := 1) (by omega)
    obtain ⟨rfl, rfl⟩ := (Gen.join hQ hcb hr (by push_cast at hK; omega) hk a1 b1).det g
    exact ⟨y, s1 ++ a, b, ih (by omega) (by push_cast at hK ⊢; omega) a1, b1, (List.append_assoc _ _ _).symm⟩

theorem Gen.ones (hQ : Stable n Q) (hcb : CbOk Q cb) {K : Int} {x x1 : Ctx σ} {s : List Int} {k : Nat}
    (h : Rest K n Q x) (hk : k ≤ 1024) (hK : K + k * U20 ≤ 2305842000000000000) (g : Gen cb k x x1 s) : Ones cb k x x1 s := by
  obtain ⟨y, a, a1, a2, -⟩ := h.gen hQ hcb (by omega) (k := 0) (by omega)
  obtain ⟨y', b, b1, b2, -⟩ := a2.gen hQ hcb (by omega) (k := k) hk
  have hj := Gen.join hQ hcb h (by omega) (m := 0) (k := k) (by omega) a1 b1
  rw [Nat.zero_add] at hj
  obtain ⟨rfl, rfl⟩ := hj.det g
  have := Ones.snoc hQ hcb (j := 0) h a1 k hk (by push_cast; omega) b1
  rw [Nat.zero_add] at this
  exact this

/-- What generating does. -/
theorem genLoop_ok (hQ : Stable n Q) (hcb : CbOk Q cb) : ∀ (f r : Nat) {K w base : Int} {x : Ctx σ}, Rest K n Q x →
    K + r * U20 ≤ 2305842000000000000 → r < f → ∃ x' s ws, Ctx.genLoop false cb f r w base x = .ok (wrapU32 (w + r), x', ws) ∧
      ws.Perm (placed base s) ∧ s.length = r * n ∧ Ones cb r x x' s ∧
      ∀ (K' : Int) (j : Nat) (z : Ctx σ) (s0 : List Int), Rest K' n Q z → K' + (j + r : Nat) * U20 ≤ 2305842000000000000 →
        Ones cb j z x s0 → Ones cb (j + r) z x' (s0 ++ s)
  | 0, r, K, w, base, x, h, hK, hf => absurd hf (by omega)
  | f + 1, r, K, w, base, x, h, hK, hf => by
    have hmin : cmin (r : Int) 1024 = ((min r 1024 : Nat) : Int) := by unfold cmin; split <;> omega
    obtain ⟨x1, s1, a1, a2, a3, w1, a4, a5⟩ := h.gen hQ hcb (by omega) (k := min r 1024) (by omega)
    have hw : wrapU32 (((min r 1024 : Nat) : Int) * U20) = ((min r 1024 : Nat) : Int) * U20 := by unfold wrapU32; omega
    obtain ⟨y, e1, e2⟩ := bind_ok_iff.1 a4
    have hb5 : (w1.map fun w => (w.1 + base, w.2)).Perm (placed base s1) := by
      have := a5.map fun w : Int × Int => (w.1 + base, w.2)
      rw [placed_shift, Int.zero_add] at this
      exact this
    unfold Ctx.genLoop
    dsimp only
    rw [hmin, hw, e1, ok_bind, e2, ok_bind]
    dsimp only
    by_cases hr : r ≤ 1024
    · have hrm : min r 1024 = r := by omega
      rw [hrm] at a1 a2 a3 ⊢
      rw [if_pos (by split <;> omega)]
      refine ⟨x1, s1, _, rfl, hb5, a3, Gen.ones hQ hcb h hr hK a1, ?_⟩
      intro K' j z s0 hz hK' ho
      exact Ones.snoc hQ hcb hz ho r hr hK' a1
    · obtain ⟨c, hrm, hc⟩ : ∃ c : Nat, min r 1024 = c ∧ c = 1024 := ⟨_, rfl, by omega⟩
      rw [hrm] at a1 a2 a3 ⊢
      have hch : x1.chans.length = n := by
        rcases a2 with ⟨h, -⟩ | ⟨-, h, -⟩
        · exact h.ctx.chans
        · exact h.chans
      have hn : n ≤ 8 := by
        rcases a2 with ⟨h, -⟩ | ⟨-, h, -⟩
        · exact h.ctx.few
        · exact h.few
      rw [if_neg (show ¬ (c : Int) = 0 by omega), if_neg (show ¬ (r : Int) - (c : Int) = 0 by omega),
        hch, show (r : Int) - (c : Int) = ((r - c : Nat) : Int) by omega,
        show wrapU32 ((c : Int) * n) = ((c * n : Nat) : Int) by
          subst hc; unfold wrapU32; push_cast; omega]
      obtain ⟨x2, s2, ws, b1, b2, b3, b4, b5⟩ := genLoop_ok hQ hcb f (r - c) (w := wrapU32 (w + (c : Int)))
        (base := base + ((c * n : Nat) : Int)) a2 (by omega) (by omega)
      rw [b1, ok_bind]
      have hadd : c + (r - c) = r := by omega
      refine ⟨x2, s1 ++ s2, (w1.map fun w => (w.1 + base, w.2)) ++ ws, ?_, ?_, ?_, ?_, ?_⟩
      · rw [show wrapU32 (w + r) = wrapU32 (wrapU32 (w + (c : Int)) + ((r - c : Nat) : Int)) by unfold wrapU32; omega]
        rfl
      · rw [placed_append, a3]
        exact hb5.append b2
      · rw [List.length_append, a3, b3, ← Nat.add_mul, hadd]
      · have := b5 K c x s1 h (by omega) (Gen.ones hQ hcb h (by omega) (by omega) a1)
        rw [hadd] at this
        exact this
      · intro K' j z s0 hz hK' ho
        have h1 := Ones.snoc hQ hcb hz ho c (by omega) (by push_cast at hK' ⊢; omega) a1
        have := b5 K' (j + c) z (s0 ++ s1) hz (by omega) h1
        rw [Nat.add_assoc, hadd, List.append_assoc] at this
        exact this

/-- Generating `r` frames. -/
theorem generate_ok (hQ : Stable n Q) (hcb : CbOk Q cb) {r : Nat} {K : Int} {x : Ctx σ} (h : Rest K n Q x)
    (hK : K + r * U20 ≤ 2305842000000000000) (hr : r ≤ 2147483647) :
    ∃ x' s ws, x.generate false cb r = .ok ((r : Int), x', ws) ∧ ws.Perm (placed 0 s) ∧ s.length = r * n ∧
      Rest (K + r * U20) n Q x' ∧ Ones cb r x x' s ∧
      ∀ (K' : Int) (j : Nat) (z : Ctx σ) (s0 : List Int), Rest K' n Q z → K' + (j + r : Nat) * U20 ≤ 2305842000000000000 →
        Ones cb j z x s0 → Ones cb (j + r) z x' (s0 ++ s) := by
  obtain ⟨x', s, ws, a1, a2, a3, a4, a5⟩ := genLoop_ok hQ hcb (r + 1) r (w := 0) (base := 0) h hK (by omega)
  refine ⟨x', s, ws, ?_, a2, a3, Ones.rest hQ hcb r h hK a4, a4, a5⟩
  unfold Ctx.generate
  rw [Int.toNat_natCast, a1, ok_bind]
  dsimp only
  rw [show wrapI32 (wrapU32 (0 + (r : Int))) = r by unfold wrapI32 wrapU32; omega]
  rfl

end BK
