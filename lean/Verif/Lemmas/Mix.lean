import Verif.Lemmas.Render
import Verif.Lemmas.BufferRead
import Verif.Model.Context
import Mathlib.Data.List.Flatten
/-!
What units do to the channels of a context, and moving channels in time.
-/
namespace BK

def Pulse.op (p : Pulse) : BufOp := .pulse p.time p.amp

/-- Capacity after ending at the times `T`. -/
def capAfter (τ : Int) : List Int → Int → Int
  | [], c => c
  | t :: T, c => capAfter τ T (max c (wrapU32 (τ + t) / U20))

/-- A channel after the pulses `P` and ending at the times `T`. -/
def Buf.eff (b : Buf) (P : List Pulse) (T : List Int) : Buf :=
  { b with frames := fun j => wrapI32 (b.frames j + b.contribs (P.map Pulse.op) j)
           capacity := capAfter b.time T b.capacity }

theorem contribs_append (b : Buf) (as bs : List BufOp) (j : Nat) :
    b.contribs (as ++ bs) j = b.contribs as j + b.contribs bs j := by
  induction as with
  | nil => simp [Buf.contribs]
  | cons a as ih => simp only [List.cons_append, Buf.contribs, ih]; omega

theorem capAfter_append (τ : Int) (T T' : List Int) (c : Int) :
    capAfter τ (T ++ T') c = capAfter τ T' (capAfter τ T c) := by
  induction T generalizing c with
  | nil => rfl
  | cons t T ih => simp only [List.cons_append, capAfter, ih]

theorem Buf.eff_eff (b : Buf) (P P' : List Pulse) (T T' : List Int) :
    (b.eff P T).eff P' T' = b.eff (P ++ P') (T ++ T') := by
  unfold Buf.eff
  simp only [Buf.mk.injEq, true_and, and_true, capAfter_append]
  funext j
  rw [wrapI32_add_l, List.map_append, contribs_append]
  rw [contribs_congr (b := { b with
      frames := fun j => wrapI32 (b.frames j + b.contribs (P.map Pulse.op) j)
      capacity := capAfter b.time T b.capacity }) (b' := b) rfl rfl]
  congr 1; omega

theorem Buf.eff_nil {b : Buf} (h : ∀ j, InI32 (b.frames j)) : b.eff [] [] = b := by
  unfold Buf.eff
  simp only [List.map_nil, Buf.contribs, Int.add_zero, capAfter]
  have : (fun j => wrapI32 (b.frames j)) = b.frames := by
    funext j; exact wrapI32_of_in (h j)
  rw [this]

/-- One pulse. -/
theorem addPulse_false {b : Buf} (h : b.Wf) (p : Pulse) :
    b.addPulse false p.time p.amp = .ok (b.eff [p] []) := by
  have := addPulse_good (chk := false) h.kernel.shape h.frames p.time p.amp
  cases hr : b.addPulse false p.time p.amp with
  | error e => rw [hr] at this; exact absurd this.2 (by decide)
  | ok b' =>
    rw [hr] at this
    have this : b' = _ := this
    rw [this]
    unfold Buf.eff
    simp only [List.map_cons, List.map_nil, Buf.contribs, Int.add_zero, Pulse.op, capAfter]

theorem Buf.Wf.effP {b : Buf} (h : b.Wf) (P : List Pulse) : (b.eff P []).Wf :=
  ⟨h.time, h.capacity, h.accum, fun _ => wrapI32_in _, h.kernel⟩

theorem capAfter_bounds (τ : Int) (T : List Int) {c : Int} (h : 0 ≤ c ∧ c ≤ 4095) :
    0 ≤ capAfter τ T c ∧ capAfter τ T c ≤ 4095 := by
  induction T generalizing c with
  | nil => exact h
  | cons t T ih =>
    refine ih ?_
    unfold wrapU32; omega

theorem Buf.Wf.eff {b : Buf} (h : b.Wf) (P : List Pulse) (T : List Int) : (b.eff P T).Wf :=
  ⟨h.time, capAfter_bounds _ _ h.capacity, h.accum, fun _ => wrapI32_in _, h.kernel⟩

theorem mixFold {chans : List Buf} : ∀ (ps : List Pulse), (∀ b ∈ chans, b.Wf) → (∀ p ∈ ps, p.chan < chans.length) →
    ps.foldlM (mixPulse false) chans = .ok (chans.mapIdx fun i b => b.eff (onChan i ps) []) := by
  intro ps
  induction ps generalizing chans with
  | nil =>
    intro h _
    show Except.ok chans = _
    congr 1
    refine List.ext_getElem? fun i => ?_
    rw [List.getElem?_mapIdx]
    cases hb : chans[i]? with
    | none => rfl
    | some b =>
      have := Buf.eff_nil (h b (List.mem_of_getElem? hb)).frames
      simp only [Option.map_some, onChan, List.filter_nil, this]
  | cons p ps ih =>
    intro h hp
    rw [List.foldlM_cons]
    have hlt := hp p (by simp)
    have hb : chans[p.chan]? = some (chans[p.chan]) := List.getElem?_eq_getElem hlt
    have hm := List.mem_of_getElem? hb
    have e1 : mixPulse false chans p = .ok (chans.set p.chan ((chans[p.chan]).eff [p] [])) := by
      unfold mixPulse
      rw [rd_ok (by omega) (by simpa using hlt), ok_bind]
      simp only [Int.toNat_natCast]
      rw [addPulse_false (h _ hm), ok_bind]
      unfold wr
      rw [if_pos ⟨by omega, by simpa using hlt⟩]
      simp
    rw [e1, ok_bind, ih]
    · congr 1
      refine List.ext_getElem? fun i => ?_
      rw [List.getElem?_mapIdx, List.getElem?_mapIdx, List.getElem?_set]
      by_cases hi : p.chan = i
      · subst hi
        rw [if_pos rfl, if_pos hlt, hb]
        simp only [Option.map_some, Buf.eff_eff]
        unfold onChan
        simp
      · rw [if_neg hi]
        unfold onChan
        have : (p.chan == i) = false := by simpa using hi
        rw [List.filter_cons, this]
        rfl
    · intro b hb
      rcases List.mem_or_eq_of_mem_set hb with hb | rfl
      · exact h b hb
      · exact (h _ hm).effP _
    · intro q hq
      rw [List.length_set]
      exact hp q (by simp [hq])

theorem Buf.eff_endAt (b : Buf) (P : List Pulse) (T : List Int) (t : Int) :
    (b.eff P T).endAt t = b.eff P (T ++ [t]) := by
  unfold Buf.endAt Buf.eff
  simp only [capAfter_append, capAfter]
  split
  · next h => rw [Int.max_eq_right (by omega)]
  · next h => rw [Int.max_eq_left (by omega)]

/-- One unit. -/
theorem BUnit.run_eff {u : BUnit} {chans : List Buf} (h : ∀ b ∈ chans, b.Wf) {e t : Int} {c : UCore}
    {ps : List Pulse} (hr : u.toUCore.render u.time e chans.length = .ok (t, c, ps))
    (hp : ∀ p ∈ ps, p.chan < chans.length) :
    u.run false chans e =
      .ok ({ toUCore := c, time := t }, chans.mapIdx fun i b => b.eff (onChan i ps) [t]) := by
  unfold BUnit.run
  rw [hr, ok_bind, mixFold ps h hp, ok_bind]
  show Except.ok (_, _) = _
  congr 2
  refine List.ext_getElem? fun i => ?_
  rw [List.getElem?_map, List.getElem?_mapIdx, List.getElem?_mapIdx, Option.map_map]
  congr 1
  funext b
  exact Buf.eff_endAt _ _ [] _

/-- Rendering all units without the channels. -/
def rendered (n : Nat) (e : Int) : List BUnit → C (List BUnit × List Pulse × List Int)
  | [] => .ok ([], [], [])
  | u :: us => do
    let r ← u.toUCore.render u.time e n
    let rs ← rendered n e us
    return ({ toUCore := r.2.1, time := r.1 } :: rs.1, r.2.2 ++ rs.2.1, r.1 :: rs.2.2)

theorem runUnits_eff {e : Int} : ∀ (us : List BUnit) {chans : List Buf} {us' : List BUnit} {P : List Pulse}
    {T : List Int}, (∀ b ∈ chans, b.Wf) → rendered chans.length e us = .ok (us', P, T) →
    (∀ p ∈ P, p.chan < chans.length) →
    runUnits false e us chans = .ok (us', chans.mapIdx fun i b => b.eff (onChan i P) T)
  | [], chans, us', P, T, h, hr, hp => by
    cases hr
    have := mixFold (chans := chans) [] h (by simp)
    have e : chans = _ := Except.ok.inj this
    show Except.ok ([], chans) = _
    rw [← e]
  | u :: us, chans, us', P, T, h, hr, hp => by
    unfold rendered at hr
    obtain ⟨⟨t, c, ps⟩, h1, hr⟩ := bind_ok_iff.1 hr
    obtain ⟨⟨vs, Q, S⟩, h2, hr⟩ := bind_ok_iff.1 hr
    cases hr
    unfold runUnits
    rw [BUnit.run_eff h h1 (fun p hq => hp p (by simp [hq])), ok_bind]
    have hlen : (chans.mapIdx fun i b => b.eff (onChan i ps) [t]).length = chans.length := List.length_mapIdx
    dsimp only
    rw [runUnits_eff us (P := Q) (T := S) (us' := vs) ?_ (by rw [hlen]; exact h2)
      (fun p hq => by rw [hlen]; exact hp p (by simp [hq])), ok_bind]
    · show Except.ok (_, _) = _
      congr 2
      refine List.ext_getElem? fun i => ?_
      simp only [List.getElem?_mapIdx, Option.map_map]
      congr 1
      funext b
      rw [onChan_append]
      exact Buf.eff_eff _ _ _ _ _
    · intro b hb
      obtain ⟨i, hi, rfl⟩ := List.mem_mapIdx.1 hb
      exact (h _ (List.getElem_mem _)).eff _ _

/-- Two parts of rendering, with the times in order. -/
theorem UCore.Usable.later {n : Nat} {c : UCore} (h : c.Usable n) {t0 e1 e2 : Int} (h0 : 0 ≤ t0) (h0' : t0 ≤ 4294967295)
    (he0 : 0 ≤ e1) (he : e1 ≤ e2) (he2 : e2 ≤ 2145386496) {t1 t2 : Int} {c1 c2 : UCore} {p1 p2 : List Pulse}
    (r1 : c.render t0 e1 n = .ok (t1, c1, p1)) (r2 : c1.render t1 e2 n = .ok (t2, c2, p2)) : t1 ≤ t2 := by
  obtain ⟨t', c', ps', q1, hu1, q2, q3, -, -⟩ := h.render h0 h0' he0 (by omega : e1 ≤ 2145386496)
  rw [r1] at q1
  cases q1
  have hbound : t1 ≤ 4294967295 := by omega
  obtain ⟨t', c', ps', q1, -, q2', -, -, -⟩ := hu1.render (t0 := t1) (e := e2) (by omega) hbound (by omega) he2
  rw [r2] at q1
  cases q1
  obtain ⟨hi, hc⟩ := id h
  rcases h.way with hw | hw | ⟨hw, hp, hm, hon⟩ | ⟨hw, hm, hp0, hp, hr⟩
  · rw [hw] at r1; cases r1
    rw [hw] at r2; cases r2
    repeat' split
    all_goals omega
  · rw [hw _ _ he0 (by omega)] at r1; cases r1
    omega
  · have hper := hi.period
    obtain ⟨vs, p, w, hv, hok, hl, hrg⟩ := UCore.waveVals_ok (pulseCount t0 e1 c.period) hi.waveOk.phase
    rw [UCore.render_eq hw hi.waveOk hp (by omega) hm he0 hv n] at r1
    cases r1
    obtain ⟨vs', p', w', hv', -⟩ := UCore.waveVals_ok (c := c.afterWave vs p w n)
      (pulseCount (if c.on n then t0 + pulseCount t0 e1 c.period * c.period else e1) e2 (c.afterWave vs p w n).period)
      hu1.1.waveOk.phase
    have hon' : (c.afterWave vs p w n).on n = true := hon
    rw [UCore.render_eq (c := c.afterWave vs p w n) hw hu1.1.waveOk hp (by show e2 + c.period ≤ _; omega) hm
      (by omega) hv' n, hon', if_pos rfl] at r2
    have := congrArg Prod.fst (Except.ok.inj r2)
    dsimp only at this
    rw [← this]
    have hnn : (0 : Int) ≤ (pulseCount (if c.on n then t0 + pulseCount t0 e1 c.period * c.period else e1) e2
      (c.afterWave vs p w n).period : Nat) * (c.afterWave vs p w n).period :=
      Int.mul_nonneg (by omega) (by show 0 ≤ c.period; omega)
    omega
  · have key : ∀ (t : Int) (d : UCore), d.waveform = .sample → d.mute = 0 → d.period ≠ 0 → d.Usable n →
        2 ≤ d.length → 0 ≤ t → t ≤ 4294967295 → ∀ {t2 : Int} {c2 : UCore} {p2 : List Pulse},
        d.render t e2 n = .ok (t2, c2, p2) → t ≤ t2 := by
      intro t d d1 d2 d3 d4 d5 d6 d6' t2 c2 p2 hd
      have hpd := Playing.of d4.1 d4.2 d1 d5
      rw [UCore.render_sample_eq (d4.2.1.sample d1) d1, if_neg d3, if_neg (by omega), if_neg (by omega)] at hd
      by_cases hlt : t < e2
      · have e1' : wrapI32 t = t := by unfold wrapI32; omega
        have hi32 : InI32 t := by unfold InI32; omega
        obtain ⟨⟨s1, s2, s3⟩, hs, hd⟩ := bind_ok_iff.1 hd
        rw [e1'] at hs
        obtain ⟨-, -, g3, g4⟩ := UCore.sampleLoop_earlier (n := n) (e := e2) (a := 0) (by omega) (by omega) (by omega)
          (cb := d.sustainRange && !d.release) 4097 hpd d1 (by simp +contextual) hi32 d6 hs
        have ht : wrapU32 s1 = s1 := by unfold wrapU32; omega
        have := congrArg Prod.fst (Except.ok.inj hd)
        dsimp only at this
        rw [ht] at this
        rw [← this]; split <;> omega
      · have e1 : wrapU32 (wrapI32 t) = t := wrapU32_wrapI32 ⟨d6, d6'⟩
        rw [UCore.sampleLoop_done (by omega), ok_bind, e1] at hd
        have := congrArg Prod.fst (Except.ok.inj hd)
        dsimp only at this
        rw [← this]; split <;> omega
    rw [hr] at r1
    obtain ⟨⟨s1, s2, s3⟩, hs, r1⟩ := bind_ok_iff.1 r1
    obtain ⟨x1, x2, x3, x4, x5, x6⟩ := UCore.sampleLoop_ok (n := n) (e := e1) (by omega)
        (cb := c.sustainRange && !c.release) 4097 (t := wrapI32 t0) hp hw (by simp +contextual) (wrapI32_in _)
    rw [hs] at x4
    cases x4
    obtain ⟨g1, g2, -⟩ := UCore.sampleLoop_split he 4097 (wrapI32_in t0)
      (adequate_4097 (by omega) (wrapI32_in t0)) hm hs
    cases r1
    dsimp only at q2' r2 ⊢
    by_cases hm1 : c1.mute = 0
    · exact key _ c1 (x5.setup.waveform.trans hw) hm1 (by rw [x5.setup.period]; exact hp0) hu1
        (by rw [x5.length]; exact hp.two) (by omega) (by omega) r2
    · have := (g2 hm1).1
      rw [if_pos this]; omega

end BK
