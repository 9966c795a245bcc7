import Verif.Lemmas.Train
import Verif.Lemmas.Noise
/-!
Trains of steps of noise and custom waveforms.
-/
namespace BK

/-- The values of the waveform from the present phase on. -/
def UCore.vals (c : UCore) (k : Nat) : Int :=
  match c.waveVals (k + 1) c.startPhase (wrapU32 c.wrapCount) with
  | .ok r => r.1.getD k 0
  | .error _ => 0

theorem UCore.vals_eq {c : UCore} (h : c.PhaseOk c.startPhase (wrapU32 c.wrapCount)) {n : Nat} {vs : List Int} {p w : Int}
    (hv : c.waveVals n c.startPhase (wrapU32 c.wrapCount) = .ok (vs, p, w)) {k : Nat} (hk : k < n) : c.vals k = vs.getD k 0 := by
  obtain ⟨vs1, p1, w1, e1, h1, l1, -⟩ := UCore.waveVals_ok (k + 1) h
  obtain ⟨vs2, p2, w2, e2, h2, l2, -⟩ := UCore.waveVals_ok (n - (k + 1)) h1
  have e := UCore.waveVals_add (k + 1) e1 e2
  rw [show k + 1 + (n - (k + 1)) = n by omega, hv] at e
  cases e
  unfold UCore.vals
  rw [e1]
  dsimp only
  rw [List.getD_eq_getElem?_getD, List.getD_eq_getElem?_getD, List.getElem?_append_left (by omega)]

/-- A unit after `j` steps of a train that began with the unit `c0`. -/
structure UCore.Runs (c c0 : UCore) (Q V L : Int) (i j : Nat) : Prop where
  inv : c.Inv
  ok0 : c0.PhaseOk c0.startPhase (wrapU32 c0.wrapCount)
  wave : c.waveform = c0.waveform
  tabled : c0.waveform.tabled
  mute : c.mute = 0
  period : c.period = Q
  pos : 1 ≤ Q
  duty : c.dutyCycle = c0.dutyCycle
  wrap : c.wrap = c0.wrap
  count : c.count = c0.count
  frames : c.frames = c0.frames
  vol : c.volume i = V
  loud : V ≠ 0
  phase : ∃ vs, c0.waveVals j c0.startPhase (wrapU32 c0.wrapCount) = .ok (vs, c.startPhase, wrapU32 c.wrapCount)
  last : c.lastPulse i = if j = 0 then L else level (c0.vals (j - 1)) V

theorem UCore.Runs.render {c c0 : UCore} {q vol last : Int} {i j : Nat} {n : Nat} (hi : i < n)
    (h : c.Runs c0 q vol last i j) (t0 : Int) {e : Int} (h0 : 0 ≤ e) (he : e ≤ 2147483648) :
    ∃ t' c' qs, c.render t0 e n = .ok (t', c', qs) ∧
      onChan i qs = (List.range (pulseCount t0 e q)).map (fun (k : Nat) =>
        (⟨i, t0 + k * q, trainStep (fun k => level (c0.vals k) vol) last (j + k)⟩ : Pulse)) ∧
      t' = t0 + pulseCount t0 e q * q ∧ (c'.Inv → c'.Runs c0 q vol last i (j + pulseCount t0 e q)) := by
  have hinv := h.inv
  have hp1 : 1 ≤ c.period := by rw [h.period]; exact h.pos
  have ht : c.waveform.tabled := by rw [h.wave]; exact h.tabled
  have hv : c.volume i ≠ 0 := by rw [h.vol]; exact h.loud
  obtain ⟨vs, p, w, hvals, hpk, hlv, -⟩ := UCore.waveVals_ok (pulseCount t0 e c.period) hinv.waveOk.phase
  have hr := UCore.render_eq ht hinv.waveOk hp1 (by have := hinv.period; omega) h.mute h0 hvals n
  have hon : c.on n = true := by
    unfold UCore.on
    rw [List.any_eq_true]
    exact ⟨i, by simpa using hi, by simpa using hv⟩
  rw [h.period] at hr hvals hlv
  obtain ⟨vs0, e0⟩ := h.phase
  have hvals' := hvals
  rw [UCore.waveVals_congr (c' := c0) h.wave h.duty h.wrap h.count h.frames] at hvals'
  have hall := UCore.waveVals_add j e0 hvals'
  have hl0 : vs0.length = j := by
    obtain ⟨_, _, _, e1, -, l1, -⟩ := UCore.waveVals_ok j h.ok0
    rw [e0] at e1
    cases e1
    exact l1
  have hget : ∀ k, k < pulseCount t0 e q → vs.getD k 0 = c0.vals (j + k) := by
    intro k hk
    rw [UCore.vals_eq h.ok0 hall (by omega), List.getD_eq_getElem?_getD, List.getD_eq_getElem?_getD,
      List.getElem?_append_right (by omega), hl0, Nat.add_sub_cancel_left]
  obtain ⟨s1, s2⟩ := UCore.afterWave_start (vs := vs) hon hpk
  refine ⟨_, _, _, hr, ?_, ?_, ?_⟩
  · rw [UCore.flat_chan, if_pos hi]
    apply List.ext_getElem?
    intro k
    by_cases hk : k < pulseCount t0 e q
    · rw [UCore.chanPulses_get hv (by omega), hget k hk, List.getElem?_map, List.getElem?_range hk, h.period, h.vol]
      simp only [Option.map_some]
      congr 2
      unfold trainStep
      congr 2
      by_cases hk0 : k = 0
      · subst hk0
        rw [if_pos rfl, h.last, Nat.add_zero]
      · rw [if_neg hk0, if_neg (by omega), hget (k - 1) (by omega)]
        rw [show j + k - 1 = j + (k - 1) by omega]
    · rw [List.getElem?_eq_none (by rw [UCore.chanPulses_length hv]; omega), List.getElem?_eq_none (by simp; omega)]
  · rw [hon, if_pos rfl]
  · intro hinv'
    refine { inv := hinv', ok0 := h.ok0, wave := h.wave, tabled := h.tabled, mute := h.mute, period := h.period, pos := h.pos,
             duty := h.duty, wrap := h.wrap, count := h.count, frames := h.frames, vol := h.vol, loud := h.loud,
             phase := ⟨vs0 ++ vs, by rw [s1, s2]; exact hall⟩, last := ?_ }
    unfold UCore.afterWave
    simp only [hi, hv, ne_eq, not_false_iff, and_self, if_true]
    unfold lastLevel
    by_cases hm : pulseCount t0 e q = 0
    · have : vs = [] := List.length_eq_zero_iff.1 (by omega)
      rw [this, hm]
      simp only [List.map_nil, List.getLastD_nil, Nat.add_zero]
      exact h.last
    · rw [if_neg (by omega), List.getLastD_eq_getLast?, List.getLast?_eq_getElem?, List.getElem?_map, List.length_map, hlv]
      have hk := hget (pulseCount t0 e q - 1) (by omega)
      rw [getD_get _ (by omega)] at hk
      rw [List.getElem?_eq_getElem (by omega), hk]
      simp only [Option.map_some, Option.getD_some]
      rw [h.vol, show j + pulseCount t0 e q - 1 = j + (pulseCount t0 e q - 1) by omega]

variable {N : Nat}

/-- The steps of a held track are one train. -/
theorem Track.Inv.held_steps {x : Nat} {w : IWorld} {c0 : UCore} {q vol last : Int} {i : Nat} (hi : i < N) :
    ∀ (ds : List Int) (T : Int) {t : Track} (j : Nat), t.Inv N False → t.ctx ≠ none → t.Clean →
    t.unit.toUCore.Runs c0 q vol last i j →
    0 ≤ t.unit.time → t.unit.time ≤ 2147483647 → (∀ d ∈ ds, 0 ≤ d ∧ d ≤ 1073741824) → ∀ {r}, t.hold x w T ds = .ok r →
    onChan i r.2 = (List.range (pulseCount t.unit.time ds.sum q)).map (fun (k : Nat) =>
        (⟨i, T + t.unit.time + k * q, trainStep (fun k => level (c0.vals k) vol) last (j + k)⟩ : Pulse))
  | [], _, t, j, _, _, _, _, h0, _, _, r, hr => by
    cases hr
    rw [List.sum_nil, pulseCount_zero (by omega)]
    rfl
  | d :: ds, T, t, j, h, hc, hcl, hat, h0, h1, hd, r, hr => by
    obtain ⟨c, hcc⟩ : ∃ c, t.ctx = some c := by
      cases e : t.ctx with
      | none => exact absurd e hc
      | some c => exact ⟨c, rfl⟩
    have hn := (h.ctx c hcc).2.2
    have hd0 := hd d List.mem_cons_self
    obtain ⟨τ1, c1, p1, a1, a2, a3, a4⟩ := hat.render hi t.unit.time hd0.1 (by omega)
    have huse : t.unit.toUCore.Usable N := ⟨h.unit.inv, h.unit.sinv⟩
    obtain ⟨_, _, _, b1, -, b3, b4, -, -⟩ := huse.render (t0 := t.unit.time) (e := d) (by omega) (by omega) hd0.1 (by omega)
    rw [a1] at b1
    cases b1
    have hfine : c1.Fine N False := by
      obtain ⟨r, e1, e2⟩ := (UCore.render_fine h.unit t.unit.time hd0.1 (by omega)).get trivial
      rw [a1] at e1
      cases e1
      exact e2
    have hr1 := Track.run_ok (hcl.updateUnit x w) hcc hn a1
    unfold Track.hold at hr
    rw [hr1, ok_bind] at hr
    obtain ⟨r', hq, hr⟩ := bind_ok_iff.1 hr
    cases hr
    have ih := Track.Inv.held_steps (x := x) (w := w) hi ds (T + d) (j + pulseCount t.unit.time d q)
      (t := Track.sooner d { t with unit := { toUCore := c1, time := τ1 } }) { h with unit := hfine } hc hcl (a4 hfine.inv)
      (by unfold Track.sooner; dsimp only; omega) (by unfold Track.sooner; dsimp only; omega) (fun d' h' => hd d' (List.mem_cons_of_mem _ h')) hq
    dsimp only
    rw [onChan_append, onChan_later, a2, ih]
    have hs : 0 ≤ ds.sum := sum_nonneg_int ds fun d' h' => (hd d' (List.mem_cons_of_mem _ h')).1
    have e1 : (Track.sooner d { t with unit := { toUCore := c1, time := τ1 } }).unit.time = τ1 - d := rfl
    have hsh : pulseCount (τ1 - d) ds.sum q = pulseCount τ1 (d + ds.sum) q := by
      have k : ∀ k : Nat, k < pulseCount (τ1 - d) ds.sum q ↔ k < pulseCount τ1 (d + ds.sum) q := by
        intro k
        rw [pulseCount_iff hat.pos, pulseCount_iff hat.pos]
        omega
      have k1 := k (pulseCount (τ1 - d) ds.sum q)
      have k2 := k (pulseCount τ1 (d + ds.sum) q)
      omega
    have hpc := pulseCount_parts hat.pos (t := t.unit.time) (a := d) hs
    rw [← a3] at hpc
    rw [e1, hsh, List.sum_cons, hpc, List.range_add, List.map_append, List.map_map, List.map_map]
    congr 1
    · apply List.map_congr_left
      intro k _
      show Pulse.later T _ = _
      unfold Pulse.later
      dsimp only
      congr 1
      omega
    · apply List.map_congr_left
      intro k _
      dsimp only [Function.comp]
      rw [show j + pulseCount t.unit.time d q + k = j + (pulseCount t.unit.time d q + k) by omega]
      congr 1
      rw [a3]
      push_cast
      ring

/-! The values of custom waveforms and of noise. -/

theorem UCore.waveNext_custom {c : UCore} {phase wc : Int} (hw : c.waveform = .custom) (hz : c.wrap = 0)
    (hp : 0 ≤ phase ∧ phase < c.count) (hc : c.count ≤ c.frames.length) :
    c.waveNext phase wc = .ok (c.frames.getD phase.toNat 0, (phase + 1) % c.count, wc) := by
  unfold UCore.waveNext
  rw [hw]
  dsimp only
  have e : wrapStep c.wrap wc phase 0 = (wc, phase) := by
    unfold wrapStep
    rw [if_neg (by rw [hz]; simp)]
  rw [e]
  dsimp only
  rw [rd_getD_int 0 hp.1 (by omega), ok_bind, pure_eq_ok]
  congr 3
  split
  · have : phase + 1 = c.count := by omega
    rw [this, Int.emod_self]
  · rw [Int.emod_eq_of_lt (by omega) (by omega)]

theorem UCore.waveVals_custom {c : UCore} (hw : c.waveform = .custom) (hz : c.wrap = 0) (hc : c.count ≤ c.frames.length) :
    ∀ (n : Nat) {phase wc : Int}, (0 ≤ phase ∧ phase < c.count) →
    c.waveVals n phase wc = .ok ((List.range n).map fun k => c.frames.getD ((phase.toNat + k) % c.count.toNat) 0, (phase + n) % c.count, wc)
  | 0, phase, wc, h => by
    simp only [UCore.waveVals, List.range_zero, List.map_nil]
    rw [Int.emod_eq_of_lt (by simpa using h.1) (by simpa using h.2)]
    simp
  | n + 1, phase, wc, h => by
    have hb : 0 ≤ (phase + 1) % c.count ∧ (phase + 1) % c.count < c.count :=
      ⟨Int.emod_nonneg _ (by omega), Int.emod_lt_of_pos _ (by omega)⟩
    simp only [UCore.waveVals, UCore.waveNext_custom hw hz h hc, ok_bind,
      UCore.waveVals_custom hw hz hc n (wc := wc) hb, pure_eq_ok]
    congr 2
    · rw [List.range_succ_eq_map, List.map_cons, List.map_map]
      have e0 : (phase.toNat + 0) % c.count.toNat = phase.toNat := Nat.mod_eq_of_lt (by omega)
      rw [e0]
      congr 1
      apply List.map_congr_left
      intro k _
      have e1 : ((phase + 1) % c.count).toNat = (phase.toNat + 1) % c.count.toNat := by
        have : (phase + 1) % c.count = ((phase.toNat + 1) % c.count.toNat : Nat) := by
          push_cast
          rw [Int.toNat_of_nonneg h.1, Int.toNat_of_nonneg (by omega)]
        rw [this]; rfl
      show c.frames.getD _ _ = c.frames.getD _ _
      rw [e1, Nat.mod_add_mod]
      congr 2
      simp; omega
    · rw [Int.emod_add_emod]
      push_cast
      congr 2
      ring

theorem UCore.vals_custom {c : UCore} (h : c.Inv) (hw : c.waveform = .custom) (hz : c.wrap = 0) (k : Nat) :
    c.vals k = c.frames.getD ((c.phase.toNat + k) % c.count.toNat) 0 := by
  have hph := h.phase
  rw [hw] at hph
  obtain ⟨h1, h2, h3⟩ := hph
  have hst : c.startPhase = c.phase := by
    unfold UCore.startPhase
    rw [if_neg (by rw [hw]; rintro ⟨h, -⟩; cases h)]
  have e := UCore.waveVals_custom hw hz h3 (k + 1) (wc := wrapU32 c.wrapCount) h1
  rw [← hst] at e
  rw [UCore.vals_eq h.waveOk.phase e (Nat.lt_succ_self k), getD_get _ (by simp)]
  simp [hst]

theorem UCore.vals_noise {c : UCore} (h : c.Inv) (hw : c.waveform = .noise) (k : Nat) :
    c.vals k = c.noiseVal c.startPhase (wrapU32 c.wrapCount) k := by
  have e := UCore.waveVals_noise hw (k + 1) c.startPhase (wrapU32 c.wrapCount)
  rw [UCore.vals_eq h.waveOk.phase e (Nat.lt_succ_self k), getD_get _ (by simp)]
  simp

theorem UCore.vals_two {c : UCore} (h : c.Inv) (hw : c.waveform = .noise) (k : Nat) : c.vals k = 16383 ∨ c.vals k = -16383 := by
  rw [UCore.vals_noise h hw]
  unfold UCore.noiseVal noiseLevel
  dsimp only
  split <;> simp

/-- Without phase wrap both levels occur among any 17 values. -/
theorem UCore.vals_both {c : UCore} (h : c.Inv) (hw : c.waveform = .noise) (hz : c.wrap = 0) (k : Nat) :
    (∃ j < 17, c.vals (k + j) = 16383) ∧ ∃ j < 17, c.vals (k + j) = -16383 := by
  have hst : 1 ≤ c.startPhase ∧ c.startPhase ≤ 65535 := by
    have := h.waveOk.phase.2
    rw [hw] at this
    exact this
  have hok := UCore.noiseAt_ok (c := c) k h.wrap hst
  have get : ∀ j, c.vals (k + j) = noiseLevel (noiseBit (c.noiseAt c.startPhase (wrapU32 c.wrapCount) k).1 j) := by
    intro j
    rw [UCore.vals_noise h hw, UCore.noiseVal_add, UCore.noiseVal_plain hok.1 (fun h => absurd hz h)]
  obtain ⟨j, hj, e1⟩ := noise_has_one hok.2
  obtain ⟨j', hj', e2⟩ := noise_has_zero hok.2
  exact ⟨⟨j, by omega, by rw [get j, e1]; rfl⟩, ⟨j', hj', by rw [get j', e2]; rfl⟩⟩

end BK
