import Verif.Spec.Held
import Verif.Lemmas.Score
import Verif.Lemmas.TrackNote
import Verif.Lemmas.UnitWave
/-!
A track that plays on without calls sends a train of steps.
-/
namespace BK

/-! What an update of the unit leaves alone. -/

/-- Waveform, frames, number of phases and last levels. -/
structure UCore.SameWave (c c' : UCore) : Prop where
  waveform : c'.waveform = c.waveform
  count : c'.count = c.count
  last : c'.lastPulse = c.lastPulse
  mute : c'.mute = c.mute
  frames : c'.frames = c.frames
  wrap : c'.wrap = c.wrap

theorem UCore.SameWave.refl (c : UCore) : c.SameWave c := ⟨rfl, rfl, rfl, rfl, rfl, rfl⟩

theorem UCore.SameWave.trans {a b c : UCore} (h : a.SameWave b) (h' : b.SameWave c) : a.SameWave c :=
  ⟨h'.waveform.trans h.waveform, h'.count.trans h.count, h'.last.trans h.last, h'.mute.trans h.mute,
    h'.frames.trans h.frames, h'.wrap.trans h.wrap⟩

/-- The attributes that a track sets when it updates its unit. -/
def UAttr.voice : UAttr → Bool
  | .dutyCycle | .period | .volume | .volumeOf _ | .samplePeriod => true
  | _ => false

theorem UCore.setAttr_wave {c : UCore} {a : UAttr} {v : Int} {r : Ret × UCore} (ha : a.voice = true)
    (h : c.setAttr a v = .ok r) : c.SameWave r.2 := by
  unfold UCore.setAttr at h
  cases a <;> first | (cases ha; done) | skip
  all_goals dsimp only at h
  case dutyCycle => split at h <;> cases h <;> exact ⟨rfl, rfl, rfl, rfl, rfl, rfl⟩
  case period =>
    obtain ⟨z, -, h⟩ := bind_ok_iff.1 h
    cases h; exact ⟨rfl, rfl, rfl, rfl, rfl, rfl⟩
  case samplePeriod =>
    obtain ⟨z, -, h⟩ := bind_ok_iff.1 h
    cases h; exact ⟨rfl, rfl, rfl, rfl, rfl, rfl⟩
  all_goals (cases h; exact ⟨rfl, rfl, rfl, rfl, rfl, rfl⟩)

theorem Track.setUnit_wave {t t' : Track} {a : UAttr} {v : Int} (ha : a.voice = true) (h : t.setUnit a v = .ok t') :
    t.unit.toUCore.SameWave t'.unit.toUCore := by
  obtain ⟨r, hr, rfl⟩ := Track.setUnit_eq h
  exact UCore.setAttr_wave ha hr

theorem Track.updateUnit_wave {x : Nat} {w : IWorld} {t t' : Track} (h : t.updateUnit x w = .ok t') :
    t.unit.toUCore.SameWave t'.unit.toUCore := by
  unfold Track.updateUnit at h
  obtain ⟨a, ha, h⟩ := bind_ok_iff.1 h
  obtain ⟨b, hb, h⟩ := bind_ok_iff.1 h
  have h1 : t.unit.toUCore.SameWave a.unit.toUCore := by
    unfold Track.flushVolume at ha
    split at ha
    · obtain ⟨u, hu, ha⟩ := bind_ok_iff.1 ha
      cases ha
      unfold Track.updateVolume at hu
      obtain ⟨m, -, hu⟩ := bind_ok_iff.1 hu
      split at hu
      · obtain ⟨c, -, hu⟩ := bind_ok_iff.1 hu
        obtain ⟨t1, h1, hu⟩ := bind_ok_iff.1 hu
        exact (Track.setUnit_wave rfl h1).trans (Track.setUnit_wave (t' := u) rfl hu)
      · exact Track.setUnit_wave (t' := u) rfl hu
    · cases ha; exact .refl _
  have h2 : a.unit.toUCore.SameWave b.unit.toUCore := by
    unfold Track.flushNote at hb
    split at hb
    · obtain ⟨u, hu, hb⟩ := bind_ok_iff.1 hb
      cases hb
      unfold Track.updateNote at hu
      split at hu
      · cases hu; exact .refl _
      · obtain ⟨n, -, hu⟩ := bind_ok_iff.1 hu
        split at hu
        · obtain ⟨p, -, hu⟩ := bind_ok_iff.1 hu
          obtain ⟨q, -, hu⟩ := bind_ok_iff.1 hu
          exact Track.setUnit_wave (t' := u) rfl hu
        · obtain ⟨p, -, hu⟩ := bind_ok_iff.1 hu
          obtain ⟨q, -, hu⟩ := bind_ok_iff.1 hu
          exact Track.setUnit_wave (t' := u) rfl hu
    · cases hb; exact .refl _
  have h3 : b.unit.toUCore.SameWave t'.unit.toUCore := by
    unfold Track.flushDuty at h
    split at h
    · obtain ⟨u, hu, h⟩ := bind_ok_iff.1 h
      cases h
      exact Track.setUnit_wave (t' := u) rfl hu
    · cases h; exact .refl _
  exact (h1.trans h2).trans h3

/-! Trains of steps. -/

/-- The level after step `j` of a train that began at phase `φ`. -/
def trainLevel (wave : Wave) (duty : Nat) (cnt φ : Nat) (vol : Int) (j : Nat) : Int :=
  level (wave.value duty ((φ + j) % cnt)) vol

/-- Step `j`: the difference to the level before. -/
def trainStep (lev : Nat → Int) (last : Int) (j : Nat) : Int := wrapI16 (lev j - (if j = 0 then last else lev (j - 1)))

/-- A unit after `j` steps of a train. -/
structure UCore.At (c : UCore) (W : Wave) (D M φ : Nat) (Q V L : Int) (i j : Nat) : Prop where
  inv : c.Inv
  wave : c.waveform = W
  cnt : W.phases = some M
  mute : c.mute = 0
  period : c.period = Q
  pos : 1 ≤ Q
  duty : c.dutyCycle = D
  vol : c.volume i = V
  loud : V ≠ 0
  phase : c.phase = ((φ + j) % M : Nat)
  last : c.lastPulse i = if j = 0 then L else trainLevel W D M φ V (j - 1)

theorem UCore.At.render {c : UCore} {wave : Wave} {duty cnt φ : Nat} {q vol last : Int} {i j : Nat} {n : Nat} (hi : i < n)
    (h : c.At wave duty cnt φ q vol last i j) (t0 : Int) {e : Int} (h0 : 0 ≤ e) (he : e ≤ 2147483648) :
    ∃ t' c' qs, c.render t0 e n = .ok (t', c', qs) ∧
      onChan i qs = (List.range (pulseCount t0 e q)).map (fun (k : Nat) =>
        (⟨i, t0 + k * q, trainStep (trainLevel wave duty cnt φ vol) last (j + k)⟩ : Pulse)) ∧
      t' = t0 + pulseCount t0 e q * q ∧ (c'.Inv → c'.At wave duty cnt φ q vol last i (j + pulseCount t0 e q)) := by
  have hinv := h.inv
  have hp1 : 1 ≤ c.period := by rw [h.period]; exact h.pos
  have hw : c.waveform.phases = some cnt := by rw [h.wave]; exact h.cnt
  have hv : c.volume i ≠ 0 := by rw [h.vol]; exact h.loud
  have hc := hinv.phase
  have hph : 0 ≤ c.phase ∧ c.phase < cnt := by
    unfold PhaseInv at hc
    unfold Wave.phases at hw
    cases hwv : c.waveform <;> rw [hwv] at hw hc <;> dsimp only at hw hc <;> cases hw <;>
      exact hc.1
  have ht : c.waveform.tabled := by
    unfold Wave.phases at hw
    constructor <;> intro h <;> rw [h] at hw <;> cases hw
  have hst : c.startPhase = c.phase := by
    unfold UCore.startPhase
    rw [if_neg]
    rintro ⟨h, -⟩
    unfold Wave.phases at hw
    rw [h] at hw
    cases hw
  have hvals := UCore.waveVals_table hw hinv.duty (pulseCount t0 e c.period)
    (wc := wrapU32 c.wrapCount) hph
  rw [← hst] at hvals
  have hr := UCore.render_eq ht hinv.waveOk hp1 (by have := hinv.period; omega) h.mute h0 hvals n
  have hon : c.on n = true := by
    unfold UCore.on
    rw [List.any_eq_true]
    exact ⟨i, by simpa using hi, by simpa using hv⟩
  have hval : ∀ k, c.waveform.value c.dutyCycle.toNat ((c.startPhase.toNat + k) % cnt) =
      wave.value duty ((φ + (j + k)) % cnt) := by
    intro k
    rw [h.wave, h.duty, hst, h.phase, Int.toNat_natCast, Int.toNat_natCast, Nat.mod_add_mod, Nat.add_assoc]
  simp only [hval] at hr
  rw [h.period] at hr hvals
  generalize hvs : ((List.range (pulseCount t0 e q)).map fun k => wave.value duty ((φ + (j + k)) % cnt)) = vs at hr
  have hlv : vs.length = pulseCount t0 e q := by rw [← hvs]; simp
  have hget : ∀ k, k < pulseCount t0 e q → vs.getD k 0 = wave.value duty ((φ + (j + k)) % cnt) := by
    intro k hk
    rw [← hvs, getD_get _ (by simpa using hk)]
    simp
  refine ⟨_, _, _, hr, ?_, ?_, ?_⟩
  · rw [UCore.flat_chan, if_pos hi]
    apply List.ext_getElem?
    intro k
    by_cases hk : k < pulseCount t0 e q
    · rw [UCore.chanPulses_get hv (by omega), hget k hk, List.getElem?_map, List.getElem?_range hk, h.period, h.vol]
      simp only [Option.map_some]
      congr 2
      unfold trainStep
      congr 2
      by_cases hk0 : k = 0
      · subst hk0
        rw [if_pos rfl, h.last, Nat.add_zero]
      · rw [if_neg hk0, if_neg (by omega), hget (k - 1) (by omega)]
        unfold trainLevel
        rw [show j + k - 1 = j + (k - 1) by omega]
    · rw [List.getElem?_eq_none (by rw [UCore.chanPulses_length hv]; omega), List.getElem?_eq_none (by simp; omega)]
  · rw [hon, if_pos rfl]
  · intro hinv'
    refine { inv := hinv', wave := h.wave, cnt := h.cnt, mute := h.mute, period := h.period, pos := h.pos,
             duty := h.duty, vol := h.vol, loud := h.loud, phase := ?_, last := ?_ }
    · unfold UCore.afterWave
      simp only [hon, if_true]
      rw [hst, h.phase]
      push_cast
      rw [Int.emod_add_emod, Int.add_assoc]
    · unfold UCore.afterWave
      simp only [hi, hv, ne_eq, not_false_iff, and_self, if_true]
      unfold lastLevel
      by_cases hm : pulseCount t0 e q = 0
      · have : vs = [] := List.length_eq_zero_iff.1 (by omega)
        rw [this, hm]
        simp only [List.map_nil, List.getLastD_nil, Nat.add_zero]
        exact h.last
      · rw [if_neg (by omega), List.getLastD_eq_getLast?, List.getLast?_eq_getElem?, List.getElem?_map, List.length_map, hlv]
        have hk := hget (pulseCount t0 e q - 1) (by omega)
        rw [getD_get _ (by omega)] at hk
        rw [List.getElem?_eq_getElem (by omega), hk]
        simp only [Option.map_some, Option.getD_some]
        unfold trainLevel
        rw [h.vol, show j + pulseCount t0 e q - 1 = j + (pulseCount t0 e q - 1) by omega]

/-! A track that plays on. -/

variable {N : Nat}

/-- A track plays on for any time; its unit keeps its volumes. -/
theorem Track.Inv.held {x : Nat} {w : IWorld} : ∀ (ds : List Int) (T : Int) {t : Track}, t.Inv N False → t.ctx ≠ none → t.Clean →
    0 ≤ t.unit.time → t.unit.time ≤ 2147483647 → (∀ d ∈ ds, 0 ≤ d ∧ d ≤ 1073741824) →
    ∃ u ps, t.hold x w T ds = .ok ({ t with unit := u }, ps) ∧ u.volume = t.unit.volume
  | [], _, t, _, _, _, _, _, _ => ⟨t.unit, [], rfl, rfl⟩
  | d :: ds, T, t, h, hc, hcl, h0, h1, hd => by
    obtain ⟨c, hcc⟩ : ∃ c, t.ctx = some c := by
      cases e : t.ctx with
      | none => exact absurd e hc
      | some c => exact ⟨c, rfl⟩
    have hn := (h.ctx c hcc).2.2
    have hd0 := hd d List.mem_cons_self
    have huse : t.unit.toUCore.Usable N := ⟨h.unit.inv, h.unit.sinv⟩
    obtain ⟨τ1, c1, p1, a1, -, a3, a4, -, -⟩ := huse.render (t0 := t.unit.time) (e := d) (by omega) (by omega) hd0.1 (by omega)
    have hfine : c1.Fine N False := by
      obtain ⟨r, e1, e2⟩ := (UCore.render_fine h.unit t.unit.time hd0.1 (by omega)).get trivial
      rw [a1] at e1
      cases e1
      exact e2
    have hr := Track.run_ok (hcl.updateUnit x w) hcc hn a1
    obtain ⟨u, ps, hq, hv⟩ := Track.Inv.held (x := x) (w := w) ds (T + d)
      (t := Track.sooner d { t with unit := { toUCore := c1, time := τ1 } }) { h with unit := hfine } hc hcl
      (by unfold Track.sooner; dsimp only; omega) (by unfold Track.sooner; dsimp only; omega) (fun d' h' => hd d' (List.mem_cons_of_mem _ h'))
    refine ⟨u, p1.map (Pulse.later T) ++ ps, ?_, ?_⟩
    · unfold Track.hold
      rw [hr, ok_bind]
      unfold Track.sooner at hq
      dsimp only at hq ⊢
      rw [hq]
      rfl
    · rw [hv]
      exact (UCore.render_tone a1).volume

theorem pulseCount_parts {p : Int} (hp : 1 ≤ p) {t a b : Int} (hb : 0 ≤ b) :
    pulseCount t (a + b) p = pulseCount t a p + pulseCount (t + pulseCount t a p * p) (a + b) p := by
  have k : ∀ k : Nat, k < pulseCount t (a + b) p ↔ k < pulseCount t a p + pulseCount (t + pulseCount t a p * p) (a + b) p := by
    intro k
    rw [pulseCount_iff hp]
    by_cases h : k < pulseCount t a p
    · have := (pulseCount_iff hp a k t).1 h
      constructor <;> intro <;> omega
    · obtain ⟨m, rfl⟩ : ∃ m, k = pulseCount t a p + m := ⟨k - pulseCount t a p, by omega⟩
      have := pulseCount_iff hp (a + b) m (t + pulseCount t a p * p)
      rw [show t + ((pulseCount t a p + m : Nat) : Int) * p = t + (pulseCount t a p : Nat) * p + m * p by push_cast; ring]
      omega
  have k1 := k (pulseCount t (a + b) p)
  have k2 := k (pulseCount t a p + pulseCount (t + pulseCount t a p * p) (a + b) p)
  omega

theorem sum_nonneg_int : ∀ (l : List Int), (∀ d ∈ l, 0 ≤ d) → 0 ≤ l.sum
  | [], _ => Int.le_refl _
  | d :: l, h => by
    rw [List.sum_cons]
    have h1 := h d List.mem_cons_self
    have h2 := sum_nonneg_int l fun x hx => h x (List.mem_cons_of_mem _ hx)
    omega

/-- The steps of a held track are one train. -/
theorem Track.Inv.held_train {x : Nat} {w : IWorld} {wave : Wave} {duty cnt φ : Nat} {q vol last : Int} {i : Nat} (hi : i < N) :
    ∀ (ds : List Int) (T : Int) {t : Track} (j : Nat), t.Inv N False → t.ctx ≠ none → t.Clean →
    t.unit.toUCore.At wave duty cnt φ q vol last i j →
    0 ≤ t.unit.time → t.unit.time ≤ 2147483647 → (∀ d ∈ ds, 0 ≤ d ∧ d ≤ 1073741824) → ∀ {r}, t.hold x w T ds = .ok r →
    onChan i r.2 = (List.range (pulseCount t.unit.time ds.sum q)).map (fun (k : Nat) =>
        (⟨i, T + t.unit.time + k * q, trainStep (trainLevel wave duty cnt φ vol) last (j + k)⟩ : Pulse))
  | [], _, t, j, _, _, _, _, h0, _, _, r, hr => by
    cases hr
    rw [List.sum_nil, pulseCount_zero (by omega)]
    rfl
  | d :: ds, T, t, j, h, hc, hcl, hat, h0, h1, hd, r, hr => by
    obtain ⟨c, hcc⟩ : ∃ c, t.ctx = some c := by
      cases e : t.ctx with
      | none => exact absurd e hc
      | some c => exact ⟨c, rfl⟩
    have hn := (h.ctx c hcc).2.2
    have hd0 := hd d List.mem_cons_self
    obtain ⟨τ1, c1, p1, a1, a2, a3, a4⟩ := hat.render hi t.unit.time hd0.1 (by omega)
    have huse : t.unit.toUCore.Usable N := ⟨h.unit.inv, h.unit.sinv⟩
    obtain ⟨_, _, _, b1, -, b3, b4, -, -⟩ := huse.render (t0 := t.unit.time) (e := d) (by omega) (by omega) hd0.1 (by omega)
    rw [a1] at b1
    cases b1
    have hfine : c1.Fine N False := by
      obtain ⟨r, e1, e2⟩ := (UCore.render_fine h.unit t.unit.time hd0.1 (by omega)).get trivial
      rw [a1] at e1
      cases e1
      exact e2
    have hr1 := Track.run_ok (hcl.updateUnit x w) hcc hn a1
    unfold Track.hold at hr
    rw [hr1, ok_bind] at hr
    obtain ⟨r', hq, hr⟩ := bind_ok_iff.1 hr
    cases hr
    have ih := Track.Inv.held_train (x := x) (w := w) hi ds (T + d) (j + pulseCount t.unit.time d q)
      (t := Track.sooner d { t with unit := { toUCore := c1, time := τ1 } }) { h with unit := hfine } hc hcl (a4 hfine.inv)
      (by unfold Track.sooner; dsimp only; omega) (by unfold Track.sooner; dsimp only; omega) (fun d' h' => hd d' (List.mem_cons_of_mem _ h')) hq
    dsimp only
    rw [onChan_append, onChan_later, a2, ih]
    have hs : 0 ≤ ds.sum := sum_nonneg_int ds fun d' h' => (hd d' (List.mem_cons_of_mem _ h')).1
    have e1 : (Track.sooner d { t with unit := { toUCore := c1, time := τ1 } }).unit.time = τ1 - d := rfl
    have hsh : pulseCount (τ1 - d) ds.sum q = pulseCount τ1 (d + ds.sum) q := by
      have k : ∀ k : Nat, k < pulseCount (τ1 - d) ds.sum q ↔ k < pulseCount τ1 (d + ds.sum) q := by
        intro k
        rw [pulseCount_iff hat.pos, pulseCount_iff hat.pos]
        omega
      have k1 := k (pulseCount (τ1 - d) ds.sum q)
      have k2 := k (pulseCount τ1 (d + ds.sum) q)
      omega
    have hpc := pulseCount_parts hat.pos (t := t.unit.time) (a := d) hs
    rw [← a3] at hpc
    rw [e1, hsh, List.sum_cons, hpc, List.range_add, List.map_append, List.map_map, List.map_map]
    congr 1
    · apply List.map_congr_left
      intro k _
      show Pulse.later T _ = _
      unfold Pulse.later
      dsimp only
      congr 1
      omega
    · apply List.map_congr_left
      intro k _
      dsimp only [Function.comp]
      rw [show j + pulseCount t.unit.time d q + k = j + (pulseCount t.unit.time d q + k) by omega]
      congr 1
      rw [a3]
      push_cast
      ring

end BK
