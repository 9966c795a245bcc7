import Verif.Spec.Swing
import Verif.Lemmas.Fade
import Verif.Props.Osc
/-!
Vibrato and tremolo of tracks.
-/
namespace BK

theorem Osc.ticks_add_one {s t : Osc} {j : Nat} (h : s.ticks j = .ok t) : s.ticks (j + 1) = t.tick := by
  induction j generalizing s with
  | zero =>
    cases h
    unfold Osc.ticks
    cases hs : t.tick with
    | error e => rfl
    | ok a => rw [ok_bind]; rfl
  | succ j ih =>
    unfold Osc.ticks at h ⊢
    obtain ⟨a, ha, h⟩ := bind_ok_iff.1 h
    rw [ha, ok_bind]
    exact ih h

/-- Turned off, then on: the beginning of the triangle. -/
theorem Osc.restart {k : Nat} {m D n : Int} {s : Osc} (h : s.Near k m) (hk : (2 : Int) ^ k ≤ 16777216) (hm : 0 ≤ m) (h0 : 0 ≤ D) (h1 : D ≤ m)
    (hn : 0 < n) (hn2 : n ≤ 65536) (d0 : Int) :
    ∃ a b, s.setDeltaAndSteps d0 0 = .ok a ∧ a.setDeltaAndSteps D n = .ok b ∧ b.Near k m ∧ b.delta = D * 2 ^ k ∧
      b.steps = n ∧ b.phase = 0 ∧ b.step = 0 ∧ b.roundBias < 2 ^ k := by
  have ha : s.setDeltaAndSteps d0 0 = .ok { s with delta := 0, steps := 0, value := 0, stepDelta := 0, phase := 0, step := 0 } := by
    unfold Osc.setDeltaAndSteps
    dsimp only
    rw [cclamp_self (v := 0) (by decide) (by decide), if_neg (by decide)]
    rfl
  obtain ⟨a', ha', na⟩ := h.set hk (d := 0) (n := 0) (by omega) hm (by omega)
  have ea : a' = { s with delta := 0, steps := 0, value := 0, stepDelta := 0, phase := 0, step := 0 } := by
    unfold Osc.setDeltaAndSteps at ha'
    dsimp only at ha'
    rw [cclamp_self (v := 0) (by decide) (by decide), if_neg (by decide)] at ha'
    exact (Except.ok.inj ha').symm
  subst ea
  obtain ⟨b, hb, nb⟩ := na.set hk (d := D) (n := n) (by omega) h1 (by omega)
  refine ⟨_, b, ha, hb, nb, ?_⟩
  have hr := h.inv.range
  have hs := h.shift
  have hP := two_pow_pos k
  have d0' : 0 ≤ D * 2 ^ k := Int.mul_nonneg h0 (by omega)
  have d1 : D * 2 ^ k ≤ m * 2 ^ k := Int.mul_le_mul_of_nonneg_right h1 (by omega)
  rw [hs] at hr
  unfold Osc.setDeltaAndSteps at hb
  dsimp only at hb
  rw [cclamp_self (by omega) (by omega), if_pos (by omega), hs, i32_ok (by omega) (by omega), ok_bind, if_pos (Or.inl (by omega))] at hb
  obtain ⟨st, hst, hb⟩ := bind_ok_iff.1 hb
  obtain ⟨rb, hrb, hb⟩ := bind_ok_iff.1 hb
  obtain ⟨rb', e', _, _, e4, _⟩ := roundBias_ok (k := k) (delta := D * 2 ^ k) (steps := n) (by have := h.inv.shift; rw [hs] at this; exact this) (by omega)
    hn (by omega)
  rw [e'] at hrb
  cases hrb
  have hst0 : st = 0 := by
    unfold Osc.rescale at hst
    simpa using hst.symm
  subst hst0
  obtain ⟨q, hq, hb⟩ := bind_ok_iff.1 hb
  cases hb
  exact ⟨rfl, rfl, rfl, rfl, e4 d0'⟩

/-- The values it reports. -/
theorem Osc.swings {k : Nat} {m D : Int} {n : Nat} {b : Osc} (h : b.Near k m) (hd : b.delta = D * 2 ^ k) (hD : 0 ≤ D) (hst : b.steps = n) (hn : 0 < n)
    (hp : b.phase = 0) (hs : b.step = 0) (hb : b.roundBias < 2 ^ k) {q : Int} (hq : 2 ^ k + n ≤ q * 2 ^ k) :
    ∃ r, Swings q D n r ∧ ∀ j, ∃ t, b.ticks j = .ok t ∧ t.get = .ok (r j) := by
  have hP := two_pow_pos k
  have hb0 := h.inv.bias.1
  have h0 : b.steps ≠ 0 := by omega
  have e0 := Osc.eq_canon_zero h.inv h0 hp hs
  have hN : b.steps.toNat = n := by omega
  have hi : b.inc = (D * 2 ^ k).tdiv n := by unfold Osc.inc; rw [hd, hst]
  have hq0 : 0 ≤ q := by
    by_contra hc
    have := Int.mul_le_mul_of_nonneg_right (show q ≤ -1 by omega) (show (0 : Int) ≤ 2 ^ k by omega)
    omega
  have hqn : 0 ≤ q * n := Int.mul_nonneg hq0 (by omega)
  have htri : ∀ j, -(D * 2 ^ k) ≤ triangle (D * 2 ^ k) b.inc n j ∧ triangle (D * 2 ^ k) b.inc n j ≤ D * 2 ^ k := by
    intro j
    have hm := Nat.mod_lt j hn
    have := (inc_between (d := D * 2 ^ k) (n := n) (j := ((j % n : Nat) : Int)) (by omega) (by omega) (by omega)).1 (Int.mul_nonneg hD (by omega))
    rw [← hi] at this
    unfold triangle
    dsimp only
    split <;> omega
  refine ⟨fun j => (triangle (D * 2 ^ k) b.inc n j + b.roundBias) / 2 ^ k, ?_, fun j => ⟨b.canon j, ?_, ?_⟩⟩
  · -- exact points
    have pt : ∀ (c : Int) (j : Nat), triangle (D * 2 ^ k) b.inc n j = c * 2 ^ k → (triangle (D * 2 ^ k) b.inc n j + b.roundBias) / 2 ^ k = c := by
      intro c j e
      rw [e, Int.add_comm, Int.add_mul_ediv_right _ _ (by omega), Int.ediv_eq_zero_of_lt hb0 hb]
      omega
    obtain ⟨q0, q1, q2, q3⟩ := C17_quarters (D * 2 ^ k) b.inc hn
    have p0 := pt 0 0 (by rw [q0]; omega)
    have p1 := pt D n q1
    have p2 := pt 0 (2 * n) (by rw [q2]; omega)
    have p3 := pt (-D) (3 * n) (by rw [q3, Int.neg_mul])
    have p4 := pt 0 (4 * n) (by
      have := (C17_shape (D * 2 ^ k) b.inc hn 0).1
      rw [Nat.zero_add] at this
      rw [this, q0]; omega)
    have qt : ∀ (c j : Nat), j < n → c < 4 → (c * n + j) / n % 4 = c ∧ (c * n + j) % n = j := by
      intro c j hj hc
      have a1 : (c * n + j) / n = c := by
        rw [Nat.add_comm, Nat.add_mul_div_right _ _ hn, Nat.div_eq_of_lt hj]; omega
      have a2 : (c * n + j) % n = j := by
        rw [Nat.add_comm, Nat.add_mul_mod_self_right, Nat.mod_eq_of_lt hj]
      rw [a1, a2]
      exact ⟨Nat.mod_eq_of_lt hc, rfl⟩
    refine ⟨p0, p1, p2, p3, fun j => ?_, fun j => ?_, fun j hj => ?_, fun j hj => ?_, fun j hj => ?_, fun j hj => ?_⟩
    · obtain ⟨t1, t2⟩ := htri j
      constructor
      · apply Int.le_ediv_of_mul_le hP
        rw [Int.neg_mul]; omega
      · have : (triangle (D * 2 ^ k) b.inc n j + b.roundBias) / 2 ^ k < D + 1 := by
          apply Int.ediv_lt_of_lt_mul hP
          rw [Int.add_mul]; omega
        omega
    · rw [(C17_shape (D * 2 ^ k) b.inc hn j).1]
    · by_cases hjn : j < n
      · obtain ⟨a1, a2⟩ := qt 0 j hjn (by omega)
        rw [Nat.zero_mul, Nat.zero_add] at a1 a2
        have := near_line (S := 0) (v := D) (n := n) (P := 2 ^ k) (b := b.roundBias) (q := q) (δ := b.inc)
          (r := (triangle (D * 2 ^ k) b.inc n j + b.roundBias) / 2 ^ k) (j := j) hP (by omega) (by omega) hb0 hb (by rw [Int.sub_zero, hi])
          (by unfold triangle; simp only [a1, a2]; rw [Int.mul_comm b.inc]; ring_nf) hq
        rw [Int.sub_zero, Int.sub_zero] at this
        exact this
      · have : j = n := by omega
        subst this
        rw [p1]; omega
    · by_cases hjn : j < n
      · obtain ⟨a1, a2⟩ := qt 1 j hjn (by omega)
        rw [Nat.one_mul] at a1 a2
        have := near_line (S := D) (v := 0) (n := n) (P := 2 ^ k) (b := b.roundBias) (q := q) (δ := -b.inc)
          (r := (triangle (D * 2 ^ k) b.inc n (n + j) + b.roundBias) / 2 ^ k) (j := j) hP (by omega) (by omega) hb0 hb
          (by rw [hi, ← Int.neg_tdiv]; ring_nf)
          (by unfold triangle; simp only [a1, a2]; ring_nf) hq
        have e : ∀ R : Int, (R - D) * n - (0 - D) * j = R * n - D * (n - j) := fun R => by ring
        rw [e] at this
        exact this
      · have : j = n := by omega
        subst this
        rw [show j + j = 2 * j by omega, p2]
        simp only [Int.zero_mul, Int.sub_self, Int.mul_zero]; omega
    · by_cases hjn : j < n
      · obtain ⟨a1, a2⟩ := qt 2 j hjn (by omega)
        have := near_line (S := 0) (v := -D) (n := n) (P := 2 ^ k) (b := b.roundBias) (q := q) (δ := -b.inc)
          (r := (triangle (D * 2 ^ k) b.inc n (2 * n + j) + b.roundBias) / 2 ^ k) (j := j) hP (by omega) (by omega) hb0 hb
          (by rw [hi, ← Int.neg_tdiv]; ring_nf)
          (by unfold triangle; simp only [a1, a2]; ring_nf) hq
        have e : ∀ R : Int, (R - 0) * n - (-D - 0) * j = R * n + D * j := fun R => by ring
        rw [e] at this
        exact this
      · have : j = n := by omega
        subst this
        rw [show 2 * j + j = 3 * j by omega, p3, Int.neg_mul]
        omega
    · by_cases hjn : j < n
      · obtain ⟨a1, a2⟩ := qt 3 j hjn (by omega)
        have := near_line (S := -D) (v := 0) (n := n) (P := 2 ^ k) (b := b.roundBias) (q := q) (δ := b.inc)
          (r := (triangle (D * 2 ^ k) b.inc n (3 * n + j) + b.roundBias) / 2 ^ k) (j := j) hP (by omega) (by omega) hb0 hb
          (by rw [hi]; ring_nf)
          (by unfold triangle; simp only [a1, a2]; ring_nf) hq
        have e : ∀ R : Int, (R - -D) * n - (0 - -D) * j = R * n + D * (n - j) := fun R => by ring
        rw [e] at this
        exact this
      · have : j = n := by omega
        subst this
        rw [show 3 * j + j = 4 * j by omega, p4]
        simp only [Int.zero_mul, Int.sub_self, Int.mul_zero]; omega
  · have := Osc.canon_ticks h.inv h0 j 0
    rw [← e0] at this
    rw [this, Nat.zero_add]
  · unfold Osc.get
    have hv : (b.canon j).value = triangle (D * 2 ^ k) b.inc n j := by
      unfold Osc.canon; dsimp only; rw [hN, hd]
    have hrb : (b.canon j).roundBias = b.roundBias := rfl
    have hvs : (b.canon j).valueShift = k := h.shift
    have hr := h.inv.range
    have hbu := h.inv.bias.2
    have hdb := h.inv.delta_bound
    rw [h.shift] at hr
    rw [hd, h.shift] at hdb
    obtain ⟨t1, t2⟩ := htri j
    rw [hv, hrb, hvs, i32_ok (by omega) (by omega), ok_bind]
    rfl

/-- Steps of the effects while the vibrato is not changed. -/
theorem times_vibrato {vs ps tr : Bool} : ∀ (j : Nat) {f g : Fx}, f.vibrato.2.1.steps = 0 → times (Fx.step vs ps tr true) j f = .ok g →
    f.vibrato.1.ticks j = .ok g.vibrato.1 ∧ g.vibrato.2.1.steps = 0
  | 0, f, g, h0, h => by cases h; exact ⟨rfl, h0⟩
  | j + 1, f, g, h0, h => by
    unfold times at h
    obtain ⟨a, ha, h⟩ := bind_ok_iff.1 h
    obtain ⟨i1, i2⟩ := times_vibrato j h0 ha
    rw [Osc.ticks_add_one i1]
    unfold Fx.step at h
    obtain ⟨b, hb, h⟩ := bind_ok_iff.1 h
    obtain ⟨c, hc, h⟩ := bind_ok_iff.1 h
    obtain ⟨d, hd, h⟩ := bind_ok_iff.1 h
    obtain ⟨e, he, h⟩ := bind_ok_iff.1 h
    cases h
    unfold tickOsc at he
    rw [if_pos rfl, if_neg (by omega)] at he
    obtain ⟨o, ho, he⟩ := bind_ok_iff.1 he
    cases he
    exact ⟨ho, i2⟩

/-- Steps of the effects while the tremolo is not changed and the volume does not slide. -/
theorem times_tremolo {ps vi : Bool} : ∀ (j : Nat) {f g : Fx}, f.tremolo.2.1.steps = 0 → times (Fx.step false ps true vi) j f = .ok g →
    f.tremolo.1.ticks j = .ok g.tremolo.1 ∧ g.tremolo.2.1.steps = 0 ∧ g.volume = f.volume
  | 0, f, g, h0, h => by cases h; exact ⟨rfl, h0, rfl⟩
  | j + 1, f, g, h0, h => by
    unfold times at h
    obtain ⟨a, ha, h⟩ := bind_ok_iff.1 h
    obtain ⟨i1, i2, i3⟩ := times_tremolo j h0 ha
    rw [Osc.ticks_add_one i1]
    unfold Fx.step at h
    obtain ⟨b, hb, h⟩ := bind_ok_iff.1 h
    obtain ⟨c, hc, h⟩ := bind_ok_iff.1 h
    obtain ⟨d, hd, h⟩ := bind_ok_iff.1 h
    obtain ⟨e, he, h⟩ := bind_ok_iff.1 h
    cases h
    unfold tickOsc at hd
    rw [if_pos rfl, if_neg (by omega)] at hd
    obtain ⟨o, ho, hd⟩ := bind_ok_iff.1 hd
    cases hd
    cases hb
    exact ⟨ho, i2, i3⟩

theorem times_still : ∀ (j : Nat) {f g : Slide}, times (fun a => Slide.tickIf a false) j f = .ok g → g = f
  | 0, f, g, h => by cases h; rfl
  | j + 1, f, g, h => by
    unfold times at h
    obtain ⟨a, ha, h⟩ := bind_ok_iff.1 h
    cases h
    exact times_still j ha

/-- What a tick gives to the unit while the tremolo is on: the volume, lowered by its amplitude before the step. -/
theorem Track.tick_tremolo {x : Nat} {w : IWorld} {t : Track} {s : IWorld × Track} (h : t.tick x w = .ok s)
    (hon : w.on x = false) (htr : t.tremoloOn = true) {z : Int} (hz : t.tremolo.get = .ok z) (hz0 : -32767 ≤ z) (hz1 : z ≤ 32767) (hig : t.ignores = false)
    (hp : t.panningOn = false ∨ t.panning.get = .ok 0) {v : Int} (hv : t.volume.get = .ok v) (h0 : 0 ≤ v)
    (h1 : v ≤ 32767) (hm0 : 0 ≤ t.masterVolume) (hm1 : t.masterVolume ≤ 32767) :
    s.2.unit.volume = fun _ => v * (32767 - z.natAbs) / 32768 * t.masterVolume / 32768 := by
  have tb0 : 0 ≤ v * (32767 - z.natAbs) / 32768 := scale_nonneg h0 (by omega)
  have tb1 : v * (32767 - z.natAbs) / 32768 ≤ v := scale_le h0 (by omega)
  obtain ⟨t1, r, t2, g1, gr, g2, g3, e⟩ := Track.tick_stages h
  obtain ⟨a, d, n, rfl⟩ := Track.arpeggioTick_same g1
  obtain ⟨d', -, -, -, hno⟩ := Track.instrTick_same gr
  obtain ⟨rfl, -⟩ := hno hon
  dsimp only at g2 e
  obtain ⟨a', b, c, d'', e', f, g, i, j, k, g3⟩ := Track.effectsTick_same g3
  rw [g3]
  show t2.unit.volume = _
  unfold Track.updateUnit at g2
  obtain ⟨u1, hu1, g2⟩ := bind_ok_iff.1 g2
  obtain ⟨u2, hu2, g2⟩ := bind_ok_iff.1 g2
  have k2 : t2.unit.volume = u2.unit.volume := by
    unfold Track.flushDuty at g2
    split at g2
    · obtain ⟨y, hy, g2⟩ := bind_ok_iff.1 g2
      cases g2
      exact (Track.updateDuty_else hy).2.2.2.1
    · cases g2; rfl
  have k1 : u2.unit.volume = u1.unit.volume := by
    unfold Track.flushNote at hu2
    split at hu2
    · obtain ⟨y, hy, hu2⟩ := bind_ok_iff.1 hu2
      cases hu2
      exact (Track.updateNote_else hy).1
    · cases hu2; rfl
  rw [k2, k1]
  unfold Track.flushVolume at hu1
  rw [if_pos (by simp [Track.flagEffects, htr])] at hu1
  obtain ⟨y, hy, hu1⟩ := bind_ok_iff.1 hu1
  cases hu1
  show y.unit.volume = _
  unfold Track.updateVolume at hy
  obtain ⟨m, hm, hy⟩ := bind_ok_iff.1 hy
  have hmm : m.1 = v * (32767 - z.natAbs) / 32768 * t.masterVolume / 32768 ∧ (t.panning.get = .ok 0 → m.2 = 0) := by
    unfold Track.mix at hm
    obtain ⟨v1, hv1, hm⟩ := bind_ok_iff.1 hm
    obtain ⟨p1, hp1, hm⟩ := bind_ok_iff.1 hm
    obtain ⟨v2, hv2, hm⟩ := bind_ok_iff.1 hm
    obtain ⟨p2, hp2, hm⟩ := bind_ok_iff.1 hm
    obtain ⟨v3, hv3, hm⟩ := bind_ok_iff.1 hm
    obtain ⟨v4, hv4, hm⟩ := bind_ok_iff.1 hm
    cases hm
    obtain ⟨u, hu, e1⟩ := Track.ownVolume_ok hv1
    have hu : t.volume.get = .ok u := hu
    rw [hv] at hu
    cases hu
    have e1 : v1 = if t.ignores = true ∧ v ≠ 0 then 32767 else v := e1
    rw [hig] at e1
    simp at e1
    have e2 := scaleIf_ok hv2
    rw [hon] at e2
    simp at e2
    have e3 : v3 = v2 * (32767 - z.natAbs) / 32768 := by
      rcases Track.tremoloVolume_ok hv3 with ⟨-, -, z', hz', a, ha, q⟩ | ⟨q, -⟩
      · have hz' : t.tremolo.get = .ok z' := hz'
        rw [hz] at hz'
        cases hz'
        have hab : a = z.natAbs := by
          unfold cabs at ha
          split at ha
          · obtain ⟨-, rfl⟩ := i32_eq_ok_iff.1 ha; omega
          · cases ha; omega
        rw [q, hab]
      · rcases q with q | q
        · have q : t.tremoloOn = false := q
          rw [htr] at q; cases q
        · have q : t.ignores = true := q
          rw [hig] at q; cases q
    have e4 := scaleIf_ok hv4
    simp only [if_true] at e4
    rw [e3, e2, e1, cclamp_self tb0 (by omega)] at e4
    refine ⟨e4, fun hz => ?_⟩
    have hp1 : t.panning.get = .ok p1 := hp1
    rw [hz] at hp1
    cases hp1
    rw [hon] at hp2
    cases hp2
    rfl
  rw [if_neg (by
    rintro ⟨q1, q2⟩
    rcases hp with hp | hp
    · have q2 : t.panningOn = true := q2
      rw [hp] at q2; cases q2
    · exact q1 (hmm.2 hp))] at hy
  cases hy
  show (fun _ => cclamp m.1 0 32767) = _
  rw [hmm.1]
  have l1 := scale_nonneg tb0 hm0
  have l2 := scale_le tb0 hm1
  rw [cclamp_self l1 (by omega)]

theorem Track.noteSum_vibrato {x : Nat} {w : IWorld} {t : Track} {note n z : Int} (hv : t.vibratoOn = true) (hn : t.note.get = .ok note)
    (hz : t.vibrato.get = .ok z) (h : t.noteSum x w = .ok n) :
    n = note + (if t.arpeggioOn = true then t.arp.delta else 0) + z + (if w.on x = true then w.value x 2 else 0) + t.pitch := by
  unfold Track.noteSum at h
  rw [hn, ok_bind] at h
  obtain ⟨a, ha, h⟩ := bind_ok_iff.1 h
  unfold Track.noteSum.vib at h
  rw [hv, if_pos rfl, hz, ok_bind] at h
  obtain ⟨b, hb, h⟩ := bind_ok_iff.1 h
  obtain ⟨c, hc, h⟩ := bind_ok_iff.1 h
  have h1 := addIf_ok ha
  have h2 := addIf_ok hc
  have h3 := (i32_eq_ok_iff.1 h).2
  have h4 := (i32_eq_ok_iff.1 hb).2
  omega

/-- What a tick gives to the unit while the vibrato is on: the period of the note moved by the vibrato before the step. -/
theorem Track.tick_vibrato {N : Nat} {x : Nat} {w : IWorld} {t : Track} {s : IWorld × Track} (hi : t.Inv N False) (h : t.tick x w = .ok s)
    (hon : w.on x = false) (hvi : t.vibratoOn = true) (har : t.arpeggioOn = false)
    {rate chans : Int} (hc : t.ctx = some (rate, chans)) {cnt : Nat} (hw : t.unit.waveform.phases = some cnt)
    (hwt : t.waveform ≠ 16391) {v z : Int} (hv : t.note.get = .ok v) (hz : t.vibrato.get = .ok z) :
    s.2.unit.period = exactPeriod (v + z + t.pitch) rate / cnt ∧ s.2.unit.waveform = t.unit.waveform ∧ 1 ≤ exactPeriod (v + z + t.pitch) rate / cnt ∧
      exactPeriod (v + z + t.pitch) rate / cnt ≤ 2147483647 := by
  have hph := hi.unit.inv.phase
  obtain ⟨t1, r, t2, g1, gr, g2, g3, e⟩ := Track.tick_stages h
  unfold Track.arpeggioTick at g1
  rw [if_neg (by show ¬ t.arpeggioOn = true; rw [har]; exact fun q => by cases q)] at g1
  cases g1
  obtain ⟨d', -, -, -, hno⟩ := Track.instrTick_same gr
  obtain ⟨rfl, -⟩ := hno hon
  dsimp only at g2 e
  have huw := Track.updateUnit_wave g2
  obtain ⟨a', b, c, d'', e', f, g, i, j, k, g3⟩ := Track.effectsTick_same g3
  rw [g3]
  show t2.unit.period = _ ∧ t2.unit.waveform = _ ∧ _
  unfold Track.updateUnit at g2
  obtain ⟨u1, hu1, g2⟩ := bind_ok_iff.1 g2
  obtain ⟨u2, hu2, g2⟩ := bind_ok_iff.1 g2
  have k2 : t2.unit.period = u2.unit.period := by
    unfold Track.flushDuty at g2
    split at g2
    · obtain ⟨y, hy, g2⟩ := bind_ok_iff.1 g2
      cases g2
      exact (Track.updateDuty_else hy).2.1
    · cases g2; rfl
  have k0 : u1.unit.count = t.unit.count ∧ u1.updNote = true ∧ u1.ctx = t.ctx ∧ u1.note = t.note ∧ u1.vibratoOn = t.vibratoOn ∧
      u1.arpeggioOn = t.arpeggioOn ∧ u1.pitch = t.pitch ∧ u1.waveform = t.waveform ∧ u1.vibrato = t.vibrato := by
    unfold Track.flushVolume at hu1
    split at hu1
    · obtain ⟨y, hy, hu1⟩ := bind_ok_iff.1 hu1
      cases hu1
      have sb := (Track.updateVolume_same hy).1
      have sn := (Track.updateVolume_same hy).2
      have se := Track.updateVolume_else hy
      refine ⟨se.1, ?_, sb.ctx, sn.note, sb.vibratoOn, sb.arpeggioOn, sb.pitch, sb.waveform, sb.vibrato⟩
      show y.updNote = true
      rw [se.2.2.2.2.2.1]
      show (t.updNote || t.portamento || t.vibratoOn) = true
      rw [hvi]; simp
    · cases hu1
      refine ⟨rfl, ?_, rfl, rfl, rfl, rfl, rfl, rfl, rfl⟩
      show (t.updNote || t.portamento || t.vibratoOn) = true
      rw [hvi]; simp
  obtain ⟨m1, m2, m3, m4, m5, m6, m7, m8, m9⟩ := k0
  have hcnt : t.unit.count = cnt ∧ 7 ≤ cnt ∧ cnt ≤ 64 := by
    unfold PhaseInv at hph
    unfold Wave.phases at hw
    cases hwv : t.unit.waveform <;> rw [hwv] at hw hph <;> dsimp only at hw hph <;> cases hw <;>
      exact ⟨hph.2, by omega, by omega⟩
  have hex : (exactPeriod (v + z + t.pitch) rate / cnt) ≤ 2147483647 := by
    obtain ⟨p, e1, e2, e3, e4⟩ := C19_range (v + z + t.pitch) rate
    rw [C19_period_exact] at e1
    cases e1
    have hh : exactPeriod (v + z + t.pitch) rate / cnt ≤ exactPeriod (v + z + t.pitch) rate / 7 := by
      rw [Int.le_ediv_iff_mul_le (by omega)]
      have q1 := Int.ediv_mul_le (exactPeriod (v + z + t.pitch) rate) (b := (cnt : Int)) (by omega)
      have q2 : 0 ≤ exactPeriod (v + z + t.pitch) rate / cnt := Int.ediv_nonneg (by omega) (by omega)
      have l0 : exactPeriod (v + z + t.pitch) rate / cnt * 7 ≤ exactPeriod (v + z + t.pitch) rate / cnt * cnt := Int.mul_le_mul_of_nonneg_left (by omega) q2
      omega
    omega
  rw [k2]
  unfold Track.flushNote at hu2
  rw [if_pos m2] at hu2
  obtain ⟨y, hy, hu2⟩ := bind_ok_iff.1 hu2
  cases hu2
  show y.unit.period = _ ∧ _
  unfold Track.updateNote at hy
  rw [m3, hc] at hy
  dsimp only at hy
  obtain ⟨zz, hz1, hy⟩ := bind_ok_iff.1 hy
  have hz' := Track.noteSum_vibrato (m5.trans hvi) (by rw [m4]; exact hv) (by rw [m9]; exact hz) hz1
  rw [m6, har, hon, m7] at hz'
  simp only [Bool.false_eq_true, if_false, Int.add_zero] at hz'
  subst hz'
  rw [if_pos (by rw [m8]; exact hwt)] at hy
  obtain ⟨p, hp, hy⟩ := bind_ok_iff.1 hy
  obtain ⟨q, hq, hy⟩ := bind_ok_iff.1 hy
  obtain ⟨y1, hy1, rfl⟩ := Track.setUnit_eq hy
  unfold UCore.setAttr at hy1
  dsimp only at hy1
  obtain ⟨z1, hz2, hy1⟩ := bind_ok_iff.1 hy1
  cases hy1
  rw [m1] at hq
  rw [hcnt.1] at hq
  have := tone_period hp (by omega) (by omega) (by omega) hq hz2
  exact ⟨this.1, huw.waveform, this.2, hex⟩

end BK
