import Verif.Spec.Fade
import Verif.Props.Slide
import Verif.Props.TrackTick
import Verif.Props.TrackSafe
import Verif.Lemmas.TrackMix
import Verif.Lemmas.Current5
import Verif.Props.Note
/-!
Slides of tracks.
-/
namespace BK

theorem Slide.ticks_add_one {s t : Slide} {j : Nat} (h : s.ticks j = .ok t) : s.ticks (j + 1) = t.tick := by
  induction j generalizing s with
  | zero =>
    cases h
    unfold Slide.ticks
    cases hs : t.tick with
    | error e => rfl
    | ok a => rw [ok_bind]; rfl
  | succ j ih =>
    unfold Slide.ticks at h ⊢
    obtain ⟨a, ha, h⟩ := bind_ok_iff.1 h
    rw [ha, ok_bind]
    exact ih h

theorem tdiv_near {D n : Int} (hn : 0 < n) : -n < D - D.tdiv n * n ∧ D - D.tdiv n * n < n := by
  have h := Int.mul_tdiv_add_tmod D n
  have h1 := Int.tmod_lt_of_pos D hn
  have h2 : -n < D.tmod n := by
    have := Int.tmod_lt_of_pos (-D) hn
    rw [Int.neg_tmod] at this
    omega
  have : D.tdiv n * n = n * D.tdiv n := Int.mul_comm _ _
  omega

/-- The reported values keep near the straight line. -/
theorem near_line {S v n P b q δ r : Int} {j : Nat} (hP : 0 < P) (hn : 0 < n) (hj : (j : Int) ≤ n) (hb : 0 ≤ b) (hb2 : b < P)
    (hδ : δ = ((v - S) * P).tdiv n) (hr : r = (S * P + j * δ + b) / P) (hq : P + n ≤ q * P) :
    -(q * n) ≤ (r - S) * n - (v - S) * j ∧ (r - S) * n - (v - S) * j ≤ q * n := by
  obtain ⟨t1, t2⟩ := tdiv_near (D := (v - S) * P) hn
  rw [← hδ] at t1 t2
  have d1 := Int.mul_ediv_add_emod (S * P + j * δ + b) P
  have d2 := Int.emod_nonneg (S * P + j * δ + b) (b := P) (by omega)
  have d3 := Int.emod_lt_of_pos (S * P + j * δ + b) hP
  rw [← hr] at d1
  generalize (S * P + j * δ + b) % P = m at *
  have hj0 : (0 : Int) ≤ j := by omega
  -- (r - S) P - j δ = b - m
  have key : ((r - S) * n - (v - S) * j) * P = (b - m) * n - ((v - S) * P - δ * n) * j := by
    have : P * r = S * P + j * δ + b - m := by omega
    have e : ((r - S) * n - (v - S) * j) * P = (P * r - S * P) * n - (v - S) * P * j := by ring
    rw [e, this]; ring
  generalize (v - S) * P - δ * n = ρ at *
  have a1 : (b - m) * n ≤ P * n := Int.mul_le_mul_of_nonneg_right (by omega) (by omega)
  have a2 : -(P * n) ≤ (b - m) * n := by
    have := Int.mul_le_mul_of_nonneg_right (show -P ≤ b - m by omega) (show 0 ≤ n by omega)
    rw [Int.neg_mul] at this; omega
  have a3 : ρ * j ≤ n * j := Int.mul_le_mul_of_nonneg_right (by omega) hj0
  have a4 : -(n * j) ≤ ρ * j := by
    have := Int.mul_le_mul_of_nonneg_right (show -n ≤ ρ by omega) hj0
    rw [Int.neg_mul] at this; omega
  have a5 : n * j ≤ n * n := Int.mul_le_mul_of_nonneg_left hj (by omega)
  have a6 : P * n + n * n ≤ q * n * P := by
    have := Int.mul_le_mul_of_nonneg_right hq (show 0 ≤ n by omega)
    have e : q * P * n = q * n * P := by ring
    rw [Int.add_mul] at this
    omega
  constructor
  · by_contra hc
    have hc : (r - S) * n - (v - S) * j + 1 ≤ -(q * n) := by omega
    have := Int.mul_le_mul_of_nonneg_right hc (show 0 ≤ P by omega)
    rw [Int.add_mul, key, Int.neg_mul] at this
    omega
  · by_contra hc
    have hc : q * n + 1 ≤ (r - S) * n - (v - S) * j := by omega
    have := Int.mul_le_mul_of_nonneg_right hc (show 0 ≤ P by omega)
    rw [Int.add_mul, key] at this
    omega

/-- The four calls that make a slide from `S` to `v`. -/
theorem Slide.Near.fade {k : Nat} {lo hi S v n : Int} {s : Slide} (h : s.Near k lo hi) (hk : (2 : Int) ^ k ≤ 8388608)
    (h1 : lo ≤ S) (h2 : S ≤ hi) (h3 : lo ≤ v) (h4 : v ≤ hi) (hn : 0 < n) (hn2 : n ≤ 65536)
    (hdir : S ≤ v ∨ 256 * n ≤ (S - v) * 2 ^ k) {q : Int} (hq : 2 ^ k + n ≤ q * 2 ^ k) :
    ∃ a b c e, s.setSteps 0 = .ok a ∧ a.setValue S = .ok b ∧ b.step = 0 ∧ b.value = b.endValue ∧
      b.setSteps n = .ok c ∧ c.setValue v = .ok e ∧
      ∃ r : Nat → Int, LeadsTo q S v n r ∧ ∀ j : Nat, ∃ t, e.ticks j = .ok t ∧ t.get = .ok (r j) := by
  obtain ⟨a, ha, na⟩ := h.setSteps hk (n := 0) (by omega)
  have ea : a.steps = 0 := by
    unfold Slide.setSteps at ha
    rw [Slide.set_zero (Int.le_refl _) ha]
  obtain ⟨b, hb, nb⟩ := na.setValue hk h1 h2
  have eb := Slide.set_zero (by omega) hb
  have ebv : b.value = S * 2 ^ k := by rw [eb]; dsimp only; rw [na.shift]
  have ebe : b.endValue = S * 2 ^ k := by rw [eb]; dsimp only; rw [na.shift]
  have ebs : b.step = 0 := by rw [eb]
  obtain ⟨c, hc, nc⟩ := nb.setSteps hk (n := n) hn2
  have hc' := hc
  unfold Slide.setSteps at hc'
  obtain ⟨g1, g2, g3, g4, g5, g6, -⟩ := Slide.set_steps hn hc'
  have hcs : c.steps = n := by rw [g6]; omega
  have hcv : Represents c.valueShift c.value S := by
    unfold Represents; rw [g3, ebv, nc.shift]
  obtain ⟨e, he, hr⟩ := report_of_inv nc.inv hcv h3 h4 hn (by omega) (by rw [nc.shift]; exact hdir)
  have he' : c.setValue v = .ok e := by unfold Slide.setValue; rw [hcs]; exact he
  refine ⟨a, b, c, e, ha, hb, ebs, by rw [ebv, ebe], hc, he', ?_⟩
  obtain ⟨f1, f2, f3, f4, f5, f6, f7, f8, f9⟩ := Slide.set_steps hn he
  obtain ⟨e1, he1, ne⟩ := nc.set hk h3 h4 hn2
  rw [he] at he1
  cases he1
  have iv : InI32 e.value := by
    have := ne.inv.value
    have r1 := ne.inv.range.low
    have r2 := ne.inv.range.high
    unfold InI32; omega
  have hat : ∀ j : Nat, e.ticks j = .ok (e.at j) := fun j => Slide.ticks_at j iv f1 (fun _ => f8)
  have hget : ∀ j : Nat, ∃ r, (e.at j).get = .ok r ∧ Between S v r ∧ (n ≤ j → r = v) := by
    intro j
    obtain ⟨t, r, q1, q2, q3, q4⟩ := hr j
    rw [hat j] at q1
    cases q1
    exact ⟨r, q2, q3, q4⟩
  choose r hr1 hr2 hr3 using hget
  have hsame : ∀ j : Nat, (e.at j).roundBias = e.roundBias ∧ (e.at j).valueShift = e.valueShift := by
    intro j
    unfold Slide.at
    split
    · exact ⟨rfl, rfl⟩
    · split <;> exact ⟨rfl, rfl⟩
  have hrv : ∀ j : Nat, r j = ((e.at j).value + e.roundBias) / 2 ^ e.valueShift := by
    intro j
    have := hr1 j
    unfold Slide.get at this
    obtain ⟨y, hy, this⟩ := bind_ok_iff.1 this
    obtain ⟨-, rfl⟩ := i32_eq_ok_iff.1 hy
    rw [(hsame j).1, (hsame j).2] at this
    exact (Except.ok.inj this).symm
  have hsh : e.valueShift = k := f4.trans nc.shift
  have hev : e.value = S * 2 ^ k := by rw [f3, g3, ebv]
  have hee : e.endValue = v * 2 ^ k := by rw [f2, nc.shift]
  have hPk := two_pow_pos k
  have hbias : 0 ≤ e.roundBias ∧ e.roundBias < 2 ^ k := by
    have h9 := hrv n.toNat
    have : (e.at n.toNat).value = e.endValue := by
      unfold Slide.at
      rw [if_neg (by omega), if_neg (by omega)]
    rw [hr3 _ (by omega), this, hee, hsh, Int.add_comm, Int.add_mul_ediv_right _ _ (by omega)] at h9
    have h8 : e.roundBias / 2 ^ k = 0 := by omega
    have d1 := Int.mul_ediv_add_emod e.roundBias (2 ^ k)
    have d2 := Int.emod_nonneg e.roundBias (b := 2 ^ k) (by omega)
    have d3 := Int.emod_lt_of_pos e.roundBias hPk
    rw [h8] at d1
    omega
  have heven : ∀ j : Nat, j ≤ n → -(q * n) ≤ (r j - S) * n - (v - S) * j ∧ (r j - S) * n - (v - S) * j ≤ q * n := by
    intro j hj
    by_cases hjn : (j : Int) < n
    · refine near_line hPk (by omega) hj hbias.1 hbias.2 (δ := e.stepDelta) ?_ ?_ hq
      · rw [f7, hee, g3, ebv, show min n 8388608 = n by omega, Int.sub_mul]
      · rw [hrv j, hsh, ← hev]
        unfold Slide.at
        rw [if_neg (by omega), if_pos (by omega)]
    · have : (j : Int) = n := by omega
      rw [hr3 j (by omega), this, Int.sub_self]
      have : 0 ≤ q := by
        by_contra hc
        have := Int.mul_le_mul_of_nonneg_right (show q ≤ -1 by omega) (show (0 : Int) ≤ 2 ^ k by omega)
        omega
      have := Int.mul_nonneg this (show 0 ≤ n by omega)
      omega
  have hstart : r 0 = S := by
    rw [hrv 0, hsh]
    have : (e.at 0).value = e.value := by
      unfold Slide.at
      rw [if_neg (by omega), if_pos (by omega)]
      show e.value + (0 : Nat) * e.stepDelta = _
      rw [show ((0 : Nat) : Int) = 0 from rfl, Int.zero_mul, Int.add_zero]
    rw [this, hev, Int.add_comm, Int.add_mul_ediv_right _ _ (by omega), Int.ediv_eq_zero_of_lt hbias.1 hbias.2]
    omega
  refine ⟨r, ⟨hstart, hr2, ?_, heven, hr3⟩, fun j => ⟨_, hat j, hr1 j⟩⟩
  intro i j hij
  have hb := (Slide.at_between (s := e) (fun _ => f8) i).2 j hij
  rw [if_neg (by omega)] at hb
  have hlast : r (max n.toNat j) = v := hr3 _ (by omega)
  have hb2 := (Slide.at_between (s := e) (fun _ => f8) j).2 (max n.toNat j) (by omega)
  rw [if_neg (by omega)] at hb2
  have hP := two_pow_pos e.valueShift
  have hmax : (e.at (max n.toNat j)).value = e.endValue := by
    unfold Slide.at
    rw [if_neg (by omega), if_neg (by omega)]
  rw [hmax] at hb2
  rw [← hlast, hrv i, hrv j, hrv (max n.toNat j), hmax]
  unfold Between at hb ⊢
  rcases hb with ⟨b1, b2⟩ | ⟨b1, b2⟩
  · left
    exact ⟨Int.ediv_le_ediv (by omega) (by omega), Int.ediv_le_ediv (by omega) (by omega)⟩
  · right
    exact ⟨Int.ediv_le_ediv (by omega) (by omega), Int.ediv_le_ediv (by omega) (by omega)⟩

theorem cclamp_self {v lo hi : Int} (h0 : lo ≤ v) (h1 : v ≤ hi) : cclamp v lo hi = v := by
  unfold cclamp; split
  · omega
  · split <;> omega

/-- What a tick gives to the unit while the volume slides: the volume before the step. -/
theorem Track.tick_volume {x : Nat} {w : IWorld} {t : Track} {s : IWorld × Track} (h : t.tick x w = .ok s)
    (hon : w.on x = false) (hvs : t.volumeSlide = true) (htr : t.tremoloOn = false) (hig : t.ignores = false)
    (hp : t.panningOn = false ∨ t.panning.get = .ok 0) {v : Int} (hv : t.volume.get = .ok v) (h0 : 0 ≤ v)
    (h1 : v ≤ 32767) (hm0 : 0 ≤ t.masterVolume) (hm1 : t.masterVolume ≤ 32767) :
    s.2.unit.volume = fun _ => v * t.masterVolume / 32768 := by
  obtain ⟨t1, r, t2, g1, gr, g2, g3, e⟩ := Track.tick_stages h
  obtain ⟨a, d, n, rfl⟩ := Track.arpeggioTick_same g1
  obtain ⟨d', -, -, -, hno⟩ := Track.instrTick_same gr
  obtain ⟨rfl, -⟩ := hno hon
  dsimp only at g2 e
  obtain ⟨a', b, c, d'', e', f, g, i, j, k, g3⟩ := Track.effectsTick_same g3
  rw [g3]
  show t2.unit.volume = _
  unfold Track.updateUnit at g2
  obtain ⟨u1, hu1, g2⟩ := bind_ok_iff.1 g2
  obtain ⟨u2, hu2, g2⟩ := bind_ok_iff.1 g2
  have k2 : t2.unit.volume = u2.unit.volume := by
    unfold Track.flushDuty at g2
    split at g2
    · obtain ⟨y, hy, g2⟩ := bind_ok_iff.1 g2
      cases g2
      exact (Track.updateDuty_else hy).2.2.2.1
    · cases g2; rfl
  have k1 : u2.unit.volume = u1.unit.volume := by
    unfold Track.flushNote at hu2
    split at hu2
    · obtain ⟨y, hy, hu2⟩ := bind_ok_iff.1 hu2
      cases hu2
      exact (Track.updateNote_else hy).1
    · cases hu2; rfl
  rw [k2, k1]
  unfold Track.flushVolume at hu1
  rw [if_pos (by simp [Track.flagEffects, hvs])] at hu1
  obtain ⟨y, hy, hu1⟩ := bind_ok_iff.1 hu1
  cases hu1
  show y.unit.volume = _
  unfold Track.updateVolume at hy
  obtain ⟨m, hm, hy⟩ := bind_ok_iff.1 hy
  have hmm : m.1 = v * t.masterVolume / 32768 ∧ (t.panning.get = .ok 0 → m.2 = 0) := by
    unfold Track.mix at hm
    obtain ⟨v1, hv1, hm⟩ := bind_ok_iff.1 hm
    obtain ⟨p1, hp1, hm⟩ := bind_ok_iff.1 hm
    obtain ⟨v2, hv2, hm⟩ := bind_ok_iff.1 hm
    obtain ⟨p2, hp2, hm⟩ := bind_ok_iff.1 hm
    obtain ⟨v3, hv3, hm⟩ := bind_ok_iff.1 hm
    obtain ⟨v4, hv4, hm⟩ := bind_ok_iff.1 hm
    cases hm
    obtain ⟨u, hu, e1⟩ := Track.ownVolume_ok hv1
    have hu : t.volume.get = .ok u := hu
    rw [hv] at hu
    cases hu
    have e1 : v1 = if t.ignores = true ∧ v ≠ 0 then 32767 else v := e1
    rw [hig] at e1
    simp at e1
    have e2 := scaleIf_ok hv2
    rw [hon] at e2
    simp at e2
    have e3 : v3 = v2 := by
      rcases Track.tremoloVolume_ok hv3 with ⟨q, -⟩ | ⟨-, q⟩
      · have q : t.tremoloOn = true := q
        rw [htr] at q; cases q
      · exact q
    have e4 := scaleIf_ok hv4
    simp only [if_true] at e4
    rw [e3, e2, e1, cclamp_self h0 h1] at e4
    refine ⟨e4, fun hz => ?_⟩
    have hp1 : t.panning.get = .ok p1 := hp1
    rw [hz] at hp1
    cases hp1
    rw [hon] at hp2
    cases hp2
    rfl
  rw [if_neg (by
    rintro ⟨q1, q2⟩
    rcases hp with hp | hp
    · have q2 : t.panningOn = true := q2
      rw [hp] at q2; cases q2
    · exact q1 (hmm.2 hp))] at hy
  cases hy
  show (fun _ => cclamp m.1 0 32767) = _
  rw [hmm.1]
  have l1 := scale_nonneg h0 hm0
  have l2 := scale_le h0 hm1
  rw [cclamp_self l1 (by omega)]

/-- The volume after `j` steps of the effects. -/
theorem times_volume {ps tr vi : Bool} : ∀ (j : Nat) {f g : Fx}, times (Fx.step true ps tr vi) j f = .ok g →
    f.volume.ticks j = .ok g.volume
  | 0, f, g, h => by cases h; rfl
  | j + 1, f, g, h => by
    unfold times at h
    obtain ⟨a, ha, h⟩ := bind_ok_iff.1 h
    rw [Slide.ticks_add_one (times_volume j ha)]
    unfold Fx.step at h
    obtain ⟨b, hb, h⟩ := bind_ok_iff.1 h
    obtain ⟨c, hc, h⟩ := bind_ok_iff.1 h
    obtain ⟨d, hd, h⟩ := bind_ok_iff.1 h
    obtain ⟨e, he, h⟩ := bind_ok_iff.1 h
    cases h
    exact hb

theorem times_note : ∀ (j : Nat) {f g : Slide}, times (fun a => Slide.tickIf a true) j f = .ok g →
    f.ticks j = .ok g
  | 0, f, g, h => by cases h; rfl
  | j + 1, f, g, h => by
    unfold times at h
    obtain ⟨a, ha, h⟩ := bind_ok_iff.1 h
    rw [Slide.ticks_add_one (times_note j ha)]
    exact h

/-- What ticks do not change. -/
theorem Track.ticks_keep {x : Nat} {w : IWorld} (hon : w.on x = false) : ∀ (n : Nat) {t : Track} {s : IWorld × Track},
    Track.ticks x n (w, t) = .ok s → s.1 = w ∧ s.2.volumeSlide = t.volumeSlide ∧ s.2.tremoloOn = t.tremoloOn ∧
      s.2.ignores = t.ignores ∧ s.2.panningOn = t.panningOn ∧ s.2.masterVolume = t.masterVolume ∧
      (t.panningSlide = false → s.2.panning = t.panning) ∧ s.2.panningSlide = t.panningSlide ∧
      s.2.portamento = t.portamento ∧ s.2.vibratoOn = t.vibratoOn ∧ s.2.arpeggioOn = t.arpeggioOn ∧
      s.2.pitch = t.pitch ∧ s.2.ctx = t.ctx ∧ s.2.waveform = t.waveform
  | 0, t, s, h => by
    cases h
    exact ⟨rfl, rfl, rfl, rfl, rfl, rfl, fun _ => rfl, rfl, rfl, rfl, rfl, rfl, rfl, rfl⟩
  | n + 1, t, s, h => by
    unfold Track.ticks times at h
    obtain ⟨a, ha, h⟩ := bind_ok_iff.1 h
    obtain ⟨i1, i2, i3, i4, i5, i6, i7, i8, i9, i10, i11, i12, i13, i14⟩ := Track.ticks_keep hon n ha
    rw [i1] at h
    obtain ⟨t1, r, t2, g1, gr, g2, g3, e⟩ := Track.tick_stages h
    obtain ⟨a', d, m, rfl⟩ := Track.arpeggioTick_same g1
    obtain ⟨d', -, -, -, hno⟩ := Track.instrTick_same gr
    obtain ⟨rfl, -⟩ := hno hon
    dsimp only at g2 e
    have sb := (Track.updateUnit_same g2).1
    have hpan : a.2.panningSlide = false → s.2.panning = t2.panning := by
      intro hps
      have hps2 : t2.panningSlide = false := sb.panningSlide.trans hps
      unfold Track.effectsTick at g3
      split at g3
      · obtain ⟨q, -, g3⟩ := bind_ok_iff.1 g3
        dsimp only at g3
        split at g3
        · unfold Track.effectTick at g3
          dsimp only at g3
          rw [hps2] at g3
          obtain ⟨y1, -, g3⟩ := bind_ok_iff.1 g3
          obtain ⟨y2, -, g3⟩ := bind_ok_iff.1 g3
          obtain ⟨y3, hy3, g3⟩ := bind_ok_iff.1 g3
          obtain ⟨y4, -, g3⟩ := bind_ok_iff.1 g3
          obtain ⟨y5, -, g3⟩ := bind_ok_iff.1 g3
          have g3 := Except.ok.inj g3
          cases hy3
          rw [← g3]
        · have g3 := Except.ok.inj g3
          rw [← g3]
      · have g3 := Except.ok.inj g3
        rw [← g3]
    obtain ⟨b1, b2, b3, b4, b5, b6, b7, b8, b9, b10, g3⟩ := Track.effectsTick_same g3
    refine ⟨e, ?_, ?_, ?_, ?_, ?_, fun hps => ?_, ?_, ?_, ?_, ?_, ?_, ?_, ?_⟩
    · rw [← i2, g3]; exact sb.volumeSlide
    · rw [← i3, g3]; exact sb.tremoloOn
    · rw [← i4, g3]; exact sb.ignores
    · rw [← i5, g3]; exact sb.panningOn
    · rw [← i6, g3]; exact sb.masterVolume
    · rw [← i7 hps, hpan (i8.trans hps)]; exact sb.panning
    · rw [← i8, g3]; exact sb.panningSlide
    · rw [← i9, g3]; exact sb.portamento
    · rw [← i10, g3]; exact sb.vibratoOn
    · rw [← i11, g3]; exact sb.arpeggioOn
    · rw [← i12, g3]; exact sb.pitch
    · rw [← i13, g3]; exact sb.ctx
    · rw [← i14, g3]; exact sb.waveform

/-- The calls of a fade. -/
theorem Track.fadeCalls_ok {x : Nat} {w : IWorld} {t : Track} {d S v n : Int} (hS : 0 ≤ S) (hS2 : S ≤ 32767) (hv : 0 ≤ v) (hv2 : v ≤ 32767)
    (hn : 1 ≤ n) (hn2 : n ≤ 65536) {a b c e : Slide} (ha : t.volume.setSteps 0 = .ok a) (hb : a.setValue S = .ok b)
    (hc : b.setSteps n = .ok c) (he : c.setValue v = .ok e) :
    Track.calls x (fadeCalls d S v n) (w, t) =
      .ok (w, { t with effectDiv := ⟨d, 0⟩, volume := e, updVolume := true, volumeSlide := true }) := by
  unfold fadeCalls
  simp only [Track.calls, Track.exec, Track.setAttr, Track.setEffect, ok_bind, pure_eq_ok, List.getD_cons_zero]
  rw [if_neg (by decide)]
  rw [cclamp_self (v := 0) (by decide) (by decide), ha]
  simp only [ok_bind]
  rw [cclamp_self hS hS2, hb]
  simp only [ok_bind]
  rw [if_neg (by decide), cclamp_self (v := n) (by omega) hn2, hc]
  simp only [ok_bind]
  rw [cclamp_self hv hv2, he]
  simp only [ok_bind]
  have : decide (n ≠ 0) = true := by rw [decide_eq_true_eq]; omega
  rw [this]

/-- A note played without instrument. -/
theorem Track.playNote_off {x : Nat} {w : IWorld} {t : Track} {v : Int} {r : IWorld × Track} (hon : w.on x = false) (hwt : t.waveform ≠ 16391)
    {s : Slide} (h0 : 0 ≤ v) (h1 : v ≤ 100663296) (hs : t.note.setValue v = .ok s) (hh : t.curNote = -1 → s.step = 0 ∧ s.value = s.endValue)
    (h : t.setNote x w v = .ok r) : ∃ o u, r = (w, { t with note := s, arp := { t.arp with offset := o }, curNote := v, updNote := true, unit := u }) ∧
      u.waveform = t.unit.waveform := by
  unfold Track.setNote Track.noteCase at h
  rw [if_pos (by omega)] at h
  unfold Track.playNote at h
  dsimp only at h
  rw [show cclamp v 0 (96 * 1048576) = v from cclamp_self h0 h1, hs] at h
  rw [ok_bind] at h
  have hst : ∃ o, ({ t with note := s } : Track).startNote x w = .ok (w, { t with note := s, arp := { t.arp with offset := o } }) := by
    unfold Track.startNote
    dsimp only
    by_cases hc : t.curNote = -1
    · obtain ⟨k1, k2⟩ := hh hc
      have : s.halt true = s := by
        unfold Slide.halt
        rw [if_pos rfl]
        cases s
        dsimp only at k1 k2
        subst k1 k2
        rfl
      rw [if_pos hc, hon, this]
      exact ⟨0, rfl⟩
    · rw [if_neg hc]
      exact ⟨t.arp.offset, rfl⟩
  obtain ⟨o, ho⟩ := hst
  rw [ho, ok_bind] at h
  dsimp only at h
  unfold Track.startSample at h
  rw [if_neg (fun q => hwt q.1), ok_bind] at h
  obtain ⟨r1, hr1, h⟩ := bind_ok_iff.1 h
  obtain ⟨t1, ht1, hr1⟩ := bind_ok_iff.1 hr1
  obtain ⟨t2, ht2, hr1⟩ := bind_ok_iff.1 hr1
  cases hr1
  cases h
  obtain ⟨y1, hy1, rfl⟩ := Track.setUnit_eq ht1
  obtain ⟨y2, hy2, rfl⟩ := Track.setUnit_eq ht2
  refine ⟨o, _, rfl, ?_⟩
  show y2.2.waveform = _
  dsimp only at hy1 hy2
  cases hy1
  unfold UCore.setAttr at hy2
  dsimp only at hy2
  rw [if_neg (show ¬ ((0 : Int) ≠ 0 ∧ _ ∧ _) from fun q => q.1 rfl)] at hy2
  split at hy2 <;> cases hy2 <;> rfl

/-- What a tick gives to the unit while the note slides: the period of the note before the step. -/
theorem Track.tick_period {N : Nat} {x : Nat} {w : IWorld} {t : Track} {s : IWorld × Track} (hi : t.Inv N False) (h : t.tick x w = .ok s)
    (hon : w.on x = false) (hps : t.portamento = true) (hvi : t.vibratoOn = false) (har : t.arpeggioOn = false)
    {rate chans : Int} (hc : t.ctx = some (rate, chans)) {cnt : Nat} (hw : t.unit.waveform.phases = some cnt)
    (hwt : t.waveform ≠ 16391) {v : Int} (hv : t.note.get = .ok v) :
    s.2.unit.period = exactPeriod (v + t.pitch) rate / cnt ∧ s.2.unit.waveform = t.unit.waveform ∧ 1 ≤ exactPeriod (v + t.pitch) rate / cnt ∧
      exactPeriod (v + t.pitch) rate / cnt ≤ 2147483647 := by
  have hph := hi.unit.inv.phase
  obtain ⟨t1, r, t2, g1, gr, g2, g3, e⟩ := Track.tick_stages h
  unfold Track.arpeggioTick at g1
  rw [if_neg (by show ¬ t.arpeggioOn = true; rw [har]; exact fun q => by cases q)] at g1
  cases g1
  obtain ⟨d', -, -, -, hno⟩ := Track.instrTick_same gr
  obtain ⟨rfl, -⟩ := hno hon
  dsimp only at g2 e
  have huw := Track.updateUnit_wave g2
  obtain ⟨a', b, c, d'', e', f, g, i, j, k, g3⟩ := Track.effectsTick_same g3
  rw [g3]
  show t2.unit.period = _ ∧ t2.unit.waveform = _ ∧ _
  unfold Track.updateUnit at g2
  obtain ⟨u1, hu1, g2⟩ := bind_ok_iff.1 g2
  obtain ⟨u2, hu2, g2⟩ := bind_ok_iff.1 g2
  have k2 : t2.unit.period = u2.unit.period := by
    unfold Track.flushDuty at g2
    split at g2
    · obtain ⟨y, hy, g2⟩ := bind_ok_iff.1 g2
      cases g2
      exact (Track.updateDuty_else hy).2.1
    · cases g2; rfl
  have k0 : u1.unit.count = t.unit.count ∧ u1.updNote = true ∧ u1.ctx = t.ctx ∧ u1.note = t.note ∧ u1.vibratoOn = t.vibratoOn ∧
      u1.arpeggioOn = t.arpeggioOn ∧ u1.pitch = t.pitch ∧ u1.waveform = t.waveform := by
    unfold Track.flushVolume at hu1
    split at hu1
    · obtain ⟨y, hy, hu1⟩ := bind_ok_iff.1 hu1
      cases hu1
      have sb := (Track.updateVolume_same hy).1
      have sn := (Track.updateVolume_same hy).2
      have se := Track.updateVolume_else hy
      refine ⟨se.1, ?_, sb.ctx, sn.note, sb.vibratoOn, sb.arpeggioOn, sb.pitch, sb.waveform⟩
      show y.updNote = true
      rw [se.2.2.2.2.2.1]
      show (t.updNote || t.portamento || t.vibratoOn) = true
      rw [hps]; simp
    · cases hu1
      refine ⟨rfl, ?_, rfl, rfl, rfl, rfl, rfl, rfl⟩
      show (t.updNote || t.portamento || t.vibratoOn) = true
      rw [hps]; simp
  obtain ⟨m1, m2, m3, m4, m5, m6, m7, m8⟩ := k0
  have hcnt : t.unit.count = cnt ∧ 7 ≤ cnt ∧ cnt ≤ 64 := by
    unfold PhaseInv at hph
    unfold Wave.phases at hw
    cases hwv : t.unit.waveform <;> rw [hwv] at hw hph <;> dsimp only at hw hph <;> cases hw <;>
      exact ⟨hph.2, by omega, by omega⟩
  have hex : (exactPeriod (v + t.pitch) rate / cnt) ≤ 2147483647 := by
    obtain ⟨p, e1, e2, e3, e4⟩ := C19_range (v + t.pitch) rate
    rw [C19_period_exact] at e1
    cases e1
    have hh : exactPeriod (v + t.pitch) rate / cnt ≤ exactPeriod (v + t.pitch) rate / 7 := by
      rw [Int.le_ediv_iff_mul_le (by omega)]
      have q1 := Int.ediv_mul_le (exactPeriod (v + t.pitch) rate) (b := (cnt : Int)) (by omega)
      have q2 : 0 ≤ exactPeriod (v + t.pitch) rate / cnt := Int.ediv_nonneg (by omega) (by omega)
      have l0 : exactPeriod (v + t.pitch) rate / cnt * 7 ≤ exactPeriod (v + t.pitch) rate / cnt * cnt := Int.mul_le_mul_of_nonneg_left (by omega) q2
      omega
    omega
  rw [k2]
  unfold Track.flushNote at hu2
  rw [if_pos m2] at hu2
  obtain ⟨y, hy, hu2⟩ := bind_ok_iff.1 hu2
  cases hu2
  show y.unit.period = _ ∧ _
  unfold Track.updateNote at hy
  rw [m3, hc] at hy
  dsimp only at hy
  obtain ⟨z, hz, hy⟩ := bind_ok_iff.1 hy
  have hz' := Track.noteSum_pitch (m5.trans hvi) (by rw [m4]; exact hv) hz
  unfold Track.pitchSet at hz'
  rw [m6, har, hon, m7] at hz'
  simp only [Bool.false_eq_true, if_false, Int.add_zero] at hz'
  subst hz'
  rw [if_pos (by rw [m8]; exact hwt)] at hy
  obtain ⟨p, hp, hy⟩ := bind_ok_iff.1 hy
  obtain ⟨q, hq, hy⟩ := bind_ok_iff.1 hy
  obtain ⟨y1, hy1, rfl⟩ := Track.setUnit_eq hy
  unfold UCore.setAttr at hy1
  dsimp only at hy1
  obtain ⟨z1, hz1, hy1⟩ := bind_ok_iff.1 hy1
  cases hy1
  rw [m1] at hq
  rw [hcnt.1] at hq
  have := tone_period hp (by omega) (by omega) (by omega) hq hz1
  exact ⟨this.1, huw.waveform, this.2, hex⟩

/-- Ticks from a good state go well. -/
theorem Track.Inv.ticks {N n : Nat} {x : Nat} {w : IWorld} (hw : w.Good n) (hon : w.on x = false) : ∀ (m : Nat) {t : Track}, t.Inv N False →
    ∃ s, Track.ticks x m (w, t) = .ok s ∧ s.1 = w ∧ s.2.Inv N False
  | 0, t, hi => ⟨_, rfl, rfl, hi⟩
  | m + 1, t, hi => by
    obtain ⟨s, hs, e, h1⟩ := Track.Inv.ticks hw hon m hi
    obtain ⟨s', hs', h2⟩ := (h1.tick (x := x) (w := w) hw).get trivial
    have : Track.ticks x (m + 1) (w, t) = .ok s' := by
      unfold Track.ticks times
      unfold Track.ticks at hs
      rw [hs, ok_bind, e]
      exact hs'
    exact ⟨s', this, (Track.ticks_keep hon _ this).1, h2.2⟩

theorem Track.ticks_last {x m : Nat} {s0 s s' : IWorld × Track} (h : Track.ticks x m s0 = .ok s) (h' : Track.ticks x (m + 1) s0 = .ok s') :
    s.2.tick x s.1 = .ok s' := by
  unfold Track.ticks times at h'
  unfold Track.ticks at h
  rw [h] at h'
  exact h'

theorem Track.ticks_wave {x : Nat} {w : IWorld} (hon : w.on x = false) : ∀ (n : Nat) {t : Track} {s : IWorld × Track},
    Track.ticks x n (w, t) = .ok s → s.2.unit.waveform = t.unit.waveform
  | 0, t, s, h => by cases h; rfl
  | n + 1, t, s, h => by
    unfold Track.ticks times at h
    obtain ⟨a, ha, h⟩ := bind_ok_iff.1 h
    rw [← Track.ticks_wave hon n ha]
    have ea := (Track.ticks_keep hon n ha).1
    obtain ⟨t1, r, t2, g1, gr, g2, g3, e⟩ := Track.tick_stages h
    obtain ⟨a', d, m, rfl⟩ := Track.arpeggioTick_same g1
    obtain ⟨d', -, -, -, hno⟩ := Track.instrTick_same gr
    obtain ⟨rfl, -⟩ := hno (by rw [ea]; exact hon)
    obtain ⟨a', b, c, d'', e', f, g, i, j, k, g3⟩ := Track.effectsTick_same g3
    rw [g3]
    exact (Track.updateUnit_wave g2).waveform

end BK
