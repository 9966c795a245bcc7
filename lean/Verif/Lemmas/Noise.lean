import Verif.Lemmas.UnitWave
/-!
The noise generator.
-/
namespace BK

/-- The register after `k` steps. -/
def noiseReg (reg : Int) : Nat → Int
  | 0 => reg
  | k + 1 => noiseReg (noiseStep reg).2 k

/-- The `k`-th bit sent. -/
def noiseBit (reg : Int) (k : Nat) : Int := (noiseStep (noiseReg reg k)).1

theorem noiseReg_ok {reg : Int} (h : 1 ≤ reg ∧ reg ≤ 65535) (k : Nat) :
    1 ≤ noiseReg reg k ∧ noiseReg reg k ≤ 65535 := by
  induction k generalizing reg with
  | zero => exact h
  | succ k ih =>
    have := noiseStep_ok h
    exact ih ⟨this.1, this.2.1⟩

theorem noiseReg_succ (reg : Int) (k : Nat) : noiseReg reg (k + 1) = (noiseStep (noiseReg reg k)).2 := by
  induction k generalizing reg with
  | zero => rfl
  | succ k ih => exact ih (noiseStep reg).2

theorem noiseReg_add (reg : Int) (a b : Nat) : noiseReg reg (a + b) = noiseReg (noiseReg reg a) b := by
  induction b with
  | zero => rfl
  | succ b ih => rw [← Nat.add_assoc, noiseReg_succ, noiseReg_succ, ih]

theorem noiseBit_add (reg : Int) (a b : Nat) : noiseBit reg (a + b) = noiseBit (noiseReg reg a) b := by
  unfold noiseBit; rw [noiseReg_add]

theorem noiseReg_zeros {reg : Int} (h : 1 ≤ reg ∧ reg ≤ 65535) : ∀ k : Nat,
    (∀ j < k, noiseBit reg j = 0) → noiseReg reg k = reg / 2 ^ k
  | 0, _ => by simp [noiseReg]
  | k + 1, hz => by
    have hr := noiseReg_ok h k
    have hs := noiseStep_ok hr
    have hb : (noiseStep (noiseReg reg k)).1 = 0 := hz k (by omega)
    rw [noiseReg_succ, hs.2.2.2, hb, noiseReg_zeros h k (fun j hj => hz j (by omega)), Int.pow_succ,
      Int.ediv_ediv_of_nonneg (by positivity)]
    simp

theorem noiseReg_ones {reg : Int} (h : 1 ≤ reg ∧ reg ≤ 65535) : ∀ k : Nat,
    (∀ j < k, noiseBit reg j = 1) → 65535 - noiseReg reg k = (65535 - reg) / 2 ^ k
  | 0, _ => by simp [noiseReg]
  | k + 1, hz => by
    have hr := noiseReg_ok h k
    have hs := noiseStep_ok hr
    have hb : (noiseStep (noiseReg reg k)).1 = 1 := hz k (by omega)
    have ih := noiseReg_ones h k (fun j hj => hz j (by omega))
    rw [noiseReg_succ, hs.2.2.2, hb, Int.pow_succ, ← Int.ediv_ediv_of_nonneg (by positivity), ← ih]
    omega

theorem noiseBit_01 {reg : Int} (h : 1 ≤ reg ∧ reg ≤ 65535) (k : Nat) :
    noiseBit reg k = 0 ∨ noiseBit reg k = 1 := (noiseStep_ok (noiseReg_ok h k)).2.2.1

/-- Sixteen zeros in a row would make the register 0. -/
theorem noise_has_one {reg : Int} (h : 1 ≤ reg ∧ reg ≤ 65535) : ∃ j < 16, noiseBit reg j = 1 := by
  by_contra hc
  have hz : ∀ j < 16, noiseBit reg j = 0 := by
    intro j hj
    rcases noiseBit_01 h j with e | e
    · exact e
    · exact absurd ⟨j, hj, e⟩ hc
  have e := noiseReg_zeros h 16 hz
  have := noiseReg_ok h 16
  omega

/-- After sixteen ones comes a zero. -/
theorem noise_has_zero {reg : Int} (h : 1 ≤ reg ∧ reg ≤ 65535) : ∃ j < 17, noiseBit reg j = 0 := by
  by_contra hc
  have hz : ∀ j < 17, noiseBit reg j = 1 := by
    intro j hj
    rcases noiseBit_01 h j with e | e
    · exact absurd ⟨j, hj, e⟩ hc
    · exact e
  have e := noiseReg_ones h 16 (fun j hj => hz j (by omega))
  have hr : noiseReg reg 16 = 65535 := by omega
  have h16 := hz 16 (by omega)
  unfold noiseBit at h16
  rw [hr] at h16
  revert h16
  decide

/-- The level of a bit. -/
def noiseLevel (bit : Int) : Int := if bit ≠ 0 then 16383 else -16383

/-- Phase and counter at pulse `k` and value sent there. -/
def UCore.noiseAt (c : UCore) (phase wc : Int) : Nat → Int × Int
  | 0 => (phase, wc)
  | k + 1 =>
    let w := wrapStep c.wrap wc phase 19009
    c.noiseAt (noiseStep w.2).2 w.1 k

theorem UCore.waveNext_noise {c : UCore} (hw : c.waveform = .noise) (phase wc : Int) :
    c.waveNext phase wc = .ok (noiseLevel (noiseStep (wrapStep c.wrap wc phase 19009).2).1,
      (noiseStep (wrapStep c.wrap wc phase 19009).2).2, (wrapStep c.wrap wc phase 19009).1) := by
  unfold UCore.waveNext
  rw [hw]
  rfl

/-- The value sent at pulse `k`. -/
def UCore.noiseVal (c : UCore) (phase wc : Int) (k : Nat) : Int :=
  let s := c.noiseAt phase wc k
  noiseLevel (noiseStep (wrapStep c.wrap s.2 s.1 19009).2).1

theorem UCore.noiseVal_succ (c : UCore) (phase wc : Int) (k : Nat) :
    c.noiseVal phase wc (k + 1) =
      c.noiseVal (noiseStep (wrapStep c.wrap wc phase 19009).2).2 (wrapStep c.wrap wc phase 19009).1 k :=
  rfl

theorem UCore.waveVals_noise {c : UCore} (hw : c.waveform = .noise) : ∀ (n : Nat) (phase wc : Int),
    c.waveVals n phase wc = .ok ((List.range n).map (c.noiseVal phase wc),
      (c.noiseAt phase wc n).1, (c.noiseAt phase wc n).2)
  | 0, phase, wc => by simp [UCore.waveVals, UCore.noiseAt]
  | n + 1, phase, wc => by
    simp only [UCore.waveVals, UCore.waveNext_noise hw, ok_bind, UCore.waveVals_noise hw n, pure_eq_ok]
    rw [List.range_succ_eq_map, List.map_cons, List.map_map]
    rfl

/-- The state at pulse `a + b` is the state `b` pulses after the one at `a`. -/
theorem UCore.noiseAt_add (c : UCore) (b : Nat) : ∀ (a : Nat) (phase wc : Int),
    c.noiseAt phase wc (a + b) = c.noiseAt (c.noiseAt phase wc a).1 (c.noiseAt phase wc a).2 b
  | 0, phase, wc => by simp [UCore.noiseAt]
  | a + 1, phase, wc => by
    rw [show a + 1 + b = (a + b) + 1 by omega]
    exact UCore.noiseAt_add c b a _ _

theorem UCore.noiseVal_add (c : UCore) (phase wc : Int) (a b : Nat) :
    c.noiseVal phase wc (a + b) =
      c.noiseVal (c.noiseAt phase wc a).1 (c.noiseAt phase wc a).2 b := by
  unfold UCore.noiseVal
  rw [UCore.noiseAt_add]

theorem UCore.noiseAt_ok {c : UCore} : ∀ (k : Nat) {phase wc : Int}, WrapOk c.wrap wc →
    1 ≤ phase ∧ phase ≤ 65535 → WrapOk c.wrap (c.noiseAt phase wc k).2 ∧
      1 ≤ (c.noiseAt phase wc k).1 ∧ (c.noiseAt phase wc k).1 ≤ 65535
  | 0, phase, wc, hw, hp => ⟨hw, hp⟩
  | k + 1, phase, wc, hw, hp => by
    obtain ⟨hw', hph⟩ := wrapStep_ok (phase := phase) (restart := 19009) hw
    have hn := noiseStep_ok (phase := (wrapStep c.wrap wc phase 19009).2)
      (by rcases hph with e | e <;> rw [e] <;> omega)
    exact UCore.noiseAt_ok k hw' ⟨hn.1, hn.2.1⟩

theorem wrapStep_dec {wrap wc phase r : Int} (h : WrapOk wrap wc) (hw : wrap ≠ 0) (h2 : 2 ≤ wc) :
    wrapStep wrap wc phase r = (wc - 1, phase) := by
  obtain ⟨h1, h3, h4⟩ := h
  unfold InU32 at h3
  unfold wrapStep
  rw [if_pos hw]
  have e : wrapU32 (wc - 1) = wc - 1 := by unfold wrapU32; omega
  dsimp only
  rw [e, if_neg (by omega)]

theorem wrapStep_one {wrap phase r : Int} (hw : wrap ≠ 0) :
    wrapStep wrap 1 phase r = (wrap, r) := by
  unfold wrapStep
  rw [if_pos hw]
  rfl

theorem wrapStep_off {wc phase r : Int} : wrapStep 0 wc phase r = (wc, phase) := by
  unfold wrapStep
  rw [if_neg (by simp)]

/-- Without a wrap in the way, the plain generator. -/
theorem UCore.noiseAt_plain {c : UCore} : ∀ (k : Nat) {phase wc : Int}, WrapOk c.wrap wc →
    (c.wrap ≠ 0 → k + 1 ≤ wc) → (c.noiseAt phase wc k).1 = noiseReg phase k ∧
      (c.wrap ≠ 0 → (c.noiseAt phase wc k).2 = wc - k)
  | 0, phase, wc, _, _ => ⟨rfl, fun _ => by simp [UCore.noiseAt]⟩
  | k + 1, phase, wc, hw, hk => by
    by_cases h0 : c.wrap = 0
    · have e : wrapStep c.wrap wc phase 19009 = (wc, phase) := by rw [h0, wrapStep_off]
      have ih := UCore.noiseAt_plain (c := c) k (phase := (noiseStep phase).2) (wc := wc) hw
        (fun h => absurd h0 h)
      refine ⟨?_, fun h => absurd h0 h⟩
      show (c.noiseAt (noiseStep (wrapStep c.wrap wc phase 19009).2).2 (wrapStep c.wrap wc phase 19009).1 k).1 = _
      rw [e]
      exact ih.1
    · have := hk h0
      have e : wrapStep c.wrap wc phase 19009 = (wc - 1, phase) := wrapStep_dec hw h0 (by omega)
      have hw' := (wrapStep_ok (phase := phase) (restart := 19009) hw).1
      rw [e] at hw'
      have ih := UCore.noiseAt_plain (c := c) k (phase := (noiseStep phase).2) (wc := wc - 1) hw'
        (fun _ => by omega)
      constructor
      · show (c.noiseAt (noiseStep (wrapStep c.wrap wc phase 19009).2).2 (wrapStep c.wrap wc phase 19009).1 k).1 = _
        rw [e]
        exact ih.1
      · intro h
        show (c.noiseAt (noiseStep (wrapStep c.wrap wc phase 19009).2).2 (wrapStep c.wrap wc phase 19009).1 k).2 = _
        rw [e, ih.2 h]
        push_cast; ring

/-- The values before the wrap are those of the plain generator. -/
theorem UCore.noiseVal_plain {c : UCore} {k : Nat} {phase wc : Int} (hw : WrapOk c.wrap wc)
    (hk : c.wrap ≠ 0 → k + 2 ≤ wc) : c.noiseVal phase wc k = noiseLevel (noiseBit phase k) := by
  obtain ⟨e1, e2⟩ := UCore.noiseAt_plain (c := c) k (phase := phase) hw (fun h => by have := hk h; omega)
  unfold UCore.noiseVal noiseBit
  dsimp only
  rw [e1]
  by_cases h0 : c.wrap = 0
  · rw [h0, wrapStep_off]
  · have hk := hk h0
    have h4 := hw.2.2 h0
    have h5 := hw.1
    rw [e2 h0, wrapStep_dec ⟨h5, by unfold InU32; omega, fun _ => by omega⟩ h0 (by omega)]

/-- The counter reaches 1 after `wc - 1` pulses. -/
theorem UCore.noiseAt_one {c : UCore} {phase wc : Int} (hw : WrapOk c.wrap wc) (h0 : c.wrap ≠ 0) :
    (c.noiseAt phase wc (wc - 1).toNat).2 = 1 := by
  have h4 := hw.2.2 h0
  rw [(UCore.noiseAt_plain (c := c) (wc - 1).toNat (phase := phase) hw (fun _ => by omega)).2 h0]
  omega

/-- From a counter of 1 on, nothing depends on the register. -/
theorem UCore.noiseVal_forget {c : UCore} (h0 : c.wrap ≠ 0) (p q : Int) : ∀ k : Nat,
    c.noiseVal p 1 k = c.noiseVal q 1 k
  | 0 => by
    unfold UCore.noiseVal UCore.noiseAt
    dsimp only
    rw [wrapStep_one h0, wrapStep_one h0]
  | k + 1 => by
    rw [UCore.noiseVal_succ, UCore.noiseVal_succ, wrapStep_one h0, wrapStep_one h0]

/-- From a counter of 1 on, the counter is 1 again after `wrap` pulses. -/
theorem UCore.noiseAt_again {c : UCore} {phase : Int} (h0 : c.wrap ≠ 0) (hw : 0 ≤ c.wrap ∧ c.wrap ≤ 2147483647) :
    (c.noiseAt phase 1 c.wrap.toNat).2 = 1 := by
  obtain ⟨k, hk⟩ : ∃ k, c.wrap.toNat = k + 1 := ⟨c.wrap.toNat - 1, by omega⟩
  rw [hk]
  show (c.noiseAt (noiseStep (wrapStep c.wrap 1 phase 19009).2).2 (wrapStep c.wrap 1 phase 19009).1 k).2 = 1
  rw [wrapStep_one h0]
  have := UCore.noiseAt_one (c := c) (phase := (noiseStep 19009).2) (wc := c.wrap)
    ⟨hw, by unfold InU32; omega, fun _ => by omega⟩ h0
  rw [show k = (c.wrap - 1).toNat by omega]
  exact this

end BK
