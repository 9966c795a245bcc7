import Verif.Lemmas.Track
/-!
Volume and panning of tracks.
-/
namespace BK

theorem scaleIf_ok {b : Bool} {v f r : Int} (h : scaleIf b v f = .ok r) :
    r = if b then v * f / 32768 else v := by
  unfold scaleIf at h
  split at h
  · rename_i hb
    obtain ⟨p, hp, h⟩ := bind_ok_iff.1 h
    obtain ⟨-, rfl⟩ := i32_eq_ok_iff.1 hp
    cases h
    rw [if_pos hb]
  · rename_i hb
    cases h
    rw [if_neg hb]

theorem scale_le {v f : Int} (hv : 0 ≤ v) (hf : f ≤ 32767) : v * f / 32768 ≤ v := by
  have : v * f ≤ v * 32768 := Int.mul_le_mul_of_nonneg_left (by omega) hv
  omega

theorem scale_nonneg {v f : Int} (hv : 0 ≤ v) (hf : 0 ≤ f) : 0 ≤ v * f / 32768 := by
  have := Int.mul_nonneg hv hf
  omega

theorem scale_le_right {v f : Int} (hv : v ≤ 32767) (hf : 0 ≤ f) : v * f / 32768 ≤ f := by
  rw [Int.mul_comm]; exact scale_le hf hv

theorem scale_neg {v f : Int} (hv : v ≤ 0) (hf : 0 ≤ f) : v * f / 32768 ≤ 0 := by
  have := Int.mul_nonneg (show 0 ≤ -v by omega) hf
  rw [Int.neg_mul] at this
  omega

/-- The volume of a track before instrument and tremolo. -/
theorem Track.ownVolume_ok {t : Track} {v : Int} (h : t.ownVolume = .ok v) :
    ∃ u, t.volume.get = .ok u ∧ v = if t.ignores = true ∧ u ≠ 0 then 32767 else u := by
  unfold Track.ownVolume at h
  obtain ⟨u, hu, h⟩ := bind_ok_iff.1 h
  cases h
  exact ⟨u, hu, rfl⟩

theorem Track.tremoloVolume_ok {t : Track} {v r : Int} (h : t.tremoloVolume v = .ok r) :
    (t.tremoloOn = true ∧ t.ignores = false ∧ ∃ z, t.tremolo.get = .ok z ∧
      ∃ a, cabs z = .ok a ∧ r = v * (32767 - a) / 32768) ∨
    ((t.tremoloOn = false ∨ t.ignores = true) ∧ r = v) := by
  unfold Track.tremoloVolume at h
  split at h
  · rename_i hc
    left
    obtain ⟨f, hf, h⟩ := bind_ok_iff.1 h
    unfold Track.tremoloFactor at hf
    obtain ⟨z, hz, hf⟩ := bind_ok_iff.1 hf
    obtain ⟨a, ha, hf⟩ := bind_ok_iff.1 hf
    obtain ⟨-, rfl⟩ := i32_eq_ok_iff.1 hf
    refine ⟨hc.1, hc.2, z, hz, a, ha, ?_⟩
    have := scaleIf_ok h
    simpa using this
  · rename_i hc
    right
    cases h
    refine ⟨?_, rfl⟩
    cases h1 : t.tremoloOn
    · exact Or.inl rfl
    · right
      cases h2 : t.ignores
      · exact absurd ⟨h1, h2⟩ hc
      · rfl

/-- Instrument volume. -/
def instrVolume (on ignores : Bool) (v i : Int) : Int :=
  if on && (!ignores || i == 0) then v * i / 32768 else v

theorem Track.mix_ok {x : Nat} {w : IWorld} {t : Track} {m : Int × Int} (h : t.mix x w = .ok m) :
    ∃ v p z, t.ownVolume = .ok v ∧ t.panning.get = .ok p ∧
      t.tremoloVolume (instrVolume (w.on x) t.ignores v (w.value x 0)) = .ok z ∧
      m.1 = cclamp z 0 32767 * t.masterVolume / 32768 ∧
      m.2 = if w.on x then p + w.value x 1 else p := by
  unfold Track.mix at h
  obtain ⟨v, hv, h⟩ := bind_ok_iff.1 h
  obtain ⟨p, hp, h⟩ := bind_ok_iff.1 h
  obtain ⟨v1, h1, h⟩ := bind_ok_iff.1 h
  obtain ⟨p1, h2, h⟩ := bind_ok_iff.1 h
  obtain ⟨z, h3, h⟩ := bind_ok_iff.1 h
  obtain ⟨v2, h4, h⟩ := bind_ok_iff.1 h
  cases h
  refine ⟨v, p, z, hv, hp, ?_, ?_, ?_⟩
  · rw [scaleIf_ok h1] at h3
    exact h3
  · have := scaleIf_ok h4
    simpa using this
  · unfold addIf at h2
    split at h2
    · rename_i hw
      obtain ⟨-, rfl⟩ := i32_eq_ok_iff.1 h2
      rw [if_pos hw]
    · rename_i hw
      cases h2
      rw [if_neg hw]

/-- How loud a channel is whose side is given by `p`. -/
def side (v p : Int) : Int := if p > 0 then v * (32767 - p) / 32768 else v

theorem pan_ok {v p : Int} {c : Int × Int} (h : pan v p = .ok c) :
    c = (side v (cclamp p (-32767) 32767), side v (-cclamp p (-32767) 32767)) := by
  unfold pan at h
  obtain ⟨a, ha, h⟩ := bind_ok_iff.1 h
  obtain ⟨b, hb, h⟩ := bind_ok_iff.1 h
  cases h
  rw [scaleIf_ok ha, scaleIf_ok hb]
  unfold side
  congr 1
  · simp
  · generalize cclamp p (-32767) 32767 = q
    by_cases hq : q < 0
    · rw [if_pos (decide_eq_true hq), if_pos (show -q > 0 by omega), show 32767 - -q = 32767 + q by omega]
    · rw [if_neg (show ¬ decide (q < 0) = true by simpa using hq), if_neg (show ¬ -q > 0 by omega)]

theorem side_zero (v : Int) : side v 0 = v := rfl

theorem side_nonpos {v p : Int} (hp : p ≤ 0) : side v p = v := by
  unfold side; rw [if_neg (by omega)]

theorem side_bounds {v p : Int} (hv : 0 ≤ v) (hp : p ≤ 32767) : 0 ≤ side v p ∧ side v p ≤ v := by
  unfold side
  split
  · exact ⟨scale_nonneg hv (by omega), scale_le hv (by omega)⟩
  · omega

theorem side_full (v : Int) : side v 32767 = 0 := by
  unfold side
  rw [if_pos (by omega)]
  simp

theorem side_anti {v p q : Int} (hv : 0 ≤ v) (hpq : p ≤ q) (hq : q ≤ 32767) : side v q ≤ side v p := by
  unfold side
  split
  · split
    · have : v * (32767 - q) ≤ v * (32767 - p) := Int.mul_le_mul_of_nonneg_left (by omega) hv
      omega
    · exact scale_le hv (by omega)
  · rw [if_neg (by omega)]

/-- What `updateVolume` does to the channels. -/
theorem Track.updateVolume_ok {x : Nat} {w : IWorld} {t t' : Track} (h : t.updateVolume x w = .ok t') :
    ∃ m, t.mix x w = .ok m ∧
      (t.panningOn = true → m.2 ≠ 0 →
        t'.unit.volume 0 = cclamp (side m.1 (cclamp m.2 (-32767) 32767)) 0 32767 ∧
        t'.unit.volume 1 = cclamp (side m.1 (-cclamp m.2 (-32767) 32767)) 0 32767) ∧
      (t.panningOn = false ∨ m.2 = 0 → ∀ i, t'.unit.volume i = cclamp m.1 0 32767) := by
  unfold Track.updateVolume at h
  obtain ⟨m, hm, h⟩ := bind_ok_iff.1 h
  refine ⟨m, hm, ?_⟩
  split at h
  · rename_i hc
    obtain ⟨c, hp, h⟩ := bind_ok_iff.1 h
    obtain ⟨t1, h1, h⟩ := bind_ok_iff.1 h
    obtain ⟨r1, e1, rfl⟩ := Track.setUnit_eq h1
    obtain ⟨r2, e2, rfl⟩ := Track.setUnit_eq h
    cases e1
    cases e2
    rw [pan_ok hp]
    refine ⟨fun _ _ => ⟨?_, ?_⟩, fun hf => ?_⟩
    · simp [upd]
    · simp [upd]
    · rcases hf with hf | hf
      · rw [hf] at hc; exact absurd hc.2 (by decide)
      · exact absurd hf hc.1
  · rename_i hc
    obtain ⟨r1, e1, rfl⟩ := Track.setUnit_eq h
    cases e1
    refine ⟨fun h1 h2 => absurd ⟨h2, h1⟩ hc, fun _ i => rfl⟩

end BK
