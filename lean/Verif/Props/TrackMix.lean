import Verif.Lemmas.TrackMix
import Verif.Spec.Track
/-!
C55: volume of tracks.  C56: panning.
-/
namespace BK

/-- The loudest channel and the other one. -/
theorem Track.updateVolume_sides {x : Nat} {w : IWorld} {t t' : Track}
    (hM : 0 ≤ t.masterVolume ∧ t.masterVolume ≤ 32767) (h : t.updateVolume x w = .ok t') :
    ∃ m, t.mix x w = .ok m ∧ 0 ≤ m.1 ∧ m.1 ≤ 32767 ∧ m.1 ≤ t.masterVolume ∧
      (t.panningOn = true →
        t'.unit.volume 0 = side m.1 (cclamp m.2 (-32767) 32767) ∧
        t'.unit.volume 1 = side m.1 (-cclamp m.2 (-32767) 32767)) ∧
      (t.panningOn = false → t'.unit.volume 0 = m.1 ∧ t'.unit.volume 1 = m.1) := by
  obtain ⟨m, hm, h1, h2⟩ := Track.updateVolume_ok h
  obtain ⟨v, p, z, -, -, -, e, -⟩ := Track.mix_ok hm
  have hz : 0 ≤ cclamp z 0 32767 ∧ cclamp z 0 32767 ≤ 32767 := by
    unfold cclamp; split <;> (try split) <;> omega
  have m0 : 0 ≤ m.1 := by rw [e]; exact scale_nonneg hz.1 hM.1
  have m1 : m.1 ≤ t.masterVolume := by rw [e]; exact scale_le_right hz.2 hM.1
  have cl : ∀ v, 0 ≤ v → v ≤ 32767 → cclamp v 0 32767 = v := by
    intro v h0 h1; unfold cclamp; rw [if_neg (by omega), if_neg (by omega)]
  have hq : -32767 ≤ cclamp m.2 (-32767) 32767 ∧ cclamp m.2 (-32767) 32767 ≤ 32767 := by
    unfold cclamp; split <;> (try split) <;> omega
  refine ⟨m, hm, m0, by omega, m1, fun hp => ?_, fun hp => ?_⟩
  · by_cases hz : m.2 = 0
    · have e2 := h2 (Or.inr hz)
      rw [e2 0, e2 1, hz, cl _ m0 (by omega)]
      exact ⟨rfl, rfl⟩
    · obtain ⟨e1, e2⟩ := h1 hp hz
      have b1 := side_bounds m0 hq.2
      have b2 := side_bounds m0 (show -cclamp m.2 (-32767) 32767 ≤ 32767 by omega)
      rw [e1, e2, cl _ b1.1 (by omega), cl _ b2.1 (by omega)]
      exact ⟨rfl, rfl⟩
  · have e2 := h2 (Or.inl hp)
    rw [e2 0, e2 1, cl _ m0 (by omega)]
    exact ⟨rfl, rfl⟩

theorem Track.updateVolume_le {x : Nat} {w : IWorld} {t t' : Track}
    (hM : 0 ≤ t.masterVolume ∧ t.masterVolume ≤ 32767) (h : t.updateVolume x w = .ok t') :
    ∃ m, t.mix x w = .ok m ∧ m.1 ≤ 32767 ∧ m.1 ≤ t.masterVolume ∧
      ∀ i, i < 2 → 0 ≤ t'.unit.volume i ∧ t'.unit.volume i ≤ m.1 := by
  obtain ⟨m, hm, m0, m1, m2, h1, h2⟩ := Track.updateVolume_sides hM h
  refine ⟨m, hm, m1, m2, ?_⟩
  have hq : -32767 ≤ cclamp m.2 (-32767) 32767 ∧ cclamp m.2 (-32767) 32767 ≤ 32767 := by
    unfold cclamp; split <;> (try split) <;> omega
  have b1 := side_bounds m0 hq.2
  have b2 := side_bounds m0 (show -cclamp m.2 (-32767) 32767 ≤ 32767 by omega)
  intro i hi
  cases hp : t.panningOn
  · obtain ⟨e0, e1⟩ := h2 hp
    rcases (by omega : i = 0 ∨ i = 1) with rfl | rfl
    · rw [e0]; omega
    · rw [e1]; omega
  · obtain ⟨e0, e1⟩ := h1 hp
    rcases (by omega : i = 0 ∨ i = 1) with rfl | rfl
    · rw [e0]; exact b1
    · rw [e1]; exact b2

/-- Whatever the note volume, instrument, tremolo and panning: the channel volumes are within
0 … maximum and not louder than the master volume. -/
theorem C55_range_partial (x : Nat) (w : IWorld) (t t' : Track)
    (hM : 0 ≤ t.masterVolume ∧ t.masterVolume ≤ 32767) (h : t.updateVolume x w = .ok t') (i : Nat)
    (hi : i < 2) :
    0 ≤ t'.unit.volume i ∧ t'.unit.volume i ≤ 32767 ∧ t'.unit.volume i ≤ t.masterVolume := by
  obtain ⟨m, -, m1, m2, hb⟩ := Track.updateVolume_le hM h
  have := hb i hi
  omega

theorem cabs_nonneg {x a : Int} (h : cabs x = .ok a) : 0 ≤ a := by
  unfold cabs at h
  split at h
  · obtain ⟨-, rfl⟩ := i32_eq_ok_iff.1 h; omega
  · cases h; omega

/-- Nor are they louder than the note volume, if the track does not ignore it and the volume of the
instrument is not beyond the maximum. -/
theorem C55_note_partial (x : Nat) (w : IWorld) (t t' : Track) (u : Int)
    (hM : 0 ≤ t.masterVolume ∧ t.masterVolume ≤ 32767) (hu : t.volume.get = .ok u) (h0 : 0 ≤ u)
    (hig : t.ignores = false) (hi : w.on x = true → 0 ≤ w.value x 0 ∧ w.value x 0 ≤ 32767)
    (h : t.updateVolume x w = .ok t') (i : Nat) (hlt : i < 2) : t'.unit.volume i ≤ u := by
  obtain ⟨m, hm, -, -, hb⟩ := Track.updateVolume_le hM h
  obtain ⟨v, p, z, hv, -, hz, e, -⟩ := Track.mix_ok hm
  obtain ⟨u', hu', ev⟩ := Track.ownVolume_ok hv
  rw [hu] at hu'
  cases hu'
  rw [hig, if_neg (by simp)] at ev
  subst ev
  have hv1 : 0 ≤ instrVolume (w.on x) t.ignores v (w.value x 0) ∧
      instrVolume (w.on x) t.ignores v (w.value x 0) ≤ v := by
    unfold instrVolume
    split
    · rename_i hc
      have := hi (by simp only [Bool.and_eq_true] at hc; exact hc.1)
      exact ⟨scale_nonneg h0 this.1, scale_le h0 this.2⟩
    · omega
  have hz1 : z ≤ v := by
    rcases Track.tremoloVolume_ok hz with ⟨-, -, y, -, a, ha, ez⟩ | ⟨-, ez⟩
    · have := cabs_nonneg ha
      rw [ez]
      have := scale_le hv1.1 (show 32767 - a ≤ 32767 by omega)
      omega
    · omega
  have hc : 0 ≤ cclamp z 0 32767 ∧ cclamp z 0 32767 ≤ v := by
    unfold cclamp; split <;> (try split) <;> omega
  have := scale_le hc.1 hM.2
  have := hb i hlt
  omega

/-- They are zero if the note volume, the master volume, the volume of the instrument or what
tremolo leaves is zero. -/
theorem C55_zero_partial (x : Nat) (w : IWorld) (t t' : Track)
    (hM : 0 ≤ t.masterVolume ∧ t.masterVolume ≤ 32767)
    (hz : t.volume.get = .ok 0 ∨ t.masterVolume = 0 ∨ (w.on x = true ∧ w.value x 0 = 0) ∨
      (t.tremoloOn = true ∧ t.ignores = false ∧
        (t.tremolo.get = .ok 32767 ∨ t.tremolo.get = .ok (-32767))))
    (h : t.updateVolume x w = .ok t') (i : Nat) (hlt : i < 2) : t'.unit.volume i = 0 := by
  obtain ⟨m, hm, -, h2, hb⟩ := Track.updateVolume_le hM h
  obtain ⟨v, p, z, hv, -, hy, e, -⟩ := Track.mix_ok hm
  have hb := hb i hlt
  suffices hm0 : m.1 ≤ 0 by omega
  have key : z ≤ 0 → m.1 ≤ 0 := by
    intro hz0
    have : cclamp z 0 32767 = 0 := by
      unfold cclamp; split
      · rfl
      · rw [if_neg (by omega)]; omega
    rw [e, this]; simp
  have iv0 : instrVolume (w.on x) t.ignores v (w.value x 0) = 0 → m.1 ≤ 0 := by
    intro h0
    refine key ?_
    rw [h0] at hy
    rcases Track.tremoloVolume_ok hy with ⟨-, -, y, -, a, ha, ez⟩ | ⟨-, ez⟩
    · rw [ez]; simp
    · omega
  rcases hz with hz | hz | ⟨ho, hz⟩ | ⟨h1, h2, h3⟩
  · obtain ⟨u, hu, ev⟩ := Track.ownVolume_ok hv
    rw [hz] at hu
    cases hu
    rw [if_neg (by simp)] at ev
    subst ev
    apply iv0
    unfold instrVolume
    split <;> simp
  · omega
  · apply iv0
    unfold instrVolume
    rw [ho, hz]
    simp
  · apply key
    rcases Track.tremoloVolume_ok hy with ⟨-, -, y, hy', a, ha, ez⟩ | ⟨hn, ez⟩
    · have : a = 32767 := by
        rcases h3 with h3 | h3 <;> rw [h3] at hy' <;> cases hy'
        · cases ha; rfl
        · cases ha; rfl
      rw [ez, this]; simp
    · rcases hn with hn | hn
      · rw [h1] at hn; cases hn
      · rw [h2] at hn; cases hn

/-- A track at half the volume with tremolo and some panning. -/
def mixedTrack : Track :=
  { masterVolume := 20000, panningOn := true
    volume := { value := 536870912, endValue := 536870912, valueShift := 15 }
    panning := { value := 327680000, endValue := 327680000, valueShift := 15 }, tremoloOn := true
    tremolo := { valueShift := 14, value := 163840000 } }

example : (mixedTrack.volume.get, mixedTrack.panning.get, mixedTrack.tremolo.get) =
      ((.ok 16384, .ok 10000, .ok 10000) : C Int × C Int × C Int) ∧
    ((mixedTrack.updateVolume 0 {}).map fun t => (t.unit.volume 0, t.unit.volume 1)) =
      .ok (4826, 6947) := by decide +kernel

/-- Louder than the note volume, though: the triangle wave ignores the volume unless told not to.
And an instrument may have volumes above the maximum, which amplify the note. -/
theorem C55_refuted :
    ((({} : TWorld).run 0 [.init 0 16386, .track 0 (.attr .masterVolume 32767),
        .track 0 (.attr .volume 100), .track 0 (.attach 44100 2 0)]).map fun s =>
      (s.tracks 0).map fun t => (t.volume.get.toOption, t.unit.volume 0)) =
      .ok (some (some 100, 32766)) ∧
    ((({} : TWorld).run 1 [.init 0 16385, .track 0 (.attr .masterVolume 32767),
        .track 0 (.attr .volume 10000), .setSequence 0 0 (.values [65536] 0 1),
        .track 0 (.attr .note 0), .track 0 (.instrument (some 0)),
        .track 0 (.attach 44100 2 0)]).map fun s =>
      (s.tracks 0).map fun t => (t.volume.get.toOption, t.unit.volume 0)) =
      .ok (some (some 10000, 19999)) := by decide +kernel

theorem position_ok {x : Nat} {w : IWorld} {t : Track} {m : Int × Int} {p : Int}
    (hm : t.mix x w = .ok m) (hp : t.position x w = .ok p) : m.2 = p := by
  obtain ⟨v, q, z, -, hq, -, -, e⟩ := Track.mix_ok hm
  unfold Track.position at hp
  rw [hq] at hp
  cases hp
  rw [e]
  split <;> simp

theorem mix_panningOn {x : Nat} {w : IWorld} {t : Track} (b : Bool) :
    ({ t with panningOn := b } : Track).mix x w = t.mix x w := rfl

/-- Moving the track does not change the volume before it is distributed. -/
theorem mix_panning {x : Nat} {w : IWorld} {t : Track} {q : Slide} {m m' : Int × Int}
    (h : t.mix x w = .ok m) (h' : ({ t with panning := q } : Track).mix x w = .ok m') :
    m'.1 = m.1 := by
  obtain ⟨v, p, z, hv, -, hz, e, -⟩ := Track.mix_ok h
  obtain ⟨v', p', z', hv', -, hz', e', -⟩ := Track.mix_ok h'
  have : t.ownVolume = .ok v' := hv'
  rw [hv] at this
  cases this
  have : t.tremoloVolume (instrVolume (w.on x) t.ignores v (w.value x 0)) = .ok z' := hz'
  rw [hz] at this
  cases this
  rw [e, e']

/-- On a track of a stereo context: at centre both channels get the full volume, that is, the one
they would have in a context that is not stereo.  To one side, only the channel of the other side
is lowered; at the end it is silent. -/
theorem C56_sides (x : Nat) (w : IWorld) (t t' : Track) (p : Int)
    (hM : 0 ≤ t.masterVolume ∧ t.masterVolume ≤ 32767) (hon : t.panningOn = true)
    (hp : t.position x w = .ok p) (h : t.updateVolume x w = .ok t') :
    ∃ f, ({ t with panningOn := false } : Track).updateVolume x w = .ok f ∧
      f.unit.volume 0 = f.unit.volume 1 ∧
      (p ≤ 0 → t'.unit.volume 0 = f.unit.volume 0) ∧
      (0 ≤ p → t'.unit.volume 1 = f.unit.volume 1) ∧
      (0 ≤ p → t'.unit.volume 0 ≤ f.unit.volume 0) ∧
      (p ≤ 0 → t'.unit.volume 1 ≤ f.unit.volume 1) ∧
      (32767 ≤ p → t'.unit.volume 0 = 0) ∧
      (p ≤ -32767 → t'.unit.volume 1 = 0) := by
  obtain ⟨m, hm, m0, m1, m2, h1, -⟩ := Track.updateVolume_sides hM h
  obtain ⟨e0, e1⟩ := h1 hon
  have ep := position_ok hm hp
  have hf : ({ t with panningOn := false } : Track).updateVolume x w =
      ({ t with panningOn := false } : Track).setUnit .volume m.1 := by
    unfold Track.updateVolume
    rw [mix_panningOn, hm, ok_bind, if_neg (by simp)]
  obtain ⟨f, hf'⟩ : ∃ f, ({ t with panningOn := false } : Track).updateVolume x w = .ok f := by
    rw [hf]; exact ⟨_, rfl⟩
  obtain ⟨m', hm', -, -, -, -, k⟩ := Track.updateVolume_sides (t := { t with panningOn := false }) hM hf'
  rw [mix_panningOn, hm] at hm'
  cases hm'
  obtain ⟨f0, f1⟩ := k rfl
  have hq : -32767 ≤ cclamp p (-32767) 32767 ∧ cclamp p (-32767) 32767 ≤ 32767 := by
    unfold cclamp; split <;> (try split) <;> omega
  have hq1 : (p ≤ 0 → cclamp p (-32767) 32767 ≤ 0) ∧ (0 ≤ p → 0 ≤ cclamp p (-32767) 32767) ∧
      (32767 ≤ p → cclamp p (-32767) 32767 = 32767) ∧
      (p ≤ -32767 → cclamp p (-32767) 32767 = -32767) := by
    unfold cclamp
    refine ⟨fun _ => ?_, fun _ => ?_, fun _ => ?_, fun _ => ?_⟩ <;> split <;> (try split) <;> omega
  rw [ep] at e0 e1
  refine ⟨f, hf', by rw [f0, f1], fun hp => ?_, fun hp => ?_, fun hp => ?_, fun hp => ?_,
    fun hp => ?_, fun hp => ?_⟩
  · rw [e0, f0, side_nonpos (hq1.1 hp)]
  · rw [e1, f1, side_nonpos (by have := hq1.2.1 hp; omega)]
  · rw [e0, f0]; exact (side_bounds m0 hq.2).2
  · rw [e1, f1]; exact (side_bounds m0 (by omega)).2
  · rw [e0, hq1.2.2.1 hp, side_full]
  · rw [e1, hq1.2.2.2 hp]; exact side_full _

/-- Moving a track to the mirror-image position swaps the channels. -/
theorem C56_mirror (x : Nat) (w : IWorld) (t t1 t2 : Track) (q : Slide) (p : Int)
    (hM : 0 ≤ t.masterVolume ∧ t.masterVolume ≤ 32767) (hon : t.panningOn = true)
    (hp : t.position x w = .ok p) (hq : ({ t with panning := q } : Track).position x w = .ok (-p))
    (h1 : t.updateVolume x w = .ok t1)
    (h2 : ({ t with panning := q } : Track).updateVolume x w = .ok t2) :
    t2.unit.volume 0 = t1.unit.volume 1 ∧ t2.unit.volume 1 = t1.unit.volume 0 := by
  obtain ⟨m, hm, m0, -, -, k, -⟩ := Track.updateVolume_sides hM h1
  obtain ⟨m', hm', m0', -, -, k', -⟩ :=
    Track.updateVolume_sides (t := { t with panning := q }) hM h2
  obtain ⟨e0, e1⟩ := k hon
  obtain ⟨f0, f1⟩ := k' hon
  rw [position_ok hm hp] at e0 e1
  rw [position_ok hm' hq, mix_panning hm hm'] at f0 f1
  have : cclamp (-p) (-32767) 32767 = -cclamp p (-32767) 32767 := by
    unfold cclamp; split <;> split <;> (try split) <;> (try split) <;> omega
  rw [e0, e1, f0, f1, this, Int.neg_neg]
  exact ⟨rfl, rfl⟩

/-- The further to the right a track is, the less loud is the left channel and the louder the right
channel. -/
theorem C56_monotone (x : Nat) (w : IWorld) (t t1 t2 : Track) (q : Slide) (p p' : Int)
    (hM : 0 ≤ t.masterVolume ∧ t.masterVolume ≤ 32767) (hon : t.panningOn = true)
    (hp : t.position x w = .ok p) (hq : ({ t with panning := q } : Track).position x w = .ok p')
    (hpp : p ≤ p') (h1 : t.updateVolume x w = .ok t1)
    (h2 : ({ t with panning := q } : Track).updateVolume x w = .ok t2) :
    t2.unit.volume 0 ≤ t1.unit.volume 0 ∧ t1.unit.volume 1 ≤ t2.unit.volume 1 := by
  obtain ⟨m, hm, m0, -, -, k, -⟩ := Track.updateVolume_sides hM h1
  obtain ⟨m', hm', m0', -, -, k', -⟩ :=
    Track.updateVolume_sides (t := { t with panning := q }) hM h2
  obtain ⟨e0, e1⟩ := k hon
  obtain ⟨f0, f1⟩ := k' hon
  rw [position_ok hm hp] at e0 e1
  rw [position_ok hm' hq, mix_panning hm hm'] at f0 f1
  have : cclamp p (-32767) 32767 ≤ cclamp p' (-32767) 32767 ∧
      -32767 ≤ cclamp p (-32767) 32767 ∧ cclamp p' (-32767) 32767 ≤ 32767 := by
    unfold cclamp; split <;> split <;> (try split) <;> (try split) <;> omega
  rw [e0, e1, f0, f1]
  exact ⟨side_anti m0 this.1 this.2.2, side_anti m0 (by omega) (by omega)⟩

/-- The same track on the other side. -/
def mirroredTrack : Track := { mixedTrack with panning := { value := -327680000, endValue := -327680000, valueShift := 15 } }

example : (mixedTrack.position 0 {}, mirroredTrack.position 0 {}) =
      ((.ok 10000, .ok (-10000)) : C Int × C Int) ∧
    ((mirroredTrack.updateVolume 0 {}).map fun t => (t.unit.volume 0, t.unit.volume 1)) =
      .ok (6947, 4826) ∧
    ((({ mixedTrack with panningOn := false } : Track).updateVolume 0 {}).map fun t =>
      (t.unit.volume 0, t.unit.volume 1)) = .ok (6947, 6947) := by decide +kernel

end BK
