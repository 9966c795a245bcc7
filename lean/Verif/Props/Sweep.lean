import Verif.Lemmas.Sweep
import Verif.Props.Swing
import Verif.Props.TrackReach
/-!
C105: panning slides lead from one side to the other.
-/
namespace BK

/-- C105: a sweep.  After any calls on tracks and instruments, put a stereo track without instrument, tremolo and volume slide
at panning `S`, then have it slide to `v` in `n` steps of `d` ticks.  From then on every tick gives to the channels the volumes of the
position that the slide has reached, and the slide leads from `S` to `v`: it stays between, never turns back, keeps within 3
of the straight line, and has arrived after `n` steps.  Partial: slides to the left of less than 1/128 per step are
missing, see `C105_refuted`. -/
theorem C105_sweep_partial {N fuel : Nat} {ops : List WOp} {s : TWorld} {x : Nat} {t : Track}
    (hf : ops.length ≤ fuel) (hl : ({} : TWorld).LegalRun N fuel ops) (h : ({} : TWorld).run fuel ops = .ok s)
    (ht : s.tracks x = some t) (hon : s.iw.on x = false) (hvs : t.volumeSlide = false) (htr : t.tremoloOn = false) (hig : t.ignores = false)
    {rate : Int} (hc : t.ctx = some (rate, 2)) {V : Int} (hV : t.volume.get = .ok V) (hV0 : 0 ≤ V) (hV1 : V ≤ 32767)
    {d : Nat} (hd : 1 ≤ d) (hd2 : d ≤ 2147483647) {S v n : Int} (hS : -32767 ≤ S) (hS2 : S ≤ 32767) (hv : -32767 ≤ v) (hv2 : v ≤ 32767)
    (hn : 1 ≤ n) (hn2 : n ≤ 65536) (hdir : S ≤ v ∨ n ≤ 128 * (S - v)) :
    ∃ r, LeadsTo 3 S v n r ∧ ∃ s0, Track.calls x (sweepCalls d S v n) (s.iw, t) = .ok s0 ∧
      ∀ k, ∃ s', Track.ticks x (k + 1) s0 = .ok s' ∧
        s'.2.getAttr (.unit (.volumeOf 0)) = .ok (some (leftOf (V * t.masterVolume / 32768) (r (firings d 0 k)))) ∧
        s'.2.getAttr (.unit (.volumeOf 1)) = .ok (some (rightOf (V * t.masterVolume / 32768) (r (firings d 0 k)))) := by
  obtain ⟨m, hinv⟩ : ∃ m, s.Inv m N := by
    have := (TWorld.Inv.init N).run ops (by omega) hl
    rw [h] at this
    exact ⟨_, this⟩
  have hg := hinv.good
  have hi := hinv.tracks x t ht
  obtain ⟨a, b, c, e, q1, q2, q3, q4, q5, q6, r, hr, hget⟩ := hi.panning.fade (by decide) hS hS2 hv hv2 (by omega) hn2
    (by rcases hdir with h | h
        · exact Or.inl h
        · exact Or.inr (by norm_num; omega)) (q := 3) (by norm_num; omega)
  have hcalls := Track.sweepCalls_ok (x := x) (w := s.iw) (d := d) hS hS2 hv hv2 hn hn2 q1 q2 q5 q6
  refine ⟨r, hr, _, hcalls, fun k => ?_⟩
  obtain ⟨a', ha', na⟩ := hi.panning.setSteps (by decide) (n := 0) (by omega)
  rw [q1] at ha'; cases ha'
  obtain ⟨b', hb', nb⟩ := na.setValue (by decide) hS hS2
  rw [q2] at hb'; cases hb'
  obtain ⟨c', hc', nc⟩ := nb.setSteps (by decide) (n := n) hn2
  rw [q5] at hc'; cases hc'
  obtain ⟨e', he', ne⟩ := nc.setValue (by decide) hv hv2
  rw [q6] at he'; cases he'
  generalize hu : ({ t with effectDiv := ⟨d, 0⟩, panning := e, updVolume := true, panningSlide := true } : Track) = u
  have ui : u.Inv N False := by
    subst hu
    exact { hi with effectDiv := ⟨⟨by dsimp only; omega, by dsimp only; omega⟩, show (0 : Int) ≤ 0 ∧ (0 : Int) ≤ 2147483647 by decide⟩, panning := ne }
  obtain ⟨s1, h1, e1, i1⟩ := ui.ticks hg hon k
  obtain ⟨s2, h2, e2, i2⟩ := ui.ticks hg hon (k + 1)
  refine ⟨s2, h2, ?_⟩
  have hlast := Track.ticks_last h1 h2
  rw [e1] at hlast
  obtain ⟨-, k2, k3, k4, k5, k6, k7, k8, -⟩ := Track.ticks_keep hon k h1
  have hb : -32767 ≤ r (firings d 0 k) ∧ r (firings d 0 k) ≤ 32767 := by
    have := hr.between (firings d 0 k)
    unfold Between at this
    omega
  have hpan : s1.2.panning.get = .ok (r (firings d 0 k)) ∧ s1.2.volume.get = .ok V := by
    have := (C53_effects_partial x k d 0 (by omega) hd2 s.iw u s1 (by subst hu; rfl) (by subst hu; unfold Track.effects; simp) h1).1
    have hps : u.panningSlide = true := by subst hu; rfl
    have hvs' : u.volumeSlide = false := by subst hu; exact hvs
    rw [hps, hvs'] at this
    obtain ⟨c1, c2⟩ := times_panning _ this
    obtain ⟨z, z1, z2⟩ := hget (firings d 0 k)
    have hv' : u.fx.panning = e := by subst hu; rfl
    rw [hv', z1] at c1
    have c2 : s1.2.volume = u.volume := c2
    have c1 : z = s1.2.panning := Except.ok.inj c1
    rw [← c1, c2]
    subst hu
    exact ⟨z2, hV⟩
  have hpo : t.panningOn = true := (TWorld.run_sided h x t ht).2 ⟨_, hc⟩
  have hm : u.masterVolume = t.masterVolume := by subst hu; rfl
  obtain ⟨l, l'⟩ := Track.tick_panning hlast hon (k8.trans (by subst hu; rfl)) (k3.trans (by subst hu; exact htr)) (k4.trans (by subst hu; exact hig))
    (k5.trans (by subst hu; exact hpo)) hpan.1 hb.1 hb.2 hpan.2 hV0 hV1 (by rw [k6, hm]; exact hi.masterVolume.1) (by rw [k6, hm]; exact hi.masterVolume.2)
  rw [k6, hm] at l l'
  exact ⟨congrArg (fun z => Except.ok (some z)) l, congrArg (fun z => Except.ok (some z)) l'⟩

/-- C105: what the positions mean.  On the left side the left channel has the full volume and the right one is silent, in the middle both
have the full volume, and towards the right the left channel never gets louder and the right one never quieter. -/
theorem C105_across {V p p' : Int} (hV : 0 ≤ V) (h0 : -32767 ≤ p) (h : p ≤ p') (h1 : p' ≤ 32767) :
    leftOf V (-32767) = V ∧ rightOf V (-32767) = 0 ∧ leftOf V 0 = V ∧ rightOf V 0 = V ∧ leftOf V 32767 = 0 ∧ rightOf V 32767 = V ∧
    leftOf V p' ≤ leftOf V p ∧ rightOf V p ≤ rightOf V p' ∧ leftOf V p = rightOf V (-p) ∧ 0 ≤ leftOf V p' ∧ leftOf V p ≤ V := by
  have e : ∀ q, leftOf V q = rightOf V (-q) := by
    intro q
    unfold leftOf rightOf
    by_cases hq : 0 < q
    · rw [if_pos hq, if_pos (by omega), Int.sub_eq_add_neg]
    · rw [if_neg hq, if_neg (by omega)]
  have le : ∀ q, -32767 ≤ q → q ≤ 32767 → 0 ≤ leftOf V q ∧ leftOf V q ≤ V := by
    intro q a b
    unfold leftOf
    split
    · exact ⟨scale_nonneg hV (by omega), scale_le hV (by omega)⟩
    · omega
  have mono : ∀ q q', -32767 ≤ q → q ≤ q' → q' ≤ 32767 → leftOf V q' ≤ leftOf V q := by
    intro q q' a b c
    by_cases hq : 0 < q
    · unfold leftOf
      rw [if_pos hq, if_pos (by omega)]
      exact Int.ediv_le_ediv (by decide) (Int.mul_le_mul_of_nonneg_left (by omega) hV)
    · have : leftOf V q = V := by unfold leftOf; rw [if_neg hq]
      rw [this]
      exact (le q' (by omega) c).2
  refine ⟨rfl, ?_, rfl, rfl, ?_, rfl, mono _ _ h0 h h1, ?_, e _, (le _ (by omega) h1).1, (le _ h0 (by omega)).2⟩
  · show V * (32767 + -32767) / 32768 = 0
    rw [show (32767 + -32767 : Int) = 0 by decide, Int.mul_zero]; rfl
  · show V * (32767 - 32767) / 32768 = 0
    rw [show (32767 - 32767 : Int) = 0 by decide, Int.mul_zero]; rfl
  · have := mono (-p') (-p) (by omega) (by omega) (by omega)
    rw [e, e, Int.neg_neg, Int.neg_neg] at this
    exact this

/-- From the left to the right in 4 steps at half the master volume, left and right channel. -/
example : ((List.range 6).map fun k => do
    let s ← swingTrack
    let s ← Track.calls 0 (sweepCalls 1 (-32767) 32767 4) s
    let s ← Track.ticks 0 (k + 1) s
    let l ← s.2.getAttr (.unit (.volumeOf 0))
    let r ← s.2.getAttr (.unit (.volumeOf 1))
    return [l, r]) = [[16000, 0], [16000, 7999], [16000, 16000], [8000, 16000], [0, 16000], [0, 16000]].map
      fun v => (.ok (v.map some) : C (List (Option Int))) := by
  decide +kernel

/-- C105 fails for slow slides to the left: one from 1 to 0 in 600 steps does not end in the middle. -/
theorem C105_refuted : (do
    let s ← swingTrack
    let s ← Track.calls 0 (sweepCalls 1 1 0 600) s
    let s ← Track.ticks 0 602 s
    s.2.getAttr (.unit (.volumeOf 0)) : C (Option Int)) = .ok (some 15998) ∧ leftOf (32000 * 16384 / 32768) 0 = 16000 := by
  decide +kernel

/-- That track is as C105 asks. -/
example : ∃ s t, ({} : TWorld).run 8 [.init 0 16385, .track 0 (.attach 44100 2 0), .track 0 (.attr .masterVolume 16384),
      .track 0 (.attr .volume 32000), .track 0 (.attr .note 50331648)] = .ok s ∧
    s.tracks 0 = some t ∧ s.iw.on 0 = false ∧ t.volumeSlide = false ∧ t.tremoloOn = false ∧ t.ignores = false ∧ t.ctx = some (44100, 2) ∧
    t.volume.get = .ok 32000 := by
  have hd : (do
      let s ← ({} : TWorld).run 8 [.init 0 16385, .track 0 (.attach 44100 2 0), .track 0 (.attr .masterVolume 16384),
        .track 0 (.attr .volume 32000), .track 0 (.attr .note 50331648)]
      return (s.tracks 0).map fun t =>
        [!s.iw.on 0, !t.volumeSlide, !t.tremoloOn, !t.ignores, decide (t.ctx = some (44100, 2)), decide (t.volume.get.toOption = some 32000)] :
        C (Option (List Bool))) = .ok (some (List.replicate 6 true)) := by
    decide +kernel
  obtain ⟨s, e1, e2⟩ := bind_ok_iff.1 hd
  have e2 := Except.ok.inj e2
  obtain ⟨t, ht, e3⟩ := Option.map_eq_some_iff.1 e2
  simp only [List.replicate, List.cons.injEq, and_true, decide_eq_true_eq, Bool.not_eq_true'] at e3
  obtain ⟨b1, b2, b3, b4, b5, b6⟩ := e3
  have tk : ∀ {c : C Int} {v : Int}, c.toOption = some v → c = .ok v := by
    intro c v e
    cases c with
    | error f => cases e
    | ok y => cases e; rfl
  exact ⟨s, t, e1, ht, b1, b2, b3, b4, b5, tk b6⟩

end BK
