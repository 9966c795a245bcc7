import Verif.Props.AdsrHeard
/-!
C111: an ADSR envelope together with value sequences is heard.
-/
namespace BK

/-- C111: after any calls, a note is played on a silent track whose instrument has an ADSR envelope and, for panning, pitch and duty cycle, value
sequences or nothing.  The loudness takes the same course `f` as with the envelope alone, and place, pitch and duty cycle are those
that the sequences give.  So it is after the release, as long as the note sounds: until the release ticks are over
and every sequence is past its last value. -/
theorem C111_mixed {N fuel D : Nat} {ops : List WOp} {s0 : TWorld} {x i : Nat} {t : Track} {v : Int}
    (hl : ({} : TWorld).LegalRun N fuel ops) (hfu : ops.length ≤ fuel) (h0 : ({} : TWorld).run fuel ops = .ok s0)
    (ht : s0.tracks x = some t) (hs : t.curNote = -1) (hx : s0.iw.links.owner x = some i) (hdv : t.instrDiv.divider = D)
    (hv : 0 ≤ v) (hv' : v ≤ 96 * U20)
    (he : t.effectsOff) (har : t.arpeggioOn = false) (hrest : t.note.roundBias = 0) (hsteps : t.note.steps = 0)
    (hst : stale x .vol ops = false) (hig : t.ignores = false)
    {rate : Int} (hc : t.ctx = some (rate, 2)) {cnt : Nat} (hw : t.unit.waveform.phases = some cnt) (hwt : t.waveform ≠ 16391)
    {vol pan : Int} (hvol : t.volume.get = .ok vol) (hpan : t.panning.get = .ok pan)
    {a d r : Nat} {s : Int} (ha : a < 2147483648) (hd : d < 2147483648) (hs' : 0 ≤ s ∧ s ≤ 32767) (hr : r < 2147483648)
    (hA : s0.iw.Plays i 0 (.points (adsrPoints a d s r) 2 1)) :
    ∃ f, AdsrHeld a d s (s0.iw.value x 0) f ∧
      (∀ n a1 a2, 1 ≤ n → ops.length + (n + 1) ≤ fuel → s0.iw.Gives i 1 (firings D 0 n) a1 → s0.iw.Gives i 2 (firings D 0 n) a2 →
        ∃ s1 t1 V P, s0.run fuel (notePlayed x v n) = .ok s1 ∧ s1.tracks x = some t1 ∧
        V = max 0 (min 32767 (vol * f n / 32768)) * t.masterVolume / 32768 ∧ P = max (-32767) (min 32767 (pan + a1)) ∧
        t1.unit.mute = 0 ∧ t1.getAttr (.unit .period) = .ok (some (exactPeriod (v + a2 + t.pitch) rate / cnt)) ∧
        t1.getAttr (.unit (.volumeOf 0)) = .ok (some (leftOf V P)) ∧ t1.getAttr (.unit (.volumeOf 1)) = .ok (some (rightOf V P)) ∧
        ∀ a3, s0.iw.Gives i 3 (firings D 0 n) a3 → t1.unit.dutyCycle = max 1 (min 15 (if a3 ≠ 0 then a3 else t.dutyCycle))) ∧
      ∀ n, ops.length + (n + 1) ≤ fuel → ∃ g, AdsrReleased r (f n) g ∧
        ∀ m p q a1 a2, 1 ≤ m → ops.length + (n + 1) + (m + 1) ≤ fuel → p = firings D 0 n → q = firings D 0 (n + m) - firings D 0 n →
          s0.iw.GivesReleased i 1 p q a1 → s0.iw.GivesReleased i 2 p q a2 →
          ∃ s1 s2 t2 V P, s0.run fuel (notePlayed x v n) = .ok s1 ∧
          s1.run fuel (notePlayed x (-1) m) = .ok s2 ∧ s2.tracks x = some t2 ∧
          V = max 0 (min 32767 (vol * g m / 32768)) * t.masterVolume / 32768 ∧ P = max (-32767) (min 32767 (pan + a1)) ∧
          (m < r → t2.unit.mute = 0) ∧
          (s0.iw.OtherValues i → (t2.unit.mute = 1 ↔ r ≤ m ∧ ∀ k vals so sl, 0 < k → vals ≠ [] → (NewSeq.values vals so sl).Short →
            s0.iw.Plays i k (.values vals so sl) → releasedOver vals so sl q)) ∧
          (t2.unit.mute = 0 → t2.getAttr (.unit .period) = .ok (some (exactPeriod (v + a2 + t.pitch) rate / cnt)) ∧
            t2.getAttr (.unit (.volumeOf 0)) = .ok (some (leftOf V P)) ∧ t2.getAttr (.unit (.volumeOf 1)) = .ok (some (rightOf V P)) ∧
            ∀ a3, s0.iw.GivesReleased i 3 p q a3 → t2.unit.dutyCycle = max 1 (min 15 (if a3 ≠ 0 then a3 else t.dutyCycle))) := by
  have hinv := ((TWorld.Inv.init N).run ops (by omega) hl)
  rw [h0] at hinv
  have hinv : s0.Inv (0 + ops.length) N := hinv
  have hpv : Plain v := ⟨⟨by omega, by omega⟩, by omega⟩
  have hpm : Plain (-1) := Plain.of (by omega) (by omega)
  have hlen : ∀ (v : Int) (n : Nat), (notePlayed x v n).length = n + 1 := fun v n => by unfold notePlayed; rw [List.length_cons, List.length_replicate]
  obtain ⟨f, c1, c2, c3⟩ := adsr_core hl hfu h0 ht hs hx hdv hv hv' ha hd hs' hr hA
  refine ⟨f, c1, fun n a1 a2 hn hf h1 h2 => ?_, fun n hf => ?_⟩
  · obtain ⟨s1, e, -⟩ := (hinv.run (fuel := fuel) (notePlayed x v n) (by rw [hlen]; omega) (legal_note hpv n s0)).get trivial
    obtain ⟨t1, k1, k2, k4⟩ := c2 n s1 e
    have hg : ∀ {k a}, k < 4 → s0.iw.Gives i k (firings D 0 n) a → s1.iw.value x k = a := fun h1 h2 =>
      TWorld.held_gives hl hf h0 ht hs hx hdv hv hv' e k1 k2 h1 h2
    obtain ⟨q1, q2, q3, q4⟩ := TWorld.held_sounds hl hf h0 ht hs hx hdv hv hv' hn he har hrest hsteps hst hig hc hw hwt hvol hpan e k1 rfl rfl
    rw [hg (by decide) h2] at q1
    rw [k4, hg (by decide) h1] at q2 q3
    exact ⟨s1, t1, _, _, e, k1, rfl, rfl, k2, q1, q2, q3, fun a3 h3 => by rw [← hg (by decide) h3]; exact q4⟩
  · obtain ⟨s1, e, hend⟩ := (hinv.run (fuel := fuel) (notePlayed x v n) (by rw [hlen]; omega) (legal_note hpv n s0)).get trivial
    obtain ⟨g, b1, b2⟩ := c3 n s1 hf e
    refine ⟨g, b1, fun m p q a1 a2 hm hf' hp hq h1 h2 => ?_⟩
    obtain ⟨s2, e', -⟩ := (hend.run (fuel := fuel) (notePlayed x (-1) m) (by rw [hlen, hlen]; omega) (legal_note hpm m s1)).get trivial
    obtain ⟨t2, k1, k2, k3, k4⟩ := b2 m s2 e'
    refine ⟨s1, s2, t2, _, _, e, e', k1, rfl, rfl, k3, by rw [hq]; exact k2, fun hmute => ?_⟩
    obtain ⟨hon, hg⟩ := TWorld.released_gives hl hf' h0 ht hs hx hdv hv hv' e e' k1 hmute
    rw [← hq, ← hp] at hg
    obtain ⟨q1, q2, q3, q4⟩ := TWorld.released_sounds hl hf' h0 ht hs hx hdv hv hv' hm he har hrest hsteps hst hig hc hw hwt hvol hpan e e' k1 hon rfl rfl
    rw [hg 2 a2 (by decide) h2] at q1
    rw [k4 hmute, hg 1 a1 (by decide) h1] at q2 q3
    exact ⟨q1, q2, q3, fun a3 h3 => by rw [← hg 3 a3 (by decide) h3]; exact q4⟩

/-! ### Examples -/

/-- A square wave with an ADSR envelope and sequences for panning, pitch and duty cycle that advance every second tick. -/
def mixedOps : List WOp :=
  [.init 0 16385, .setSequence 0 0 (.points (adsrPoints 4 3 16000 5) 2 1), .setSequence 0 1 (.values [0, -16384, 16384] 1 2),
   .setSequence 0 2 (.values [0, 1048576, 0] 1 1), .setSequence 0 3 (.values [2, 4, 8] 2 1), .track 0 (.attach 44100 2 0),
   .track 0 (.attr .volume 20000), .track 0 (.attr .masterVolume 32767), .track 0 (.attr .instrDivider 2), .track 0 (.instrument (some 0))]

/-- Period, volumes, duty cycle and mute flag while the note 48 is held. -/
example : ([1, 3, 5, 7, 9].map fun n => do
    let s ← ({} : TWorld).run 60 (mixedOps ++ notePlayed 0 50331648 n)
    return (s.tracks 0).map fun t => (t.unit.period, t.unit.volume 0, t.unit.volume 1, t.unit.dutyCycle, t.unit.mute)) =
  ([(5512500, 4998, 4998, 2, 0), (5203800, 14998, 7498, 4, 0), (5203800, 8292, 16587, 8, 0), (5203800, 9764, 4881, 8, 0),
    (5203800, 4881, 9764, 8, 0)].map fun v => (.ok (some v) : C _)) := by decide +kernel

/-- The same after its release. -/
example : ([0, 1, 3, 4, 5, 6].map fun m => do
    let s ← ({} : TWorld).run 60 (mixedOps ++ notePlayed 0 50331648 9 ++ notePlayed 0 (-1) m)
    return (s.tracks 0).map fun t => (t.unit.period, t.unit.volume 0, t.unit.volume 1, t.unit.dutyCycle, t.unit.mute)) =
  ([(5203800, 4881, 9764, 8, 0), (5512500, 3905, 7811, 8, 0), (5512500, 1952, 3905, 8, 0), (5512500, 975, 1952, 8, 0),
    (5512500, 0, 0, 8, 1), (5512500, 0, 0, 8, 1)].map fun v => (.ok (some v) : C _)) := by decide +kernel

theorem mixed_legal (fuel : Nat) : ({} : TWorld).LegalRun 2 fuel mixedOps := by
  refine TWorld.LegalRun.of_all _ _ ?_
  intro op hop s
  unfold mixedOps at hop
  simp only [List.mem_cons, List.not_mem_nil, or_false] at hop
  rcases hop with rfl | rfl | rfl | rfl | rfl | rfl | rfl | rfl | rfl | rfl
  · exact Plain.of (by decide) (by decide)
  · exact ⟨adsr_short (a := 4) (d := 3) (r := 5) (by decide) (by decide) (by decide), adsr_usual (by decide) (by decide) (by decide) (by decide),
      by simp [NewSeq.Modest, seqLimit, adsrPoints]⟩
  · refine ⟨?_, ?_, ?_⟩ <;> simp [NewSeq.Short, NewSeq.Usual, NewSeq.Modest, seqLimit, InI32]
  · refine ⟨?_, ?_, ?_⟩ <;> simp [NewSeq.Short, NewSeq.Usual, NewSeq.Modest, seqLimit, InI32]
  · refine ⟨?_, ?_, ?_⟩ <;> simp [NewSeq.Short, NewSeq.Usual, NewSeq.Modest, seqLimit, InI32]
  · exact fun t _ => ⟨by decide, by decide, rfl⟩
  · exact fun t _ => ⟨Plain.of (by decide) (by decide), trivial⟩
  · exact fun t _ => ⟨Plain.of (by decide) (by decide), trivial⟩
  · exact fun t _ => ⟨Plain.of (by decide) (by decide), by show (1 : Int) ≤ 2; decide⟩
  · exact fun t _ => trivial

/-- What the example needs to know. -/
def mixedView (s : TWorld) : Option (List Bool) × List (Option Sequence) :=
  ((s.tracks 0).map fun t => [decide (t.curNote = -1), !t.volumeSlide, !t.panningSlide, !t.tremoloOn, !t.portamento,
      !t.vibratoOn, !t.arpeggioOn, decide (t.note.roundBias = 0), decide (t.note.steps = 0), !t.ignores, decide (t.ctx = some (44100, 2)),
      decide (t.unit.waveform.phases = some 16), decide (t.waveform ≠ 16391), decide (t.volume.get = .ok 20000), decide (t.panning.get = .ok 0),
      decide (t.masterVolume = 32767), decide (t.pitch = 0), decide (s.iw.links.owner 0 = some 0), decide (t.instrDiv.divider = 2)],
    [0, 1, 2, 3].map fun k => ((s.iw.instrs 0).sequences k).bind s.iw.heap)

/-- The hypotheses of the theorem are met: in the fourth tick of the attack the note is one semitone higher, to the left and has the second duty cycle. -/
example : ∃ s0 s1 t1, ({} : TWorld).run 60 mixedOps = .ok s0 ∧ s0.run 60 (notePlayed 0 50331648 4) = .ok s1 ∧ s1.tracks 0 = some t1 ∧
    t1.getAttr (.unit (.volumeOf 0)) = .ok (some 19998) ∧ t1.getAttr (.unit (.volumeOf 1)) = .ok (some 9998) ∧
    t1.getAttr (.unit .period) = .ok (some 5203800) ∧ t1.unit.dutyCycle = 4 := by
  have h : (({} : TWorld).run 60 mixedOps).map mixedView =
      .ok (some (List.replicate 19 true), [some (.env (adsrSeq 4 3 16000 5)), some (.simple ⟨[0, -16384, 16384], 3, 1, 2⟩),
        some (.simple ⟨[0, 1048576, 0], 3, 1, 1⟩), some (.simple ⟨[2, 4, 8], 3, 2, 1⟩)]) := by decide +kernel
  obtain ⟨s0, e⟩ := C80_never_faults_partial 2 60 mixedOps (by decide) (mixed_legal 60)
  rw [e] at h
  have h : mixedView s0 = _ := Except.ok.inj h
  unfold mixedView at h
  simp only [Prod.mk.injEq, List.map_cons, List.map_nil, List.cons.injEq, and_true] at h
  obtain ⟨h1, h2, h3, h4, h5⟩ := h
  obtain ⟨t, ht, e3⟩ := Option.map_eq_some_iff.1 h1
  simp only [List.replicate, List.cons.injEq, and_true, decide_eq_true_eq, Bool.not_eq_true'] at e3
  obtain ⟨b1, b3, b4, b5, b6, b7, b8, b9, b10, b11, b12, b13, b14, b15, b16, b17, b18, b19, b20⟩ := e3
  obtain ⟨i0, e0, f0⟩ := Option.bind_eq_some_iff.1 h2
  obtain ⟨i1, e1, f1⟩ := Option.bind_eq_some_iff.1 h3
  obtain ⟨i2, e2, f2⟩ := Option.bind_eq_some_iff.1 h4
  obtain ⟨i3, e3, f3⟩ := Option.bind_eq_some_iff.1 h5
  obtain ⟨f, k1, k2, -⟩ := C111_mixed (N := 2) (D := 2) (v := 50331648) (a := 4) (d := 3) (r := 5) (s := 16000) (mixed_legal 60) (by decide) e ht b1 b19
    b20 (by decide) (by decide) ⟨b3, b4, b5, b6, b7⟩ b8 b9 b10 (by decide) b11 b12 b13 b14 b15 b16 (by decide) (by decide) (by decide) (by decide)
    ⟨i0, _, e0, f0, by decide +kernel⟩
  have hsh : ∀ vals so sl, InI32 so → InI32 sl → vals.length < 10 → (NewSeq.values vals so sl).Short := fun vals so sl h1 h2 h3 =>
    ⟨by omega, h1, h2⟩
  obtain ⟨s1, t1, V, P, m1, m2, m3, m4, -, m5, m6, m7, m8⟩ := k2 4 (-16384) 1048576 (by decide) (by decide)
    (.inl ⟨[0, -16384, 16384], 1, 2, by decide, hsh _ _ _ (by decide) (by decide) (by decide), ⟨i1, _, e1, f1, by decide +kernel⟩, by decide +kernel⟩)
    (.inl ⟨[0, 1048576, 0], 1, 1, by decide, hsh _ _ _ (by decide) (by decide) (by decide), ⟨i2, _, e2, f2, by decide +kernel⟩, by decide +kernel⟩)
  have m8 := m8 4 (.inl ⟨[2, 4, 8], 2, 1, by decide, hsh _ _ _ (by decide) (by decide) (by decide), ⟨i3, _, e3, f3, by decide +kernel⟩, by decide +kernel⟩)
  rw [k1.peak (by decide), b17] at m3
  have eV : V = 19998 := m3.trans (by decide)
  have eP : P = -16384 := m4.trans (by decide)
  rw [eV, eP] at m6 m7
  rw [b18] at m5
  exact ⟨s0, s1, t1, e, m1, m2, m6, m7, m5, m8⟩

end BK
