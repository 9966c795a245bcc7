import Verif.Props.Legato
import Verif.Props.ArpInstr
/-!
C115: an arpeggio goes on over the notes of a melody.
-/
namespace BK

/-- A note played while another sounds leaves the arpeggio alone. -/
theorem Track.nextNote_arp {x : Nat} {w : IWorld} {t : Track} {v : Int} {r : IWorld × Track} (h0 : 0 ≤ v) (hc : t.curNote ≠ -1)
    (h : t.setNote x w v = .ok r) : r.2.arp = t.arp ∧ r.2.arpDiv = t.arpDiv ∧ r.2.arpeggioOn = t.arpeggioOn := by
  unfold Track.setNote Track.noteCase at h
  rw [if_pos (by omega)] at h
  obtain ⟨r1, hr1, h⟩ := bind_ok_iff.1 h
  unfold Track.playNote at hr1
  dsimp only at hr1
  obtain ⟨sl, -, hr1⟩ := bind_ok_iff.1 hr1
  obtain ⟨r0, hr0, hr1⟩ := bind_ok_iff.1 hr1
  obtain ⟨t0, ht0, hr1⟩ := bind_ok_iff.1 hr1
  obtain ⟨t1, ht1, hr1⟩ := bind_ok_iff.1 hr1
  obtain ⟨t2, ht2, hr1⟩ := bind_ok_iff.1 hr1
  cases hr1
  cases h
  unfold Track.startNote at hr0
  dsimp only at hr0
  rw [if_neg hc] at hr0
  cases hr0
  unfold Track.startSample at ht0
  rw [if_neg (fun q => hc q.2)] at ht0
  cases ht0
  have q1 := Track.setUnit_same ht1
  have q2 := Track.setUnit_same ht2
  exact ⟨q2.arp.trans q1.arp, q2.arpDiv.trans q1.arpDiv, q2.arpeggioOn.trans q1.arpeggioOn⟩

/-- The arpeggio over all notes of a melody but the first. -/
theorem TWorld.Mel.go_arp {N fuel x d i c : Nat} {ns : List Int} {w0 w1 : IWorld} {A : BK.Lists} {t : Track} (hd : 1 ≤ d) (hd2 : d ≤ 2147483647)
    (hA : w0.Inv False A) (hx : w0.links.owner x = some i) (hat : w0.attack x t.dutyCycle = .ok w1)
    (hsu : ∃ k new, new.Short ∧ w0.Plays i k new ∧ new.Sustained) (he : t.effectsOff) (hc1 : 1 ≤ c) (hc2 : c ≤ 2147483647) (h1 : 1 ≤ ns.length) :
    ∀ (ms : List (Int × Nat)) {m j k : Nat} {v : Int} {s s' : TWorld} {t' : Track}, s.Mel N m fuel x d w0 w1 t j v t' → t'.ArpAt c ns k →
      (∀ p ∈ ms, 0 ≤ p.1 ∧ p.1 ≤ 96 * U20) → m + (melody x ms).length ≤ fuel → s.run fuel (melody x ms) = .ok s' →
      ∃ t2, s'.tracks x = some t2 ∧ t2.ArpAt c ns (k + melodyTicks ms)
  | [], m, j, k, v, s, s', t', h, ha, hms, hf, e => by
    cases e
    exact ⟨t', h.here, ha⟩
  | p :: ms, m, j, k, v, s, s', t', h, ha, hms, hf, e => by
    have hcons : melody x (p :: ms) = notePlayed x p.1 p.2 ++ melody x ms := by unfold melody; rw [List.flatMap_cons]
    have hlen : (notePlayed x p.1 p.2).length = p.2 + 1 := by unfold notePlayed; rw [List.length_cons, List.length_replicate]
    rw [hcons] at e hf
    rw [List.length_append, hlen] at hf
    obtain ⟨s1, e1, e⟩ := TWorld.run_split _ _ e
    obtain ⟨g1, g2⟩ := hms p (List.mem_cons_self ..)
    obtain ⟨t1, k1, -⟩ := h.next (by omega) g1 g2 hd hd2 hA hx hat hsu he e1
    obtain ⟨r, hr, er⟩ := TWorld.note_run h.here e1
    obtain ⟨p1, p2, p3⟩ := Track.nextNote_arp g1 h.cur hr
    obtain ⟨t3, j1, j2⟩ := world_arp hc1 hc2 h1 p.2 (s := ⟨r.1, upd s.tracks x (some r.2)⟩) (t := r.2) (upd_self _ _ _) (ha.same p1 p2 p3) er
    rw [k1.here] at j1
    cases j1
    obtain ⟨t2, k3, k4⟩ := TWorld.Mel.go_arp hd hd2 hA hx hat hsu he hc1 hc2 h1 ms k1 j2 (fun q hq => hms q (List.mem_cons_of_mem _ hq)) (by omega) e
    have e2 : k + melodyTicks (p :: ms) = k + p.2 + melodyTicks ms := by
      unfold melodyTicks; rw [List.map_cons, List.sum_cons]; omega
    rw [e2]
    exact ⟨t2, k3, k4⟩

/-- C115: after any calls, an arpeggio is set on a silent track with a sustained instrument and a melody is played legato.  The arpeggio begins with the first note and goes on over all others
without beginning anew: the period is that of the last note moved by the interval of this tick and by the pitch sequence. -/
theorem C115_arpeggio {N fuel : Nat} {ops : List WOp} {s0 : TWorld} {x i d n : Nat} {t : Track} {v : Int} {ms : List (Int × Nat)}
    (hl : ({} : TWorld).LegalRun N fuel ops) (hf : ops.length + 3 + (melody x (ms ++ [(v, n)])).length ≤ fuel) (h0 : ({} : TWorld).run fuel ops = .ok s0)
    (ht : s0.tracks x = some t) (hs : t.curNote = -1) (hx : s0.iw.links.owner x = some i) (hdv : t.instrDiv.divider = d)
    (hms : ∀ p ∈ ms ++ [(v, n)], 0 ≤ p.1 ∧ p.1 ≤ 96 * U20) (hn : 1 ≤ n)
    (hsu : ∃ k new, new.Short ∧ s0.iw.Plays i k new ∧ new.Sustained)
    {c : Nat} (hc1 : 1 ≤ c) (hc2 : c ≤ 2147483647) {ns : List Int} (h1 : 1 ≤ ns.length) (h8 : ns.length ≤ 8) (hns : ∀ n ∈ ns, Notes n)
    (he : t.effectsOff) (hrest : t.note.roundBias = 0) (hsteps : t.note.steps = 0)
    (hst : stale x .vol ops = false) (hig : t.ignores = false)
    {rate : Int} (hc : t.ctx = some (rate, 2)) {cnt : Nat} (hw : t.unit.waveform.phases = some cnt) (hwt : t.waveform ≠ 16391)
    {vol pan : Int} (hvol : t.volume.get = .ok vol) (hpan : t.panning.get = .ok pan)
    {T : Nat} (hT : T = melodyTicks (ms ++ [(v, n)]))
    {a0 a1 a2 : Int} (h00 : s0.iw.Gives i 0 (firings d 0 T) a0) (h01 : s0.iw.Gives i 1 (firings d 0 T) a1)
    (h02 : s0.iw.Gives i 2 (firings d 0 T) a2) :
    ∃ sA s t' V P, s0.run fuel (arpSet x c ns) = .ok sA ∧ sA.run fuel (melody x (ms ++ [(v, n)])) = .ok s ∧ s.tracks x = some t' ∧
      V = max 0 (min 32767 (vol * a0 / 32768)) * t.masterVolume / 32768 ∧ P = max (-32767) (min 32767 (pan + a1)) ∧
      t'.unit.mute = 0 ∧ t'.getAttr (.unit .period) = .ok (some (exactPeriod (v + intervalAt c ns (T - 1) + a2 + t.pitch) rate / cnt)) ∧
      t'.getAttr (.unit (.volumeOf 0)) = .ok (some (leftOf V P)) ∧ t'.getAttr (.unit (.volumeOf 1)) = .ok (some (rightOf V P)) ∧
      ∀ a3, s0.iw.Gives i 3 (firings d 0 T) a3 → t'.unit.dutyCycle = max 1 (min 15 (if a3 ≠ 0 then a3 else t.dutyCycle)) := by
  obtain ⟨sA, a, kA, h0', hl', kw, ht', wf, ao, ac, an, hst'⟩ := TWorld.arp_set hl (by omega) h0 ht hc1 hc2 h1 h8 hns
  have hlA : (ops ++ arpSet x c ns).length = ops.length + 3 := by rw [List.length_append]; rfl
  rw [← kw] at hx h00 h01 h02 hsu
  obtain ⟨s, t2, w1, A, eall, k1, k2, m1, m2⟩ := TWorld.melody_mel hl' (by omega) h0' ht' (by exact hs) hx (by exact hdv) hms hn hsu (by exact he) hrest hsteps (hst' hst) hwt hT
  have hinv := ((TWorld.Inv.init N).run ops (by omega) hl)
  rw [h0] at hinv
  have hinv : s0.Inv (0 + ops.length) N := hinv
  have hdd := (hinv.tracks x t ht).instrDiv.divider
  rw [hdv] at hdd
  obtain ⟨sl2, q1, q2, -, -, q5⟩ := m1.note
  have hon : s.iw.on x = true := by unfold IWorld.on; rw [m1.links, hx]; rfl
  have hgive : ∀ k a, k < 4 → sA.iw.Gives i k (firings d 0 T) a → s.iw.value x k = a := fun _ _ hk h => m1.gives (by omega) k1 hx k2 hk h
  -- the arpeggio
  have harp : t2.ArpAt c ns T := by
    obtain ⟨p, ms', hp⟩ : ∃ p ms', ms ++ [(v, n)] = p :: ms' := by
      cases ms with
      | nil => exact ⟨_, _, rfl⟩
      | cons a as => exact ⟨_, _, rfl⟩
    have e := eall
    rw [hp] at e hf hms hT
    have hcons : melody x (p :: ms') = notePlayed x p.1 p.2 ++ melody x ms' := by unfold melody; rw [List.flatMap_cons]
    have hlen : (notePlayed x p.1 p.2).length = p.2 + 1 := by unfold notePlayed; rw [List.length_cons, List.length_replicate]
    rw [hcons] at e hf
    rw [List.length_append, hlen] at hf
    obtain ⟨s1, e1, e⟩ := TWorld.run_split _ _ e
    obtain ⟨hv, hv'⟩ := hms p (List.mem_cons_self ..)
    obtain ⟨t1, w1', A', k1', k2', mel, -⟩ := TWorld.first_mel hl' (by omega) h0' ht' (by exact hs) hx (by exact hdv) hv hv' hsu (by exact he) hrest hsteps (hst' hst) hwt e1
    obtain ⟨r, hr, er⟩ := TWorld.note_run ht' e1
    obtain ⟨p1, p2, p3⟩ := Track.newNote_arp hv (by exact hs) hr
    have hA0 : r.2.ArpAt c ns 0 := by
      refine ⟨p3, by rw [p2, DivState.at_zero (by omega)]; rfl, by rw [p1]; exact wf.start, ?_, by rw [p1]; exact ac, by rw [p1]; exact an, fun h => absurd h (by decide)⟩
      rw [p1, firings_zero (by omega), Nat.zero_mod]
      rfl
    obtain ⟨t3, j1, j2⟩ := world_arp hc1 hc2 h1 p.2 (s := ⟨r.1, upd sA.tracks x (some r.2)⟩) (t := r.2) (upd_self _ _ _) hA0 er
    rw [mel.here] at j1
    cases j1
    obtain ⟨t4, j3, j4⟩ := mel.go_arp (by omega) (by omega) k1' hx k2' hsu (by exact he) hc1 hc2 h1 ms' j2 (fun q hq => hms q (List.mem_cons_of_mem _ hq)) (by omega) e
    rw [m1.here] at j3
    cases j3
    have : T = 0 + p.2 + melodyTicks ms' := by rw [hT]; unfold melodyTicks; rw [List.map_cons, List.sum_cons]; omega
    rw [this]
    exact j4
  have hT1 : 1 ≤ T := by
    rw [hT]; unfold melodyTicks; rw [List.map_append, List.sum_append]; simp; omega
  have hpo : t.panningOn = true := (TWorld.run_sided h0 x t ht).2 ⟨_, hc⟩
  obtain ⟨r1, r2, r3, r4⟩ := q5.sounds q1 q2 (m1.inv.tracks x t2 m1.here) hon m2 m1.ok (by exact he) (A := intervalAt c ns (T - 1))
    (by rw [if_pos rfl]; exact harp.delta hT1) (by exact hig) (by exact hpo) (by exact hc) (by exact hw) (by exact hwt) (by exact hvol) (by exact hpan) rfl rfl
  rw [hgive 2 a2 (by omega) h02] at r1
  rw [hgive 0 a0 (by omega) h00, hgive 1 a1 (by omega) h01] at r2 r3
  exact ⟨sA, s, t2, _, _, kA, eall, m1.here, rfl, rfl, m1.mute, r1, r2, r3, fun a3 h03 => by rw [← hgive 3 a3 (by omega) (by rw [kw]; exact h03)]; exact r4⟩

/-- The instrument of C108 with an arpeggio of 0, 4 and 7 semitones, each for two ticks: a melody of three notes, a single note, and a melody with a note that is replaced at once. -/
example : ([[(50331648, 1), (52428800, 1), (54525952, 1)], [(54525952, 3)], [(50331648, 2), (50331648, 0), (52428800, 3)]].map fun ms => do
    let s ← ({} : TWorld).run 40 (writtenOps ++ arpSet 0 2 [0, 4194304, 7340032] ++ melody 0 ms)
    return (s.tracks 0).map fun t => (t.unit.period, t.unit.volume 0, t.unit.volume 1, t.unit.dutyCycle, t.unit.mute)) =
  ([(3274425, 12206, 12206, 4, 0), (3274425, 12206, 12206, 4, 0), (3274425, 6102, 6102, 8, 0)].map fun v => (.ok (some v) : C _)) := by decide +kernel

/-- The hypotheses are met. -/
example : ∃ s0 sA s t', ({} : TWorld).run 40 writtenOps = .ok s0 ∧ s0.run 40 (arpSet 0 2 [0, 4194304, 7340032]) = .ok sA ∧
    sA.run 40 (melody 0 [(50331648, 1), (52428800, 1), (54525952, 1)]) = .ok s ∧ s.tracks 0 = some t' ∧
    t'.getAttr (.unit .period) = .ok (some (exactPeriod (54525952 + 4194304 + 1048576 + 0) 44100 / (16 : Nat))) ∧
    t'.getAttr (.unit (.volumeOf 0)) = .ok (some 12206) ∧ t'.unit.dutyCycle = 4 := by
  obtain ⟨s0, t, e, ht, ⟨b1, b2, b3, b8, b9, b10, b11, b12, b13, b14, b15, b16, b17, b18⟩, b19, p0, p1, p2, p3⟩ := written_start
  have sh0 : (NewSeq.values [32767, 20000, 10000, 5000, 2000] 1 2).Short := by simp [NewSeq.Short, InI32]
  obtain ⟨sA, s, t', V, P, k0, k1, k2, k3, k4, k5, m1, m2, m3, m4⟩ := C115_arpeggio (N := 2) (n := 1) (d := 2) (v := 54525952)
    (ms := [(50331648, 1), (52428800, 1)]) (written_legal 40) (by decide) e ht b1 b19 b2
    (by decide) (by decide) ⟨0, _, sh0, p0, by show sustainBegin 5 1 < 5; decide⟩
    (c := 2) (ns := [0, 4194304, 7340032]) (by decide) (by decide) (by decide) (by decide)
    (fun n hn => by simp only [List.mem_cons, List.not_mem_nil, or_false] at hn; rcases hn with rfl | rfl | rfl <;> (unfold Notes; decide))
    b3 b9 b10 (by decide) b11 b12 b13 b14 b15 b16 rfl
    (.inl ⟨_, _, _, by simp, sh0, p0, rfl⟩) (.inr ⟨p1, by decide, rfl⟩) (.inl ⟨_, _, _, by simp, by simp [NewSeq.Short, InI32], p2, rfl⟩)
  rw [b17] at k3
  have eV : V = 12206 := k3.trans (by decide)
  have eP : P = 0 := k4.trans (by decide)
  rw [eV, eP] at m2
  rw [b18] at m1
  exact ⟨s0, sA, s, t', e, k0, k1, k2, m1, m2, (m4 _ (.inl ⟨_, _, _, by simp, by simp [NewSeq.Short, InI32], p3, rfl⟩)).trans (by rw [if_pos (by decide)]; decide)⟩

end BK
