import Verif.Spec.ArpInstr
import Verif.Lemmas.ArpInstr
/-!
C112: arpeggios and instruments are heard together.
-/
namespace BK

/-- The world after an arpeggio has been set on a track. -/
theorem TWorld.arp_set {N fuel : Nat} {ops : List WOp} {s0 : TWorld} {x e : Nat} {t : Track} {ns : List Int}
    (hl : ({} : TWorld).LegalRun N fuel ops) (hf : ops.length + 3 ≤ fuel) (h0 : ({} : TWorld).run fuel ops = .ok s0)
    (ht : s0.tracks x = some t) (he1 : 1 ≤ e) (he2 : e ≤ 2147483647) (h1 : 1 ≤ ns.length) (h8 : ns.length ≤ 8) (hns : ∀ n ∈ ns, Notes n) :
    ∃ sA a, s0.run fuel (arpSet x e ns) = .ok sA ∧ ({} : TWorld).run fuel (ops ++ arpSet x e ns) = .ok sA ∧
      ({} : TWorld).LegalRun N fuel (ops ++ arpSet x e ns) ∧ sA.iw = s0.iw ∧
      sA.tracks x = some { t with arpDiv := ⟨e, 0⟩, arp := a, arpeggioOn := true, updNote := true } ∧
      a.Wf ∧ a.offset = 0 ∧ a.count = ns.length ∧ a.notes.take ns.length = ns ∧
      (stale x .vol ops = false → stale x .vol (ops ++ arpSet x e ns) = false) := by
  have hinv := ((TWorld.Inv.init N).run ops (by omega) hl)
  rw [h0] at hinv
  have hinv : s0.Inv (0 + ops.length) N := hinv
  have hi := hinv.tracks x t ht
  obtain ⟨a, hcalls, ui, wf, ao, ac, an⟩ := Track.arpCalls_ok (x := x) (w := s0.iw) hi (TWorld.run_arp h0 x t ht).wf he1 he2 h1 h8 hns
  obtain ⟨sA, k1, k2, k3⟩ := TWorld.run_calls (fuel := fuel) (arpCalls e ns) ht hcalls
  refine ⟨sA, a, k1, TWorld.run_append _ _ h0 k1, TWorld.legalRun_append _ _ h0 hl ?_, k2, k3, wf, ao, ac, an, fun hs => ?_⟩
  · refine TWorld.LegalRun.of_all _ _ ?_
    intro op hop s
    unfold arpSet arpCalls at hop
    simp only [List.map_cons, List.map_nil, List.mem_cons, List.not_mem_nil, or_false] at hop
    have hmin : cmin (ns.length : Int) 8 = ns.length := by unfold cmin; split <;> omega
    rcases hop with rfl | rfl | rfl
    · exact fun t _ => ⟨Plain.of (by omega) (by omega), by show (1 : Int) ≤ e; omega⟩
    · exact fun t _ => ⟨by decide, by decide, fun n hn => by rw [List.mem_singleton] at hn; subst hn; unfold Notes; decide⟩
    · exact fun t _ => ⟨by omega, by rw [hmin], hns⟩
  · unfold stale at hs ⊢
    rw [List.foldl_append, hs]
    unfold arpSet arpCalls
    simp only [List.map_cons, List.map_nil, List.foldl_cons, List.foldl_nil]
    unfold WOp.stale
    simp [TOp.renews, TOp.upsets]

/-- C112: after any calls, an arpeggio is set on a silent track with an instrument of value sequences, a note is played, and `n` ticks go by.  As long
as the instrument has not ended the note, the period is that of the note moved by the interval of this tick and by the
pitch sequence; volume, place and duty cycle are those of the instrument alone (C108).  With a sustained instrument the note does not end. -/
theorem C112_held {N fuel : Nat} {ops : List WOp} {s0 : TWorld} {x i d n : Nat} {t : Track} {v : Int}
    (hl : ({} : TWorld).LegalRun N fuel ops) (hf : ops.length + 3 + (n + 1) ≤ fuel) (h0 : ({} : TWorld).run fuel ops = .ok s0)
    (ht : s0.tracks x = some t) (hs : t.curNote = -1) (hx : s0.iw.links.owner x = some i) (hdv : t.instrDiv.divider = d)
    (hv : 0 ≤ v) (hv' : v ≤ 96 * U20) (hn : 1 ≤ n)
    {e : Nat} (he1 : 1 ≤ e) (he2 : e ≤ 2147483647) {ns : List Int} (h1 : 1 ≤ ns.length) (h8 : ns.length ≤ 8) (hns : ∀ n ∈ ns, Notes n)
    (he : t.effectsOff) (hrest : t.note.roundBias = 0) (hsteps : t.note.steps = 0)
    (hst : stale x .vol ops = false) (hig : t.ignores = false)
    {rate : Int} (hc : t.ctx = some (rate, 2)) {cnt : Nat} (hw : t.unit.waveform.phases = some cnt) (hwt : t.waveform ≠ 16391)
    {vol pan : Int} (hvol : t.volume.get = .ok vol) (hpan : t.panning.get = .ok pan)
    {a0 a1 a2 : Int} (h00 : s0.iw.Gives i 0 (firings d 0 n) a0) (h01 : s0.iw.Gives i 1 (firings d 0 n) a1)
    (h02 : s0.iw.Gives i 2 (firings d 0 n) a2) :
    ∃ sA s t' V P, s0.run fuel (arpSet x e ns) = .ok sA ∧ sA.run fuel (notePlayed x v n) = .ok s ∧ s.tracks x = some t' ∧
      V = max 0 (min 32767 (vol * a0 / 32768)) * t.masterVolume / 32768 ∧ P = max (-32767) (min 32767 (pan + a1)) ∧
      (t'.unit.mute = 0 →
        t'.getAttr (.unit .period) = .ok (some (exactPeriod (v + intervalAt e ns (n - 1) + a2 + t.pitch) rate / cnt)) ∧
        t'.getAttr (.unit (.volumeOf 0)) = .ok (some (leftOf V P)) ∧ t'.getAttr (.unit (.volumeOf 1)) = .ok (some (rightOf V P)) ∧
        ∀ a3, s0.iw.Gives i 3 (firings d 0 n) a3 → t'.unit.dutyCycle = max 1 (min 15 (if a3 ≠ 0 then a3 else t.dutyCycle))) ∧
      ((∃ k new, new.Short ∧ s0.iw.Plays i k new ∧ new.Sustained) → t'.unit.mute = 0) := by
  obtain ⟨sA, a, kA, h0', hl', kw, ht', wf, ao, ac, an, hst'⟩ := TWorld.arp_set hl (by omega) h0 ht he1 he2 h1 h8 hns
  have hlA : (ops ++ arpSet x e ns).length = ops.length + 3 := by rw [List.length_append]; rfl
  have hf' : (ops ++ arpSet x e ns).length + (n + 1) ≤ fuel := by omega
  rw [← kw] at hx h00 h01 h02
  obtain ⟨s, t2, m1, m2, m3, m4⟩ := C98_note N fuel _ sA x i d n _ v hl' hf' h0' ht' hs hx hdv hv (by omega)
  refine ⟨sA, s, t2, _, _, kA, m1, m2, rfl, rfl, fun hmute => ?_, fun h => (m4 (by rw [kw]; exact h)).1⟩
  have hgive : ∀ k a, k < 4 → sA.iw.Gives i k (firings d 0 n) a → s.iw.value x k = a := fun k a hk =>
    TWorld.held_gives hl' hf' h0' ht' hs hx hdv hv hv' m1 m2 hmute hk
  -- the arpeggio
  obtain ⟨r, hr, er⟩ := TWorld.note_run ht' m1
  obtain ⟨p1, p2, p3⟩ := Track.newNote_arp hv (by exact hs) hr
  have hA0 : r.2.ArpAt e ns 0 := by
    refine ⟨p3, by rw [p2, DivState.at_zero (by omega)]; rfl, by rw [p1]; exact wf.start, ?_, by rw [p1]; exact ac, by rw [p1]; exact an, fun h => absurd h (by decide)⟩
    rw [p1, firings_zero (by omega), Nat.zero_mod]
    rfl
  obtain ⟨t3, j1, j2⟩ := world_arp he1 he2 h1 n (s := ⟨r.1, upd sA.tracks x (some r.2)⟩) (t := r.2) (upd_self _ _ _) hA0 er
  rw [m2] at j1
  cases j1
  rw [Nat.zero_add] at j2
  obtain ⟨q1, q2, q3, q4⟩ := TWorld.held_sounds_arp hl' hf' h0' ht' hs hx hdv hv hv' hn he (A := intervalAt e ns (n - 1))
    (by rw [if_pos rfl]; exact j2.delta hn) hrest hsteps (hst' hst) hig hc hw hwt hvol hpan m1 m2 rfl rfl
  rw [hgive 2 a2 (by omega) h02] at q1
  rw [hgive 0 a0 (by omega) h00, hgive 1 a1 (by omega) h01] at q2 q3
  exact ⟨q1, q2, q3, fun a3 h03 => by rw [← hgive 3 a3 (by omega) (by rw [kw]; exact h03)]; exact q4⟩

/-- C112: the arpeggio goes on after the release of the note, without beginning anew. -/
theorem C112_released {N fuel : Nat} {ops : List WOp} {s0 : TWorld} {x i d n m : Nat} {t : Track} {v : Int}
    (hl : ({} : TWorld).LegalRun N fuel ops) (hf : ops.length + 3 + (n + 1) + (m + 1) ≤ fuel) (h0 : ({} : TWorld).run fuel ops = .ok s0)
    (ht : s0.tracks x = some t) (hs : t.curNote = -1) (hx : s0.iw.links.owner x = some i) (hdv : t.instrDiv.divider = d)
    (hv : 0 ≤ v) (hv' : v ≤ 96 * U20) (hm : 1 ≤ m)
    {e : Nat} (he1 : 1 ≤ e) (he2 : e ≤ 2147483647) {ns : List Int} (h1 : 1 ≤ ns.length) (h8 : ns.length ≤ 8) (hns : ∀ n ∈ ns, Notes n)
    (he : t.effectsOff) (hrest : t.note.roundBias = 0) (hsteps : t.note.steps = 0)
    (hst : stale x .vol ops = false) (hig : t.ignores = false)
    {rate : Int} (hc : t.ctx = some (rate, 2)) {cnt : Nat} (hw : t.unit.waveform.phases = some cnt) (hwt : t.waveform ≠ 16391)
    {vol pan : Int} (hvol : t.volume.get = .ok vol) (hpan : t.panning.get = .ok pan)
    {f g : Nat} (hff : f = firings d 0 n) (hgg : g = firings d 0 (n + m) - firings d 0 n)
    {a0 a1 a2 : Int} (h00 : s0.iw.GivesReleased i 0 f g a0) (h01 : s0.iw.GivesReleased i 1 f g a1) (h02 : s0.iw.GivesReleased i 2 f g a2) :
    ∃ sA s1 s t' V P, s0.run fuel (arpSet x e ns) = .ok sA ∧ sA.run fuel (notePlayed x v n) = .ok s1 ∧
      s1.run fuel (notePlayed x (-1) m) = .ok s ∧ s.tracks x = some t' ∧
      V = max 0 (min 32767 (vol * a0 / 32768)) * t.masterVolume / 32768 ∧ P = max (-32767) (min 32767 (pan + a1)) ∧
      (t'.unit.mute = 0 →
        t'.getAttr (.unit .period) = .ok (some (exactPeriod (v + intervalAt e ns (n + m - 1) + a2 + t.pitch) rate / cnt)) ∧
        t'.getAttr (.unit (.volumeOf 0)) = .ok (some (leftOf V P)) ∧ t'.getAttr (.unit (.volumeOf 1)) = .ok (some (rightOf V P)) ∧
        ∀ a3, s0.iw.GivesReleased i 3 f g a3 → t'.unit.dutyCycle = max 1 (min 15 (if a3 ≠ 0 then a3 else t.dutyCycle))) := by
  obtain ⟨sA, a, kA, h0', hl', kw, ht', wf, ao, ac, an, hst'⟩ := TWorld.arp_set hl (by omega) h0 ht he1 he2 h1 h8 hns
  have hlA : (ops ++ arpSet x e ns).length = ops.length + 3 := by rw [List.length_append]; rfl
  have hf' : (ops ++ arpSet x e ns).length + (n + 1) + (m + 1) ≤ fuel := by omega
  rw [← kw] at hx h00 h01 h02
  obtain ⟨s1, s, t1, t2, m1, m1', m2, m2', m3, -⟩ := C98_note_release N fuel _ sA x i d n m _ v hl' hf' h0' ht' hs hx hdv hv (by omega)
  refine ⟨sA, s1, s, t2, _, _, kA, m1, m1', m2', rfl, rfl, fun hmute => ?_⟩
  obtain ⟨hon, hgive⟩ := TWorld.released_gives hl' hf' h0' ht' hs hx hdv hv hv' m1 m1' m2' hmute
  rw [← hgg, ← hff] at hgive
  -- the arpeggio
  obtain ⟨r, hr, er⟩ := TWorld.note_run ht' m1
  obtain ⟨p1, p2, p3⟩ := Track.newNote_arp hv (by exact hs) hr
  have hA0 : r.2.ArpAt e ns 0 := by
    refine ⟨p3, by rw [p2, DivState.at_zero (by omega)]; rfl, by rw [p1]; exact wf.start, ?_, by rw [p1]; exact ac, by rw [p1]; exact an, fun h => absurd h (by decide)⟩
    rw [p1, firings_zero (by omega), Nat.zero_mod]
    rfl
  obtain ⟨t3, j1, j2⟩ := world_arp he1 he2 h1 n (s := ⟨r.1, upd sA.tracks x (some r.2)⟩) (t := r.2) (upd_self _ _ _) hA0 er
  rw [m2] at j1
  cases j1
  have hinv := ((TWorld.Inv.init N).run _ (by omega) hl')
  rw [h0'] at hinv
  obtain ⟨w1, t1', A', d1, d2, a1', d4, d5, d6, d7⟩ := note_played (show sA.Inv _ N from hinv) ht' hs hx hdv hv m1
  have hx1 : s1.iw.links.owner x = some i := by rw [d4]; exact hx
  obtain ⟨r', hr', er'⟩ := TWorld.note_run m2 m1'
  obtain ⟨u1, u2, u3⟩ := Track.release_arp (by unfold IWorld.on; rw [hx1]; rfl) hr'
  obtain ⟨t4, j3, j4⟩ := world_arp he1 he2 h1 m (s := ⟨r'.1, upd s1.tracks x (some r'.2)⟩) (t := r'.2) (upd_self _ _ _) (j2.same u1 u2 u3) er'
  rw [m2'] at j3
  cases j3
  rw [Nat.zero_add] at j4
  obtain ⟨q1, q2, q3, q4⟩ := TWorld.released_sounds_arp hl' hf' h0' ht' hs hx hdv hv hv' hm he (A := intervalAt e ns (n + m - 1))
    (by rw [if_pos rfl]; exact j4.delta (by omega)) hrest hsteps (hst' hst) hig hc hw hwt hvol hpan m1 m1' m2' hon rfl rfl
  rw [hgive 2 a2 (by omega) h02] at q1
  rw [hgive 0 a0 (by omega) h00, hgive 1 a1 (by omega) h01] at q2 q3
  exact ⟨q1, q2, q3, fun a3 h03 => by rw [← hgive 3 a3 (by omega) (by rw [kw]; exact h03)]; exact q4⟩

/-! ### Examples -/

/-- The instrument of C108 and an arpeggio of 0, 4 and 7 semitones, each for two ticks: period, volumes, duty cycle and mute flag. -/
example : ([1, 2, 3, 5, 7].map fun n => do
    let s ← ({} : TWorld).run 40 (writtenOps ++ arpSet 0 2 [0, 4194304, 7340032] ++ notePlayed 0 50331648 n)
    return (s.tracks 0).map fun t => (t.unit.period, t.unit.volume 0, t.unit.volume 1, t.unit.dutyCycle, t.unit.mute)) =
  ([(5512500, 19998, 19998, 2, 0), (5512500, 19998, 19998, 2, 0), (4134375, 12206, 12206, 4, 0), (3682350, 6102, 6102, 8, 0),
    (5512500, 12206, 12206, 8, 0)].map fun v => (.ok (some v) : C _)) := by decide +kernel

/-- Released after three ticks. -/
example : ([1, 2, 4, 6].map fun m => do
    let s ← ({} : TWorld).run 40 (writtenOps ++ arpSet 0 2 [0, 4194304, 7340032] ++ notePlayed 0 50331648 3 ++ notePlayed 0 (-1) m)
    return (s.tracks 0).map fun t => (t.unit.period, t.unit.volume 0, t.unit.volume 1, t.unit.dutyCycle, t.unit.mute)) =
  ([(4134375, 3050, 3050, 4, 0), (3472875, 3050, 3050, 4, 0), (5203800, 1219, 1219, 4, 0),
    (4134375, 1219, 1219, 4, 1)].map fun v => (.ok (some v) : C _)) := by decide +kernel

/-- The hypotheses of the theorem are met: in the third tick the second interval and the second values of all sequences are heard. -/
example : ∃ s0 sA s t', ({} : TWorld).run 40 writtenOps = .ok s0 ∧ s0.run 40 (arpSet 0 2 [0, 4194304, 7340032]) = .ok sA ∧
    sA.run 40 (notePlayed 0 50331648 3) = .ok s ∧ s.tracks 0 = some t' ∧
    t'.getAttr (.unit .period) = .ok (some (exactPeriod (50331648 + 4194304 + 1048576 + 0) 44100 / (16 : Nat))) ∧
    t'.getAttr (.unit (.volumeOf 0)) = .ok (some 12206) ∧ t'.unit.dutyCycle = 4 := by
  obtain ⟨s0, t, e, ht, ⟨b1, b2, b3, b8, b9, b10, b11, b12, b13, b14, b15, b16, b17, b18⟩, b19, p0, p1, p2, p3⟩ := written_start
  have sh0 : (NewSeq.values [32767, 20000, 10000, 5000, 2000] 1 2).Short := by simp [NewSeq.Short, InI32]
  obtain ⟨sA, s, t', V, P, k0, k1, k2, k3, k4, k5, k6⟩ := C112_held (N := 2) (n := 3) (d := 2) (v := 50331648) (written_legal 40) (by decide) e ht b1 b19 b2
    (by decide) (by decide) (by decide) (e := 2) (ns := [0, 4194304, 7340032]) (by decide) (by decide) (by decide) (by decide)
    (fun n hn => by simp only [List.mem_cons, List.not_mem_nil, or_false] at hn; rcases hn with rfl | rfl | rfl <;> (unfold Notes; decide))
    b3 b9 b10 (by decide) b11 b12 b13 b14 b15 b16
    (.inl ⟨_, _, _, by simp, sh0, p0, rfl⟩) (.inr ⟨p1, by decide, rfl⟩) (.inl ⟨_, _, _, by simp, by simp [NewSeq.Short, InI32], p2, rfl⟩)
  obtain ⟨m1, m2, m3, m4⟩ := k5 (k6 ⟨0, _, sh0, p0, by show sustainBegin 5 1 < 5; decide⟩)
  rw [b17] at k3
  have eV : V = 12206 := k3.trans (by decide)
  have eP : P = 0 := k4.trans (by decide)
  rw [eV, eP] at m2
  rw [b18] at m1
  exact ⟨s0, sA, s, t', e, k0, k1, k2, m1, m2, (m4 _ (.inl ⟨_, _, _, by simp, by simp [NewSeq.Short, InI32], p3, rfl⟩)).trans (by rw [if_pos (by decide)]; decide)⟩

/-- So are those of the theorem about the release: two ticks later the third interval is heard, with the volume behind the sustain range. -/
example : ∃ s0 sA s1 s t' V, ({} : TWorld).run 40 writtenOps = .ok s0 ∧ s0.run 40 (arpSet 0 2 [0, 4194304, 7340032]) = .ok sA ∧
    sA.run 40 (notePlayed 0 50331648 3) = .ok s1 ∧ s1.run 40 (notePlayed 0 (-1) 2) = .ok s ∧ s.tracks 0 = some t' ∧ V = 3050 ∧
    (t'.unit.mute = 0 → t'.getAttr (.unit .period) = .ok (some (exactPeriod (50331648 + 7340032 + 1048576 + 0) 44100 / (16 : Nat))) ∧
      t'.getAttr (.unit (.volumeOf 0)) = .ok (some V)) := by
  obtain ⟨s0, t, e, ht, ⟨b1, b2, b3, b8, b9, b10, b11, b12, b13, b14, b15, b16, b17, b18⟩, b19, p0, p1, p2, p3⟩ := written_start
  have sh0 : (NewSeq.values [32767, 20000, 10000, 5000, 2000] 1 2).Short := by simp [NewSeq.Short, InI32]
  obtain ⟨sA, s1, s, t', V, P, k0, k1, k1', k2, k3, k4, k5⟩ := C112_released (N := 2) (n := 3) (m := 2) (d := 2) (v := 50331648) (written_legal 40)
    (by decide) e ht b1 b19 b2 (by decide) (by decide) (by decide) (e := 2) (ns := [0, 4194304, 7340032]) (by decide) (by decide) (by decide) (by decide)
    (fun n hn => by simp only [List.mem_cons, List.not_mem_nil, or_false] at hn; rcases hn with rfl | rfl | rfl <;> (unfold Notes; decide))
    b3 b9 b10 (by decide) b11 b12 b13 b14 b15 b16 rfl rfl
    (.inl ⟨_, _, _, by simp, sh0, p0, rfl⟩) (.inr ⟨p1, by decide, rfl⟩) (.inl ⟨_, _, _, by simp, by simp [NewSeq.Short, InI32], p2, rfl⟩)
  rw [b17] at k3
  have eV : V = 3050 := k3.trans (by decide)
  have eP : P = 0 := k4.trans (by decide)
  refine ⟨s0, sA, s1, s, t', V, e, k0, k1, k1', k2, eV, fun hm => ?_⟩
  obtain ⟨m1, m2, m3, m4⟩ := k5 hm
  rw [b18] at m1
  rw [eP, eV] at m2
  rw [eV]
  exact ⟨m1, m2⟩

end BK
