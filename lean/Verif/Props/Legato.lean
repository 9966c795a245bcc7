import Verif.Lemmas.Legato
/-!
C113: notes played without a release between them share one course of the instrument.
-/
namespace BK

theorem melody_length (x : Nat) : ∀ ms : List (Int × Nat), (melody x ms).length = melodyTicks ms + ms.length
  | [] => rfl
  | p :: ms => by
    have := melody_length x ms
    unfold melody melodyTicks at *
    rw [List.flatMap_cons, List.length_append, this, List.map_cons, List.sum_cons, List.length_cons]
    unfold notePlayed
    rw [List.length_cons, List.length_replicate]
    omega

theorem melody_legal {N fuel x : Nat} (ms : List (Int × Nat)) (h : ∀ p ∈ ms, 0 ≤ p.1 ∧ p.1 ≤ 96 * U20) (s : TWorld) : s.LegalRun N fuel (melody x ms) := by
  refine TWorld.LegalRun.of_all _ _ fun op hop s => ?_
  unfold melody at hop
  obtain ⟨p, hp, hop⟩ := List.mem_flatMap.1 hop
  unfold notePlayed at hop
  rcases List.mem_cons.1 hop with rfl | hop
  · obtain ⟨h1, h2⟩ := h p hp
    exact fun _ _ => ⟨⟨⟨by omega, by omega⟩, by omega⟩, trivial⟩
  · rw [List.eq_of_mem_replicate hop]
    exact fun _ _ => trivial

theorem TWorld.run_split {f : Nat} : ∀ (as bs : List WOp) {s s2 : TWorld}, s.run f (as ++ bs) = .ok s2 →
    ∃ s1, s.run f as = .ok s1 ∧ s1.run f bs = .ok s2
  | [], bs, s, s2, h => ⟨s, rfl, h⟩
  | a :: as, bs, s, s2, h => by
    rw [List.cons_append] at h
    unfold TWorld.run at h
    obtain ⟨u, h1, h⟩ := bind_ok_iff.1 h
    obtain ⟨s1, k1, k2⟩ := TWorld.run_split as bs h
    exact ⟨s1, by unfold TWorld.run; rw [h1, ok_bind]; exact k1, k2⟩

/-- All notes of a melody but the first. -/
theorem TWorld.Mel.go {N fuel x d i : Nat} {w0 w1 : IWorld} {A : BK.Lists} {t : Track} (hd : 1 ≤ d) (hd2 : d ≤ 2147483647)
    (hA : w0.Inv False A) (hx : w0.links.owner x = some i) (hat : w0.attack x t.dutyCycle = .ok w1)
    (hsu : ∃ k new, new.Short ∧ w0.Plays i k new ∧ new.Sustained) (he : t.effectsOff) :
    ∀ (ms : List (Int × Nat)) {m j : Nat} {v : Int} {s s' : TWorld} {t' : Track}, s.Mel N m fuel x d w0 w1 t j v t' →
      (∀ p ∈ ms, 0 ≤ p.1 ∧ p.1 ≤ 96 * U20) → m + (melody x ms).length ≤ fuel →
      (ms = [] → t'.updVolume = false ∧ t'.updNote = false ∧ t'.updDuty = false) →
      (∀ p, ms.getLast? = some p → p.2 ≠ 0) → s.run fuel (melody x ms) = .ok s' →
      ∃ t2, s'.Mel N (m + (melody x ms).length) fuel x d w0 w1 t (j + melodyTicks ms) ((ms.getLast?.map (·.1)).getD v) t2 ∧
        t2.updVolume = false ∧ t2.updNote = false ∧ t2.updDuty = false
  | [], m, j, v, s, s', t', h, hms, hf, hc, hl, e => by
    cases e
    exact ⟨t', h, hc rfl⟩
  | p :: ms, m, j, v, s, s', t', h, hms, hf, hc, hl, e => by
    have hcons : melody x (p :: ms) = notePlayed x p.1 p.2 ++ melody x ms := by unfold melody; rw [List.flatMap_cons]
    have hlen : (notePlayed x p.1 p.2).length = p.2 + 1 := by unfold notePlayed; rw [List.length_cons, List.length_replicate]
    rw [hcons] at e hf ⊢
    rw [List.length_append, hlen] at hf ⊢
    obtain ⟨s1, e1, e⟩ := TWorld.run_split _ _ e
    obtain ⟨g1, g2⟩ := hms p (List.mem_cons_self ..)
    obtain ⟨t1, k1, k2⟩ := h.next (by omega) g1 g2 hd hd2 hA hx hat hsu he e1
    obtain ⟨t2, k3, k4⟩ := TWorld.Mel.go hd hd2 hA hx hat hsu he ms k1 (fun q hq => hms q (List.mem_cons_of_mem _ hq)) (by omega)
      (fun q => k2 (hl p (by rw [q]; rfl))) (fun q hq => hl q (by
        cases ms with
        | nil => cases hq
        | cons a as => rw [List.getLast?_cons_cons]; exact hq)) e
    refine ⟨t2, ?_, k4⟩
    have e1 : m + (p.2 + 1 + (melody x ms).length) = m + (p.2 + 1) + (melody x ms).length := by omega
    have e2 : j + melodyTicks (p :: ms) = j + p.2 + melodyTicks ms := by
      unfold melodyTicks; rw [List.map_cons, List.sum_cons]; omega
    have e3 : (((p :: ms).getLast?.map (·.1)).getD v) = ((ms.getLast?.map (·.1)).getD p.1) := by
      cases ms with
      | nil => rfl
      | cons a as =>
        rw [List.getLast?_cons_cons]
        cases hq : (a :: as).getLast? with
        | none => simp at hq
        | some b => rfl
    rw [e1, e2, e3]
    exact k3

/-- The first note of a melody. -/
theorem TWorld.first_mel {N fuel : Nat} {ops : List WOp} {s0 s1 : TWorld} {x i d n : Nat} {t : Track} {v : Int}
    (hl : ({} : TWorld).LegalRun N fuel ops) (hf : ops.length + (n + 1) ≤ fuel) (h0 : ({} : TWorld).run fuel ops = .ok s0)
    (ht : s0.tracks x = some t) (hs : t.curNote = -1) (hx : s0.iw.links.owner x = some i) (hdv : t.instrDiv.divider = d)
    (hv : 0 ≤ v) (hv' : v ≤ 96 * U20) (hsu : ∃ k new, new.Short ∧ s0.iw.Plays i k new ∧ new.Sustained)
    (he : t.effectsOff) (hrest : t.note.roundBias = 0) (hsteps : t.note.steps = 0) (hst : stale x .vol ops = false) (hwt : t.waveform ≠ 16391)
    (e1 : s0.run fuel (notePlayed x v n) = .ok s1) :
    ∃ t1 w1 A, s0.iw.Inv False A ∧ s0.iw.attack x t.dutyCycle = .ok w1 ∧ s1.Mel N (ops.length + (n + 1)) fuel x d s0.iw w1 t n v t1 ∧
      (n ≠ 0 → t1.updVolume = false ∧ t1.updNote = false ∧ t1.updDuty = false) := by
  have hinv := ((TWorld.Inv.init N).run ops (by omega) hl)
  rw [h0] at hinv
  have hinv : s0.Inv (0 + ops.length) N := hinv
  rw [Nat.zero_add] at hinv
  have hlen : (notePlayed x v n).length = n + 1 := by unfold notePlayed; rw [List.length_cons, List.length_replicate]
  have hpv : Plain v := ⟨⟨by omega, by omega⟩, by omega⟩
  have hin1 := hinv.run (fuel := fuel) (notePlayed x v n) (by omega) (legal_note hpv n s0)
  rw [e1, hlen] at hin1
  have hin1 : s1.Inv (ops.length + (n + 1)) N := hin1
  obtain ⟨w1, t1, A, k1, k2, k3, k4, k5, k6, k7⟩ := note_played hinv ht hs hx hdv hv e1
  obtain ⟨sl, t3, j1, ehalt, eget, hk, j3, j4, j5⟩ := hinv.note_kept ht hs hv hv' he hrest hsteps hwt e1
  rw [k3] at j1
  cases j1
  have hok0 : ∀ q, stale x q ops = false → t.Ok x s0.iw q := fun q hq =>
    TWorld.run_ok ops (TWorld.Inv.init N) (by omega) hl (fun _ t h => by cases h) h0 hq t ht
  have hup1 : ∀ q, t1.Ok x s1.iw q := fun q => hinv.played_ok (by omega) hpv ht (hok0 q)
    (by cases q; exacts [.inl hst, .inr rfl, .inl (stale_duty x ops)]) e1 k3
  have hph : (s1.iw.states x).phase = .attack := by
    obtain ⟨k, new, g1, g2, g3⟩ := id hsu
    obtain ⟨id, q, e5, e6, hh⟩ := Plays.holds g2 g1 g3
    exact (held_kept k1 hx k2 k5 e5 e6 hh).2
  have hm1 : t1.unit.mute = 0 ∧ t1.curNote = min v (96 * U20) := by
    rcases k7 with ⟨k, -⟩ | ⟨-, k⟩
    · rw [hph] at k; cases k
    · exact k
  exact ⟨t1, w1, A, k1, k2, ⟨hin1, k3, k6, hm1.1, by rw [hm1.2]; omega, ⟨sl, ehalt, eget, j4, j5, hk⟩, hup1, k4, k5, hph⟩, j3⟩

/-- The whole melody. -/
theorem TWorld.melody_mel {N fuel : Nat} {ops : List WOp} {s0 : TWorld} {x i d n : Nat} {t : Track} {v : Int} {ms : List (Int × Nat)}
    (hl : ({} : TWorld).LegalRun N fuel ops) (hf : ops.length + (melody x (ms ++ [(v, n)])).length ≤ fuel) (h0 : ({} : TWorld).run fuel ops = .ok s0)
    (ht : s0.tracks x = some t) (hs : t.curNote = -1) (hx : s0.iw.links.owner x = some i) (hdv : t.instrDiv.divider = d)
    (hms : ∀ p ∈ ms ++ [(v, n)], 0 ≤ p.1 ∧ p.1 ≤ 96 * U20) (hn : 1 ≤ n)
    (hsu : ∃ k new, new.Short ∧ s0.iw.Plays i k new ∧ new.Sustained)
    (he : t.effectsOff) (hrest : t.note.roundBias = 0) (hsteps : t.note.steps = 0) (hst : stale x .vol ops = false) (hwt : t.waveform ≠ 16391)
    {T : Nat} (hT : T = melodyTicks (ms ++ [(v, n)])) :
    ∃ s t2 w1 A, s0.run fuel (melody x (ms ++ [(v, n)])) = .ok s ∧ s0.iw.Inv False A ∧ s0.iw.attack x t.dutyCycle = .ok w1 ∧
      s.Mel N (ops.length + (melody x (ms ++ [(v, n)])).length) fuel x d s0.iw w1 t T v t2 ∧
      t2.updVolume = false ∧ t2.updNote = false ∧ t2.updDuty = false := by
  have hinv := ((TWorld.Inv.init N).run ops (by omega) hl)
  rw [h0] at hinv
  have hinv : s0.Inv (0 + ops.length) N := hinv
  rw [Nat.zero_add] at hinv
  obtain ⟨s, e, -⟩ := (hinv.run (fuel := fuel) (melody x (ms ++ [(v, n)])) (by omega) (melody_legal _ hms s0)).get trivial
  have hdd := (hinv.tracks x t ht).instrDiv.divider
  rw [hdv] at hdd
  -- the first note
  obtain ⟨p, ms', hp⟩ : ∃ p ms', ms ++ [(v, n)] = p :: ms' := by
    cases ms with
    | nil => exact ⟨_, _, rfl⟩
    | cons a as => exact ⟨_, _, rfl⟩
  have hlast : (p :: ms').getLast? = some (v, n) := by rw [← hp]; simp
  rw [hp] at e hf hms hT
  have hcons : melody x (p :: ms') = notePlayed x p.1 p.2 ++ melody x ms' := by unfold melody; rw [List.flatMap_cons]
  have hlen : (notePlayed x p.1 p.2).length = p.2 + 1 := by unfold notePlayed; rw [List.length_cons, List.length_replicate]
  rw [hp]
  have eall := e
  rw [hcons] at e hf
  rw [List.length_append, hlen] at hf
  obtain ⟨s1, e1, e⟩ := TWorld.run_split _ _ e
  obtain ⟨hv, hv'⟩ := hms p (List.mem_cons_self ..)
  obtain ⟨t1, w1, A, k1, k2, mel, j3⟩ := TWorld.first_mel hl (by omega) h0 ht hs hx hdv hv hv' hsu he hrest hsteps hst hwt e1
  -- the others
  obtain ⟨t2, m1, m2⟩ := TWorld.Mel.go (by omega) (by omega) k1 hx k2 hsu he ms' mel (fun q hq => hms q (List.mem_cons_of_mem _ hq)) (by omega)
    (fun q => j3 (by
      rw [q] at hlast
      have : p = (v, n) := Option.some.inj hlast
      rw [this]
      show n ≠ 0
      omega)) (fun q hq => by
      have : (p :: ms').getLast? = some q := by
        cases ms' with
        | nil => cases hq
        | cons a as => rw [List.getLast?_cons_cons]; exact hq
      rw [hlast] at this
      cases this
      show n ≠ 0
      omega) e
  have eT : p.2 + melodyTicks ms' = T := by
    rw [hT]; unfold melodyTicks; rw [List.map_cons, List.sum_cons]
  have ev : ((ms'.getLast?.map (·.1)).getD p.1) = v := by
    cases ms' with
    | nil => have : p = (v, n) := Option.some.inj hlast; rw [this]; rfl
    | cons a as =>
      rw [List.getLast?_cons_cons] at hlast
      rw [hlast]
      rfl
  rw [eT, ev] at m1
  refine ⟨s, t2, w1, A, eall, k1, k2, ?_, m2⟩
  rw [hcons, List.length_append, hlen, ← Nat.add_assoc]
  exact m1

/-- C113: after any calls, a melody is played on a silent track with an instrument that has a sustain range: notes one after the other, each with any number
of ticks (the last at least one), without releases.  The last note sounds with its own pitch, and the instrument
is where it would be if one single note had been held for all these ticks: only the first note has begun it. -/
theorem C113_legato {N fuel : Nat} {ops : List WOp} {s0 : TWorld} {x i d n : Nat} {t : Track} {v : Int} {ms : List (Int × Nat)}
    (hl : ({} : TWorld).LegalRun N fuel ops) (hf : ops.length + (melody x (ms ++ [(v, n)])).length ≤ fuel) (h0 : ({} : TWorld).run fuel ops = .ok s0)
    (ht : s0.tracks x = some t) (hs : t.curNote = -1) (hx : s0.iw.links.owner x = some i) (hdv : t.instrDiv.divider = d)
    (hms : ∀ p ∈ ms ++ [(v, n)], 0 ≤ p.1 ∧ p.1 ≤ 96 * U20) (hn : 1 ≤ n)
    (hsu : ∃ k new, new.Short ∧ s0.iw.Plays i k new ∧ new.Sustained)
    (he : t.effectsOff) (har : t.arpeggioOn = false) (hrest : t.note.roundBias = 0) (hsteps : t.note.steps = 0)
    (hst : stale x .vol ops = false) (hig : t.ignores = false)
    {rate : Int} (hc : t.ctx = some (rate, 2)) {cnt : Nat} (hw : t.unit.waveform.phases = some cnt) (hwt : t.waveform ≠ 16391)
    {vol pan : Int} (hvol : t.volume.get = .ok vol) (hpan : t.panning.get = .ok pan)
    {T : Nat} (hT : T = melodyTicks (ms ++ [(v, n)]))
    {a0 a1 a2 : Int} (h00 : s0.iw.Gives i 0 (firings d 0 T) a0) (h01 : s0.iw.Gives i 1 (firings d 0 T) a1)
    (h02 : s0.iw.Gives i 2 (firings d 0 T) a2) :
    ∃ s t' V P, s0.run fuel (melody x (ms ++ [(v, n)])) = .ok s ∧ s.tracks x = some t' ∧
      V = max 0 (min 32767 (vol * a0 / 32768)) * t.masterVolume / 32768 ∧ P = max (-32767) (min 32767 (pan + a1)) ∧
      t'.unit.mute = 0 ∧ t'.getAttr (.unit .period) = .ok (some (exactPeriod (v + a2 + t.pitch) rate / cnt)) ∧
      t'.getAttr (.unit (.volumeOf 0)) = .ok (some (leftOf V P)) ∧ t'.getAttr (.unit (.volumeOf 1)) = .ok (some (rightOf V P)) ∧
      ∀ a3, s0.iw.Gives i 3 (firings d 0 T) a3 → t'.unit.dutyCycle = max 1 (min 15 (if a3 ≠ 0 then a3 else t.dutyCycle)) := by
  obtain ⟨s, t2, w1, A, eall, k1, k2, m1, m2⟩ := TWorld.melody_mel hl hf h0 ht hs hx hdv hms hn hsu he hrest hsteps hst hwt hT
  have hinv := ((TWorld.Inv.init N).run ops (by omega) hl)
  rw [h0] at hinv
  have hinv : s0.Inv (0 + ops.length) N := hinv
  have hdd := (hinv.tracks x t ht).instrDiv.divider
  rw [hdv] at hdd
  obtain ⟨sl2, q1, q2, -, -, q5⟩ := m1.note
  have hon : s.iw.on x = true := by unfold IWorld.on; rw [m1.links, hx]; rfl
  have hgive : ∀ k a, k < 4 → s0.iw.Gives i k (firings d 0 T) a → s.iw.value x k = a := fun _ _ hk h => m1.gives (by omega) k1 hx k2 hk h
  have hpo : t.panningOn = true := (TWorld.run_sided h0 x t ht).2 ⟨_, hc⟩
  obtain ⟨r1, r2, r3, r4⟩ := q5.sounds q1 q2 (m1.inv.tracks x t2 m1.here) hon m2 m1.ok he (A := 0) (by rw [har]; rfl) hig hpo hc hw hwt hvol hpan rfl rfl
  rw [Int.add_zero, hgive 2 a2 (by omega) h02] at r1
  rw [hgive 0 a0 (by omega) h00, hgive 1 a1 (by omega) h01] at r2 r3
  exact ⟨s, t2, _, _, eall, m1.here, rfl, rfl, m1.mute, r1, r2, r3, fun a3 h03 => by rw [← hgive 3 a3 (by omega) h03]; exact r4⟩

/-- C113: the last note of the melody is then released, and `m` ticks follow.  As long as the track is not muted each sequence plays its values behind the sustain range,
beginning with what it showed at the end of the melody. -/
theorem C113_release {N fuel : Nat} {ops : List WOp} {s0 : TWorld} {x i d n m : Nat} {t : Track} {v : Int} {ms : List (Int × Nat)}
    (hl : ({} : TWorld).LegalRun N fuel ops) (hf : ops.length + (melody x (ms ++ [(v, n)])).length + (m + 1) ≤ fuel) (h0 : ({} : TWorld).run fuel ops = .ok s0)
    (ht : s0.tracks x = some t) (hs : t.curNote = -1) (hx : s0.iw.links.owner x = some i) (hdv : t.instrDiv.divider = d)
    (hms : ∀ p ∈ ms ++ [(v, n)], 0 ≤ p.1 ∧ p.1 ≤ 96 * U20) (hn : 1 ≤ n) (hm : 1 ≤ m)
    (hsu : ∃ k new, new.Short ∧ s0.iw.Plays i k new ∧ new.Sustained)
    (he : t.effectsOff) (har : t.arpeggioOn = false) (hrest : t.note.roundBias = 0) (hsteps : t.note.steps = 0)
    (hst : stale x .vol ops = false) (hig : t.ignores = false)
    {rate : Int} (hc : t.ctx = some (rate, 2)) {cnt : Nat} (hw : t.unit.waveform.phases = some cnt) (hwt : t.waveform ≠ 16391)
    {vol pan : Int} (hvol : t.volume.get = .ok vol) (hpan : t.panning.get = .ok pan)
    {T : Nat} (hT : T = melodyTicks (ms ++ [(v, n)])) {f g : Nat} (hfg : f = firings d 0 T) (hg : g = firings d 0 (T + m) - firings d 0 T)
    {a0 a1 a2 : Int} (h00 : s0.iw.GivesReleased i 0 f g a0) (h01 : s0.iw.GivesReleased i 1 f g a1) (h02 : s0.iw.GivesReleased i 2 f g a2) :
    ∃ s1 s t' V P, s0.run fuel (melody x (ms ++ [(v, n)])) = .ok s1 ∧ s1.run fuel (notePlayed x (-1) m) = .ok s ∧ s.tracks x = some t' ∧
      V = max 0 (min 32767 (vol * a0 / 32768)) * t.masterVolume / 32768 ∧ P = max (-32767) (min 32767 (pan + a1)) ∧
      (t'.unit.mute = 0 →
        t'.getAttr (.unit .period) = .ok (some (exactPeriod (v + a2 + t.pitch) rate / cnt)) ∧
        t'.getAttr (.unit (.volumeOf 0)) = .ok (some (leftOf V P)) ∧ t'.getAttr (.unit (.volumeOf 1)) = .ok (some (rightOf V P)) ∧
        ∀ a3, s0.iw.GivesReleased i 3 f g a3 → t'.unit.dutyCycle = max 1 (min 15 (if a3 ≠ 0 then a3 else t.dutyCycle))) := by
  obtain ⟨s1, t1, w1, A, e, k1, k2, m1, m2⟩ := TWorld.melody_mel hl (by omega) h0 ht hs hx hdv hms hn hsu he hrest hsteps hst hwt hT
  have hinv := ((TWorld.Inv.init N).run ops (by omega) hl)
  rw [h0] at hinv
  have hinv : s0.Inv (0 + ops.length) N := hinv
  have hdd := (hinv.tracks x t ht).instrDiv.divider
  rw [hdv] at hdd
  have hpm : Plain (-1) := Plain.of (by omega) (by omega)
  have hlen : (notePlayed x (-1) m).length = m + 1 := by unfold notePlayed; rw [List.length_cons, List.length_replicate]
  obtain ⟨s, e', hend⟩ := (m1.inv.run (fuel := fuel) (notePlayed x (-1) m) (by omega) (legal_note hpm m s1)).get trivial
  have hx1 : s1.iw.links.owner x = some i := by rw [m1.links]; exact hx
  have hon1 : s1.iw.on x = true := by unfold IWorld.on; rw [hx1]; rfl
  obtain ⟨sl, q1, q2, -, -, q5⟩ := m1.note
  obtain ⟨⟨aa, dd, sb⟩, -, -⟩ := id q5
  obtain ⟨he1, he2, he3, he4, he5⟩ := id he
  obtain ⟨t2, a2', hk2, j3⟩ := TWorld.release_kept m1.here hon1
    ⟨sb.volumeSlide.trans he1, sb.panningSlide.trans he2, sb.tremoloOn.trans he3, sb.portamento.trans he4, sb.vibratoOn.trans he5⟩ e'
  have hup : ∀ p, t2.Ok x s.iw p := fun p => m1.inv.played_ok (b := false) (by omega) hpm m1.here (fun _ => m1.ok p) (.inl rfl) e' a2'
  have hpo : t.panningOn = true := (TWorld.run_sided h0 x t ht).2 ⟨_, hc⟩
  refine ⟨s1, s, t2, _, _, e, e', a2', rfl, rfl, fun hmute => ?_⟩
  obtain ⟨hon, hgive⟩ := m1.gives_released (by omega) (by omega) k1 hx k2 e' a2' hmute
  rw [← hg, ← hfg] at hgive
  obtain ⟨r1, r2, r3, r4⟩ := (q5.trans hk2).sounds q1 q2 (hend.tracks x t2 a2') hon (j3 (by omega)) hup he (A := 0) (by rw [har]; rfl) hig hpo hc hw hwt hvol hpan rfl rfl
  rw [Int.add_zero, hgive 2 a2 (by omega) h02] at r1
  rw [hgive 0 a0 (by omega) h00, hgive 1 a1 (by omega) h01] at r2 r3
  exact ⟨r1, r2, r3, fun a3 h03 => by rw [← hgive 3 a3 (by omega) h03]; exact r4⟩

/-- Three notes legato: volumes and duty cycles as of one note held for three ticks; a single note in the other line. -/
example : ([[(50331648, 1), (52428800, 1), (54525952, 1)], [(54525952, 3)]].map fun ms => do
    let s ← ({} : TWorld).run 40 (writtenOps ++ melody 0 ms)
    return (s.tracks 0).map fun t => (t.unit.period, t.unit.volume 0, t.unit.volume 1, t.unit.dutyCycle, t.unit.mute)) =
  ([(4134375, 12206, 12206, 4, 0), (4134375, 12206, 12206, 4, 0)].map fun v => (.ok (some v) : C _)) := by
  decide +kernel

/-- With a release and a new note instead, the instrument begins anew. -/
example : (do
    let s ← ({} : TWorld).run 40 (writtenOps ++ melody 0 [(50331648, 2)] ++ [.track 0 (.attr .note (-2))] ++ melody 0 [(54525952, 1)])
    return (s.tracks 0).map fun t => (t.unit.volume 0, t.unit.dutyCycle)) = (.ok (some (19998, 2)) : C _) := by
  decide +kernel

example : ∃ s0 s t', ({} : TWorld).run 40 writtenOps = .ok s0 ∧ s0.run 40 (melody 0 [(50331648, 1), (52428800, 1), (54525952, 1)]) = .ok s ∧ s.tracks 0 = some t' ∧
    t'.getAttr (.unit .period) = .ok (some (exactPeriod (54525952 + 1048576 + 0) 44100 / (16 : Nat))) ∧
    t'.getAttr (.unit (.volumeOf 0)) = .ok (some 12206) ∧ t'.getAttr (.unit (.volumeOf 1)) = .ok (some 12206) ∧ t'.unit.dutyCycle = 4 := by
  obtain ⟨s0, t, e, ht, ⟨b1, b2, b3, b8, b9, b10, b11, b12, b13, b14, b15, b16, b17, b18⟩, b19, p0, p1, p2, p3⟩ := written_start
  have sh0 : (NewSeq.values [32767, 20000, 10000, 5000, 2000] 1 2).Short := by simp [NewSeq.Short, InI32]
  obtain ⟨s, t', V, P, k1, k2, k3, k4, k5, m1, m2, m3, m4⟩ := C113_legato (N := 2) (n := 1) (d := 2) (v := 54525952)
    (ms := [(50331648, 1), (52428800, 1)]) (written_legal 40) (by decide) e ht b1 b19 b2
    (by decide) (by decide) ⟨0, _, sh0, p0, by show sustainBegin 5 1 < 5; decide⟩ b3 b8 b9 b10 (by decide) b11 b12 b13 b14 b15 b16 rfl
    (.inl ⟨_, _, _, by simp, sh0, p0, rfl⟩) (.inr ⟨p1, by decide, rfl⟩) (.inl ⟨_, _, _, by simp, by simp [NewSeq.Short, InI32], p2, rfl⟩)
  rw [b17] at k3
  have eV : V = 12206 := k3.trans (by decide)
  have eP : P = 0 := k4.trans (by decide)
  rw [eV, eP] at m2 m3
  rw [b18] at m1
  exact ⟨s0, s, t', e, k1, k2, m1, m2, m3, (m4 _ (.inl ⟨_, _, _, by simp, by simp [NewSeq.Short, InI32], p3, rfl⟩)).trans (by rw [if_pos (by decide)]; decide)⟩

/-- The three notes released after three ticks: as the single note of C108, but with the pitch of the last. -/
example : ([1, 3, 4].map fun m => do
    let s ← ({} : TWorld).run 40 (writtenOps ++ melody 0 [(50331648, 1), (52428800, 1), (54525952, 1)] ++ notePlayed 0 (-1) m)
    return (s.tracks 0).map fun t => (t.unit.period, t.unit.volume 0, t.unit.dutyCycle, t.unit.mute)) =
  ([(4134375, 3050, 4, 0), (4134375, 3050, 4, 0), (4134375, 1219, 4, 0)].map fun v => (.ok (some v) : C _)) := by
  decide +kernel

example : ∃ s0 s1 s t', ({} : TWorld).run 40 writtenOps = .ok s0 ∧ s0.run 40 (melody 0 [(50331648, 1), (52428800, 1), (54525952, 1)]) = .ok s1 ∧
    s1.run 40 (notePlayed 0 (-1) 4) = .ok s ∧ s.tracks 0 = some t' ∧ (t'.unit.mute = 0 →
      t'.getAttr (.unit .period) = .ok (some (exactPeriod (54525952 + 1048576 + 0) 44100 / (16 : Nat))) ∧
      t'.getAttr (.unit (.volumeOf 0)) = .ok (some 1219) ∧ t'.getAttr (.unit (.volumeOf 1)) = .ok (some 1219) ∧ t'.unit.dutyCycle = 4) := by
  obtain ⟨s0, t, e, ht, ⟨b1, b2, b3, b8, b9, b10, b11, b12, b13, b14, b15, b16, b17, b18⟩, b19, p0, p1, p2, p3⟩ := written_start
  have sh0 : (NewSeq.values [32767, 20000, 10000, 5000, 2000] 1 2).Short := by simp [NewSeq.Short, InI32]
  obtain ⟨s1, s, t', V, P, k1, k1', k2, k3, k4, k5⟩ := C113_release (N := 2) (n := 1) (m := 4) (d := 2) (v := 54525952)
    (ms := [(50331648, 1), (52428800, 1)]) (written_legal 40) (by decide) e ht b1 b19 b2
    (by decide) (by decide) (by decide) ⟨0, _, sh0, p0, by show sustainBegin 5 1 < 5; decide⟩ b3 b8 b9 b10 (by decide) b11 b12 b13 b14 b15 b16 rfl rfl rfl
    (.inl ⟨_, _, _, by simp, sh0, p0, rfl⟩) (.inr ⟨p1, by decide, rfl⟩) (.inl ⟨_, _, _, by simp, by simp [NewSeq.Short, InI32], p2, rfl⟩)
  refine ⟨s0, s1, s, t', e, k1, k1', k2, fun hm => ?_⟩
  obtain ⟨m1, m2, m3, m4⟩ := k5 hm
  rw [b17] at k3
  have eV : V = 1219 := k3.trans (by decide)
  have eP : P = 0 := k4.trans (by decide)
  rw [eV, eP] at m2 m3
  rw [b18] at m1
  exact ⟨m1, m2, m3, (m4 _ (.inl ⟨_, _, _, by simp, by simp [NewSeq.Short, InI32], p3, rfl⟩)).trans (by rw [if_pos (by decide)]; decide)⟩

end BK
