import Verif.Lemmas.Phrases
/-!
C116: phrases do not influence one another.
-/
namespace BK

/-- After `ops` the track is again as silent as it was with `t0` in `w0`. -/
structure TWorld.Ready (N fuel x i d : Nat) (w0 : IWorld) (t0 : Track) (ops : List WOp) (s : TWorld) (t : Track) : Prop where
  legal : ({} : TWorld).LegalRun N fuel ops
  run : ({} : TWorld).run fuel ops = .ok s
  here : s.tracks x = some t
  silent : t.curNote = -1
  owner : s.iw.links.owner x = some i
  div : t.instrDiv.divider = d
  bias : t.note.roundBias = 0
  steps : t.note.steps = 0
  stale : stale x .vol ops = false
  instrs : s.iw.instrs = w0.instrs
  heap : s.iw.heap = w0.heap
  kept : ∃ sl, ({ t0 with note := sl } : Track).Kept t

theorem IWorld.Plays.same {w w' : IWorld} {i k : Nat} {new : NewSeq} (h1 : w'.instrs = w.instrs) (h2 : w'.heap = w.heap) (h : w.Plays i k new) :
    w'.Plays i k new := by
  unfold IWorld.Plays at *
  rw [h1, h2]
  exact h

theorem IWorld.Gives.same {w w' : IWorld} {i k f : Nat} {a : Int} (h1 : w'.instrs = w.instrs) (h2 : w'.heap = w.heap) (h : w.Gives i k f a) :
    w'.Gives i k f a := by
  unfold IWorld.Gives IWorld.Plays at *
  rw [h1, h2]
  exact h

theorem IWorld.GivesReleased.same {w w' : IWorld} {i k f g : Nat} {a : Int} (h1 : w'.instrs = w.instrs) (h2 : w'.heap = w.heap)
    (h : w.GivesReleased i k f g a) : w'.GivesReleased i k f g a := by
  unfold IWorld.GivesReleased IWorld.Plays at *
  rw [h1, h2]
  exact h

/-- A phrase makes the track ready for the next. -/
theorem TWorld.Ready.phrase {N fuel x i d : Nat} {s0 s : TWorld} {t0 t : Track} {ops : List WOp} (h : s.Ready N fuel x i d s0.iw t0 ops t)
    {p : Phrase} (hp : p.Fine) (hf : ops.length + (p.played x).length ≤ fuel)
    (hsu : ∃ k new, new.Short ∧ s0.iw.Plays i k new ∧ new.Sustained) (he : t0.effectsOff) (hwt : t0.waveform ≠ 16391) :
    ∃ s' t', s.run fuel (p.played x) = .ok s' ∧ s'.Ready N fuel x i d s0.iw t0 (ops ++ p.played x) t' := by
  obtain ⟨sl0, hk0⟩ := h.kept
  obtain ⟨⟨aa, dd, sb⟩, -, -⟩ := id hk0
  obtain ⟨he1, he2, he3, he4, he5⟩ := id he
  have he' : t.effectsOff := ⟨sb.volumeSlide.trans he1, sb.panningSlide.trans he2, sb.tremoloOn.trans he3, sb.portamento.trans he4, sb.vibratoOn.trans he5⟩
  have hsu' : ∃ k new, new.Short ∧ s.iw.Plays i k new ∧ new.Sustained := by
    obtain ⟨k, new, g1, g2, g3⟩ := hsu
    exact ⟨k, new, g1, g2.same h.instrs h.heap, g3⟩
  have hlen : (notePlayed x (-1) p.rest).length = p.rest + 1 := by unfold notePlayed; rw [List.length_cons, List.length_replicate]
  have hpl : (p.played x).length = (melody x p.notes).length + (p.rest + 1) := by unfold Phrase.played; rw [List.length_append, hlen]
  obtain ⟨s1, t1, w1, A, e, k1, k2, m1, m2⟩ := TWorld.melody_mel (ms := p.start) (v := p.last.1) (n := p.last.2) h.legal
    (by show ops.length + (melody x p.notes).length ≤ fuel; omega) h.run h.here h.silent h.owner h.div hp.1 hp.2 hsu' he' h.bias h.steps h.stale
    (fun q => hwt (sb.waveform.symm.trans q)) rfl
  have e : s.run fuel (melody x p.notes) = .ok s1 := e
  have hinv := ((TWorld.Inv.init N).run ops (by omega) h.legal)
  rw [h.run] at hinv
  have hinv : s.Inv (0 + ops.length) N := hinv
  have hdd := (hinv.tracks x t h.here).instrDiv.divider
  rw [h.div] at hdd
  have hpm : Plain (-1) := Plain.of (by omega) (by omega)
  obtain ⟨s2, e', -⟩ := (m1.inv.run (fuel := fuel) (notePlayed x (-1) p.rest)
    (by show ops.length + (melody x p.notes).length + _ ≤ fuel; omega) (legal_note hpm p.rest s1)).get trivial
  have hx1 : s1.iw.links.owner x = some i := by rw [m1.links]; exact h.owner
  have hon1 : s1.iw.on x = true := by unfold IWorld.on; rw [hx1]; rfl
  obtain ⟨sl, q1, q2, q3, q4, q5⟩ := m1.note
  obtain ⟨⟨a1, d1, sb1⟩, -, -⟩ := id q5
  obtain ⟨f1, f2, f3, f4, f5⟩ := id he'
  obtain ⟨t2, a2, hk2, -⟩ := TWorld.release_kept m1.here hon1
    ⟨sb1.volumeSlide.trans f1, sb1.panningSlide.trans f2, sb1.tremoloOn.trans f3, sb1.portamento.trans f4, sb1.vibratoOn.trans f5⟩ e'
  obtain ⟨-, -, slinks, sins, sheap⟩ := same_log k1 h.owner k2 m1.run m1.phase
  obtain ⟨r, hr, er⟩ := TWorld.note_run m1.here e'
  obtain ⟨p1, p2, -, -⟩ := Track.release_muted hr hon1
  obtain ⟨g1, g2, g3⟩ := IWorld.setPhase_frame p2
  have hx2 : r.1.links.owner x = some i := by rw [g3]; exact hx1
  obtain ⟨t3, c1, c2, c3, c4, -⟩ := track_ticks (i := i) (d := d) (by omega) (by omega) p.rest _
    (s := ⟨r.1, upd s1.tracks x (some r.2)⟩) (t := r.2) (upd_self _ _ _) hx2 (p1.trans m1.div) er
  rw [a2] at c1
  cases c1
  obtain ⟨b1, b2, b3⟩ := IWorld.run_ticks_frame _ c2
  obtain ⟨t4, c5, c6⟩ := world_silent p.rest (s := ⟨r.1, upd s1.tracks x (some r.2)⟩) (t := r.2) (upd_self _ _ _)
    (by show r.1.on x = true; unfold IWorld.on; rw [hx2]; rfl) (C57_release_partial x _ _ r hr).1 er
  rw [a2] at c5
  cases c5
  have erun : s.run fuel (p.played x) = .ok s2 := by unfold Phrase.played; exact TWorld.run_append _ _ e e'
  have hn2 : t2.note = sl := ((q5.trans hk2).note q1 : _)
  have hkk : ({ t0 with note := sl } : Track).Kept t2 := (hk0.renote sl).trans (q5.trans hk2)
  refine ⟨s2, t2, erun, ?_, TWorld.run_append _ _ h.run erun, a2, c6, ?_, ?_, by rw [hn2]; exact q3, by rw [hn2]; exact q4, ?_, ?_, ?_, sl, hkk⟩
  · refine TWorld.legalRun_append _ _ h.run h.legal ?_
    unfold Phrase.played
    exact TWorld.legalRun_append _ _ e (melody_legal _ hp.1 s) (legal_note hpm p.rest s1)
  · rw [b3, hx2]
  · rw [c3]; rfl
  · have := h.stale
    unfold BK.stale at this ⊢
    rw [List.foldl_append, this]
    exact stale_notes x false _ p.calls
  · rw [b1, g1, sins, h.instrs]
  · rw [b2, g2, sheap, h.heap]

/-- Any number of phrases. -/
theorem TWorld.Ready.phrases {N fuel x i d : Nat} {s0 : TWorld} {t0 : Track}
    (hsu : ∃ k new, new.Short ∧ s0.iw.Plays i k new ∧ new.Sustained) (he : t0.effectsOff) (hwt : t0.waveform ≠ 16391) :
    ∀ (ps : List Phrase) {ops : List WOp} {s : TWorld} {t : Track}, s.Ready N fuel x i d s0.iw t0 ops t → (∀ p ∈ ps, p.Fine) →
      ops.length + (ps.flatMap (Phrase.played x)).length ≤ fuel →
      ∃ s' t', s.run fuel (ps.flatMap (Phrase.played x)) = .ok s' ∧ s'.Ready N fuel x i d s0.iw t0 (ops ++ ps.flatMap (Phrase.played x)) t'
  | [], ops, s, t, h, _, _ => ⟨s, t, rfl, by rw [List.flatMap_nil, List.append_nil]; exact h⟩
  | p :: ps, ops, s, t, h, hp, hf => by
    rw [List.flatMap_cons] at hf ⊢
    rw [List.length_append] at hf
    obtain ⟨s1, t1, e1, h1⟩ := h.phrase (hp p (List.mem_cons_self ..)) (by omega) hsu he hwt
    obtain ⟨s2, t2, e2, h2⟩ := TWorld.Ready.phrases hsu he hwt ps h1 (fun q hq => hp q (List.mem_cons_of_mem _ hq)) (by rw [List.length_append]; omega)
    exact ⟨s2, t2, TWorld.run_append _ _ e1 e2, by rw [← List.append_assoc]; exact h2⟩

/-- C116: after any calls, any number of phrases is played on a silent track with a sustained instrument, each of them released at the end and followed by any number of ticks, whether or not
the release is over.  A melody played then sounds as if it were the first: what is heard is given by its own notes and ticks alone, as in `C113_legato`. -/
theorem C116_phrases {N fuel : Nat} {ops : List WOp} {s0 : TWorld} {x i d n : Nat} {t : Track} {v : Int} {ms : List (Int × Nat)} {ps : List Phrase}
    (hl : ({} : TWorld).LegalRun N fuel ops)
    (hf : ops.length + (ps.flatMap (Phrase.played x)).length + (melody x (ms ++ [(v, n)])).length ≤ fuel) (h0 : ({} : TWorld).run fuel ops = .ok s0)
    (ht : s0.tracks x = some t) (hs : t.curNote = -1) (hx : s0.iw.links.owner x = some i) (hdv : t.instrDiv.divider = d)
    (hps : ∀ p ∈ ps, p.Fine) (hms : ∀ p ∈ ms ++ [(v, n)], 0 ≤ p.1 ∧ p.1 ≤ 96 * U20) (hn : 1 ≤ n)
    (hsu : ∃ k new, new.Short ∧ s0.iw.Plays i k new ∧ new.Sustained)
    (he : t.effectsOff) (har : t.arpeggioOn = false) (hrest : t.note.roundBias = 0) (hsteps : t.note.steps = 0)
    (hst : stale x .vol ops = false) (hig : t.ignores = false)
    {rate : Int} (hc : t.ctx = some (rate, 2)) {cnt : Nat} (hw : t.unit.waveform.phases = some cnt) (hwt : t.waveform ≠ 16391)
    {vol pan : Int} (hvol : t.volume.get = .ok vol) (hpan : t.panning.get = .ok pan)
    {T : Nat} (hT : T = melodyTicks (ms ++ [(v, n)]))
    {a0 a1 a2 : Int} (h00 : s0.iw.Gives i 0 (firings d 0 T) a0) (h01 : s0.iw.Gives i 1 (firings d 0 T) a1)
    (h02 : s0.iw.Gives i 2 (firings d 0 T) a2) :
    ∃ s1 s t' V P, s0.run fuel (ps.flatMap (Phrase.played x)) = .ok s1 ∧ s1.run fuel (melody x (ms ++ [(v, n)])) = .ok s ∧ s.tracks x = some t' ∧
      V = max 0 (min 32767 (vol * a0 / 32768)) * t.masterVolume / 32768 ∧ P = max (-32767) (min 32767 (pan + a1)) ∧
      t'.unit.mute = 0 ∧ t'.getAttr (.unit .period) = .ok (some (exactPeriod (v + a2 + t.pitch) rate / cnt)) ∧
      t'.getAttr (.unit (.volumeOf 0)) = .ok (some (leftOf V P)) ∧ t'.getAttr (.unit (.volumeOf 1)) = .ok (some (rightOf V P)) ∧
      ∀ a3, s0.iw.Gives i 3 (firings d 0 T) a3 → t'.unit.dutyCycle = max 1 (min 15 (if a3 ≠ 0 then a3 else t.dutyCycle)) := by
  have hr : s0.Ready N fuel x i d s0.iw t ops t := ⟨hl, h0, ht, hs, hx, hdv, hrest, hsteps, hst, rfl, rfl, t.note, .refl t⟩
  obtain ⟨s1, t1, e1, h1⟩ := hr.phrases hsu he hwt ps hps (by omega)
  obtain ⟨sl, hk⟩ := h1.kept
  obtain ⟨⟨aa, dd, sb⟩, -, kw⟩ := hk
  obtain ⟨he1, he2, he3, he4, he5⟩ := he
  obtain ⟨k, new, g1, g2, g3⟩ := hsu
  obtain ⟨s, t', V, P, r1, r2, r3, r4, r5, r6, r7, r8, r9⟩ := C113_legato h1.legal (by rw [List.length_append]; omega) h1.run h1.here h1.silent h1.owner h1.div hms hn
    ⟨k, new, g1, g2.same h1.instrs h1.heap, g3⟩
    ⟨sb.volumeSlide.trans he1, sb.panningSlide.trans he2, sb.tremoloOn.trans he3, sb.portamento.trans he4, sb.vibratoOn.trans he5⟩
    (sb.arpeggioOn.trans har) h1.bias h1.steps h1.stale (sb.ignores.trans hig) (sb.ctx.trans hc) (by rw [kw]; exact hw) (fun q => hwt (sb.waveform.symm.trans q))
    (by rw [sb.volume]; exact hvol) (by rw [sb.panning]; exact hpan) hT (h00.same h1.instrs h1.heap) (h01.same h1.instrs h1.heap) (h02.same h1.instrs h1.heap)
  rw [sb.masterVolume] at r3
  rw [sb.pitch] at r6
  rw [sb.dutyCycle] at r9
  exact ⟨s1, s, t', V, P, e1, r1, r2, r3, r4, r5, r6, r7, r8, fun a3 h03 => r9 a3 (h03.same h1.instrs h1.heap)⟩

/-- C116: so does its release. -/
theorem C116_release {N fuel : Nat} {ops : List WOp} {s0 : TWorld} {x i d n m : Nat} {t : Track} {v : Int} {ms : List (Int × Nat)} {ps : List Phrase}
    (hl : ({} : TWorld).LegalRun N fuel ops)
    (hf : ops.length + (ps.flatMap (Phrase.played x)).length + (melody x (ms ++ [(v, n)])).length + (m + 1) ≤ fuel) (h0 : ({} : TWorld).run fuel ops = .ok s0)
    (ht : s0.tracks x = some t) (hs : t.curNote = -1) (hx : s0.iw.links.owner x = some i) (hdv : t.instrDiv.divider = d)
    (hps : ∀ p ∈ ps, p.Fine) (hms : ∀ p ∈ ms ++ [(v, n)], 0 ≤ p.1 ∧ p.1 ≤ 96 * U20) (hn : 1 ≤ n) (hm : 1 ≤ m)
    (hsu : ∃ k new, new.Short ∧ s0.iw.Plays i k new ∧ new.Sustained)
    (he : t.effectsOff) (har : t.arpeggioOn = false) (hrest : t.note.roundBias = 0) (hsteps : t.note.steps = 0)
    (hst : stale x .vol ops = false) (hig : t.ignores = false)
    {rate : Int} (hc : t.ctx = some (rate, 2)) {cnt : Nat} (hw : t.unit.waveform.phases = some cnt) (hwt : t.waveform ≠ 16391)
    {vol pan : Int} (hvol : t.volume.get = .ok vol) (hpan : t.panning.get = .ok pan)
    {T : Nat} (hT : T = melodyTicks (ms ++ [(v, n)])) {f g : Nat} (hfg : f = firings d 0 T) (hg : g = firings d 0 (T + m) - firings d 0 T)
    {a0 a1 a2 : Int} (h00 : s0.iw.GivesReleased i 0 f g a0) (h01 : s0.iw.GivesReleased i 1 f g a1) (h02 : s0.iw.GivesReleased i 2 f g a2) :
    ∃ s1 s2 s t' V P, s0.run fuel (ps.flatMap (Phrase.played x)) = .ok s1 ∧ s1.run fuel (melody x (ms ++ [(v, n)])) = .ok s2 ∧
      s2.run fuel (notePlayed x (-1) m) = .ok s ∧ s.tracks x = some t' ∧
      V = max 0 (min 32767 (vol * a0 / 32768)) * t.masterVolume / 32768 ∧ P = max (-32767) (min 32767 (pan + a1)) ∧
      (t'.unit.mute = 0 →
        t'.getAttr (.unit .period) = .ok (some (exactPeriod (v + a2 + t.pitch) rate / cnt)) ∧
        t'.getAttr (.unit (.volumeOf 0)) = .ok (some (leftOf V P)) ∧ t'.getAttr (.unit (.volumeOf 1)) = .ok (some (rightOf V P)) ∧
        ∀ a3, s0.iw.GivesReleased i 3 f g a3 → t'.unit.dutyCycle = max 1 (min 15 (if a3 ≠ 0 then a3 else t.dutyCycle))) := by
  have hr : s0.Ready N fuel x i d s0.iw t ops t := ⟨hl, h0, ht, hs, hx, hdv, hrest, hsteps, hst, rfl, rfl, t.note, .refl t⟩
  obtain ⟨s1, t1, e1, h1⟩ := hr.phrases hsu he hwt ps hps (by omega)
  obtain ⟨sl, hk⟩ := h1.kept
  obtain ⟨⟨aa, dd, sb⟩, -, kw⟩ := hk
  obtain ⟨he1, he2, he3, he4, he5⟩ := he
  obtain ⟨k, new, g1, g2, g3⟩ := hsu
  obtain ⟨s2, s, t', V, P, r1, r1', r2, r3, r4, r5⟩ := C113_release h1.legal (by rw [List.length_append]; omega) h1.run h1.here h1.silent h1.owner h1.div hms hn hm
    ⟨k, new, g1, g2.same h1.instrs h1.heap, g3⟩
    ⟨sb.volumeSlide.trans he1, sb.panningSlide.trans he2, sb.tremoloOn.trans he3, sb.portamento.trans he4, sb.vibratoOn.trans he5⟩
    (sb.arpeggioOn.trans har) h1.bias h1.steps h1.stale (sb.ignores.trans hig) (sb.ctx.trans hc) (by rw [kw]; exact hw) (fun q => hwt (sb.waveform.symm.trans q))
    (by rw [sb.volume]; exact hvol) (by rw [sb.panning]; exact hpan) hT hfg hg (h00.same h1.instrs h1.heap) (h01.same h1.instrs h1.heap) (h02.same h1.instrs h1.heap)
  rw [sb.masterVolume] at r3
  rw [sb.pitch, sb.dutyCycle] at r5
  refine ⟨s1, s2, s, t', V, P, e1, r1, r1', r2, r3, r4, fun hmute => ?_⟩
  obtain ⟨q1, q2, q3, q4⟩ := r5 hmute
  exact ⟨q1, q2, q3, fun a3 h03 => q4 a3 (h03.same h1.instrs h1.heap)⟩

/-! ### Examples -/

/-- Two phrases; the release of neither is over when the next one begins. -/
def twoPhrases : List Phrase := [⟨[], (50331648, 1), 2⟩, ⟨[(52428800, 2)], (47185920, 1), 1⟩]

/-- The melody of C113 after none of them, the first, and both. -/
example : ([0, 1, 2].map fun k => do
    let s ← ({} : TWorld).run 40 (writtenOps ++ (twoPhrases.take k).flatMap (Phrase.played 0) ++ melody 0 [(50331648, 1), (52428800, 1), (54525952, 1)])
    return (s.tracks 0).map fun t => (t.unit.period, t.unit.volume 0, t.unit.volume 1, t.unit.dutyCycle, t.unit.mute)) =
  ([(4134375, 12206, 12206, 4, 0), (4134375, 12206, 12206, 4, 0), (4134375, 12206, 12206, 4, 0)].map fun v => (.ok (some v) : C _)) := by
  decide +kernel

theorem twoPhrases_fine : ∀ p ∈ twoPhrases, p.Fine := by
  intro p hp
  unfold twoPhrases at hp
  simp only [List.mem_cons, List.not_mem_nil, or_false] at hp
  rcases hp with rfl | rfl <;> (unfold Phrase.Fine Phrase.notes; decide)

example : ∃ s0 s1 s t', ({} : TWorld).run 40 writtenOps = .ok s0 ∧ s0.run 40 (twoPhrases.flatMap (Phrase.played 0)) = .ok s1 ∧
    s1.run 40 (melody 0 [(50331648, 1), (52428800, 1), (54525952, 1)]) = .ok s ∧ s.tracks 0 = some t' ∧
    t'.getAttr (.unit .period) = .ok (some (exactPeriod (54525952 + 1048576 + 0) 44100 / (16 : Nat))) ∧
    t'.getAttr (.unit (.volumeOf 0)) = .ok (some 12206) ∧ t'.unit.dutyCycle = 4 := by
  obtain ⟨s0, t, e, ht, ⟨b1, b2, b3, b8, b9, b10, b11, b12, b13, b14, b15, b16, b17, b18⟩, b19, p0, p1, p2, p3⟩ := written_start
  have sh0 : (NewSeq.values [32767, 20000, 10000, 5000, 2000] 1 2).Short := by simp [NewSeq.Short, InI32]
  obtain ⟨s1, s, t', V, P, k0, k1, k2, k3, k4, k5, m1, m2, m3, m4⟩ := C116_phrases (N := 2) (n := 1) (d := 2) (v := 54525952)
    (ms := [(50331648, 1), (52428800, 1)]) (written_legal 40) (by decide) e ht b1 b19 b2 twoPhrases_fine
    (by decide) (by decide) ⟨0, _, sh0, p0, by show sustainBegin 5 1 < 5; decide⟩ b3 b8 b9 b10 (by decide) b11 b12 b13 b14 b15 b16 rfl
    (.inl ⟨_, _, _, by simp, sh0, p0, rfl⟩) (.inr ⟨p1, by decide, rfl⟩) (.inl ⟨_, _, _, by simp, by simp [NewSeq.Short, InI32], p2, rfl⟩)
  rw [b17] at k3
  have eV : V = 12206 := k3.trans (by decide)
  have eP : P = 0 := k4.trans (by decide)
  rw [eV, eP] at m2
  rw [b18] at m1
  exact ⟨s0, s1, s, t', e, k0, k1, k2, m1, m2, (m4 _ (.inl ⟨_, _, _, by simp, by simp [NewSeq.Short, InI32], p3, rfl⟩)).trans (by rw [if_pos (by decide)]; decide)⟩

example : ∃ s0 s1 s2 s t', ({} : TWorld).run 40 writtenOps = .ok s0 ∧ s0.run 40 (twoPhrases.flatMap (Phrase.played 0)) = .ok s1 ∧
    s1.run 40 (melody 0 [(50331648, 1), (52428800, 1), (54525952, 1)]) = .ok s2 ∧ s2.run 40 (notePlayed 0 (-1) 4) = .ok s ∧ s.tracks 0 = some t' ∧
    (t'.unit.mute = 0 → t'.getAttr (.unit .period) = .ok (some (exactPeriod (54525952 + 1048576 + 0) 44100 / (16 : Nat))) ∧
      t'.getAttr (.unit (.volumeOf 0)) = .ok (some 1219) ∧ t'.unit.dutyCycle = 4) := by
  obtain ⟨s0, t, e, ht, ⟨b1, b2, b3, b8, b9, b10, b11, b12, b13, b14, b15, b16, b17, b18⟩, b19, p0, p1, p2, p3⟩ := written_start
  have sh0 : (NewSeq.values [32767, 20000, 10000, 5000, 2000] 1 2).Short := by simp [NewSeq.Short, InI32]
  obtain ⟨s1, s2, s, t', V, P, k0, k1, k1', k2, k3, k4, k5⟩ := C116_release (N := 2) (n := 1) (m := 4) (d := 2) (v := 54525952)
    (ms := [(50331648, 1), (52428800, 1)]) (written_legal 40) (by decide) e ht b1 b19 b2 twoPhrases_fine
    (by decide) (by decide) (by decide) ⟨0, _, sh0, p0, by show sustainBegin 5 1 < 5; decide⟩ b3 b8 b9 b10 (by decide) b11 b12 b13 b14 b15 b16 rfl rfl rfl
    (.inl ⟨_, _, _, by simp, sh0, p0, rfl⟩) (.inr ⟨p1, by decide, rfl⟩) (.inl ⟨_, _, _, by simp, by simp [NewSeq.Short, InI32], p2, rfl⟩)
  refine ⟨s0, s1, s2, s, t', e, k0, k1, k1', k2, fun hm => ?_⟩
  obtain ⟨m1, m2, m3, m4⟩ := k5 hm
  rw [b17] at k3
  have eV : V = 1219 := k3.trans (by decide)
  have eP : P = 0 := k4.trans (by decide)
  rw [eV, eP] at m2
  rw [b18] at m1
  exact ⟨m1, m2, (m4 _ (.inl ⟨_, _, _, by simp, by simp [NewSeq.Short, InI32], p3, rfl⟩)).trans (by rw [if_pos (by decide)]; decide)⟩

end BK
