import Verif.Spec.InstrHeard
import Verif.Spec.Sweep
import Verif.Lemmas.InstrHeard
/-!
C108: instruments are heard as written.
-/
namespace BK

theorem stale_duty (x : Nat) : ∀ ops : List WOp, ops.foldl (WOp.stale x .duty) false = false
  | [] => rfl
  | op :: ops => by
    rw [List.foldl_cons]
    have : WOp.stale x .duty false op = false := by
      unfold WOp.stale
      cases op <;> dsimp only <;> try rfl
      split
      · split
        · rfl
        · rename_i o _ _
          cases o <;> rfl
      · rfl
    rw [this]
    exact stale_duty x ops

theorem stale_ticks (x : Nat) (p : Part) : ∀ n : Nat, (List.replicate n (WOp.track x .tick)).foldl (WOp.stale x p) false = false
  | 0 => rfl
  | n + 1 => by
    rw [List.replicate_succ, List.foldl_cons]
    have : WOp.stale x p false (.track x .tick) = false := by
      unfold WOp.stale
      dsimp only
      rw [if_pos rfl]
      cases p <;> rfl
    rw [this]
    exact stale_ticks x p n

/-- What is heard of a track whose parts are up to date. -/
theorem Track.Kept.sounds {N : Nat} {x : Nat} {w : IWorld} {t t2 : Track} {sl : Slide} (hk : ({ t with note := sl } : Track).Kept t2)
    (ehalt : sl.halt true = sl) {v : Int} (eget : sl.get = .ok v) (t2i : t2.Inv N False) (hon : w.on x = true)
    (hc1 : t2.updVolume = false ∧ t2.updNote = false ∧ t2.updDuty = false) (hup : ∀ p, t2.Ok x w p)
    (he : t.effectsOff) {A : Int} (hA : (if t.arpeggioOn then t2.arp.delta else 0) = A) (hig : t.ignores = false) (hpo : t.panningOn = true)
    {rate : Int} (hc : t.ctx = some (rate, 2)) {cnt : Nat} (hw : t.unit.waveform.phases = some cnt) (hwt : t.waveform ≠ 16391)
    {vol pan : Int} (hvol : t.volume.get = .ok vol) (hpan : t.panning.get = .ok pan) {V P : Int}
    (hV : V = max 0 (min 32767 (vol * w.value x 0 / 32768)) * t.masterVolume / 32768) (hP : P = max (-32767) (min 32767 (pan + w.value x 1))) :
    t2.getAttr (.unit .period) = .ok (some (exactPeriod (v + A + w.value x 2 + t.pitch) rate / cnt)) ∧
    t2.getAttr (.unit (.volumeOf 0)) = .ok (some (leftOf V P)) ∧ t2.getAttr (.unit (.volumeOf 1)) = .ok (some (rightOf V P)) ∧
    t2.unit.dutyCycle = max 1 (min 15 (if w.value x 3 ≠ 0 then w.value x 3 else t.dutyCycle)) := by
  obtain ⟨c1, c2, c3⟩ := hc1
  obtain ⟨he1, he2, he3, he4, he5⟩ := he
  obtain ⟨⟨aa, dd, sb⟩, kn, kw⟩ := id hk
  have kn : t2.note = sl := kn ehalt
  have kw : t2.unit.waveform = t.unit.waveform := kw
  have kvol := hup .vol (by rw [sb.ctx]; show t.ctx ≠ none; rw [hc]; simp) c1 (sb.volumeSlide.trans he1) (sb.panningSlide.trans he2) (sb.tremoloOn.trans he3)
  have knote := hup .note c2 (sb.portamento.trans he4) (sb.vibratoOn.trans he5)
  have kduty := hup .duty c3
  refine ⟨?_, ?_⟩
  · have := Track.NoteNow.period knote t2i (sb.vibratoOn.trans he5) (sb.ctx.trans hc) (by rw [kw]; exact hw) (fun q => hwt (sb.waveform.symm.trans q)) (by rw [kn]; exact eget)
    rw [this]
    unfold Track.pitchSet
    rw [hon, if_pos rfl, sb.arpeggioOn, sb.pitch]
    dsimp only
    rw [hA]
  · obtain ⟨l, rr⟩ := Track.VolNow.sides (V := V) (P := P) kvol hon (sb.ignores.trans hig) (sb.tremoloOn.trans he3) (sb.panningOn.trans hpo)
      (by rw [sb.volume]; exact hvol) (by rw [sb.panning]; exact hpan) t2i.masterVolume.1 t2i.masterVolume.2 (by rw [sb.masterVolume]; exact hV) hP
    refine ⟨?_, ?_, ?_⟩
    · show Except.ok (some (t2.unit.volume 0)) = _
      rw [l]
    · show Except.ok (some (t2.unit.volume 1)) = _
      rw [rr]
    · have kd : t2.unit.dutyCycle = _ := kduty
      rw [kd, sb.dutyCycle, hon]
      dsimp only
      simp only [true_and]
      generalize (if w.value x 3 ≠ 0 then w.value x 3 else t.dutyCycle) = y
      unfold cclamp
      split
      · omega
      · split <;> omega

/-- A note or a release and some ticks leave nothing out of date that was not before. -/
theorem TWorld.Inv.played_ok {m N fuel x n : Nat} {v : Int} {s0 s : TWorld} {p : Part} {b : Bool} {t t2 : Track} (hinv : s0.Inv m N)
    (hf : m + (n + 1) ≤ fuel) (hv : Plain v) (ht : s0.tracks x = some t) (h0 : b = false → t.Ok x s0.iw p) (hp : b = false ∨ p = .note)
    (e : s0.run fuel (notePlayed x v n) = .ok s) (ht2 : s.tracks x = some t2) : t2.Ok x s.iw p := by
  refine TWorld.run_ok (b := b) (notePlayed x v n) hinv (by unfold notePlayed; rw [List.length_cons, List.length_replicate]; omega)
    (legal_note (N := N) (fuel := fuel) (x := x) hv n s0) (fun hb u hu => ?_) e ?_ t2 ht2
  · rw [ht] at hu; cases hu
    exact h0 hb
  · unfold notePlayed
    rw [List.foldl_cons]
    have : WOp.stale x p b (.track x (.attr .note v)) = false := by
      unfold WOp.stale
      dsimp only
      rw [if_pos rfl]
      rcases hp with hp | rfl
      · rw [hp]; cases p <;> rfl
      · rfl
    rw [this]
    exact stale_ticks x p n

/-- What a note and some ticks leave alone. -/
theorem TWorld.Inv.note_kept {m N fuel x n : Nat} {v : Int} {s0 s : TWorld} {t : Track} (hinv : s0.Inv m N)
    (ht : s0.tracks x = some t) (hs : t.curNote = -1) (hv : 0 ≤ v) (hv' : v ≤ 96 * U20)
    (he : t.effectsOff) (hrest : t.note.roundBias = 0) (hsteps : t.note.steps = 0) (hwt : t.waveform ≠ 16391)
    (e : s0.run fuel (notePlayed x v n) = .ok s) :
    ∃ sl t2, s.tracks x = some t2 ∧ sl.halt true = sl ∧ sl.get = .ok v ∧ ({ t with note := sl } : Track).Kept t2 ∧
      (n ≠ 0 → t2.updVolume = false ∧ t2.updNote = false ∧ t2.updDuty = false) ∧ sl.roundBias = 0 ∧ sl.steps = 0 := by
  have hti := hinv.tracks x t ht
  unfold notePlayed TWorld.run at e
  obtain ⟨s1, g1, e⟩ := bind_ok_iff.1 e
  unfold TWorld.exec at g1
  dsimp only at g1
  rw [ht] at g1
  obtain ⟨r0, hr0, g1⟩ := bind_ok_iff.1 g1
  cases g1
  obtain ⟨⟨ret, r⟩, hr1, f⟩ := bind_ok_iff.1 hr0
  cases f
  obtain ⟨r', hr, f⟩ := bind_ok_iff.1 hr1
  cases f
  obtain ⟨sl, hsl, -⟩ := hti.note.setValue (by decide) hv (by omega : v ≤ 100663296)
  have esl := Slide.set_zero (by omega) hsl
  have hshift := hti.note.shift
  have ehalt : sl.halt true = sl := by rw [esl]; rfl
  have eget : sl.get = .ok v := by
    unfold Slide.get
    rw [esl]
    dsimp only
    rw [hrest, hshift, show v * 2 ^ 0 + 0 = v by omega, i32_ok (by omega) (by omega), ok_bind]
    show Except.ok (v / 2 ^ 0) = _
    congr 1
    omega
  have hk1 : ({ t with note := sl.halt true } : Track).Kept r.2 := by
    rcases Track.newNote_kept hwt hv (by omega) hsl hr with h | h
    · exact h
    · exact absurd hs h
  rw [ehalt] at hk1
  obtain ⟨⟨aa, dd, sb⟩, -, -⟩ := id hk1
  obtain ⟨he1, he2, he3, he4, he5⟩ := he
  obtain ⟨t3, j1, j2, j3⟩ := world_ticks n (s := ⟨r.1, upd s0.tracks x (some r.2)⟩) (t := r.2) (upd_self _ _ _)
    ⟨sb.volumeSlide.trans he1, sb.panningSlide.trans he2, sb.tremoloOn.trans he3, sb.portamento.trans he4, sb.vibratoOn.trans he5⟩ e
  exact ⟨sl, t3, j1, ehalt, eget, hk1.trans j2, j3, by rw [esl]; exact hrest, by rw [esl]⟩

/-- The same for a release. -/
theorem TWorld.release_kept {fuel x n : Nat} {s0 s : TWorld} {t : Track} (ht : s0.tracks x = some t) (hon : s0.iw.on x = true)
    (he : t.effectsOff) (e : s0.run fuel (notePlayed x (-1) n) = .ok s) :
    ∃ t2, s.tracks x = some t2 ∧ t.Kept t2 ∧ (n ≠ 0 → t2.updVolume = false ∧ t2.updNote = false ∧ t2.updDuty = false) := by
  unfold notePlayed TWorld.run at e
  obtain ⟨s1, g1, e⟩ := bind_ok_iff.1 e
  unfold TWorld.exec at g1
  dsimp only at g1
  rw [ht] at g1
  obtain ⟨r0, hr0, g1⟩ := bind_ok_iff.1 g1
  cases g1
  obtain ⟨⟨ret, r⟩, hr1, f⟩ := bind_ok_iff.1 hr0
  cases f
  obtain ⟨r', hr, f⟩ := bind_ok_iff.1 hr1
  cases f
  have hk1 := Track.release_kept hon hr
  obtain ⟨⟨aa, dd, sb⟩, -, -⟩ := id hk1
  obtain ⟨he1, he2, he3, he4, he5⟩ := he
  obtain ⟨t3, j1, j2, j3⟩ := world_ticks n (s := ⟨r.1, upd s0.tracks x (some r.2)⟩) (t := r.2) (upd_self _ _ _)
    ⟨sb.volumeSlide.trans he1, sb.panningSlide.trans he2, sb.tremoloOn.trans he3, sb.portamento.trans he4, sb.vibratoOn.trans he5⟩ e
  exact ⟨t3, j1, hk1.trans j2, j3⟩

/-- A held note sounds with what its instrument and its arpeggio show. -/
theorem TWorld.held_sounds_arp {N fuel : Nat} {ops : List WOp} {s0 s : TWorld} {x i d n : Nat} {t t2 : Track} {v : Int}
    (hl : ({} : TWorld).LegalRun N fuel ops) (hf : ops.length + (n + 1) ≤ fuel) (h0 : ({} : TWorld).run fuel ops = .ok s0)
    (ht : s0.tracks x = some t) (hs : t.curNote = -1) (hx : s0.iw.links.owner x = some i) (hdv : t.instrDiv.divider = d)
    (hv : 0 ≤ v) (hv' : v ≤ 96 * U20) (hn : 1 ≤ n)
    (he : t.effectsOff) {A : Int} (hA : (if t.arpeggioOn then t2.arp.delta else 0) = A) (hrest : t.note.roundBias = 0) (hsteps : t.note.steps = 0)
    (hst : stale x .vol ops = false) (hig : t.ignores = false)
    {rate : Int} (hc : t.ctx = some (rate, 2)) {cnt : Nat} (hw : t.unit.waveform.phases = some cnt) (hwt : t.waveform ≠ 16391)
    {vol pan : Int} (hvol : t.volume.get = .ok vol) (hpan : t.panning.get = .ok pan)
    (e : s0.run fuel (notePlayed x v n) = .ok s) (k3 : s.tracks x = some t2) {V P : Int}
    (hV : V = max 0 (min 32767 (vol * s.iw.value x 0 / 32768)) * t.masterVolume / 32768) (hP : P = max (-32767) (min 32767 (pan + s.iw.value x 1))) :
        t2.getAttr (.unit .period) = .ok (some (exactPeriod (v + A + s.iw.value x 2 + t.pitch) rate / cnt)) ∧
        t2.getAttr (.unit (.volumeOf 0)) = .ok (some (leftOf V P)) ∧ t2.getAttr (.unit (.volumeOf 1)) = .ok (some (rightOf V P)) ∧
        t2.unit.dutyCycle = max 1 (min 15 (if s.iw.value x 3 ≠ 0 then s.iw.value x 3 else t.dutyCycle)) := by
  have hinv := ((TWorld.Inv.init N).run ops (by omega) hl)
  rw [h0] at hinv
  have hinv : s0.Inv (0 + ops.length) N := hinv
  have hpv : Plain v := ⟨⟨by omega, by omega⟩, by omega⟩
  have hlen : (notePlayed x v n).length = n + 1 := by unfold notePlayed; rw [List.length_cons, List.length_replicate]
  have hend := hinv.run (fuel := fuel) (notePlayed x v n) (by omega) (legal_note hpv n s0)
  rw [e] at hend
  have hend : s.Inv _ N := hend
  obtain ⟨w1, t2', A, k1, k2, k3', k4, k5, k6, k7⟩ := note_played hinv ht hs hx hdv hv e
  have hon : s.iw.on x = true := by unfold IWorld.on; rw [k4, hx]; rfl
  -- what the track keeps
  obtain ⟨sl, t3, j1, ehalt, eget, hk, j3, -⟩ := hinv.note_kept ht hs hv hv' he hrest hsteps hwt e
  rw [k3] at j1
  cases j1
  -- the parts are up to date
  have hok0 : ∀ p, stale x p ops = false → t.Ok x s0.iw p := fun p hp =>
    TWorld.run_ok ops (TWorld.Inv.init N) (by omega) hl (fun _ t h => by cases h) h0 hp t ht
  have hup : ∀ p, t2.Ok x s.iw p := fun p => hinv.played_ok (by omega) hpv ht (hok0 p)
    (by cases p; exacts [.inl hst, .inr rfl, .inl (stale_duty x ops)]) e k3
  have hpo : t.panningOn = true := (TWorld.run_sided h0 x t ht).2 ⟨_, hc⟩
  exact hk.sounds ehalt eget (hend.tracks x t2 k3) hon (j3 (by omega)) hup he hA hig hpo hc hw hwt hvol hpan hV hP

/-- A held note sounds with what its instrument shows. -/
theorem TWorld.held_sounds {N fuel : Nat} {ops : List WOp} {s0 s : TWorld} {x i d n : Nat} {t t2 : Track} {v : Int}
    (hl : ({} : TWorld).LegalRun N fuel ops) (hf : ops.length + (n + 1) ≤ fuel) (h0 : ({} : TWorld).run fuel ops = .ok s0)
    (ht : s0.tracks x = some t) (hs : t.curNote = -1) (hx : s0.iw.links.owner x = some i) (hdv : t.instrDiv.divider = d)
    (hv : 0 ≤ v) (hv' : v ≤ 96 * U20) (hn : 1 ≤ n)
    (he : t.effectsOff) (har : t.arpeggioOn = false) (hrest : t.note.roundBias = 0) (hsteps : t.note.steps = 0)
    (hst : stale x .vol ops = false) (hig : t.ignores = false)
    {rate : Int} (hc : t.ctx = some (rate, 2)) {cnt : Nat} (hw : t.unit.waveform.phases = some cnt) (hwt : t.waveform ≠ 16391)
    {vol pan : Int} (hvol : t.volume.get = .ok vol) (hpan : t.panning.get = .ok pan)
    (e : s0.run fuel (notePlayed x v n) = .ok s) (k3 : s.tracks x = some t2) {V P : Int}
    (hV : V = max 0 (min 32767 (vol * s.iw.value x 0 / 32768)) * t.masterVolume / 32768) (hP : P = max (-32767) (min 32767 (pan + s.iw.value x 1))) :
        t2.getAttr (.unit .period) = .ok (some (exactPeriod (v + s.iw.value x 2 + t.pitch) rate / cnt)) ∧
        t2.getAttr (.unit (.volumeOf 0)) = .ok (some (leftOf V P)) ∧ t2.getAttr (.unit (.volumeOf 1)) = .ok (some (rightOf V P)) ∧
        t2.unit.dutyCycle = max 1 (min 15 (if s.iw.value x 3 ≠ 0 then s.iw.value x 3 else t.dutyCycle)) := by
  have := TWorld.held_sounds_arp hl hf h0 ht hs hx hdv hv hv' hn he (A := 0) (by rw [har]; rfl) hrest hsteps hst hig hc hw hwt hvol hpan e k3 hV hP
  rwa [Int.add_zero] at this

/-- A released note sounds with what its instrument and its arpeggio show. -/
theorem TWorld.released_sounds_arp {N fuel : Nat} {ops : List WOp} {s0 s1 s : TWorld} {x i d n m : Nat} {t t2 : Track} {v : Int}
    (hl : ({} : TWorld).LegalRun N fuel ops) (hf : ops.length + (n + 1) + (m + 1) ≤ fuel) (h0 : ({} : TWorld).run fuel ops = .ok s0)
    (ht : s0.tracks x = some t) (hs : t.curNote = -1) (hx : s0.iw.links.owner x = some i) (hdv : t.instrDiv.divider = d)
    (hv : 0 ≤ v) (hv' : v ≤ 96 * U20) (hm : 1 ≤ m)
    (he : t.effectsOff) {A : Int} (hA : (if t.arpeggioOn then t2.arp.delta else 0) = A) (hrest : t.note.roundBias = 0) (hsteps : t.note.steps = 0)
    (hst : stale x .vol ops = false) (hig : t.ignores = false)
    {rate : Int} (hc : t.ctx = some (rate, 2)) {cnt : Nat} (hw : t.unit.waveform.phases = some cnt) (hwt : t.waveform ≠ 16391)
    {vol pan : Int} (hvol : t.volume.get = .ok vol) (hpan : t.panning.get = .ok pan)
    (e : s0.run fuel (notePlayed x v n) = .ok s1) (e' : s1.run fuel (notePlayed x (-1) m) = .ok s) (a2' : s.tracks x = some t2)
    (hon : s.iw.on x = true) {V P : Int}
    (hV : V = max 0 (min 32767 (vol * s.iw.value x 0 / 32768)) * t.masterVolume / 32768) (hP : P = max (-32767) (min 32767 (pan + s.iw.value x 1))) :
        t2.getAttr (.unit .period) = .ok (some (exactPeriod (v + A + s.iw.value x 2 + t.pitch) rate / cnt)) ∧
        t2.getAttr (.unit (.volumeOf 0)) = .ok (some (leftOf V P)) ∧ t2.getAttr (.unit (.volumeOf 1)) = .ok (some (rightOf V P)) ∧
        t2.unit.dutyCycle = max 1 (min 15 (if s.iw.value x 3 ≠ 0 then s.iw.value x 3 else t.dutyCycle)) := by
  have hinv := ((TWorld.Inv.init N).run ops (by omega) hl)
  rw [h0] at hinv
  have hinv : s0.Inv (0 + ops.length) N := hinv
  have hpv : Plain v := ⟨⟨by omega, by omega⟩, by omega⟩
  have hlen : ∀ (v : Int) (n : Nat), (notePlayed x v n).length = n + 1 := fun v n => by unfold notePlayed; rw [List.length_cons, List.length_replicate]
  have hin1 := hinv.run (fuel := fuel) (notePlayed x v n) (by rw [hlen]; omega) (legal_note hpv n s0)
  rw [e] at hin1
  have hin1 : s1.Inv (0 + ops.length + (notePlayed x v n).length) N := hin1
  rw [hlen] at hin1
  have hpm : Plain (-1) := Plain.of (by omega) (by omega)
  have hend := hin1.run (fuel := fuel) (notePlayed x (-1) m) (by rw [hlen]; omega) (legal_note hpm m s1)
  rw [e'] at hend
  have hend : s.Inv _ N := hend
  obtain ⟨w1, t1, A', d1, d2, a1', d4, d5, d6, d7⟩ := note_played hinv ht hs hx hdv hv e
  have hx1 : s1.iw.links.owner x = some i := by rw [d4]; exact hx
  obtain ⟨sl, t1', j1, ehalt, eget, hk, -⟩ := hinv.note_kept ht hs hv hv' he hrest hsteps hwt e
  rw [a1'] at j1
  cases j1
  obtain ⟨⟨aa, dd, sb⟩, -, -⟩ := id hk
  obtain ⟨he1, he2, he3, he4, he5⟩ := id he
  obtain ⟨t2', j1, hk2, j3⟩ := TWorld.release_kept a1' (by unfold IWorld.on; rw [hx1]; rfl)
    ⟨sb.volumeSlide.trans he1, sb.panningSlide.trans he2, sb.tremoloOn.trans he3, sb.portamento.trans he4, sb.vibratoOn.trans he5⟩ e'
  rw [a2'] at j1
  cases j1
  have hok0 : ∀ p, stale x p ops = false → t.Ok x s0.iw p := fun p hp =>
    TWorld.run_ok ops (TWorld.Inv.init N) (by omega) hl (fun _ t h => by cases h) h0 hp t ht
  have hup1 : ∀ p, t1.Ok x s1.iw p := fun p => hinv.played_ok (by omega) hpv ht (hok0 p)
    (by cases p; exacts [.inl hst, .inr rfl, .inl (stale_duty x ops)]) e a1'
  have hup : ∀ p, t2.Ok x s.iw p := fun p => hin1.played_ok (b := false) (by omega) hpm a1' (fun _ => hup1 p) (.inl rfl) e' a2'
  have hpo : t.panningOn = true := (TWorld.run_sided h0 x t ht).2 ⟨_, hc⟩
  exact (hk.trans hk2).sounds ehalt eget (hend.tracks x t2 a2') hon (j3 (by omega)) hup he hA hig hpo hc hw hwt hvol hpan hV hP

/-- A released note sounds with what its instrument shows. -/
theorem TWorld.released_sounds {N fuel : Nat} {ops : List WOp} {s0 s1 s : TWorld} {x i d n m : Nat} {t t2 : Track} {v : Int}
    (hl : ({} : TWorld).LegalRun N fuel ops) (hf : ops.length + (n + 1) + (m + 1) ≤ fuel) (h0 : ({} : TWorld).run fuel ops = .ok s0)
    (ht : s0.tracks x = some t) (hs : t.curNote = -1) (hx : s0.iw.links.owner x = some i) (hdv : t.instrDiv.divider = d)
    (hv : 0 ≤ v) (hv' : v ≤ 96 * U20) (hm : 1 ≤ m)
    (he : t.effectsOff) (har : t.arpeggioOn = false) (hrest : t.note.roundBias = 0) (hsteps : t.note.steps = 0)
    (hst : stale x .vol ops = false) (hig : t.ignores = false)
    {rate : Int} (hc : t.ctx = some (rate, 2)) {cnt : Nat} (hw : t.unit.waveform.phases = some cnt) (hwt : t.waveform ≠ 16391)
    {vol pan : Int} (hvol : t.volume.get = .ok vol) (hpan : t.panning.get = .ok pan)
    (e : s0.run fuel (notePlayed x v n) = .ok s1) (e' : s1.run fuel (notePlayed x (-1) m) = .ok s) (a2' : s.tracks x = some t2)
    (hon : s.iw.on x = true) {V P : Int}
    (hV : V = max 0 (min 32767 (vol * s.iw.value x 0 / 32768)) * t.masterVolume / 32768) (hP : P = max (-32767) (min 32767 (pan + s.iw.value x 1))) :
        t2.getAttr (.unit .period) = .ok (some (exactPeriod (v + s.iw.value x 2 + t.pitch) rate / cnt)) ∧
        t2.getAttr (.unit (.volumeOf 0)) = .ok (some (leftOf V P)) ∧ t2.getAttr (.unit (.volumeOf 1)) = .ok (some (rightOf V P)) ∧
        t2.unit.dutyCycle = max 1 (min 15 (if s.iw.value x 3 ≠ 0 then s.iw.value x 3 else t.dutyCycle)) := by
  have := TWorld.released_sounds_arp hl hf h0 ht hs hx hdv hv hv' hm he (A := 0) (by rw [har]; rfl) hrest hsteps hst hig hc hw hwt hvol hpan e e' a2' hon hV hP
  rwa [Int.add_zero] at this

/-- What the parts of an instrument show while a note is held. -/
theorem TWorld.held_gives {N fuel : Nat} {ops : List WOp} {s0 s : TWorld} {x i d n : Nat} {t t2 : Track} {v : Int}
    (hl : ({} : TWorld).LegalRun N fuel ops) (hf : ops.length + (n + 1) ≤ fuel) (h0 : ({} : TWorld).run fuel ops = .ok s0)
    (ht : s0.tracks x = some t) (hs : t.curNote = -1) (hx : s0.iw.links.owner x = some i) (hdv : t.instrDiv.divider = d)
    (hv : 0 ≤ v) (hv' : v ≤ 96 * U20) (e : s0.run fuel (notePlayed x v n) = .ok s) (k3 : s.tracks x = some t2) (hmute : t2.unit.mute = 0)
    {k : Nat} {a : Int} (hk : k < 4) (hg : s0.iw.Gives i k (firings d 0 n) a) : s.iw.value x k = a := by
  have hinv := ((TWorld.Inv.init N).run ops (by omega) hl)
  rw [h0] at hinv
  have hinv : s0.Inv (0 + ops.length) N := hinv
  obtain ⟨w1, t2', A, k1, k2, k3', k4, k5, k6, k7⟩ := note_played hinv ht hs hx hdv hv e
  rw [k3] at k3'; cases k3'
  obtain ⟨s', t3, m1, m2, m3, -⟩ := C98_note N fuel ops s0 x i d n t v hl hf h0 ht hs hx hdv hv (by omega)
  rw [e] at m1
  cases m1
  rw [k3] at m2
  cases m2
  have hph : (s.iw.states x).phase = .attack := by
    rcases k7 with k | ⟨k, -⟩
    · omega
    · exact k
  obtain ⟨-, sinv, slinks, sins, -⟩ := same_log k1 hx k2 k5 hph
  rcases hg with ⟨vals, so, sl, q1, q2, q3, rfl⟩ | ⟨q1, q2, rfl⟩
  · exact m3 hmute k vals so sl q1 q2 q3
  · have hat := (sinv.att x i (by rw [slinks]; exact hx)).has
    exact (hat.val k (by omega)).1 (by rw [hat.pt k hk, sins]; exact q1)

/-- What they show after the release. -/
theorem TWorld.released_gives {N fuel : Nat} {ops : List WOp} {s0 s1 s : TWorld} {x i d n m : Nat} {t t2 : Track} {v : Int}
    (hl : ({} : TWorld).LegalRun N fuel ops) (hf : ops.length + (n + 1) + (m + 1) ≤ fuel) (h0 : ({} : TWorld).run fuel ops = .ok s0)
    (ht : s0.tracks x = some t) (hs : t.curNote = -1) (hx : s0.iw.links.owner x = some i) (hdv : t.instrDiv.divider = d)
    (hv : 0 ≤ v) (hv' : v ≤ 96 * U20) (e : s0.run fuel (notePlayed x v n) = .ok s1) (e' : s1.run fuel (notePlayed x (-1) m) = .ok s)
    (a2' : s.tracks x = some t2) (hmute : t2.unit.mute = 0) :
    s.iw.on x = true ∧ ∀ k a, k < 4 → s0.iw.GivesReleased i k (firings d 0 n) (firings d 0 (n + m) - firings d 0 n) a → s.iw.value x k = a := by
  have hinv := ((TWorld.Inv.init N).run ops (by omega) hl)
  rw [h0] at hinv
  have hinv : s0.Inv (0 + ops.length) N := hinv
  obtain ⟨s1', s', t1, t2', e1, e1', a1', a2, m3, -⟩ := C98_note_release N fuel ops s0 x i d n m t v hl hf h0 ht hs hx hdv hv (by omega)
  rw [e] at e1; cases e1
  rw [e'] at e1'; cases e1'
  rw [a2'] at a2; cases a2
  obtain ⟨t1', t2', b1, b2, b3, b4⟩ := note_released hinv ht hs hx hdv hv e e'
  rw [a1'] at b1; cases b1
  rw [a2'] at b2; cases b2
  obtain ⟨w1, t1', A', d1, d2, d3, d4, d5, d6, d7⟩ := note_played hinv ht hs hx hdv hv e
  rw [a1'] at d3; cases d3
  have hm1 : t1.unit.mute = 0 := by
    rcases d7 with ⟨-, q⟩ | ⟨-, q, -⟩
    · have := b3 q; omega
    · exact q
  obtain ⟨w3, A, c1, c2, c3, c4, c5, c6, c7, c8, c9⟩ := b4 hm1
  have hx1 : s1.iw.links.owner x = some i := by rw [c3]; exact hx
  obtain ⟨g1, g2, g3⟩ : (s.iw.states x).phase = .release ∧ (w3.states x).phase = .release ∧ w3.log = s1.iw.log := by
    rcases c9 with ⟨q, -⟩ | ⟨-, q⟩
    · omega
    · exact q
  obtain ⟨i3, x3, -⟩ := released_inv c2 hx1 c6 c7
  have hlog := release_log c2 hx1 c6 c7 c8 g1 g2
  obtain ⟨f1, f2, f3, -⟩ := ticks_slots (dividedTicks d n m) w3 A i3 x3 (by rw [g2]; simp) s.iw c8 hlog
  have sinv : s.iw.Inv False A := (ticks_events (dividedTicks d n m) w3 A i3 x3 (by rw [g2]; simp) s.iw c8).1
  have hw3 : w3.instrs = s1.iw.instrs := by
    have c7 := c7
    unfold IWorld.setPhase at c7
    rw [hx1] at c7
    obtain ⟨q, -, c7⟩ := bind_ok_iff.1 c7
    rw [← Except.ok.inj c7]
  refine ⟨by unfold IWorld.on; rw [f3, x3]; rfl, ?_⟩
  rintro k a hk (⟨vals, so, sl, q1, q2, q3, rfl⟩ | ⟨q1, q2, rfl⟩)
  · exact m3 hmute k vals so sl q1 q2 q3
  · have hat := (sinv.att x i (by rw [f3]; exact x3)).has
    exact (hat.val k (by omega)).1 (by rw [hat.pt k hk, f1, hw3, c4]; exact q1)

/-- C108: after any calls, a note is played on a silent track with an instrument of value sequences, and `n` ticks go by.  As long as the
instrument has not ended the note, the track sounds with the period of the note moved by the pitch sequence, the volume scaled by the volume sequence and placed
by the panning sequence, and the duty cycle of its sequence, each as far as the divider has fired.  The track has no other effects; `hrest`: no
rest of an earlier portamento is left, see `C93_refuted`. -/
theorem C108_instrument {N fuel : Nat} {ops : List WOp} {s0 : TWorld} {x i d n : Nat} {t : Track} {v : Int}
    (hl : ({} : TWorld).LegalRun N fuel ops) (hf : ops.length + (n + 1) ≤ fuel) (h0 : ({} : TWorld).run fuel ops = .ok s0)
    (ht : s0.tracks x = some t) (hs : t.curNote = -1) (hx : s0.iw.links.owner x = some i) (hdv : t.instrDiv.divider = d)
    (hv : 0 ≤ v) (hv' : v ≤ 96 * U20) (hn : 1 ≤ n)
    (he : t.effectsOff) (har : t.arpeggioOn = false) (hrest : t.note.roundBias = 0) (hsteps : t.note.steps = 0)
    (hst : stale x .vol ops = false) (hig : t.ignores = false)
    {rate : Int} (hc : t.ctx = some (rate, 2)) {cnt : Nat} (hw : t.unit.waveform.phases = some cnt) (hwt : t.waveform ≠ 16391)
    {vol pan : Int} (hvol : t.volume.get = .ok vol) (hpan : t.panning.get = .ok pan)
    {a0 a1 a2 : Int} (h00 : s0.iw.Gives i 0 (firings d 0 n) a0) (h01 : s0.iw.Gives i 1 (firings d 0 n) a1)
    (h02 : s0.iw.Gives i 2 (firings d 0 n) a2) :
    ∃ s t' V P, s0.run fuel (notePlayed x v n) = .ok s ∧ s.tracks x = some t' ∧
      V = max 0 (min 32767 (vol * a0 / 32768)) * t.masterVolume / 32768 ∧ P = max (-32767) (min 32767 (pan + a1)) ∧
      (t'.unit.mute = 0 →
        t'.getAttr (.unit .period) = .ok (some (exactPeriod (v + a2 + t.pitch) rate / cnt)) ∧
        t'.getAttr (.unit (.volumeOf 0)) = .ok (some (leftOf V P)) ∧ t'.getAttr (.unit (.volumeOf 1)) = .ok (some (rightOf V P)) ∧
        ∀ a3, s0.iw.Gives i 3 (firings d 0 n) a3 → t'.unit.dutyCycle = max 1 (min 15 (if a3 ≠ 0 then a3 else t.dutyCycle))) ∧
      ((∃ k new, new.Short ∧ s0.iw.Plays i k new ∧ new.Sustained) → t'.unit.mute = 0) := by
  have hinv := ((TWorld.Inv.init N).run ops (by omega) hl)
  rw [h0] at hinv
  have hinv : s0.Inv (0 + ops.length) N := hinv
  have hti := hinv.tracks x t ht
  have hpv : Plain v := ⟨⟨by omega, by omega⟩, by omega⟩
  have hlen : (notePlayed x v n).length = n + 1 := by unfold notePlayed; rw [List.length_cons, List.length_replicate]
  have hinv' := hinv.run (fuel := fuel) (notePlayed x v n) (by omega) (legal_note hpv n s0)
  obtain ⟨s, e, hend⟩ := hinv'.get trivial
  obtain ⟨w1, t2, A, k1, k2, k3, k4, k5, k6, k7⟩ := note_played hinv ht hs hx hdv hv e
  obtain ⟨s', t3, m1, m2, m3, m4⟩ := C98_note N fuel ops s0 x i d n t v hl hf h0 ht hs hx hdv hv (by omega)
  rw [e] at m1
  cases m1
  rw [k3] at m2
  cases m2
  have hon : s.iw.on x = true := by unfold IWorld.on; rw [k4, hx]; rfl
  refine ⟨s, t2, _, _, e, k3, rfl, rfl, fun hmute => ?_, fun h => (m4 h).1⟩
  have hgive : ∀ k a, k < 4 → s0.iw.Gives i k (firings d 0 n) a → s.iw.value x k = a := fun k a hk =>
    TWorld.held_gives hl hf h0 ht hs hx hdv hv hv' e k3 hmute hk
  obtain ⟨q1, q2, q3, q4⟩ := TWorld.held_sounds hl hf h0 ht hs hx hdv hv hv' hn he har hrest hsteps hst hig hc hw hwt hvol hpan e k3 rfl rfl
  rw [hgive 2 a2 (by omega) h02] at q1
  rw [hgive 0 a0 (by omega) h00, hgive 1 a1 (by omega) h01] at q2 q3
  exact ⟨q1, q2, q3, fun a3 h03 => by rw [← hgive 3 a3 (by omega) h03]; exact q4⟩

/-- C108: so it is after the release of the note, `m` ticks later, as long as the instrument has not ended it. -/
theorem C108_release {N fuel : Nat} {ops : List WOp} {s0 : TWorld} {x i d n m : Nat} {t : Track} {v : Int}
    (hl : ({} : TWorld).LegalRun N fuel ops) (hf : ops.length + (n + 1) + (m + 1) ≤ fuel) (h0 : ({} : TWorld).run fuel ops = .ok s0)
    (ht : s0.tracks x = some t) (hs : t.curNote = -1) (hx : s0.iw.links.owner x = some i) (hdv : t.instrDiv.divider = d)
    (hv : 0 ≤ v) (hv' : v ≤ 96 * U20) (hm : 1 ≤ m)
    (he : t.effectsOff) (har : t.arpeggioOn = false) (hrest : t.note.roundBias = 0) (hsteps : t.note.steps = 0)
    (hst : stale x .vol ops = false) (hig : t.ignores = false)
    {rate : Int} (hc : t.ctx = some (rate, 2)) {cnt : Nat} (hw : t.unit.waveform.phases = some cnt) (hwt : t.waveform ≠ 16391)
    {vol pan : Int} (hvol : t.volume.get = .ok vol) (hpan : t.panning.get = .ok pan)
    {f g : Nat} (hff : f = firings d 0 n) (hgg : g = firings d 0 (n + m) - firings d 0 n)
    {a0 a1 a2 : Int} (h00 : s0.iw.GivesReleased i 0 f g a0) (h01 : s0.iw.GivesReleased i 1 f g a1) (h02 : s0.iw.GivesReleased i 2 f g a2) :
    ∃ s1 s t' V P, s0.run fuel (notePlayed x v n) = .ok s1 ∧ s1.run fuel (notePlayed x (-1) m) = .ok s ∧ s.tracks x = some t' ∧
      V = max 0 (min 32767 (vol * a0 / 32768)) * t.masterVolume / 32768 ∧ P = max (-32767) (min 32767 (pan + a1)) ∧
      (t'.unit.mute = 0 →
        t'.getAttr (.unit .period) = .ok (some (exactPeriod (v + a2 + t.pitch) rate / cnt)) ∧
        t'.getAttr (.unit (.volumeOf 0)) = .ok (some (leftOf V P)) ∧ t'.getAttr (.unit (.volumeOf 1)) = .ok (some (rightOf V P)) ∧
        ∀ a3, s0.iw.GivesReleased i 3 f g a3 → t'.unit.dutyCycle = max 1 (min 15 (if a3 ≠ 0 then a3 else t.dutyCycle))) := by
  have hinv := ((TWorld.Inv.init N).run ops (by omega) hl)
  rw [h0] at hinv
  have hinv : s0.Inv (0 + ops.length) N := hinv
  have hpv : Plain v := ⟨⟨by omega, by omega⟩, by omega⟩
  have hlen : ∀ (v : Int) (n : Nat), (notePlayed x v n).length = n + 1 := fun v n => by unfold notePlayed; rw [List.length_cons, List.length_replicate]
  obtain ⟨s1, s, t1, t2, e, e', a1', a2', m3, -⟩ := C98_note_release N fuel ops s0 x i d n m t v hl hf h0 ht hs hx hdv hv (by omega)
  refine ⟨s1, s, t2, _, _, e, e', a2', rfl, rfl, fun hmute => ?_⟩
  obtain ⟨hon, hgive⟩ := TWorld.released_gives hl hf h0 ht hs hx hdv hv hv' e e' a2' hmute
  rw [← hgg, ← hff] at hgive
  obtain ⟨q1, q2, q3, q4⟩ := TWorld.released_sounds hl hf h0 ht hs hx hdv hv hv' hm he har hrest hsteps hst hig hc hw hwt hvol hpan e e' a2' hon rfl rfl
  rw [hgive 2 a2 (by omega) h02] at q1
  rw [hgive 0 a0 (by omega) h00, hgive 1 a1 (by omega) h01] at q2 q3
  exact ⟨q1, q2, q3, fun a3 h03 => by rw [← hgive 3 a3 (by omega) h03]; exact q4⟩

/-- A square wave at volume 20000, with an instrument of volume, pitch and duty cycle sequences that advances every second tick. -/
def writtenOps : List WOp :=
  [.init 0 16385, .setSequence 0 0 (.values [32767, 20000, 10000, 5000, 2000] 1 2), .setSequence 0 2 (.values [0, 1048576, 0] 3 0),
   .setSequence 0 3 (.values [2, 4, 8] 2 1), .track 0 (.attach 44100 2 0), .track 0 (.attr .volume 20000), .track 0 (.attr .masterVolume 32767),
   .track 0 (.attr .instrDivider 2), .track 0 (.instrument (some 0))]

/-- Period, volumes and duty cycle after the note 48 and some ticks. -/
example : ([1, 3, 5, 7].map fun n => do
    let s ← ({} : TWorld).run 40 (writtenOps ++ notePlayed 0 50331648 n)
    return (s.tracks 0).map fun t => (t.unit.period, t.unit.volume 0, t.unit.volume 1, t.unit.dutyCycle, t.unit.mute)) =
  ([(5512500, 19998, 19998, 2, 0), (5203800, 12206, 12206, 4, 0), (5512500, 6102, 6102, 8, 0), (5512500, 12206, 12206, 8, 0)].map fun v => (.ok (some v) : C _)) := by
  decide +kernel

theorem written_legal (fuel : Nat) : ({} : TWorld).LegalRun 2 fuel writtenOps := by
  refine TWorld.LegalRun.of_all _ _ ?_
  intro op hop s
  unfold writtenOps at hop
  simp only [List.mem_cons, List.not_mem_nil, or_false] at hop
  rcases hop with rfl | rfl | rfl | rfl | rfl | rfl | rfl | rfl | rfl
  · exact Plain.of (by decide) (by decide)
  · refine ⟨?_, ?_, ?_⟩ <;> simp [NewSeq.Short, NewSeq.Usual, NewSeq.Modest, seqLimit, InI32]
  · refine ⟨?_, ?_, ?_⟩ <;> simp [NewSeq.Short, NewSeq.Usual, NewSeq.Modest, seqLimit, InI32]
  · refine ⟨?_, ?_, ?_⟩ <;> simp [NewSeq.Short, NewSeq.Usual, NewSeq.Modest, seqLimit, InI32]
  · exact fun t _ => ⟨by decide, by decide, rfl⟩
  · exact fun t _ => ⟨Plain.of (by decide) (by decide), trivial⟩
  · exact fun t _ => ⟨Plain.of (by decide) (by decide), trivial⟩
  · exact fun t _ => ⟨Plain.of (by decide) (by decide), by show (1 : Int) ≤ 2; decide⟩
  · exact fun t _ => trivial

/-- The sequences of the instrument of track 0 and whether the track meets the conditions of the theorem. -/
def writtenView (s : TWorld) : Option (List Bool) × List (Option Sequence) × Bool :=
  ((s.tracks 0).map fun t => [decide (t.curNote = -1), decide (t.instrDiv.divider = 2), !t.volumeSlide, !t.panningSlide, !t.tremoloOn, !t.portamento,
      !t.vibratoOn, !t.arpeggioOn, decide (t.note.roundBias = 0), decide (t.note.steps = 0), !t.ignores, decide (t.ctx = some (44100, 2)),
      decide (t.unit.waveform.phases = some 16), decide (t.waveform ≠ 16391), decide (t.volume.get = .ok 20000), decide (t.panning.get = .ok 0),
      decide (t.masterVolume = 32767), decide (t.pitch = 0), decide (s.iw.links.owner 0 = some 0)],
    [0, 2, 3].map fun k => ((s.iw.instrs 0).sequences k).bind s.iw.heap, ((s.iw.instrs 0).sequences 1).isNone)

/-- The hypotheses of the theorems are met by the instrument above. -/
theorem written_start : ∃ s0 t, ({} : TWorld).run 40 writtenOps = .ok s0 ∧ s0.tracks 0 = some t ∧
    (t.curNote = -1 ∧ t.instrDiv.divider = 2 ∧ t.effectsOff ∧ t.arpeggioOn = false ∧ t.note.roundBias = 0 ∧ t.note.steps = 0 ∧ t.ignores = false ∧
      t.ctx = some (44100, 2) ∧ t.unit.waveform.phases = some 16 ∧ t.waveform ≠ 16391 ∧ t.volume.get = .ok 20000 ∧ t.panning.get = .ok 0 ∧
      t.masterVolume = 32767 ∧ t.pitch = 0) ∧ s0.iw.links.owner 0 = some 0 ∧
    s0.iw.Plays 0 0 (.values [32767, 20000, 10000, 5000, 2000] 1 2) ∧ (s0.iw.instrs 0).sequences 1 = none ∧ s0.iw.Plays 0 2 (.values [0, 1048576, 0] 3 0) ∧
    s0.iw.Plays 0 3 (.values [2, 4, 8] 2 1) := by
  have h : (({} : TWorld).run 40 writtenOps).map writtenView =
      .ok (some (List.replicate 19 true), [some (.simple ⟨[32767, 20000, 10000, 5000, 2000], 5, 1, 2⟩), some (.simple ⟨[0, 1048576, 0], 3, 3, 0⟩),
        some (.simple ⟨[2, 4, 8], 3, 2, 1⟩)], true) := by decide +kernel
  obtain ⟨s0, e⟩ := C80_never_faults_partial 2 40 writtenOps (by decide) (written_legal 40)
  rw [e] at h
  have h : writtenView s0 = _ := Except.ok.inj h
  unfold writtenView at h
  simp only [Prod.mk.injEq, List.map_cons, List.map_nil, List.cons.injEq, and_true] at h
  obtain ⟨h1, ⟨h2, h3, h4⟩, h5⟩ := h
  obtain ⟨t, ht, e3⟩ := Option.map_eq_some_iff.1 h1
  simp only [List.replicate, List.cons.injEq, and_true, decide_eq_true_eq, Bool.not_eq_true'] at e3
  obtain ⟨b1, b2, b3, b4, b5, b6, b7, b8, b9, b10, b11, b12, b13, b14, b15, b16, b17, b18, b19⟩ := e3
  refine ⟨s0, t, e, ht, ⟨b1, b2, ⟨b3, b4, b5, b6, b7⟩, b8, b9, b10, b11, b12, b13, b14, b15, b16, b17, b18⟩, b19, ?_, Option.isNone_iff_eq_none.1 h5, ?_, ?_⟩
  · obtain ⟨id, e1, e2⟩ := Option.bind_eq_some_iff.1 h2
    exact ⟨id, _, e1, e2, by decide⟩
  · obtain ⟨id, e1, e2⟩ := Option.bind_eq_some_iff.1 h3
    exact ⟨id, _, e1, e2, by decide⟩
  · obtain ⟨id, e1, e2⟩ := Option.bind_eq_some_iff.1 h4
    exact ⟨id, _, e1, e2, by decide⟩

/-- After three ticks the second values of all sequences are heard. -/
example : ∃ s0 s t', ({} : TWorld).run 40 writtenOps = .ok s0 ∧ s0.run 40 (notePlayed 0 50331648 3) = .ok s ∧ s.tracks 0 = some t' ∧
    t'.getAttr (.unit .period) = .ok (some (exactPeriod (50331648 + 1048576 + 0) 44100 / (16 : Nat))) ∧
    t'.getAttr (.unit (.volumeOf 0)) = .ok (some 12206) ∧ t'.getAttr (.unit (.volumeOf 1)) = .ok (some 12206) ∧ t'.unit.dutyCycle = 4 := by
  obtain ⟨s0, t, e, ht, ⟨b1, b2, b3, b8, b9, b10, b11, b12, b13, b14, b15, b16, b17, b18⟩, b19, p0, p1, p2, p3⟩ := written_start
  have sh0 : (NewSeq.values [32767, 20000, 10000, 5000, 2000] 1 2).Short := by simp [NewSeq.Short, InI32]
  obtain ⟨s, t', V, P, k1, k2, k3, k4, k5, k6⟩ := C108_instrument (N := 2) (n := 3) (d := 2) (v := 50331648) (written_legal 40) (by decide) e ht b1 b19 b2
    (by decide) (by decide) (by decide) b3 b8 b9 b10 (by decide) b11 b12 b13 b14 b15 b16
    (.inl ⟨_, _, _, by simp, sh0, p0, rfl⟩) (.inr ⟨p1, by decide, rfl⟩) (.inl ⟨_, _, _, by simp, by simp [NewSeq.Short, InI32], p2, rfl⟩)
  obtain ⟨m1, m2, m3, m4⟩ := k5 (k6 ⟨0, _, sh0, p0, by show sustainBegin 5 1 < 5; decide⟩)
  rw [b17] at k3
  have eV : V = 12206 := k3.trans (by decide)
  have eP : P = 0 := k4.trans (by decide)
  rw [eV, eP] at m2 m3
  rw [b18] at m1
  exact ⟨s0, s, t', e, k1, k2, m1, m2, m3, (m4 _ (.inl ⟨_, _, _, by simp, by simp [NewSeq.Short, InI32], p3, rfl⟩)).trans (by rw [if_pos (by decide)]; decide)⟩

/-- Released after these three ticks: the volumes behind the sustain range, each for two ticks; pitch and duty cycle stay. -/
example : ([1, 3, 4].map fun m => do
    let s ← ({} : TWorld).run 40 (writtenOps ++ notePlayed 0 50331648 3 ++ notePlayed 0 (-1) m)
    return (s.tracks 0).map fun t => (t.unit.period, t.unit.volume 0, t.unit.volume 1, t.unit.dutyCycle, t.unit.mute)) =
  ([(5203800, 3050, 3050, 4, 0), (5203800, 3050, 3050, 4, 0), (5203800, 1219, 1219, 4, 0)].map fun v => (.ok (some v) : C _)) := by
  decide +kernel

example : ∃ s0 s1 s t', ({} : TWorld).run 40 writtenOps = .ok s0 ∧ s0.run 40 (notePlayed 0 50331648 3) = .ok s1 ∧ s1.run 40 (notePlayed 0 (-1) 4) = .ok s ∧
    s.tracks 0 = some t' ∧ (t'.unit.mute = 0 →
      t'.getAttr (.unit .period) = .ok (some (exactPeriod (50331648 + 1048576 + 0) 44100 / (16 : Nat))) ∧
      t'.getAttr (.unit (.volumeOf 0)) = .ok (some 1219) ∧ t'.getAttr (.unit (.volumeOf 1)) = .ok (some 1219) ∧ t'.unit.dutyCycle = 4) := by
  obtain ⟨s0, t, e, ht, ⟨b1, b2, b3, b8, b9, b10, b11, b12, b13, b14, b15, b16, b17, b18⟩, b19, p0, p1, p2, p3⟩ := written_start
  have sh0 : (NewSeq.values [32767, 20000, 10000, 5000, 2000] 1 2).Short := by simp [NewSeq.Short, InI32]
  obtain ⟨s1, s, t', V, P, k1, k1', k2, k3, k4, k5⟩ := C108_release (N := 2) (n := 3) (m := 4) (d := 2) (v := 50331648) (written_legal 40) (by decide) e ht b1 b19 b2
    (by decide) (by decide) (by decide) b3 b8 b9 b10 (by decide) b11 b12 b13 b14 b15 b16 rfl rfl
    (.inl ⟨_, _, _, by simp, sh0, p0, rfl⟩) (.inr ⟨p1, by decide, rfl⟩) (.inl ⟨_, _, _, by simp, by simp [NewSeq.Short, InI32], p2, rfl⟩)
  refine ⟨s0, s1, s, t', e, k1, k1', k2, fun hm => ?_⟩
  obtain ⟨m1, m2, m3, m4⟩ := k5 hm
  rw [b17] at k3
  have eV : V = 1219 := k3.trans (by decide)
  have eP : P = 0 := k4.trans (by decide)
  rw [eV, eP] at m2 m3
  rw [b18] at m1
  exact ⟨m1, m2, m3, (m4 _ (.inl ⟨_, _, _, by simp, by simp [NewSeq.Short, InI32], p3, rfl⟩)).trans (by rw [if_pos (by decide)]; decide)⟩

end BK
