import Verif.Spec.AdsrHeard
import Verif.Props.Adsr
import Verif.Props.InstrHeard
import Verif.Props.Within
/-!
C109: the loudness of an instrument with an ADSR envelope is heard.
-/
namespace BK

theorem EnvSeq.run_last (q : EnvSeq) : ∀ (ops : List SeqOp) (st : SeqState) (op : SeqOp) {st' : SeqState} {out : List (SeqRet × Int)},
    q.run st (op :: ops) = .ok (st', out) → ∃ l r, out = l ++ [(r, st'.value)] := by
  intro ops
  induction ops with
  | nil =>
    intro st op st' out h
    obtain ⟨r, -, h⟩ := bind_ok_iff.1 h
    obtain ⟨t, h1, h⟩ := bind_ok_iff.1 h
    cases h1
    cases h
    exact ⟨[], r.1, rfl⟩
  | cons o ops ih =>
    intro st op st' out h
    obtain ⟨r, -, h⟩ := bind_ok_iff.1 h
    obtain ⟨t, h1, h⟩ := bind_ok_iff.1 h
    cases h
    obtain ⟨l, r', e⟩ := ih r.2 o h1
    exact ⟨(r.1, r.2.value) :: l, r', by rw [e]; rfl⟩

theorem env_steps (e : EnvSeq) : ∀ (ds : List Bool) (st : SeqState) {st' : SeqState} {out : List (SeqRet × Int)},
    e.run st (ticks ds.length) = .ok (st', out) → Sequence.play.steps (.env e) st ds = .ok (out.map (·.1), st') := by
  intro ds
  induction ds with
  | nil =>
    intro st st' out h
    cases h
    rfl
  | cons d ds ih =>
    intro st st' out h
    obtain ⟨r, h1, h⟩ := bind_ok_iff.1 (show (do let r ← e.step st; let t ← e.run r.2 (ticks ds.length); return (t.1, (r.1, r.2.value) :: t.2)) = _ from h)
    obtain ⟨t, h2, h⟩ := bind_ok_iff.1 h
    cases h
    show (do let r ← e.step st; let t ← Sequence.play.steps (.env e) r.2 ds; return (r.1 :: t.1, t.2)) = _
    rw [h1, ok_bind, ih r.2 h2, ok_bind]
    rfl

/-- An envelope played by an instrument runs as it would with all ticks divided. -/
theorem env_play {e : EnvSeq} {ds : List Bool} {st st' : SeqState} {p : SeqPhase} {out : List (SeqRet × Int)}
    (h : e.run st (.setPhase p :: ticks ds.length) = .ok (st', out)) : Sequence.play (.env e) st p ds = .ok (out.map (·.1), st') := by
  obtain ⟨r, h1, h⟩ := bind_ok_iff.1 (show (do let r ← e.setPhase st p; let t ← e.run r.2 (ticks ds.length); return (t.1, (r.1, r.2.value) :: t.2)) = _ from h)
  obtain ⟨t, h2, h⟩ := bind_ok_iff.1 h
  cases h
  show (do let r ← e.setPhase st p; let t ← Sequence.play.steps (.env e) r.2 ds; return (r.1 :: t.1, t.2)) = _
  rw [h1, ok_bind, env_steps e ds r.2 h2, ok_bind]
  rfl

theorem env_value {e : EnvSeq} {ds : List Bool} {st st' : SeqState} {p : SeqPhase} {rep : Nat → SeqRet} {f : Nat → Int}
    (h : ∀ n, ∃ st', e.run st (.setPhase p :: ticks n) = .ok (st', (List.range (n + 1)).map fun i => (rep i, f i)))
    {rets : List SeqRet} (hp : Sequence.play (.env e) st p ds = .ok (rets, st')) :
    rets = (List.range (ds.length + 1)).map rep ∧ st'.value = f ds.length := by
  obtain ⟨st2, h2⟩ := h ds.length
  have h3 := env_play h2
  rw [hp] at h3
  simp only [Except.ok.injEq, Prod.mk.injEq] at h3
  obtain ⟨h4, rfl⟩ := h3
  refine ⟨by rw [h4, List.map_map]; rfl, ?_⟩
  obtain ⟨l, r, hl⟩ := EnvSeq.run_last e _ _ _ h2
  rw [List.range_succ, List.map_append] at hl
  have := (List.append_inj' hl rfl).2
  simp only [List.map_cons, List.map_nil, List.cons.injEq, Prod.mk.injEq, and_true] at this
  exact this.2.symm

theorem dividedTicks_length (d c n : Nat) : (dividedTicks d c n).length = n := by
  unfold dividedTicks
  rw [List.length_map, List.length_range]

theorem adsr_plays {w : IWorld} {i : Nat} {a d r : Nat} {s : Int} (ha : a < 2147483648) (hd : d < 2147483648)
    (hs : 0 ≤ s ∧ s ≤ 32767) (hr : r < 2147483648) (h : w.Plays i 0 (.points (adsrPoints a d s r) 2 1)) :
    ∃ id, (w.instrs i).sequences 0 = some id ∧ w.heap id = some (.env (adsrSeq a d s r)) := by
  obtain ⟨id, q, h1, h2, h3⟩ := h
  refine ⟨id, h1, ?_⟩
  unfold NewSeq.create at h3
  dsimp only at h3
  rw [if_neg (by unfold adsrPoints; simp)] at h3
  have : EnvSeq.create (adsrPoints a d s r) 2 1 = .ok (some (adsrSeq a d s r)) := adsr_created (by omega) (by omega) hs (by omega)
  rw [this, ok_bind] at h3
  cases h3
  exact h2

theorem adsr_short {a d r : Nat} {s : Int} (ha : a < 2147483648) (hd : d < 2147483648) (hr : r < 2147483648) :
    (NewSeq.points (adsrPoints a d s r) 2 1).Short := by
  refine ⟨by unfold adsrPoints; simp, ⟨by omega, by omega⟩, ⟨by omega, by omega⟩, ?_⟩
  intro p hp
  simp only [adsrPoints, List.mem_cons, List.not_mem_nil, or_false] at hp
  rcases hp with rfl | rfl | rfl | rfl <;> constructor <;> dsimp only <;> omega

theorem TWorld.Inv.envSlot {m N : Nat} {s : TWorld} (h : s.Inv m N) {x i id : Nat} {e : EnvSeq} (hx : s.iw.links.owner x = some i)
    (h1 : (s.iw.instrs i).sequences 0 = some id) (h2 : s.iw.heap id = some (.env e)) : EnvInv True e ((s.iw.states x).slots 0).st := by
  obtain ⟨A, hA, -⟩ := h.good
  exact ((hA.inv.att x i hx).has.slot 0 id _ (by omega) h1 h2).env e rfl

/-- The levels that an ADSR envelope shows, whatever else the instrument has. -/
theorem adsr_core {N fuel D : Nat} {ops : List WOp} {s0 : TWorld} {x i : Nat} {t : Track} {v : Int}
    (hl : ({} : TWorld).LegalRun N fuel ops) (hfu : ops.length ≤ fuel) (h0 : ({} : TWorld).run fuel ops = .ok s0)
    (ht : s0.tracks x = some t) (hs : t.curNote = -1) (hx : s0.iw.links.owner x = some i) (hdv : t.instrDiv.divider = D)
    (hv : 0 ≤ v) (hv' : v ≤ 96 * U20)
    {a d r : Nat} {s : Int} (ha : a < 2147483648) (hd : d < 2147483648) (hs' : 0 ≤ s ∧ s ≤ 32767) (hr : r < 2147483648)
    (hA : s0.iw.Plays i 0 (.points (adsrPoints a d s r) 2 1)) :
    ∃ f, AdsrHeld a d s (s0.iw.value x 0) f ∧
      (∀ n s1, s0.run fuel (notePlayed x v n) = .ok s1 → ∃ t1, s1.tracks x = some t1 ∧ t1.unit.mute = 0 ∧ s1.iw.value x 0 = f n) ∧
      ∀ n s1, ops.length + (n + 1) ≤ fuel → s0.run fuel (notePlayed x v n) = .ok s1 → ∃ g, AdsrReleased r (f n) g ∧
        ∀ m s2, s1.run fuel (notePlayed x (-1) m) = .ok s2 → ∃ t2, s2.tracks x = some t2 ∧
          (s0.iw.OtherValues i → (t2.unit.mute = 1 ↔ r ≤ m ∧ ∀ k vals so sl, 0 < k → vals ≠ [] → (NewSeq.values vals so sl).Short →
            s0.iw.Plays i k (.values vals so sl) → releasedOver vals so sl (firings D 0 (n + m) - firings D 0 n))) ∧
          (m < r → t2.unit.mute = 0) ∧ (t2.unit.mute = 0 → s2.iw.value x 0 = g m) := by
  have hinv := ((TWorld.Inv.init N).run ops (by omega) hl)
  rw [h0] at hinv
  have hinv : s0.Inv (0 + ops.length) N := hinv
  have hpv : Plain v := ⟨⟨by omega, by omega⟩, by omega⟩
  have hlen : ∀ (v : Int) (n : Nat), (notePlayed x v n).length = n + 1 := fun v n => by unfold notePlayed; rw [List.length_cons, List.length_replicate]
  obtain ⟨id, e5, e6⟩ := adsr_plays ha hd hs' hr hA
  have hq0 := hinv.envSlot hx e5 e6
  have h00 : 0 ≤ s0.iw.value x 0 ∧ s0.iw.value x 0 ≤ 32767 := by
    refine C110_within hl hfu h0 hx (by omega) hA (by omega) (by omega) ?_
    intro p hp
    simp only [adsrPoints, List.mem_cons, List.not_mem_nil, or_false] at hp
    rcases hp with rfl | rfl | rfl | rfl <;> dsimp only <;> omega
  obtain ⟨f, rep, c1, c2, c3, c4, c5, c6, c7, c8, c9⟩ := adsr_attack a d r s ha hd hs' hr _ hq0 h00.2
  have hab : ∀ j, a ≤ j → s ≤ f j := fun j hj => by
    by_cases h : j < a + d
    · have := (c6 (j - a) (by omega)).1
      rwa [show a + (j - a) = j by omega] at this
    · rw [c7 j (by omega)]
  have hfall : ∀ j, a ≤ j → j + 1 < a + d → f (j + 1) ≤ f j := fun j hj h => by
    have := (c6 (j - a) (by omega)).2 (by omega)
    rwa [show a + (j - a) = j by omega] at this
  have hmost : ∀ j, f j ≤ 32767 := by
    intro j
    by_cases h : j < a
    · exact (c4 j h).1
    · by_cases h' : j < a + d
      · obtain ⟨k, rfl⟩ : ∃ k, j = a + k := ⟨j - a, by omega⟩
        clear h
        induction k with
        | zero => rw [Nat.add_zero, c5 (by omega)]
        | succ k ih =>
          have := ih (by omega)
          have := hfall (a + k) (by omega) (by omega)
          show f (a + k + 1) ≤ _
          omega
      · rw [c7 j (by omega)]; omega
  have hzero : ∀ j, 0 ≤ f j := by
    intro j
    by_cases h : j < a
    · induction j with
      | zero => rw [c3 (by omega)]; exact h00.1
      | succ j ih =>
        have := ih (by omega)
        have := (c4 j (by omega)).2 h
        omega
    · have := hab j (by omega)
      omega
  -- what the envelope shows while the note is held
  have hheld : ∀ n s1, s0.run fuel (notePlayed x v n) = .ok s1 → ∃ t1, s1.tracks x = some t1 ∧ t1.unit.mute = 0 ∧
      (s1.iw.states x).phase = .attack ∧ s1.iw.value x 0 = f n ∧ s1.iw.links = s0.iw.links ∧ s1.iw.instrs = s0.iw.instrs ∧ s1.iw.heap = s0.iw.heap := by
    intro n s1 e
    obtain ⟨w1, t1, A, k1, k2, k3, k4, k5, k6, k7⟩ := note_played hinv ht hs hx hdv hv e
    obtain ⟨id', q', p1, p2, hh⟩ := Plays.holds hA (adsr_short ha hd hr) (by show sustainBegin 4 2 < 4; decide)
    have hk := held_kept k1 hx k2 k5 p1 p2 hh
    rcases k7 with ⟨k7, -⟩ | ⟨k7, k8, -⟩
    · rw [hk.2] at k7
      cases k7
    obtain ⟨hlog, sinv, slinks, sins, sheap⟩ := same_log k1 hx k2 k5 k7
    obtain ⟨st, rets, q1, q2⟩ := attack_play k1 hx k2 k5 hlog e5 e6
    rw [if_neg (by decide)] at q1
    cases q1
    have := (env_value c1 q2).2
    rw [dividedTicks_length] at this
    exact ⟨t1, k3, k8, k7, this, slinks, sins, sheap⟩
  refine ⟨f, ⟨c3, fun j h => (c4 j (by omega)).2 h, hmost, c5, hfall, hab, c7, c8, c9⟩, fun n s1 e => ?_, fun n s1 hf e => ?_⟩
  · obtain ⟨t1, k1, k2, -, k4, -⟩ := hheld n s1 e
    exact ⟨t1, k1, k2, k4⟩
  · have hend := hinv.run (fuel := fuel) (notePlayed x v n) (by rw [hlen]; omega) (legal_note hpv n s0)
    rw [e] at hend
    have hend : s1.Inv _ N := hend
    obtain ⟨t1, k1, k2, k3, k4, k5, k6, k7⟩ := hheld n s1 e
    have hx1 : s1.iw.links.owner x = some i := by rw [k5]; exact hx
    have hq1 := hend.envSlot hx1 (by rw [k6]; exact e5) (by rw [k7]; exact e6)
    obtain ⟨g, rep', b1, b2, b3, b4, b5, b6, b7⟩ := adsr_release a d r s ha hd hs' hr _ hq1 (by
      show 0 ≤ s1.iw.value x 0
      rw [k4]; exact hzero n)
    have b3 : 0 < r → g 0 = s1.iw.value x 0 := b3
    have b7 : r ≤ 32768 → ∀ j, j < r → NearLine r (s1.iw.value x 0) 0 j (g j) := b7
    rw [k4] at b3 b7
    refine ⟨g, ⟨b3, fun j h => (b4 j (by omega)).2 h, fun j => ?_, b5, b7⟩, fun m s2 e' => ?_⟩
    · by_cases h : j < r
      · exact (b4 j h).1
      · rw [b5 j (by omega)]
    obtain ⟨t1', t2, d1, d2, d3, d4⟩ := note_released hinv ht hs hx hdv hv e e'
    rw [k1] at d1; cases d1
    obtain ⟨w3, A, c1', c2', c3', c4', c5', c6', c7', c8', c9'⟩ := d4 k2
    -- the end
    have hplay' : ∃ st', (Sequence.env (adsrSeq a d s r)).play ((s1.iw.states x).slots 0).st .release (dividedTicks D n m) =
        .ok (((List.range (m + 1)).map fun i => (rep' i, g i)).map (·.1), st') := by
      obtain ⟨st', hrun⟩ := b1 (dividedTicks D n m).length
      have hplay := env_play hrun
      rw [dividedTicks_length] at hplay
      exact ⟨st', hplay⟩
    obtain ⟨st', hplay⟩ := hplay'
    have hmem : SeqRet.finish ∈ ((List.range (m + 1)).map fun i => (rep' i, g i)).map (·.1) ↔ r ≤ m := by
      simp only [List.map_map, List.mem_map, List.mem_range, Function.comp]
      constructor
      · rintro ⟨j, hj, hj'⟩
        have := (b2 j).1 hj'
        omega
      · intro h
        exact ⟨r, by omega, (b2 r).2 rfl⟩
    have hall : s1.iw.AllEnd i x .release (dividedTicks D n m) → r ≤ m ∧ ∀ k vals so sl, 0 < k → vals ≠ [] →
        (NewSeq.values vals so sl).Short → s0.iw.Plays i k (.values vals so sl) →
        releasedOver vals so sl ((dividedTicks D n m).count true) := by
      intro h
      refine ⟨?_, fun k vals so sl _ hne hsh hp => ?_⟩
      · obtain ⟨rets, ⟨id', q', st'', l1, l2, l3⟩, l4⟩ := h 0 id (by rw [k6]; exact e5)
        rw [k6, e5] at l1; cases l1
        rw [k7, e6] at l2; cases l2
        rw [hplay] at l3
        cases l3
        exact hmem.1 l4
      · have hp' := hp
        obtain ⟨id', q, u5, u6, -⟩ := hp'
        obtain ⟨sq, rfl, hc⟩ := Plays.simple hp hne u5 u6
        obtain ⟨rets, ⟨id'', q', st'', l1, l2, l3⟩, l4⟩ := h k id' (by rw [k6]; exact u5)
        rw [k6, u5] at l1; cases l1
        rw [k7, u6] at l2; cases l2
        exact (play_released_ends hsh.1 hsh.2.1 hsh.2.2 hc l3).1 l4
    have hall' : s0.iw.OtherValues i → (r ≤ m ∧ ∀ k vals so sl, 0 < k → vals ≠ [] →
        (NewSeq.values vals so sl).Short → s0.iw.Plays i k (.values vals so sl) →
        releasedOver vals so sl ((dividedTicks D n m).count true)) → s1.iw.AllEnd i x .release (dividedTicks D n m) := by
      intro ho h k id' hk
      by_cases hk0 : k = 0
      · subst hk0
        exact ⟨_, ⟨id, _, st', by rw [k6]; exact e5, by rw [k7]; exact e6, hplay⟩, hmem.2 h.1⟩
      · rw [k6] at hk
        obtain ⟨vals, so, sl, hne, hsh, hp⟩ := ho k id' (by omega) hk
        have hov := h.2 k vals so sl (by omega) hne hsh hp
        obtain ⟨-, -, q, u6, -⟩ := c1'.live i k id' hk
        obtain ⟨sq, rfl, hc⟩ := Plays.simple hp hne hk u6
        obtain ⟨rr, hrun⟩ := simple_total hsh.1 hsh.2.1 hsh.2.2 hc ((s1.iw.states x).slots k).st .release (dividedTicks D n m)
        exact ⟨rr.1, ⟨id', _, rr.2, by rw [k6]; exact hk, by rw [k7]; exact u6, hrun⟩, (play_released_ends hsh.1 hsh.2.1 hsh.2.2 hc hrun).2 hov⟩
    have hdiv := (hinv.tracks x t ht).instrDiv.divider
    have hcount := dividedTicks_count (d := D) (by omega) n m
    have hcount : (dividedTicks D n m).count true = firings D 0 (n + m) - firings D 0 n := by omega
    rw [hcount] at hall hall'
    obtain ⟨r1, r2⟩ := release_events c2' hx1 c6' c7' c8'
    refine ⟨t2, d2, fun ho => ?_, fun h => ?_, fun h => ?_⟩
    · rcases c9' with ⟨g1, g2⟩ | ⟨g1, g2, g3, g4⟩
      · refine ⟨fun _ => ?_, fun _ => g1⟩
        refine hall ?_
        by_contra hc
        exact release_log_mute c2' hx1 c6' c7' c8' g2 (r2 hc)
      · refine ⟨fun h => by omega, fun h => ?_⟩
        have := r1 (hall' ho h)
        rw [← g4, release_log c2' hx1 c6' c7' c8' g2 g3] at this
        simp at this
    · rcases c9' with ⟨g1, g2⟩ | ⟨g1, -⟩
      · exact (release_log_mute c2' hx1 c6' c7' c8' g2 (r2 fun h' => by have := (hall h').1; omega)).elim
      · exact g1
    · rcases c9' with ⟨g1, -⟩ | ⟨-, g2, g3, g4⟩
      · omega
      · have hlog := release_log c2' hx1 c6' c7' c8' g2 g3
        obtain ⟨rets, hp⟩ := release_play c2' hx1 c6' c7' c8' (by rw [hlog, g4]) (k := 0) (by rw [k6]; exact e5) (by rw [k7]; exact e6)
        have := (env_value b1 hp).2
        rw [dividedTicks_length] at this
        exact this

/-- C109: after any calls, a note is played on a silent track whose instrument has an ADSR envelope and no other part.  There is a
course `f` of rise, fall and hold such that after every number of ticks the note sounds at its own pitch with the volume of the track scaled
by `f`, whatever the instrument divider.  Whenever the note is released it sounds on with a course `g` that falls to silence within `r` ticks; then, and not
before, the track is muted. -/
theorem C109_adsr {N fuel : Nat} {ops : List WOp} {s0 : TWorld} {x i : Nat} {t : Track} {v : Int}
    (hl : ({} : TWorld).LegalRun N fuel ops) (hfu : ops.length ≤ fuel) (h0 : ({} : TWorld).run fuel ops = .ok s0)
    (ht : s0.tracks x = some t) (hs : t.curNote = -1) (hx : s0.iw.links.owner x = some i)
    (hv : 0 ≤ v) (hv' : v ≤ 96 * U20)
    (he : t.effectsOff) (har : t.arpeggioOn = false) (hrest : t.note.roundBias = 0) (hsteps : t.note.steps = 0)
    (hst : stale x .vol ops = false) (hig : t.ignores = false)
    {rate : Int} (hc : t.ctx = some (rate, 2)) {cnt : Nat} (hw : t.unit.waveform.phases = some cnt) (hwt : t.waveform ≠ 16391)
    {vol pan : Int} (hvol : t.volume.get = .ok vol) (hpan : t.panning.get = .ok pan)
    {a d r : Nat} {s : Int} (ha : a < 2147483648) (hd : d < 2147483648) (hs' : 0 ≤ s ∧ s ≤ 32767) (hr : r < 2147483648)
    (hA : s0.iw.Plays i 0 (.points (adsrPoints a d s r) 2 1)) (hno : ∀ k, 0 < k → k < 4 → (s0.iw.instrs i).sequences k = none) :
    ∃ f, AdsrHeld a d s (s0.iw.value x 0) f ∧
      (∀ n, 1 ≤ n → ops.length + (n + 1) ≤ fuel → ∃ s1 t1 V P, s0.run fuel (notePlayed x v n) = .ok s1 ∧ s1.tracks x = some t1 ∧
        V = max 0 (min 32767 (vol * f n / 32768)) * t.masterVolume / 32768 ∧ P = max (-32767) (min 32767 pan) ∧
        t1.unit.mute = 0 ∧ t1.getAttr (.unit .period) = .ok (some (exactPeriod (v + t.pitch) rate / cnt)) ∧
        t1.getAttr (.unit (.volumeOf 0)) = .ok (some (leftOf V P)) ∧ t1.getAttr (.unit (.volumeOf 1)) = .ok (some (rightOf V P))) ∧
      ∀ n, ops.length + (n + 1) ≤ fuel → ∃ g, AdsrReleased r (f n) g ∧
        ∀ m, 1 ≤ m → ops.length + (n + 1) + (m + 1) ≤ fuel → ∃ s1 s2 t2 V P, s0.run fuel (notePlayed x v n) = .ok s1 ∧
          s1.run fuel (notePlayed x (-1) m) = .ok s2 ∧ s2.tracks x = some t2 ∧
          V = max 0 (min 32767 (vol * g m / 32768)) * t.masterVolume / 32768 ∧ P = max (-32767) (min 32767 pan) ∧
          (r ≤ m → t2.unit.mute = 1) ∧
          (m < r → t2.unit.mute = 0 ∧ t2.getAttr (.unit .period) = .ok (some (exactPeriod (v + t.pitch) rate / cnt)) ∧
            t2.getAttr (.unit (.volumeOf 0)) = .ok (some (leftOf V P)) ∧ t2.getAttr (.unit (.volumeOf 1)) = .ok (some (rightOf V P))) := by
  have hinv := ((TWorld.Inv.init N).run ops (by omega) hl)
  rw [h0] at hinv
  have hinv : s0.Inv (0 + ops.length) N := hinv
  have hpv : Plain v := ⟨⟨by omega, by omega⟩, by omega⟩
  have hpm : Plain (-1) := Plain.of (by omega) (by omega)
  have hlen : ∀ (v : Int) (n : Nat), (notePlayed x v n).length = n + 1 := fun v n => by unfold notePlayed; rw [List.length_cons, List.length_replicate]
  have hdiv := (hinv.tracks x t ht).instrDiv.divider
  obtain ⟨D, hdv⟩ : ∃ D : Nat, t.instrDiv.divider = D := ⟨t.instrDiv.divider.toNat, by omega⟩
  obtain ⟨f, c1, c2, c3⟩ := adsr_core hl hfu h0 ht hs hx hdv hv hv' ha hd hs' hr hA
  refine ⟨f, c1, fun n hn hf => ?_, fun n hf => ?_⟩
  · obtain ⟨s1, e, -⟩ := (hinv.run (fuel := fuel) (notePlayed x v n) (by rw [hlen]; omega) (legal_note hpv n s0)).get trivial
    obtain ⟨t1, k1, k2, k4⟩ := c2 n s1 e
    have hg : ∀ k, k ≠ 0 → k < 3 → s1.iw.value x k = 0 := fun k h1 h2 =>
      TWorld.held_gives hl hf h0 ht hs hx hdv hv hv' e k1 k2 (by omega) (.inr ⟨hno k (by omega) (by omega), by omega, by rw [if_neg h1]⟩)
    obtain ⟨q1, q2, q3, -⟩ := TWorld.held_sounds hl hf h0 ht hs hx hdv hv hv' hn he har hrest hsteps hst hig hc hw hwt hvol hpan e k1 rfl rfl
    rw [hg 2 (by decide) (by decide), Int.add_zero] at q1
    rw [k4, hg 1 (by decide) (by decide), Int.add_zero] at q2 q3
    exact ⟨s1, t1, _, _, e, k1, rfl, rfl, k2, q1, q2, q3⟩
  · obtain ⟨s1, e, hend⟩ := (hinv.run (fuel := fuel) (notePlayed x v n) (by rw [hlen]; omega) (legal_note hpv n s0)).get trivial
    obtain ⟨g, b1, b2⟩ := c3 n s1 hf e
    refine ⟨g, b1, fun m hm hf' => ?_⟩
    obtain ⟨s2, e', -⟩ := (hend.run (fuel := fuel) (notePlayed x (-1) m) (by rw [hlen, hlen]; omega) (legal_note hpm m s1)).get trivial
    obtain ⟨t2, k1, k2, k3, k4⟩ := b2 m s2 e'
    refine ⟨s1, s2, t2, _, _, e, e', k1, rfl, rfl, fun h => (k2 fun k id hk hid => ?_).2 ⟨h, fun k vals so sl hk _ _ hp => ?_⟩, fun h => ?_⟩
    · obtain ⟨A, hA', -⟩ := hinv.good
      have := (hA'.inv.live i k id hid).1
      rw [hno k hk this] at hid
      cases hid
    · obtain ⟨id, q, u, -⟩ := hp
      obtain ⟨A, hA', -⟩ := hinv.good
      have := (hA'.inv.live i k id u).1
      rw [hno k hk this] at u
      cases u
    have hmute := k3 h
    obtain ⟨hon, hgive⟩ := TWorld.released_gives hl hf' h0 ht hs hx hdv hv hv' e e' k1 hmute
    have hg : ∀ k, k ≠ 0 → k < 3 → s2.iw.value x k = 0 := fun k h1 h2 =>
      hgive k 0 (by omega) (.inr ⟨hno k (by omega) (by omega), by omega, by rw [if_neg h1]⟩)
    obtain ⟨q1, q2, q3, -⟩ := TWorld.released_sounds hl hf' h0 ht hs hx hdv hv hv' hm he har hrest hsteps hst hig hc hw hwt hvol hpan e e' k1 hon rfl rfl
    rw [hg 2 (by decide) (by decide), Int.add_zero] at q1
    rw [k4 hmute, hg 1 (by decide) (by decide), Int.add_zero] at q2 q3
    exact ⟨hmute, q1, q2, q3⟩

/-! ### Examples -/

/-- A square wave at volume 20000 with an ADSR envelope; the instrument divider is 2. -/
def adsrOps : List WOp :=
  [.init 0 16385, .setSequence 0 0 (.points (adsrPoints 4 3 16000 5) 2 1), .track 0 (.attach 44100 2 0), .track 0 (.attr .volume 20000),
   .track 0 (.attr .masterVolume 32767), .track 0 (.attr .instrDivider 2), .track 0 (.instrument (some 0))]

/-- Left volume and mute flag while the note is held. -/
example : ((List.range 10).map fun n => do
    let s ← ({} : TWorld).run 40 (adsrOps ++ notePlayed 0 50331648 n)
    return (s.tracks 0).map fun t => (t.unit.volume 0, t.unit.mute)) =
  ([(0, 0), (4998, 0), (9998, 0), (14998, 0), (19998, 0), (16587, 0), (13175, 0), (9764, 0), (9764, 0), (9764, 0)].map fun v => (.ok (some v) : C _)) := by
  decide +kernel

/-- The same after a release in the eighth tick. -/
example : ((List.range 7).map fun m => do
    let s ← ({} : TWorld).run 40 (adsrOps ++ notePlayed 0 50331648 8 ++ notePlayed 0 (-1) m)
    return (s.tracks 0).map fun t => (t.unit.volume 0, t.unit.mute)) =
  ([(9764, 0), (7811, 0), (5858, 0), (3905, 0), (1952, 0), (0, 1), (0, 1)].map fun v => (.ok (some v) : C _)) := by
  decide +kernel

theorem adsr_legal (fuel : Nat) : ({} : TWorld).LegalRun 2 fuel adsrOps := by
  refine TWorld.LegalRun.of_all _ _ ?_
  intro op hop s
  unfold adsrOps at hop
  simp only [List.mem_cons, List.not_mem_nil, or_false] at hop
  rcases hop with rfl | rfl | rfl | rfl | rfl | rfl | rfl
  · exact Plain.of (by decide) (by decide)
  · exact ⟨adsr_short (a := 4) (d := 3) (r := 5) (by decide) (by decide) (by decide), adsr_usual (by decide) (by decide) (by decide) (by decide),
      by simp [NewSeq.Modest, seqLimit, adsrPoints]⟩
  · exact fun t _ => ⟨by decide, by decide, rfl⟩
  · exact fun t _ => ⟨Plain.of (by decide) (by decide), trivial⟩
  · exact fun t _ => ⟨Plain.of (by decide) (by decide), trivial⟩
  · exact fun t _ => ⟨Plain.of (by decide) (by decide), by show (1 : Int) ≤ 2; decide⟩
  · exact fun t _ => trivial

/-- The sequences of the instrument of track 0, its level, and whether the track meets the conditions of the theorem. -/
def adsrView (s : TWorld) : Option (List Bool) × Option Sequence × List Bool × Int :=
  ((s.tracks 0).map fun t => [decide (t.curNote = -1), !t.volumeSlide, !t.panningSlide, !t.tremoloOn, !t.portamento,
      !t.vibratoOn, !t.arpeggioOn, decide (t.note.roundBias = 0), decide (t.note.steps = 0), !t.ignores, decide (t.ctx = some (44100, 2)),
      decide (t.unit.waveform.phases = some 16), decide (t.waveform ≠ 16391), decide (t.volume.get = .ok 20000), decide (t.panning.get = .ok 0),
      decide (t.masterVolume = 32767), decide (t.pitch = 0), decide (s.iw.links.owner 0 = some 0)],
    ((s.iw.instrs 0).sequences 0).bind s.iw.heap, [1, 2, 3].map fun k => ((s.iw.instrs 0).sequences k).isNone, s.iw.value 0 0)

/-- The hypotheses of the theorem are met: four ticks up, three down, five after the release.  After four ticks the volume is the highest, and
five ticks after the release the track is muted. -/
example : ∃ s0 s1 t1 s2 t2, ({} : TWorld).run 40 adsrOps = .ok s0 ∧ s0.run 40 (notePlayed 0 50331648 4) = .ok s1 ∧ s1.tracks 0 = some t1 ∧
    t1.getAttr (.unit (.volumeOf 0)) = .ok (some 19998) ∧ s1.run 40 (notePlayed 0 (-1) 5) = .ok s2 ∧ s2.tracks 0 = some t2 ∧ t2.unit.mute = 1 := by
  have h : (({} : TWorld).run 40 adsrOps).map adsrView =
      .ok (some (List.replicate 18 true), some (.env (adsrSeq 4 3 16000 5)), [true, true, true], 0) := by decide +kernel
  obtain ⟨s0, e⟩ := C80_never_faults_partial 2 40 adsrOps (by decide) (adsr_legal 40)
  rw [e] at h
  have h : adsrView s0 = _ := Except.ok.inj h
  unfold adsrView at h
  simp only [Prod.mk.injEq, List.map_cons, List.map_nil, List.cons.injEq, and_true] at h
  obtain ⟨h1, h2, ⟨h3, h4, h5⟩, h6⟩ := h
  obtain ⟨t, ht, e3⟩ := Option.map_eq_some_iff.1 h1
  simp only [List.replicate, List.cons.injEq, and_true, decide_eq_true_eq, Bool.not_eq_true'] at e3
  obtain ⟨b1, b3, b4, b5, b6, b7, b8, b9, b10, b11, b12, b13, b14, b15, b16, b17, b18, b19⟩ := e3
  obtain ⟨id, e1, e2⟩ := Option.bind_eq_some_iff.1 h2
  obtain ⟨f, k1, k2, k3⟩ := C109_adsr (N := 2) (v := 50331648) (a := 4) (d := 3) (r := 5) (s := 16000) (adsr_legal 40) (by decide) e ht b1 b19
    (by decide) (by decide) ⟨b3, b4, b5, b6, b7⟩ b8 b9 b10 (by decide) b11 b12 b13 b14 b15 b16 (by decide) (by decide) (by decide) (by decide)
    ⟨id, _, e1, e2, by decide +kernel⟩ (fun k hk hk' => by
      have : k = 1 ∨ k = 2 ∨ k = 3 := by omega
      rcases this with rfl | rfl | rfl
      exacts [Option.isNone_iff_eq_none.1 h3, Option.isNone_iff_eq_none.1 h4, Option.isNone_iff_eq_none.1 h5])
  obtain ⟨s1, t1, V, P, m1, m2, m3, m4, -, -, m5, -⟩ := k2 4 (by decide) (by decide)
  obtain ⟨g, -, k3⟩ := k3 4 (by decide)
  obtain ⟨s1', s2, t2, -, -, n1, n2, n3, -, -, n4, -⟩ := k3 5 (by decide) (by decide)
  rw [m1] at n1
  cases n1
  rw [k1.peak (by decide), b17] at m3
  have eV : V = 19998 := m3.trans (by decide)
  have eP : P = 0 := m4.trans (by decide)
  rw [eV, eP] at m5
  exact ⟨s0, s1, t1, s2, t2, e, m1, m2, m5, n2, n3, n4 (by decide)⟩

/-- C109: the attack does not always begin in silence.  A note is cut off by muting, and three ticks later the next note has the full volume at once. -/
theorem C109_start_refuted :
    ∃ s s' t t', ({} : TWorld).run 40 (adsrOps ++ notePlayed 0 50331648 4 ++ notePlayed 0 (-2) 3) = .ok s ∧ s.tracks 0 = some t ∧ t.unit.mute = 1 ∧
      t.curNote = -1 ∧ s.run 40 (notePlayed 0 50331648 1) = .ok s' ∧ s'.tracks 0 = some t' ∧ t'.unit.mute = 0 ∧
      t'.getAttr (.unit (.volumeOf 0)) = .ok (some 19998) := by
  have h : (({} : TWorld).run 40 (adsrOps ++ notePlayed 0 50331648 4 ++ notePlayed 0 (-2) 3)).map
      (fun s => ((s.tracks 0).map fun t => (t.unit.mute, t.curNote), (s.run 40 (notePlayed 0 50331648 1)).map fun s' =>
        (s'.tracks 0).map fun t' => (t'.unit.mute, t'.unit.volume 0))) = .ok (some (1, -1), .ok (some (0, 19998))) := by decide +kernel
  match e : ({} : TWorld).run 40 (adsrOps ++ notePlayed 0 50331648 4 ++ notePlayed 0 (-2) 3) with
  | .error f => rw [e] at h; cases h
  | .ok s =>
    rw [e] at h
    have h := Except.ok.inj h
    simp only [Prod.mk.injEq] at h
    obtain ⟨h1, h2⟩ := h
    obtain ⟨t, ht, e1⟩ := Option.map_eq_some_iff.1 h1
    match e' : s.run 40 (notePlayed 0 50331648 1) with
    | .error f => rw [e'] at h2; cases h2
    | .ok s' =>
      rw [e'] at h2
      obtain ⟨t', ht', e2⟩ := Option.map_eq_some_iff.1 (Except.ok.inj h2)
      simp only [Prod.mk.injEq] at e1 e2
      refine ⟨s, s', t, t', rfl, ht, e1.1, e1.2, e', ht', e2.1, ?_⟩
      show Except.ok (some (t'.unit.volume 0)) = _
      rw [e2.2]

end BK
