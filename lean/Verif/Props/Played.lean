import Verif.Lemmas.Played
import Verif.Props.Instrument
import Verif.Props.Sequence
import Verif.Props.Current
import Verif.Props.TrackTick
import Verif.Props.TrackNote
import Verif.Props.Note
/-!
C98: a note plays the sequences of its instrument.
-/
namespace BK

/-! ### Instruments -/

theorem SlotInv.relax {B : Prop} {q : Sequence} {st : SeqState} (h : SlotInv B q st) : SlotInv False q st :=
  ⟨⟨h.weak.off, False.elim, False.elim⟩, fun e he => ⟨(h.env e he).off, False.elim⟩⟩

theorem IWorld.Inv.relax {B : Prop} {w : IWorld} {A : Lists} (h : w.Inv B A) : w.Inv False A := by
  refine ⟨h.repr, h.num, fun i k id e => ?_, h.inj, h.noLeak, fun x i e => ?_, fun x e k hk => ?_⟩
  · obtain ⟨a, b, q, hq, ok⟩ := h.live i k id e
    refine ⟨a, b, q, hq, ?_⟩
    cases q with
    | simple q => exact ok
    | env q => exact ⟨ok.1, False.elim⟩
  · have := h.att x i e
    exact ⟨⟨this.has.pt, fun k hk => ⟨(this.has.weak k hk).off, False.elim, False.elim⟩,
      fun k id q hk hi hq => (this.has.slot k id q hk hi hq).relax,
      fun k hk => ⟨(this.has.val k hk).1, (this.has.val k hk).2.1, fun _ _ _ _ b => b.elim⟩⟩, this.cnt⟩
  · obtain ⟨a, b⟩ := h.idle x e k hk
    exact ⟨a, ⟨b.off, False.elim, False.elim⟩⟩

/-- The slots after an attack. -/
theorem attack_slots {w w1 : IWorld} {A : Lists} (h : w.Inv False A) {x i : Nat}
    {duty : Int} (hx : w.links.owner x = some i) (h1 : w.attack x duty = .ok w1) {k id : Nat} {q : Sequence}
    (e5 : (w.instrs i).sequences k = some id) (e6 : w.heap id = some q) :
    ∃ st r, (if k = 3 then q.setValue ((w.states x).slots k).st duty else .ok ((w.states x).slots k).st) = .ok st ∧
      q.setPhase st .attack = .ok (r, ((w1.states x).slots k).st) := by
  obtain ⟨w0, e0, e1⟩ := bind_ok_iff.1 h1
  have hiw := h.att x i hx
  have hv := IWorld.initValues_inv h x duty False.elim
  rw [e0] at hv
  obtain ⟨hinv0, -⟩ := hv
  obtain ⟨a1, a2, a3, a4, a5, a6, a7⟩ := initValues_slots hx (hiw.has.pt 3 (by omega)) e0
  have hx0 : w0.links.owner x = some i := by rw [a1]; exact hx
  have hi0 := hinv0.att x i hx0
  unfold IWorld.setPhase at e1
  rw [hx0] at e1
  obtain ⟨r, e2, e3⟩ := bind_ok_iff.1 e1
  have hs := IState.setPhase_inv (hinv0.instrOk i) hi0.has.ready (p := .attack) (by simp)
  rw [e2] at hs
  obtain ⟨g1, g2⟩ := hs
  obtain ⟨y, g3, g4, -⟩ := g2.go
  have g4 := g4 rfl
  simp only [pure_eq_ok, Except.ok.injEq] at e3
  subst g4
  have es : (w1.states x).slots k = y.slots k := by
    rw [← e3]; show (upd w0.states x _ x).slots k = _; rw [upd_self]
  have hk := (h.live i k id e5).1
  obtain ⟨rr, d1, -, -⟩ := (g3 k hk).go id q (by rw [hi0.has.pt k hk, a2]; exact e5) (by rw [a3]; exact e6)
  rw [es]
  refine ⟨((w0.states x).slots k).st, rr, ?_, d1⟩
  by_cases hk3 : k = 3
  · subst hk3
    rw [if_pos rfl]
    obtain ⟨st2, c1, c2⟩ := a7 id q e5 e6
    rw [c1, c2]
    have hval : st2.value = duty := by
      obtain ⟨_, _, q2, hq2, hok⟩ := h.live i 3 id e5
      rw [e6] at hq2; cases hq2
      have := Sequence.setValue_inv hok (hiw.has.slot 3 id q (by omega) e5 e6) duty False.elim
      rw [c1] at this
      exact this.2.1
    rw [← hval]
  · rw [if_neg hk3, a6 k hk3]

theorem attack_play {fuel : Nat} {w w1 w2 : IWorld} {A : Lists} (h : w.Inv False A) {x i : Nat}
    {duty : Int} (hx : w.links.owner x = some i) (h1 : w.attack x duty = .ok w1) {ds : List Bool}
    (h2 : w1.run fuel (ticksOf x ds) = .ok w2) (hq : w2.log = w.log) {k id : Nat} {q : Sequence}
    (e5 : (w.instrs i).sequences k = some id) (e6 : w.heap id = some q) :
    ∃ st rets, (if k = 3 then q.setValue ((w.states x).slots k).st duty else .ok ((w.states x).slots k).st) = .ok st ∧
      q.play st .attack ds = .ok (rets, ((w2.states x).slots k).st) := by
  obtain ⟨st, r, k1, k2⟩ := attack_slots h hx h1 e5 e6
  obtain ⟨b1, b2, b3, b4, b5, b6, -⟩ := attack_events (fuel := fuel) h ds hx h1
  obtain ⟨-, -, -, g⟩ := ticks_slots ds w1 A b1 (by rw [b2]; exact hx) (by rw [b4]; simp) w2 h2 (by rw [hq, b3])
  obtain ⟨rets, hr⟩ := g k id q (by rw [b5]; exact e5) (by rw [b6]; exact e6)
  refine ⟨st, r :: rets, k1, ?_⟩
  unfold Sequence.play
  rw [k2, ok_bind, hr, ok_bind]
  rfl

/-- C98: as long as a note plays, each sequence of its instrument, value sequence or envelope, is
where it would be if it were played alone; none disturbs the other.  `w` is the situation before the note. -/
theorem C98_alone (fuel : Nat) (w w1 w2 : IWorld) (hw : w.Reach fuel) (x i : Nat) (duty : Int) (ds : List Bool)
    (hx : w.links.owner x = some i) (h1 : w.exec fuel (.attack x duty) = .ok w1)
    (h2 : w1.run fuel (ticksOf x ds) = .ok w2) (hq : w2.log = w.log) (k id : Nat) (q : Sequence)
    (hk : (w.instrs i).sequences k = some id) (hid : w.heap id = some q) :
    ∃ st rets, (if k = 3 then q.setValue ((w.states x).slots k).st duty else .ok ((w.states x).slots k).st) = .ok st ∧
      q.play st .attack ds = .ok (rets, ((w2.states x).slots k).st) := by
  obtain ⟨A, hi, -⟩ := hw.inv
  exact attack_play hi hx h1 h2 hq hk hid

theorem Plays.holds {w : IWorld} {i k : Nat} {new : NewSeq} (h : w.Plays i k new) (hs : new.Short) (hsus : new.Sustained) :
    ∃ id q, (w.instrs i).sequences k = some id ∧ w.heap id = some q ∧ q.Holds := by
  obtain ⟨id, q, h1, h2, h3⟩ := h
  refine ⟨id, q, h1, h2, ?_⟩
  cases new with
  | nothing => exact hsus.elim
  | values vals so sl =>
    have hne : vals ≠ [] := by rintro rfl; exact absurd hsus (by simp [NewSeq.Sustained])
    unfold NewSeq.create at h3
    dsimp only at h3
    rw [if_neg hne, SimpleSeq.create_eq hs.1 hs.2.1 hs.2.2, ok_bind] at h3
    cases h3
    exact ⟨vals, _, _, rfl, hs.1, sustain_le _ _ _, hsus⟩
  | points ps so sl =>
    have hne : ps ≠ [] := by rintro rfl; exact absurd hsus (by simp [NewSeq.Sustained])
    unfold NewSeq.create at h3
    dsimp only at h3
    rw [if_neg hne] at h3
    obtain ⟨o, ho, h3⟩ := bind_ok_iff.1 h3
    cases o with
    | none => simp [pure_eq_ok] at h3
    | some e =>
      cases h3
      obtain ⟨hl, hso, hsl, hst⟩ := hs
      obtain ⟨k1, -, -⟩ := EnvSeq.create_W hl hso hsl hst ho
      refine ⟨_, _, k1, ?_⟩
      rw [EnvSeq.create_eq hl hso hsl] at ho
      split at ho
      · obtain ⟨fs, -, ho⟩ := bind_ok_iff.1 ho
        cases ho
        exact hsus
      · cases ho

theorem held_kept {fuel : Nat} {w w1 w2 : IWorld} {A : Lists} (h : w.Inv False A) {x i : Nat}
    {duty : Int} (hx : w.links.owner x = some i) (h1 : w.attack x duty = .ok w1) {ds : List Bool}
    (h2 : w1.run fuel (ticksOf x ds) = .ok w2) {k id : Nat} {q : Sequence}
    (e5 : (w.instrs i).sequences k = some id) (e6 : w.heap id = some q) (hh : q.Holds) :
    w2.log = w.log ∧ (w2.states x).phase = .attack := by
  obtain ⟨b1, b2, b3, b4, b5, b6, b7⟩ := attack_events (fuel := fuel) h ds hx h1
  obtain ⟨-, -, -, c4⟩ := ticks_events ds w1 A b1 (by rw [b2]; exact hx) (by rw [b4]; simp) w2 h2
  have : ¬ w1.EndIn i x ds := by
    rw [← b7]
    intro ha
    obtain ⟨rets, ⟨id', q', st, st', a1, a2, -, a4⟩, a5⟩ := ha k id e5
    rw [e5] at a1; cases a1
    rw [e6] at a2; cases a2
    exact Sequence.play_holds hh a4 a5
  obtain ⟨k1, k2⟩ := c4 fun h => this h.1
  exact ⟨by rw [k1, b3], by rw [k2, b4]⟩

/-- C98: a note is not muted by its instrument while it is held if one of the sequences has a sustain
range. -/
theorem C98_kept (fuel : Nat) (w w1 w2 : IWorld) (hw : w.Reach fuel) (x i : Nat) (duty : Int) (ds : List Bool)
    (hx : w.links.owner x = some i) (h1 : w.exec fuel (.attack x duty) = .ok w1)
    (h2 : w1.run fuel (ticksOf x ds) = .ok w2) (k : Nat) (new : NewSeq) (hs : new.Short) (hk : w.Plays i k new)
    (hsus : new.Sustained) : w2.log = w.log ∧ (w2.states x).phase = .attack := by
  obtain ⟨A, hi, -⟩ := hw.inv
  obtain ⟨id, q, e5, e6, hh⟩ := Plays.holds hk hs hsus
  exact held_kept hi hx h1 h2 e5 e6 hh

theorem held_value {fuel : Nat} {w w1 w2 : IWorld} {A : Lists} (h : w.Inv False A) {x i : Nat}
    {duty : Int} (hx : w.links.owner x = some i) (h1 : w.attack x duty = .ok w1) {ds : List Bool}
    (h2 : w1.run fuel (ticksOf x ds) = .ok w2) (hq : w2.log = w.log) {k : Nat} {vals : List Int} {so sl : Int}
    (hs : (NewSeq.values vals so sl).Short) (hne : vals ≠ []) (hk : w.Plays i k (.values vals so sl)) :
    w2.value x k = heldValue vals so sl (ds.count true) := by
  obtain ⟨id, q, e5, e6, e7⟩ := hk
  unfold NewSeq.create at e7
  dsimp only at e7
  rw [if_neg hne] at e7
  obtain ⟨o, ho, e7⟩ := bind_ok_iff.1 e7
  cases o with
  | none => simp [pure_eq_ok] at e7
  | some sq =>
    cases e7
    obtain ⟨st, rets, -, hp⟩ := attack_play h hx h1 h2 hq e5 e6
    exact play_held hs.1 hs.2.1 hs.2.2 hne ho hp

/-- C98: while a note is held and not muted, each value sequence of its instrument shows the value written for the number of
divided ticks since the note. -/
theorem C98_held (fuel : Nat) (w w1 w2 : IWorld) (hw : w.Reach fuel) (x i : Nat) (duty : Int) (ds : List Bool)
    (hx : w.links.owner x = some i) (h1 : w.exec fuel (.attack x duty) = .ok w1)
    (h2 : w1.run fuel (ticksOf x ds) = .ok w2) (hq : w2.log = w.log) (k : Nat) (vals : List Int) (so sl : Int)
    (hs : (NewSeq.values vals so sl).Short) (hne : vals ≠ []) (hk : w.Plays i k (.values vals so sl)) :
    w2.value x k = heldValue vals so sl (ds.count true) := by
  obtain ⟨A, hi, -⟩ := hw.inv
  exact held_value hi hx h1 h2 hq hs hne hk

theorem release_play {fuel : Nat} {w2 w3 w4 : IWorld} {A : Lists} (hinv : w2.Inv False A) {x i : Nat}
    (hx2 : w2.links.owner x = some i) (hph : (w2.states x).phase = .attack) (h3 : w2.setPhase x .release = .ok w3) {ds : List Bool}
    (h4 : w3.run fuel (ticksOf x ds) = .ok w4) (hq : w4.log = w2.log) {k id : Nat} {q : Sequence}
    (e5 : (w2.instrs i).sequences k = some id) (e6 : w2.heap id = some q) :
    ∃ rets, q.play ((w2.states x).slots k).st .release ds = .ok (rets, ((w4.states x).slots k).st) := by
  have hi2 := hinv.att x i hx2
  unfold IWorld.setPhase at h3
  rw [hx2] at h3
  obtain ⟨r, e2, e3⟩ := bind_ok_iff.1 h3
  have hs := IState.setPhase_inv (hinv.instrOk i) hi2.has.ready (p := .release) (by simp [hph])
  rw [e2] at hs
  obtain ⟨g1, g2⟩ := hs
  obtain ⟨y, g3, -, g4, g5⟩ := g2.go
  simp only [pure_eq_ok, Except.ok.injEq] at e3
  have hinv3 : w3.Inv False A := by rw [← e3]; exact hinv.setState hx2 g1 _
  have hl3 : w3.links = w2.links := by rw [← e3]
  have hx3 : w3.links.owner x = some i := by rw [hl3]; exact hx2
  have ei : w3.instrs = w2.instrs := by rw [← e3]
  have eh : w3.heap = w2.heap := by rw [← e3]
  have es : w3.states x = r.2 := by rw [← e3]; exact upd_self _ _ _
  have elog : w3.log = w2.log ++ r.1.map fun e => (x, e) := by rw [← e3]
  by_cases hc : y.cnt 4 = 0
  · obtain ⟨k1, k2⟩ := g5 rfl hc
    rw [hph, if_neg (by simp)] at k2
    obtain ⟨m1, -, -, -⟩ := muted_ticks ds w3 A hinv3 hx3 (by rw [es]; exact k1) w4 h4
    rw [hq, elog, k2] at m1
    simp at m1
  · have g4 := g4 rfl hc
    subst g4
    simp only [List.map_nil, List.append_nil] at elog
    obtain ⟨-, -, -, g⟩ := ticks_slots ds w3 A hinv3 hx3 (by rw [es]; simp) w4 h4 (by rw [hq, elog])
    obtain ⟨rets, hr⟩ := g k id q (by rw [ei]; exact e5) (by rw [eh]; exact e6)
    have hk := (hinv.live i k id e5).1
    obtain ⟨rr, d1, -, -⟩ := (g3 k hk).go id q (by rw [hi2.has.pt k hk]; exact e5) e6
    rw [es] at hr
    refine ⟨rr :: rets, ?_⟩
    unfold Sequence.play
    rw [d1, ok_bind, hr, ok_bind]
    rfl

theorem released_value {fuel : Nat} {w2 w3 w4 : IWorld} {A : Lists} (hinv : w2.Inv False A) {x i : Nat}
    (hx2 : w2.links.owner x = some i) (hph : (w2.states x).phase = .attack) (h3 : w2.setPhase x .release = .ok w3) {ds : List Bool}
    (h4 : w3.run fuel (ticksOf x ds) = .ok w4) (hq : w4.log = w2.log) {k : Nat} {vals : List Int} {so sl : Int}
    (hs : (NewSeq.values vals so sl).Short) (hne : vals ≠ []) (hk : w2.Plays i k (.values vals so sl)) :
    w4.value x k = releasedValue vals so sl (w2.value x k) (ds.count true) := by
  obtain ⟨id, q, e5, e6, e7⟩ := hk
  unfold NewSeq.create at e7
  dsimp only at e7
  rw [if_neg hne] at e7
  obtain ⟨o, ho, e7⟩ := bind_ok_iff.1 e7
  cases o with
  | none => simp [pure_eq_ok] at e7
  | some sq =>
    cases e7
    obtain ⟨rets, hp⟩ := release_play hinv hx2 hph h3 h4 hq e5 e6
    exact play_released hs.1 hs.2.1 hs.2.2 ho hp

/-- C98: after release, until the track is muted, each value sequence shows the values behind its sustain range,
then the last one. -/
theorem C98_released (fuel : Nat) (w w1 w2 w3 w4 : IWorld) (hw : w.Reach fuel) (x i : Nat) (duty : Int)
    (ds ds' : List Bool) (hx : w.links.owner x = some i) (h1 : w.exec fuel (.attack x duty) = .ok w1)
    (h2 : w1.run fuel (ticksOf x ds) = .ok w2) (hq : w2.log = w.log)
    (h3 : w2.exec fuel (.release x) = .ok w3) (h4 : w3.run fuel (ticksOf x ds') = .ok w4) (hq' : w4.log = w2.log)
    (k : Nat) (vals : List Int) (so sl : Int)
    (hs : (NewSeq.values vals so sl).Short) (hne : vals ≠ []) (hk : w.Plays i k (.values vals so sl)) :
    w4.value x k = releasedValue vals so sl (heldValue vals so sl (ds.count true)) (ds'.count true) := by
  obtain ⟨A, hi, -⟩ := hw.inv
  rw [← held_value hi hx h1 h2 hq hs hne hk]
  obtain ⟨b1, b2, b3, b4, b5, b6, -⟩ := attack_events hi ds hx h1
  have hx1 : w1.links.owner x = some i := by rw [b2]; exact hx
  obtain ⟨hinv, hl2, c3, c4⟩ := ticks_events ds w1 A b1 hx1 (by rw [b4]; simp) w2 h2
  obtain ⟨f1, f2, -, -⟩ := ticks_slots ds w1 A b1 hx1 (by rw [b4]; simp) w2 h2 (by rw [hq, b3])
  have hph : (w2.states x).phase = .attack := by
    by_cases hc : w1.EndIn i x ds ∧ (w1.states x).cnt 4 ≠ 0
    · have := (c3 hc).1
      rw [hq, b3] at this
      simp at this
    · rw [(c4 hc).2, b4]
  refine released_value hinv (by rw [hl2]; exact hx1) hph h3 h4 hq' hs hne ?_
  obtain ⟨id, q, e5, e6, e7⟩ := hk
  exact ⟨id, q, by rw [f1, b5]; exact e5, by rw [f2, b6]; exact e6, e7⟩


/-! ### Tracks -/

/-- `n` ticks of a track, `c` ticks after the note: every `d`-th one since the note advances value sequences. -/
def dividedTicks (d c n : Nat) : List Bool := (List.range n).map fun k => decide ((c + k) % d = 0)

theorem dividedTicks_succ (d c n : Nat) : dividedTicks d c (n + 1) = decide (c % d = 0) :: dividedTicks d (c + 1) n := by
  unfold dividedTicks
  rw [List.range_succ_eq_map, List.map_cons, List.map_map]
  congr 1
  refine List.map_congr_left fun k _ => ?_
  show decide ((c + (k + 1)) % d = 0) = _
  rw [show c + (k + 1) = c + 1 + k by omega]

theorem dividedTicks_count {d : Nat} (hd : 1 ≤ d) (c n : Nat) :
    firings d 0 c + (dividedTicks d c n).count true = firings d 0 (c + n) := by
  induction n generalizing c with
  | zero => rfl
  | succ n ih =>
    rw [dividedTicks_succ, List.count_cons, ← show c + 1 + n = c + (n + 1) by omega, ← ih, firings_succ d 0 c hd]
    simp only [beq_true]
    by_cases h : c % d = 0
    · rw [if_pos h, if_pos (by simpa using h)]; omega
    · rw [if_neg h, if_neg (by simpa using h)]; omega

/-- A muted track stays muted. -/
theorem Track.tick_muted {x : Nat} {w : IWorld} {t : Track} {r : IWorld × Track} (h : t.tick x w = .ok r)
    (hm : t.unit.mute = 1) : r.2.unit.mute = 1 := by
  obtain ⟨t1, r1, t2, h1, hr, h2, h3, e⟩ := Track.tick_stages h
  obtain ⟨a, d, n, rfl⟩ := Track.arpeggioTick_same h1
  have km := Track.updateUnit_mute h2
  obtain ⟨a', b, c, d'', e', f, g, i, j, k, h3⟩ := Track.effectsTick_same h3
  have e1 : r.2.unit.mute = r1.2.unit.mute := by rw [h3]; exact km
  rw [e1]
  unfold Track.instrTick at hr
  split at hr
  · obtain ⟨q, -, hr⟩ := bind_ok_iff.1 hr
    obtain ⟨w', hw, hr⟩ := bind_ok_iff.1 hr
    obtain ⟨t3, k3, hr⟩ := bind_ok_iff.1 hr
    cases hr
    obtain ⟨n1, n2, n3⟩ := IWorld.tick_news hw
    by_cases hn : w.news w' x = []
    · rw [Track.hear_nil hn] at k3
      cases k3
      exact hm
    · exact (Track.hear_mutes n1 hn k3).1
  · cases hr; exact hm

/-- Ticks of a track with instrument. -/
theorem track_ticks {fuel x i d : Nat} (hd : 1 ≤ d) (hm : d ≤ 2147483647) : ∀ (n c : Nat) {s s2 : TWorld} {t : Track},
    s.tracks x = some t → s.iw.links.owner x = some i → t.instrDiv = DivState.at d 0 c →
    s.run fuel (List.replicate n (.track x .tick)) = .ok s2 →
    ∃ t2, s2.tracks x = some t2 ∧ s.iw.run fuel (ticksOf x (dividedTicks d c n)) = .ok s2.iw ∧
      t2.instrDiv = DivState.at d 0 (c + n) ∧ s2.iw.links = s.iw.links ∧ (t.unit.mute = 1 → t2.unit.mute = 1) ∧
      ((s.iw.states x).phase = .mute → (s2.iw.states x).phase = .mute) ∧
      ((s.iw.states x).phase ≠ .mute → (s2.iw.states x).phase = .mute ∧ t2.unit.mute = 1 ∨
        ((s2.iw.states x).phase = (s.iw.states x).phase ∧ t2.unit.mute = t.unit.mute ∧ t2.curNote = t.curNote))
  | 0, c, s, s2, t, ht, hx, hdv, h => by
    cases h
    exact ⟨t, ht, rfl, hdv, rfl, id, id, fun _ => .inr ⟨rfl, rfl, rfl⟩⟩
  | n + 1, c, s, s2, t, ht, hx, hdv, h => by
    rw [List.replicate_succ] at h
    unfold TWorld.run at h
    obtain ⟨s1, h1, h⟩ := bind_ok_iff.1 h
    unfold TWorld.exec at h1
    dsimp only at h1
    rw [ht] at h1
    obtain ⟨r, hr, h1⟩ := bind_ok_iff.1 h1
    cases h1
    have hr : t.tick x s.iw = .ok r := hr
    have hon : s.iw.on x = true := by unfold IWorld.on; rw [hx]; rfl
    obtain ⟨q, hq, e1, e2⟩ := Track.tick_instr hr hon
    rw [hdv, DivState.tick_at d 0 c hd hm] at hq
    cases hq
    have hlk := (Track.tick_switches hr).2.2.2.2.2.2.1
    obtain ⟨g1, g2⟩ := C57_ended x s.iw t r hon hr
    obtain ⟨t2, k1, k2, k3, k4, k5, k5', k6⟩ := track_ticks hd hm n (c + 1) (s := ⟨r.1, upd s.tracks x (some r.2)⟩) (t := r.2)
      (upd_self _ _ _) (by rw [← hx]; exact congrArg (fun l => l.owner x) hlk) e1 h
    refine ⟨t2, k1, ?_, by rw [k3, show c + 1 + n = c + (n + 1) by omega], k4.trans hlk,
      fun hm => k5 (Track.tick_muted hr hm), fun hp => k5' ?_, fun hp => ?_⟩
    · rw [dividedTicks_succ]
      show (do let w ← s.iw.exec fuel (.tick x (decide (c % d = 0))); w.run fuel (ticksOf x (dividedTicks d (c + 1) n))) = _
      rw [exec_tick hx, e2, ok_bind]
      exact k2
    · show (r.1.states x).phase = _
      by_cases hpp : (r.1.states x).phase = (s.iw.states x).phase
      · rw [hpp]; exact hp
      · exact (g2 hpp).1
    · by_cases hpp : (r.1.states x).phase = (s.iw.states x).phase
      · obtain ⟨g3, g4⟩ := g1 hpp hp
        rcases k6 (by show (r.1.states x).phase ≠ _; rw [hpp]; exact hp) with k | ⟨k, k', k''⟩
        · exact .inl k
        · exact .inr ⟨k.trans hpp, k'.trans g3, k''.trans g4⟩
      · exact .inl ⟨k5' (g2 hpp).1, k5 (g2 hpp).2.1⟩

/-- The divider begins anew with a note after silence. -/
theorem Track.setNote_divider {x : Nat} {w : IWorld} {t : Track} {n : Int} {r : IWorld × Track} (h : t.setNote x w n = .ok r)
    (hn : 0 ≤ n) (hs : t.curNote = -1) (hon : w.on x = true) : r.2.instrDiv = ⟨t.instrDiv.divider, 0⟩ := by
  unfold Track.setNote Track.noteCase at h
  rw [if_pos (show n ≥ 0 from hn)] at h
  obtain ⟨r1, h1, h⟩ := bind_ok_iff.1 h
  cases h
  unfold Track.playNote at h1
  obtain ⟨s, -, h1⟩ := bind_ok_iff.1 h1
  obtain ⟨r2, h2, h1⟩ := bind_ok_iff.1 h1
  obtain ⟨t1, k1, h1⟩ := bind_ok_iff.1 h1
  obtain ⟨t2, k2, h1⟩ := bind_ok_iff.1 h1
  obtain ⟨t3, k3, h1⟩ := bind_ok_iff.1 h1
  cases h1
  show t3.instrDiv = _
  rw [(Track.setUnit_same k3).instrDiv, (Track.setUnit_same k2).instrDiv]
  show t1.instrDiv = _
  have : t1.instrDiv = r2.2.instrDiv := by
    unfold Track.startSample at k1
    split at k1
    · exact (Track.setUnit_same k1).instrDiv
    · cases k1; rfl
  rw [this]
  unfold Track.startNote at h2
  dsimp only at h2
  rw [if_pos hs, if_pos hon] at h2
  obtain ⟨r3, h3, h2⟩ := bind_ok_iff.1 h2
  cases h2
  unfold Track.instrAttack at h3
  obtain ⟨w', hw, h3⟩ := bind_ok_iff.1 h3
  obtain ⟨t4, h4, h3⟩ := bind_ok_iff.1 h3
  cases h3
  exact (Track.hear_same h4).instrDiv

/-- A note and `n` ticks. -/
def notePlayed (x : Nat) (v : Int) (n : Nat) : List WOp := .track x (.attr .note v) :: List.replicate n (.track x .tick)

theorem legal_ticks (N fuel x : Nat) : ∀ (n : Nat) (s : TWorld), s.LegalRun N fuel (List.replicate n (.track x .tick))
  | 0, _ => trivial
  | n + 1, _ => ⟨fun _ _ => trivial, fun s' _ => legal_ticks N fuel x n s'⟩

theorem legal_note {N fuel x : Nat} {v : Int} (hv : Plain v) (n : Nat) (s : TWorld) : s.LegalRun N fuel (notePlayed x v n) :=
  ⟨fun _ _ => ⟨hv, trivial⟩, fun s' _ => legal_ticks N fuel x n s'⟩

/-- What a note does. -/
theorem note_played {m N fuel x i d n : Nat} {s0 s : TWorld} {t : Track} {v : Int} (hinv : s0.Inv m N) (ht : s0.tracks x = some t)
    (hs : t.curNote = -1) (hx : s0.iw.links.owner x = some i) (hdv : t.instrDiv.divider = d) (hv : 0 ≤ v)
    (h : s0.run fuel (notePlayed x v n) = .ok s) :
    ∃ w1 t2 A, s0.iw.Inv False A ∧ s0.iw.attack x t.dutyCycle = .ok w1 ∧ s.tracks x = some t2 ∧ s.iw.links = s0.iw.links ∧
      w1.run fuel (ticksOf x (dividedTicks d 0 n)) = .ok s.iw ∧ t2.instrDiv = DivState.at d 0 n ∧
      ((s.iw.states x).phase = .mute ∧ t2.unit.mute = 1 ∨ (s.iw.states x).phase = .attack ∧ t2.unit.mute = 0 ∧ t2.curNote = min v (96 * U20)) := by
  obtain ⟨A, hA, -⟩ := hinv.good
  unfold notePlayed TWorld.run at h
  obtain ⟨s1, h1, h⟩ := bind_ok_iff.1 h
  unfold TWorld.exec at h1
  dsimp only at h1
  rw [ht] at h1
  obtain ⟨r0, hr0, h1⟩ := bind_ok_iff.1 h1
  cases h1
  obtain ⟨⟨ret, r⟩, hr1, e⟩ := bind_ok_iff.1 hr0
  cases e
  obtain ⟨r', hr, e⟩ := bind_ok_iff.1 hr1
  cases e
  have hon : s0.iw.on x = true := by unfold IWorld.on; rw [hx]; rfl
  obtain ⟨p1, p2, p3, -⟩ := C57_play x s0.iw t v hv r hr
  obtain ⟨p3, p4⟩ := p3 hs hon
  have p5 := Track.setNote_divider hr hv hs hon
  have hinv' := hA.inv.relax
  obtain ⟨-, b2, -⟩ := attack_events (fuel := fuel) hinv' [] hx p3
  have hdd := (hinv.tracks x t ht).instrDiv.divider
  rw [hdv] at hdd p5
  obtain ⟨t2, k1, k2, k3, k4, -, -, k6⟩ := track_ticks (i := i) (d := d) (by omega) (by omega) n 0
    (s := ⟨r.1, upd s0.tracks x (some r.2)⟩) (t := r.2) (upd_self _ _ _) (by rw [← hx]; exact congrArg (fun l => l.owner x) b2)
    (by rw [p5, DivState.at_zero (by omega)]; rfl) h
  refine ⟨r.1, t2, A, hinv', p3, k1, k4.trans b2, k2, by rw [k3, Nat.zero_add], ?_⟩
  rcases k6 (by show (r.1.states x).phase ≠ _; rw [p4]; simp) with k | ⟨k, k', k''⟩
  · exact .inl k
  · exact .inr ⟨k.trans p4, k'.trans p1, k''.trans p2⟩

/-- Nobody was told to be muted if the phase is the same. -/
theorem same_log {fuel x i : Nat} {w w1 w2 : IWorld} {A : Lists} (h : w.Inv False A) {duty : Int} {ds : List Bool}
    (hx : w.links.owner x = some i) (h1 : w.attack x duty = .ok w1) (h2 : w1.run fuel (ticksOf x ds) = .ok w2)
    (hp : (w2.states x).phase = .attack) :
    w2.log = w.log ∧ w2.Inv False A ∧ w2.links = w.links ∧ w2.instrs = w.instrs ∧ w2.heap = w.heap := by
  obtain ⟨b1, b2, b3, b4, b5, b6, -⟩ := attack_events (fuel := fuel) h ds hx h1
  have hx1 : w1.links.owner x = some i := by rw [b2]; exact hx
  obtain ⟨hinv, hl2, c3, c4⟩ := ticks_events ds w1 A b1 hx1 (by rw [b4]; simp) w2 h2
  have hlog : w2.log = w1.log := by
    by_cases hc : w1.EndIn i x ds ∧ (w1.states x).cnt 4 ≠ 0
    · have := (c3 hc).2
      rw [hp] at this
      cases this
    · exact (c4 hc).1
  obtain ⟨f1, f2, f3, -⟩ := ticks_slots ds w1 A b1 hx1 (by rw [b4]; simp) w2 h2 hlog
  exact ⟨hlog.trans b3, hinv, f3.trans b2, f1.trans b5, f2.trans b6⟩

/-- C98: the same for a track, after any legal calls.  A note after silence is played with an instrument,
then come `n` ticks.  No fault occurs; as long as the track is not muted each value sequence shows the value
written for the number of times the divider fired; and the track is not muted, and the note not over, if a sequence has a sustain range. -/
theorem C98_note (N fuel : Nat) (ops : List WOp) (s0 : TWorld) (x i d n : Nat) (t : Track) (v : Int)
    (hl : ({} : TWorld).LegalRun N fuel ops) (hf : ops.length + (n + 1) ≤ fuel) (h0 : ({} : TWorld).run fuel ops = .ok s0)
    (ht : s0.tracks x = some t) (hs : t.curNote = -1) (hx : s0.iw.links.owner x = some i) (hdv : t.instrDiv.divider = d)
    (hv : 0 ≤ v) (hv' : v ≤ 2147483647) :
    ∃ s t', s0.run fuel (notePlayed x v n) = .ok s ∧ s.tracks x = some t' ∧
      (t'.unit.mute = 0 → ∀ k vals so sl, vals ≠ [] → (NewSeq.values vals so sl).Short → s0.iw.Plays i k (.values vals so sl) →
        s.iw.value x k = heldValue vals so sl (firings d 0 n)) ∧
      ((∃ k new, new.Short ∧ s0.iw.Plays i k new ∧ new.Sustained) → t'.unit.mute = 0 ∧ t'.curNote = min v (96 * U20)) := by
  have hinv := ((TWorld.Inv.init N).run ops (by omega) hl)
  rw [h0] at hinv
  have hinv : s0.Inv (0 + ops.length) N := hinv
  have hd := (hinv.tracks x t ht).instrDiv.divider
  obtain ⟨s, e, -⟩ := (hinv.run (fuel := fuel) (notePlayed x v n) (by unfold notePlayed; rw [List.length_cons, List.length_replicate]; omega)
    (legal_note ⟨⟨by omega, by omega⟩, by omega⟩ n s0)).get trivial
  obtain ⟨w1, t2, A, k1, k2, k3, k4, k5, k6, k7⟩ := note_played hinv ht hs hx hdv hv e
  have hcount := dividedTicks_count (d := d) (by omega) 0 n
  rw [firings_zero (by omega), Nat.zero_add, Nat.zero_add] at hcount
  refine ⟨s, t2, e, k3, fun hm k vals so sl hne hsh hp => ?_, ?_⟩
  · rcases k7 with k | ⟨k, -⟩
    · omega
    rw [← hcount]
    exact held_value k1 hx k2 k5 (same_log k1 hx k2 k5 k).1 hsh hne hp
  · rintro ⟨k, new, q1, q2, q3⟩
    obtain ⟨id, q, e5, e6, hh⟩ := Plays.holds q2 q1 q3
    rcases k7 with ⟨k, -⟩ | ⟨-, k⟩
    · rw [(held_kept k1 hx k2 k5 e5 e6 hh).2] at k
      cases k
    · exact k

theorem released_inv {w2 w3 : IWorld} {A : Lists} (hinv : w2.Inv False A) {x i : Nat}
    (hx2 : w2.links.owner x = some i) (hph : (w2.states x).phase = .attack) (h3 : w2.setPhase x .release = .ok w3) :
    w3.Inv False A ∧ w3.links.owner x = some i ∧
      ((w3.states x).phase = .release ∨ (w3.states x).phase = .mute ∧ w3.log = w2.log ++ [(x, .mute)]) := by
  have hi2 := hinv.att x i hx2
  unfold IWorld.setPhase at h3
  rw [hx2] at h3
  obtain ⟨r, e2, e3⟩ := bind_ok_iff.1 h3
  have hs := IState.setPhase_inv (hinv.instrOk i) hi2.has.ready (p := .release) (by simp [hph])
  rw [e2] at hs
  simp only [pure_eq_ok, Except.ok.injEq] at e3
  have es : w3.states x = r.2 := by rw [← e3]; exact upd_self _ _ _
  refine ⟨by rw [← e3]; exact hinv.setState hx2 hs.1 _, by rw [← e3]; exact hx2, ?_⟩
  rw [es]
  rcases IState.setPhase_release e2 with ⟨h, -⟩ | ⟨h, h'⟩
  · exact .inl h
  · refine .inr ⟨h, ?_⟩
    rw [← e3]
    show w2.log ++ r.1.map _ = _
    rw [h', hph, if_neg (by simp)]
    rfl

/-- Nobody is told anything while the phase is the same. -/
theorem release_log {fuel : Nat} {w2 w3 w4 : IWorld} {A : Lists} (hinv : w2.Inv False A) {x i : Nat}
    (hx2 : w2.links.owner x = some i) (hph : (w2.states x).phase = .attack) (h3 : w2.setPhase x .release = .ok w3) {ds : List Bool}
    (h4 : w3.run fuel (ticksOf x ds) = .ok w4) (hp4 : (w4.states x).phase = .release) (hp3 : (w3.states x).phase = .release) :
    w4.log = w3.log := by
  obtain ⟨i3, x3, -⟩ := released_inv hinv hx2 hph h3
  obtain ⟨-, -, c3, c4⟩ := ticks_events ds w3 A i3 x3 (by rw [hp3]; simp) w4 h4
  by_cases hc : w3.EndIn i x ds ∧ (w3.states x).cnt 4 ≠ 0
  · have := (c3 hc).2
    rw [hp4] at this
    cases this
  · exact (c4 hc).1

theorem release_log_mute {fuel : Nat} {w2 w3 w4 : IWorld} {A : Lists} (hinv : w2.Inv False A) {x i : Nat}
    (hx2 : w2.links.owner x = some i) (hph : (w2.states x).phase = .attack) (h3 : w2.setPhase x .release = .ok w3) {ds : List Bool}
    (h4 : w3.run fuel (ticksOf x ds) = .ok w4) (hp4 : (w4.states x).phase = .mute) (hlog : w4.log = w2.log) : False := by
  obtain ⟨i3, x3, hp⟩ := released_inv hinv hx2 hph h3
  rcases hp with hp | ⟨hp, hl⟩
  · have hl3 : w3.log = w2.log ∨ w3.log = w2.log ++ [(x, .mute)] := by
      unfold IWorld.setPhase at h3
      rw [hx2] at h3
      obtain ⟨r, e2, e3⟩ := bind_ok_iff.1 h3
      cases e3
      rcases IState.setPhase_told e2 with e | e
      · left; show w2.log ++ r.1.map _ = _; rw [e]; simp
      · right; show w2.log ++ r.1.map _ = _; rw [e]; rfl
    obtain ⟨-, -, c3, c4⟩ := ticks_events ds w3 A i3 x3 (by rw [hp]; simp) w4 h4
    by_cases hc : w3.EndIn i x ds ∧ (w3.states x).cnt 4 ≠ 0
    · have := (c3 hc).1
      rw [hlog] at this
      rcases hl3 with e | e <;> rw [e] at this <;> simp at this
    · have := (c4 hc).2
      rw [hp4, hp] at this
      cases this
  · obtain ⟨m1, -, -, -⟩ := muted_ticks ds w3 A i3 x3 hp w4 h4
    rw [hlog, hl] at m1
    simp at m1

theorem simple_total {vals : List Int} {so sl : Int} {q : SimpleSeq} (hl : vals.length < 536870912) (hso : InI32 so)
    (hsl : InI32 sl) (hq : SimpleSeq.create vals so sl = .ok (some q)) (st : SeqState) (p : SeqPhase) (ds : List Bool) :
    ∃ r, Sequence.play (.simple q) st p ds = .ok r := by
  rw [SimpleSeq.create_eq hl hso hsl] at hq
  have hle := sustain_le vals.length so sl
  generalize sustainBegin vals.length so = b at *
  generalize sustainSize vals.length so sl = z at *
  cases hq
  have hst : ∀ (ds : List Bool) (st : SeqState), 0 ≤ st.offset →
      ∃ r, Sequence.play.steps (.simple ⟨vals, vals.length, b, z⟩) st ds = .ok r := by
    intro ds
    induction ds with
    | nil => intro st _; exact ⟨_, rfl⟩
    | cons d ds ih =>
      intro st ho
      obtain ⟨r, hr, ho2⟩ := SimpleSeq.exec_ok (b := b) (z := z) hl hle (op := .step d) (.inl ho)
      have hr : Sequence.step (.simple ⟨vals, vals.length, b, z⟩) st d = .ok r := hr
      obtain ⟨t, ht⟩ := ih r.2 ho2
      unfold Sequence.play.steps
      rw [hr, ok_bind, ht, ok_bind]
      exact ⟨_, rfl⟩
  obtain ⟨r, hr, ho2⟩ := SimpleSeq.exec_ok (b := b) (z := z) (st := st) hl hle (op := .setPhase p) (.inr ⟨p, rfl⟩)
  have hr : Sequence.setPhase (.simple ⟨vals, vals.length, b, z⟩) st p = .ok r := hr
  obtain ⟨t, ht⟩ := hst ds r.2 ho2
  unfold Sequence.play
  rw [hr, ok_bind, ht, ok_bind]
  exact ⟨_, rfl⟩

/-- All sequences of instrument `i` are value sequences. -/
def IWorld.OnlyValues (w : IWorld) (i : Nat) : Prop :=
  ∀ k id, (w.instrs i).sequences k = some id →
    ∃ vals so sl, vals ≠ [] ∧ (NewSeq.values vals so sl).Short ∧ w.Plays i k (.values vals so sl)

/-- What is known about a value sequence. -/
theorem Plays.simple {w : IWorld} {i k id : Nat} {q : Sequence} {vals : List Int} {so sl : Int} (h : w.Plays i k (.values vals so sl))
    (hne : vals ≠ []) (e5 : (w.instrs i).sequences k = some id) (e6 : w.heap id = some q) :
    ∃ sq, q = .simple sq ∧ SimpleSeq.create vals so sl = .ok (some sq) := by
  obtain ⟨id', q', e1, e2, e7⟩ := h
  rw [e5] at e1; cases e1
  rw [e6] at e2; cases e2
  unfold NewSeq.create at e7
  dsimp only at e7
  rw [if_neg hne] at e7
  obtain ⟨o, ho, e7⟩ := bind_ok_iff.1 e7
  cases o with
  | none => simp [pure_eq_ok] at e7
  | some sq => cases e7; exact ⟨sq, rfl, ho⟩

theorem allEndNote_iff {w w1 : IWorld} {A : Lists} (h : w.Inv False A) {x i : Nat}
    {duty : Int} (hx : w.links.owner x = some i) (h1 : w.attack x duty = .ok w1) (ho : w.OnlyValues i) {ds : List Bool} :
    w.AllEndNote i x duty ds ↔
      ∀ k vals so sl, vals ≠ [] → (NewSeq.values vals so sl).Short → w.Plays i k (.values vals so sl) → heldOver vals so (ds.count true) := by
  constructor
  · intro ha k vals so sl hne hsh hp
    obtain ⟨id, q, e5, e6, -⟩ := id hp
    obtain ⟨sq, rfl, hc⟩ := Plays.simple hp hne e5 e6
    obtain ⟨rets, ⟨id', q', st, st', a1, a2, -, a4⟩, a5⟩ := ha k id e5
    rw [e5] at a1; cases a1
    rw [e6] at a2; cases a2
    exact (play_held_ends hsh.1 hsh.2.1 hsh.2.2 hne hc a4).1 a5
  · intro hall k id e5
    obtain ⟨vals, so, sl, hne, hsh, hp⟩ := ho k id e5
    have hov := hall k vals so sl hne hsh hp
    obtain ⟨hk, -, q, e6, -⟩ := h.live i k id e5
    obtain ⟨sq, rfl, hc⟩ := Plays.simple hp hne e5 e6
    obtain ⟨st, r, k1, k2⟩ := attack_slots h hx h1 e5 e6
    obtain ⟨rr, hrun⟩ := simple_total hsh.1 hsh.2.1 hsh.2.2 hc st .attack ds
    exact ⟨rr.1, ⟨id, _, st, rr.2, e5, e6, k1, hrun⟩, (play_held_ends hsh.1 hsh.2.1 hsh.2.2 hne hc hrun).2 hov⟩

theorem allEnd_iff {w : IWorld} {A : Lists} (h : w.Inv False A) {x i : Nat} (ho : w.OnlyValues i) {ds : List Bool} :
    w.AllEnd i x .release ds ↔
      ∀ k vals so sl, vals ≠ [] → (NewSeq.values vals so sl).Short → w.Plays i k (.values vals so sl) →
        releasedOver vals so sl (ds.count true) := by
  constructor
  · intro ha k vals so sl hne hsh hp
    obtain ⟨id, q, e5, e6, -⟩ := id hp
    obtain ⟨sq, rfl, hc⟩ := Plays.simple hp hne e5 e6
    obtain ⟨rets, ⟨id', q', st', a1, a2, a4⟩, a5⟩ := ha k id e5
    rw [e5] at a1; cases a1
    rw [e6] at a2; cases a2
    exact (play_released_ends hsh.1 hsh.2.1 hsh.2.2 hc a4).1 a5
  · intro hall k id e5
    obtain ⟨vals, so, sl, hne, hsh, hp⟩ := ho k id e5
    have hov := hall k vals so sl hne hsh hp
    obtain ⟨hk, -, q, e6, -⟩ := h.live i k id e5
    obtain ⟨sq, rfl, hc⟩ := Plays.simple hp hne e5 e6
    obtain ⟨rr, hrun⟩ := simple_total hsh.1 hsh.2.1 hsh.2.2 hc ((w.states x).slots k).st .release ds
    exact ⟨rr.1, ⟨id, _, rr.2, e5, e6, hrun⟩, (play_released_ends hsh.1 hsh.2.1 hsh.2.2 hc hrun).2 hov⟩

/-- C98: a note that is held ends, and the track is muted, exactly when every sequence is past its last value (for an instrument
with value sequences only, at least one). -/
theorem C98_note_ends (N fuel : Nat) (ops : List WOp) (s0 : TWorld) (x i d n : Nat) (t : Track) (v : Int)
    (hl : ({} : TWorld).LegalRun N fuel ops) (hf : ops.length + (n + 1) ≤ fuel) (h0 : ({} : TWorld).run fuel ops = .ok s0)
    (ht : s0.tracks x = some t) (hs : t.curNote = -1) (hx : s0.iw.links.owner x = some i) (hdv : t.instrDiv.divider = d)
    (hv : 0 ≤ v) (hv' : v ≤ 2147483647) (ho : s0.iw.OnlyValues i) (hsome : ∃ k, (s0.iw.instrs i).sequences k ≠ none) :
    ∃ s t', s0.run fuel (notePlayed x v n) = .ok s ∧ s.tracks x = some t' ∧
      (t'.unit.mute = 1 ↔ ∀ k vals so sl, vals ≠ [] → (NewSeq.values vals so sl).Short → s0.iw.Plays i k (.values vals so sl) →
        heldOver vals so (firings d 0 n)) := by
  have hinv := ((TWorld.Inv.init N).run ops (by omega) hl)
  rw [h0] at hinv
  have hinv : s0.Inv (0 + ops.length) N := hinv
  have hd := (hinv.tracks x t ht).instrDiv.divider
  obtain ⟨s, e, -⟩ := (hinv.run (fuel := fuel) (notePlayed x v n) (by unfold notePlayed; rw [List.length_cons, List.length_replicate]; omega)
    (legal_note ⟨⟨by omega, by omega⟩, by omega⟩ n s0)).get trivial
  obtain ⟨w1, t2, A, k1, k2, k3, k4, k5, k6, k7⟩ := note_played hinv ht hs hx hdv hv e
  have hcount := dividedTicks_count (d := d) (by omega) 0 n
  rw [firings_zero (by omega), Nat.zero_add, Nat.zero_add] at hcount
  refine ⟨s, t2, e, k3, ?_⟩
  rw [← hcount, ← allEndNote_iff k1 hx k2 ho]
  obtain ⟨b1, b2, b3, b4, -, -, b7⟩ := attack_events (fuel := fuel) k1 (dividedTicks d 0 n) hx k2
  have b8 := (attack_events (fuel := fuel) k1 [] hx k2).2.2.2.2.2.2
  have hx1 : w1.links.owner x = some i := by rw [b2]; exact hx
  obtain ⟨c1, c2, c3, c4⟩ := ticks_events (dividedTicks d 0 n) w1 A b1 hx1 (by rw [b4]; simp) s.iw k5
  have hcnt : (w1.states x).cnt 4 ≠ 0 := by
    rw [Ne, ← IWorld.EndIn_nil b1 hx1, ← b8, allEndNote_iff k1 hx k2 ho]
    intro hall
    obtain ⟨k, hk⟩ := hsome
    obtain ⟨id, hid⟩ := Option.ne_none_iff_exists'.1 hk
    obtain ⟨vals, so, sl, hne, hsh, hp⟩ := ho k id hid
    have := (hall k vals so sl hne hsh hp).2
    simp at this
  rw [b7]
  constructor
  · intro hm
    by_contra hc
    have := (c4 fun h => hc h.1).2
    rcases k7 with ⟨k, -⟩ | ⟨-, k, -⟩
    · rw [k, b4] at this; cases this
    · omega
  · intro hc
    have := (c3 ⟨hc, hcnt⟩).2
    rcases k7 with ⟨-, k⟩ | ⟨k, -⟩
    · exact k
    · rw [k] at this; cases this

/-- Releasing does not unmute. -/
theorem Track.release_muted {x : Nat} {w : IWorld} {t : Track} {r : IWorld × Track} (h : t.setNote x w (-1) = .ok r)
    (hon : w.on x = true) :
    r.2.instrDiv = t.instrDiv ∧ w.setPhase x .release = .ok r.1 ∧ (t.unit.mute = 1 → r.2.unit.mute = 1) ∧
    ((w.states x).phase = .attack → (r.1.states x).phase = .mute ∧ r.2.unit.mute = 1 ∨
      (r.1.states x).phase = .release ∧ r.2.unit.mute = t.unit.mute ∧ r.1.log = w.log) := by
  unfold Track.setNote Track.noteCase at h
  rw [if_neg (by decide), if_pos rfl] at h
  obtain ⟨r1, h1, h⟩ := bind_ok_iff.1 h
  cases h
  dsimp only
  unfold Track.releaseNote at h1
  dsimp only at h1
  rw [if_pos hon] at h1
  obtain ⟨r2, h2, h1⟩ := bind_ok_iff.1 h1
  obtain ⟨t1, k1, h1⟩ := bind_ok_iff.1 h1
  cases h1
  unfold Track.instrPhase at h2
  obtain ⟨w', hw, h2⟩ := bind_ok_iff.1 h2
  obtain ⟨t2, k2, h2⟩ := bind_ok_iff.1 h2
  cases h2
  dsimp only at k1 ⊢
  have km := Track.setUnit_mute (by simp) k1
  refine ⟨?_, hw, fun hm => ?_, fun hp => ?_⟩
  · rw [(Track.setUnit_same k1).instrDiv]
    exact (Track.hear_same k2).instrDiv
  · rw [km]
    rcases IWorld.setPhase_news hw with e | e
    · rw [Track.hear_nil e] at k2; cases k2; exact hm
    · rw [Track.hear_single e] at k2
      exact (Track.told_mute k2).1
  · rcases IWorld.setPhase_release hon hw with ⟨e, en⟩ | ⟨e, en⟩
    · refine .inr ⟨e, ?_, ?_⟩
      · rw [km]
        rw [Track.hear_nil en] at k2
        cases k2
        rfl
      · unfold IWorld.setPhase at hw
        split at hw
        · cases hw; rfl
        · obtain ⟨q, hq, hw⟩ := bind_ok_iff.1 hw
          cases hw
          have e : (upd w.states x q.2 x).phase = .release := e
          rw [upd_self] at e
          rcases IState.setPhase_release hq with ⟨-, h2⟩ | ⟨h1, -⟩
          · show w.log ++ q.1.map _ = _
            rw [h2]
            simp
          · rw [h1] at e; cases e
    · refine .inl ⟨e, ?_⟩
      rw [hp, if_neg (by simp)] at en
      rw [Track.hear_single en] at k2
      rw [km]
      exact (Track.told_mute k2).1

/-- What a note and its release do. -/
theorem note_released {m N fuel x i d n k : Nat} {s0 s1 s : TWorld} {t : Track} {v : Int} (hinv : s0.Inv m N) (ht : s0.tracks x = some t)
    (hs : t.curNote = -1) (hx : s0.iw.links.owner x = some i) (hdv : t.instrDiv.divider = d) (hv : 0 ≤ v)
    (h : s0.run fuel (notePlayed x v n) = .ok s1) (h' : s1.run fuel (notePlayed x (-1) k) = .ok s) :
    ∃ t1 t2, s1.tracks x = some t1 ∧ s.tracks x = some t2 ∧ (t1.unit.mute = 1 → t2.unit.mute = 1) ∧
      (t1.unit.mute = 0 → ∃ w3 A, s0.iw.Inv False A ∧ s1.iw.Inv False A ∧ s1.iw.links = s0.iw.links ∧
        s1.iw.instrs = s0.iw.instrs ∧ s1.iw.heap = s0.iw.heap ∧ (s1.iw.states x).phase = .attack ∧
        s1.iw.setPhase x .release = .ok w3 ∧ w3.run fuel (ticksOf x (dividedTicks d n k)) = .ok s.iw ∧
        (t2.unit.mute = 1 ∧ (s.iw.states x).phase = .mute ∨
          t2.unit.mute = 0 ∧ (s.iw.states x).phase = .release ∧ (w3.states x).phase = .release ∧ w3.log = s1.iw.log)) := by
  obtain ⟨w1, t1, A, a1, a2, a3, a4, a5, a6, a7⟩ := note_played hinv ht hs hx hdv hv h
  have hd := (hinv.tracks x t ht).instrDiv.divider
  have hx1 : s1.iw.links.owner x = some i := by rw [a4]; exact hx
  unfold notePlayed TWorld.run at h'
  obtain ⟨s2, h1, h'⟩ := bind_ok_iff.1 h'
  unfold TWorld.exec at h1
  dsimp only at h1
  rw [a3] at h1
  obtain ⟨r0, hr0, h1⟩ := bind_ok_iff.1 h1
  cases h1
  obtain ⟨⟨ret, r⟩, hr1, e⟩ := bind_ok_iff.1 hr0
  cases e
  obtain ⟨r', hr, e⟩ := bind_ok_iff.1 hr1
  cases e
  have hon : s1.iw.on x = true := by unfold IWorld.on; rw [hx1]; rfl
  obtain ⟨p1, p2, p3, p4⟩ := Track.release_muted hr hon
  have hl2 : r.1.links = s1.iw.links := by
    unfold IWorld.setPhase at p2
    rw [hx1] at p2
    obtain ⟨q, -, p2⟩ := bind_ok_iff.1 p2
    rw [← Except.ok.inj p2]
  obtain ⟨t2, k1, k2, k3, k4, k5, k5', k6⟩ := track_ticks (i := i) (d := d) (by omega) (by omega) k n
    (s := ⟨r.1, upd s1.tracks x (some r.2)⟩) (t := r.2) (upd_self _ _ _) (by rw [← hx1]; exact congrArg (fun l => l.owner x) hl2)
    (by rw [p1, a6]) h'
  refine ⟨t1, t2, a3, k1, fun hm => k5 (p3 hm), fun hm => ?_⟩
  have hph : (s1.iw.states x).phase = .attack := by
    rcases a7 with ⟨-, g⟩ | ⟨g, -⟩
    · omega
    · exact g
  obtain ⟨-, f2, f3, f4, f5⟩ := same_log a1 hx a2 a5 hph
  refine ⟨r.1, A, a1, f2, f3, f4, f5, hph, p2, k2, ?_⟩
  rcases p4 hph with ⟨g1, g2⟩ | ⟨g1, g2, g3⟩
  · exact .inl ⟨k5 g2, k5' g1⟩
  · rcases k6 (by show (r.1.states x).phase ≠ _; rw [g1]; simp) with g | ⟨g, g', -⟩
    · exact .inl ⟨g.2, g.1⟩
    · exact .inr ⟨by rw [g', g2, hm], g.trans g1, g1, g3⟩

theorem released_run {N fuel x n k : Nat} {v : Int} {m : Nat} {s0 : TWorld} (hinv : s0.Inv m N) (hv : Plain v)
    (hf : m + (n + 1) + (k + 1) ≤ fuel) :
    ∃ s1 s, s0.run fuel (notePlayed x v n) = .ok s1 ∧ s1.run fuel (notePlayed x (-1) k) = .ok s := by
  obtain ⟨s1, e, h1⟩ := (hinv.run (fuel := fuel) (notePlayed x v n)
    (by unfold notePlayed; rw [List.length_cons, List.length_replicate]; omega) (legal_note hv n s0)).get trivial
  obtain ⟨s, e', -⟩ := (h1.run (fuel := fuel) (notePlayed x (-1) k)
    (by unfold notePlayed; simp only [List.length_cons, List.length_replicate]; omega)
    (legal_note (Plain.of (by omega) (by omega)) k s1)).get trivial
  exact ⟨s1, s, e, e'⟩

/-- C98: the note is released after `n` ticks, then come `k` ticks.  No fault occurs; as long as the track is not muted each value
sequence shows the values behind its sustain range.  If there are only value sequences the track is muted exactly when all of them are
past their last value. -/
theorem C98_note_release (N fuel : Nat) (ops : List WOp) (s0 : TWorld) (x i d n k : Nat) (t : Track) (v : Int)
    (hl : ({} : TWorld).LegalRun N fuel ops) (hf : ops.length + (n + 1) + (k + 1) ≤ fuel) (h0 : ({} : TWorld).run fuel ops = .ok s0)
    (ht : s0.tracks x = some t) (hs : t.curNote = -1) (hx : s0.iw.links.owner x = some i) (hdv : t.instrDiv.divider = d)
    (hv : 0 ≤ v) (hv' : v ≤ 2147483647) :
    ∃ s1 s t1 t2, s0.run fuel (notePlayed x v n) = .ok s1 ∧ s1.run fuel (notePlayed x (-1) k) = .ok s ∧
      s1.tracks x = some t1 ∧ s.tracks x = some t2 ∧
      (t2.unit.mute = 0 → ∀ j vals so sl, vals ≠ [] → (NewSeq.values vals so sl).Short → s0.iw.Plays i j (.values vals so sl) →
        s.iw.value x j = releasedValue vals so sl (heldValue vals so sl (firings d 0 n)) (firings d 0 (n + k) - firings d 0 n)) ∧
      (t1.unit.mute = 0 → s0.iw.OnlyValues i →
        (t2.unit.mute = 1 ↔ ∀ j vals so sl, vals ≠ [] → (NewSeq.values vals so sl).Short → s0.iw.Plays i j (.values vals so sl) →
          releasedOver vals so sl (firings d 0 (n + k) - firings d 0 n))) := by
  have hinv := ((TWorld.Inv.init N).run ops (by omega) hl)
  rw [h0] at hinv
  have hinv : s0.Inv (0 + ops.length) N := hinv
  have hd := (hinv.tracks x t ht).instrDiv.divider
  obtain ⟨s1, s, e, e'⟩ := released_run (x := x) (n := n) (k := k) (v := v) (fuel := fuel) hinv ⟨⟨by omega, by omega⟩, by omega⟩ (by omega)
  obtain ⟨t1, t2, a1, a2, a3, a4⟩ := note_released hinv ht hs hx hdv hv e e'
  obtain ⟨w1, t1', A', b1, b2, b3, b4, b5, b6, b7⟩ := note_played hinv ht hs hx hdv hv e
  rw [a1] at b3
  cases b3
  have hcount := dividedTicks_count (d := d) (by omega) 0 n
  rw [firings_zero (by omega), Nat.zero_add, Nat.zero_add] at hcount
  have hcount2 := dividedTicks_count (d := d) (by omega) n k
  have hcount2 : (dividedTicks d n k).count true = firings d 0 (n + k) - firings d 0 n := by omega
  refine ⟨s1, s, t1, t2, e, e', a1, a2, fun hm j vals so sl hne hsh hp => ?_, fun hm ho => ?_⟩
  · have hm1 : t1.unit.mute = 0 := by
      rcases b7 with ⟨-, g⟩ | ⟨-, g, -⟩
      · have := a3 g; omega
      · exact g
    obtain ⟨w3, A, c1, c2, c3, c4, c5, c6, c7, c8, c9⟩ := a4 hm1
    have hx1 : s1.iw.links.owner x = some i := by rw [c3]; exact hx
    obtain ⟨hlog, -⟩ := same_log b1 hx b2 b5 c6
    rw [← hcount2, ← hcount, ← held_value b1 hx b2 b5 hlog hsh hne hp]
    refine released_value c2 hx1 c6 c7 c8 ?_ hsh hne ?_
    · rcases c9 with ⟨g, -⟩ | ⟨-, g1, g2, g3⟩
      · omega
      · rw [← g3]
        exact release_log c2 hx1 c6 c7 c8 g1 g2
    · obtain ⟨id, q, e5, e6, e7⟩ := hp
      exact ⟨id, q, by rw [c4]; exact e5, by rw [c5]; exact e6, e7⟩
  · obtain ⟨w3, A, c1, c2, c3, c4, c5, c6, c7, c8, c9⟩ := a4 hm
    have hx1 : s1.iw.links.owner x = some i := by rw [c3]; exact hx
    have hpl : ∀ j new, s1.iw.Plays i j new ↔ s0.iw.Plays i j new := by
      intro j new
      unfold IWorld.Plays
      rw [c4, c5]
    have ho1 : s1.iw.OnlyValues i := by
      intro j id h
      rw [c4] at h
      obtain ⟨vals, so, sl, q1, q2, q3⟩ := ho j id h
      exact ⟨vals, so, sl, q1, q2, (hpl _ _).2 q3⟩
    rw [← hcount2]
    have := allEnd_iff (x := x) c2 ho1 (ds := dividedTicks d n k)
    simp only [hpl] at this
    rw [← this]
    obtain ⟨r1, r2⟩ := release_events c2 hx1 c6 c7 c8
    rcases c9 with ⟨g1, g2⟩ | ⟨g1, g2, g3, g4⟩
    · refine ⟨fun _ => ?_, fun _ => g1⟩
      by_contra hc
      have hlg := r2 hc
      exact release_log_mute c2 hx1 c6 c7 c8 g2 hlg
    · refine ⟨fun h => by omega, fun hc => ?_⟩
      have := r1 hc
      rw [← g4, release_log c2 hx1 c6 c7 c8 g2 g3] at this
      simp at this

/-! ### Examples -/

/-- An instrument with a volume and a pitch sequence, which advance on every second tick. -/
def playedOps : List WOp :=
  [.init 0 16385, .setSequence 0 0 (.values [32767, 20000, 10000, 0] 1 2), .setSequence 0 2 (.values [0, 1048576, 0] 3 0),
   .track 0 (.attr .instrDivider 2), .track 0 (.instrument (some 0))]

theorem played_legal (fuel : Nat) : ({} : TWorld).LegalRun 2 fuel playedOps := by
  refine TWorld.LegalRun.of_all _ _ ?_
  intro op hop s
  unfold playedOps at hop
  simp only [List.mem_cons, List.not_mem_nil, or_false] at hop
  rcases hop with rfl | rfl | rfl | rfl | rfl
  · exact Plain.of (by decide) (by decide)
  · refine ⟨?_, ?_, ?_⟩ <;> simp [NewSeq.Short, NewSeq.Usual, NewSeq.Modest, seqLimit, InI32]
  · refine ⟨?_, ?_, ?_⟩ <;> simp [NewSeq.Short, NewSeq.Usual, NewSeq.Modest, seqLimit, InI32]
  · exact fun t _ => ⟨Plain.of (by decide) (by decide), by show (1 : Int) ≤ 2; decide⟩
  · exact fun t _ => trivial

def playedView (s : TWorld) : Option (Int × Int) × Option Nat × Option Sequence :=
  ((s.tracks 0).map fun t => (t.curNote, t.instrDiv.divider), s.iw.links.owner 0, ((s.iw.instrs 0).sequences 0).bind s.iw.heap)

/-- The hypotheses of the theorems are met by the instrument above. -/
theorem played_start : ∃ s0 t, ({} : TWorld).run 40 playedOps = .ok s0 ∧ s0.tracks 0 = some t ∧ t.curNote = -1 ∧
    t.instrDiv.divider = 2 ∧ s0.iw.links.owner 0 = some 0 ∧ s0.iw.Plays 0 0 (.values [32767, 20000, 10000, 0] 1 2) := by
  have h : (({} : TWorld).run 40 playedOps).map playedView =
      .ok (some (-1, 2), some 0, some (.simple ⟨[32767, 20000, 10000, 0], 4, 1, 2⟩)) := by decide +kernel
  obtain ⟨s0, e⟩ := C80_never_faults_partial 2 40 playedOps (by decide) (played_legal 40)
  rw [e] at h
  have h : playedView s0 = _ := Except.ok.inj h
  unfold playedView at h
  simp only [Prod.mk.injEq] at h
  obtain ⟨h1, h2, h3⟩ := h
  cases ht : s0.tracks 0 with
  | none => rw [ht] at h1; cases h1
  | some t =>
    rw [ht] at h1
    simp only [Option.map_some, Option.some.injEq, Prod.mk.injEq] at h1
    obtain ⟨id, e1, e2⟩ := Option.bind_eq_some_iff.1 h3
    exact ⟨s0, t, e, ht, h1.1, h1.2, h2, id, _, e1, e2, by decide⟩

example : ∃ s0 s t', ({} : TWorld).run 40 playedOps = .ok s0 ∧ s0.run 40 (notePlayed 0 50331648 13) = .ok s ∧ s.tracks 0 = some t' ∧
    t'.unit.mute = 0 ∧ t'.curNote = 50331648 ∧ s.iw.value 0 0 = 10000 := by
  obtain ⟨s0, t, h0, ht, hs, hdv, hx, hp⟩ := played_start
  have hsh : (NewSeq.values [32767, 20000, 10000, 0] 1 2).Short := by simp [NewSeq.Short, InI32]
  obtain ⟨s, t', k1, k2, k3, k4⟩ := C98_note 2 40 playedOps s0 0 0 2 13 t 50331648 (played_legal 40) (by decide) h0 ht hs hx hdv
    (by decide) (by decide)
  obtain ⟨k5, k6⟩ := k4 ⟨0, _, hsh, hp, by show sustainBegin 4 1 < 4; decide⟩
  exact ⟨s0, s, t', h0, k1, k2, k5, k6, (k3 k5 0 _ _ _ (by simp) hsh hp).trans (by decide)⟩

/-- Volume, pitch and mute flag after the note, `n` ticks, the release and `k` ticks. -/
def playedAfter (n k : Nat) : C (Int × Int × Option Int) :=
  (({} : TWorld).run 40 (playedOps ++ notePlayed 0 50331648 n ++ notePlayed 0 (-1) k)).map fun s =>
    (s.iw.value 0 0, s.iw.value 0 2, (s.tracks 0).map (·.unit.mute))

example : (List.range 12).map (heldValue [32767, 20000, 10000, 0] 1 2) =
    [32767, 32767, 20000, 10000, 20000, 10000, 20000, 10000, 20000, 10000, 20000, 10000] := by decide

/-- The release begins with the value behind the sustain range and ends two divided ticks later, at the fourth tick. -/
example : [playedAfter 13 0, playedAfter 13 1, playedAfter 13 2, playedAfter 13 3, playedAfter 13 4] =
    [.ok (0, 0, some 0), .ok (0, 0, some 0), .ok (0, 0, some 0), .ok (0, 0, some 0), .ok (0, 0, some 1)] := by decide +kernel

end BK
