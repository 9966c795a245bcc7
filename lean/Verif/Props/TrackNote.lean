import Verif.Lemmas.TrackNote
import Verif.Lemmas.IWorld
/-!
C57: notes, release and mute.
-/
namespace BK

theorem IState.setPhase_attack {heap : SeqHeap} {ins : Instr} {x : IState}
    {r : List InstrEvent × IState} (h : x.setPhase heap ins .attack = .ok r) :
    r.1 = [] ∧ r.2.phase = .attack := by
  unfold IState.setPhase at h
  obtain ⟨c, hc, h⟩ := bind_ok_iff.1 h
  unfold IState.setPhaseCore at hc
  rw [if_neg (by simp)] at hc
  obtain ⟨l, hl, hc⟩ := bind_ok_iff.1 hc
  rw [if_neg (by simp)] at hc
  cases hc
  cases h
  exact ⟨rfl, rfl⟩

theorem IWorld.setPhase_attack {w w' : IWorld} {x : Nat} (hon : w.on x = true)
    (h : w.setPhase x .attack = .ok w') :
    w.news w' x = [] ∧ (w'.states x).phase = .attack := by
  unfold IWorld.setPhase at h
  unfold IWorld.on at hon
  split at h
  · rename_i h0; rw [h0] at hon; cases hon
  · obtain ⟨r, hr, h⟩ := bind_ok_iff.1 h
    cases h
    obtain ⟨e1, e2⟩ := IState.setPhase_attack hr
    unfold IWorld.news
    dsimp only
    rw [List.drop_left, e1]
    refine ⟨rfl, ?_⟩
    unfold upd
    simpa using e2

theorem IWorld.attack_phase {w w' : IWorld} {x : Nat} {duty : Int} (hon : w.on x = true)
    (h : w.attack x duty = .ok w') : w.news w' x = [] ∧ (w'.states x).phase = .attack := by
  unfold IWorld.attack at h
  obtain ⟨w1, h1, h⟩ := bind_ok_iff.1 h
  have : w1.log = w.log ∧ w1.links = w.links := by
    unfold IWorld.initValues at h1
    split at h1
    · cases h1; exact ⟨rfl, rfl⟩
    · split at h1
      · cases h1; exact ⟨rfl, rfl⟩
      · obtain ⟨s, -, h1⟩ := bind_ok_iff.1 h1
        cases h1; exact ⟨rfl, rfl⟩
  have := IWorld.setPhase_attack (w := w1) (by unfold IWorld.on at hon ⊢; rw [this.2]; exact hon) h
  unfold IWorld.news at this ⊢
  rename_i e
  rw [e.1] at this
  exact this

theorem IWorld.on_false {w : IWorld} {x : Nat} (h : ¬ w.on x = true) : w.on x = false := by
  simpa using h

/-- Playing a note, whatever the state: the track is not muted and plays that note, or the highest
possible.  If there was silence, the instrument starts its attack; if another note was playing,
nothing happens to the instrument. -/
theorem C57_play (x : Nat) (w : IWorld) (t : Track) (n : Int) (hn : 0 ≤ n) (r : IWorld × Track)
    (h : t.setNote x w n = .ok r) :
    r.2.unit.mute = 0 ∧ r.2.curNote = min n (96 * U20) ∧
    (t.curNote = -1 → w.on x = true →
      w.attack x t.dutyCycle = .ok r.1 ∧ (r.1.states x).phase = .attack) ∧
    (t.curNote ≠ -1 → r.1 = w) := by
  unfold Track.setNote Track.noteCase at h
  rw [if_pos (show n ≥ 0 from hn)] at h
  obtain ⟨r1, h1, h⟩ := bind_ok_iff.1 h
  cases h
  unfold Track.playNote at h1
  obtain ⟨s, -, h1⟩ := bind_ok_iff.1 h1
  obtain ⟨r2, h2, h1⟩ := bind_ok_iff.1 h1
  obtain ⟨t1, k1, h1⟩ := bind_ok_iff.1 h1
  obtain ⟨t2, k2, h1⟩ := bind_ok_iff.1 h1
  obtain ⟨t3, k3, h1⟩ := bind_ok_iff.1 h1
  cases h1
  dsimp only
  have hc : cclamp n 0 (96 * U20) = min n (96 * U20) := by
    unfold cclamp; split
    · omega
    · split <;> omega
  refine ⟨?_, ?_, ?_, ?_⟩
  · rw [Track.setUnit_mute (by simp) k3, Track.setMute k2]
    rfl
  · rw [(Track.setUnit_note k3).curNote, (Track.setUnit_note k2).curNote]
    exact hc
  · intro hs hon
    unfold Track.startNote at h2
    dsimp only at h2
    rw [if_pos hs, if_pos hon] at h2
    obtain ⟨r3, h3, h2⟩ := bind_ok_iff.1 h2
    cases h2
    unfold Track.instrAttack at h3
    obtain ⟨w', hw, h3⟩ := bind_ok_iff.1 h3
    obtain ⟨t4, h4, h3⟩ := bind_ok_iff.1 h3
    cases h3
    exact ⟨hw, (IWorld.attack_phase hon hw).2⟩
  · intro hs
    unfold Track.startNote at h2
    dsimp only at h2
    rw [if_neg hs] at h2
    cases h2
    rfl

theorem IWorld.setPhase_again {w : IWorld} {x : Nat} (h : (w.states x).phase = .release) :
    w.setPhase x .release = .ok w := by
  unfold IWorld.setPhase
  split
  · rfl
  · unfold IState.setPhase IState.setPhaseCore
    rw [if_pos ⟨h, rfl⟩]
    show Except.ok _ = _
    congr 1
    show IWorld.mk w.links (upd w.states x (w.states x)) w.instrs w.heap w.fresh (w.log ++ []) = w
    rw [upd_same, List.append_nil]

/-- Phase after release. -/
theorem IState.setPhase_release {heap : SeqHeap} {ins : Instr} {x : IState}
    {r : List InstrEvent × IState} (h : x.setPhase heap ins .release = .ok r) :
    r.2.phase = .release ∧ r.1 = [] ∨
    r.2.phase = .mute ∧ r.1 = if x.phase = .mute then [] else [.mute] := by
  have loop : ∀ {p : SeqPhase} {y l : IState},
      (List.range ins.numSequences).foldlM (IState.phaseStep heap ins p) { y with numActive := 0 } =
        .ok l → l.phase = y.phase := by
    intro p y l hl
    refine foldlM_inv (P := fun l : IState => l.phase = y.phase) (b := { y with numActive := 0 })
      ?_ _ rfl hl
    intro l i l' hl hs
    unfold IState.phaseStep at hs
    obtain ⟨-, -, hs⟩ := bind_ok_iff.1 hs
    split at hs
    · cases hs; exact hl
    · obtain ⟨r, -, hs⟩ := bind_ok_iff.1 hs
      dsimp only at hs
      split at hs
      · cases hs; exact hl
      · obtain ⟨r, -, hs⟩ := bind_ok_iff.1 hs
        cases hs; exact hl
  unfold IState.setPhase at h
  obtain ⟨c, hc, h⟩ := bind_ok_iff.1 h
  unfold IState.setPhaseCore at hc
  split at hc
  · rename_i hr
    cases hc
    cases h
    exact Or.inl ⟨hr.1, rfl⟩
  · obtain ⟨l, hl, hc⟩ := bind_ok_iff.1 hc
    have hp := loop hl
    dsimp only at hc
    by_cases h0 : l.numActive = 0
    · rw [if_pos ⟨h0, rfl⟩] at hc
      dsimp only at hc
      split at hc
      · rename_i hm
        cases hc
        cases h
        exact Or.inr ⟨hm, by rw [if_pos (hp ▸ hm)]⟩
      · rename_i hm
        cases hc
        rw [if_pos rfl] at h
        obtain ⟨d, hd, h⟩ := bind_ok_iff.1 h
        cases h
        right
        refine ⟨?_, by rw [if_neg (hp ▸ hm)]⟩
        unfold IState.setPhaseCore at hd
        rw [if_neg (by simp)] at hd
        obtain ⟨l', hl', hd⟩ := bind_ok_iff.1 hd
        have hp' := loop hl'
        rw [if_neg (by simp)] at hd
        dsimp only at hd
        split at hd
        · cases hd; first | exact hp' | rfl
        · cases hd; first | exact hp' | rfl
    · rw [if_neg (by simp [h0])] at hc
      cases hc
      cases h
      exact Or.inl ⟨rfl, rfl⟩

theorem IWorld.setPhase_release {w w' : IWorld} {x : Nat} (hon : w.on x = true)
    (h : w.setPhase x .release = .ok w') :
    (w'.states x).phase = .release ∧ w.news w' x = [] ∨
    (w'.states x).phase = .mute ∧ w.news w' x = if (w.states x).phase = .mute then [] else [.mute] := by
  unfold IWorld.setPhase at h
  unfold IWorld.on at hon
  split at h
  · rename_i h0; rw [h0] at hon; cases hon
  · obtain ⟨r, hr, h⟩ := bind_ok_iff.1 h
    cases h
    have e : upd w.states x r.2 x = r.2 := by unfold upd; simp
    unfold IWorld.news
    dsimp only
    rw [List.drop_left, e]
    rcases IState.setPhase_release hr with ⟨h1, h2⟩ | ⟨h1, h2⟩
    · rw [h2]; exact Or.inl ⟨h1, rfl⟩
    · right
      rw [h2]
      refine ⟨h1, ?_⟩
      split <;> simp

/-- Releasing: no note is playing any more.  With an instrument, its release phase begins, and a
second release does not change it; if nothing is left to play it is muted and so is the track.
Without instrument, a sample with a sustain range leaves it, anything else is muted. -/
theorem C57_release_partial (x : Nat) (w : IWorld) (t : Track) (r : IWorld × Track)
    (h : t.setNote x w (-1) = .ok r) :
    r.2.curNote = -1 ∧
    (w.on x = true → (r.1.states x).phase = .release ∨
      (r.1.states x).phase = .mute ∧ ((w.states x).phase ≠ .mute → r.2.unit.mute = 1)) ∧
    (w.on x = true → (w.states x).phase = .release → r.1 = w) ∧
    (w.on x = false → t.unit.sustainRange = false → r.1 = w ∧ r.2.unit.mute = 1) ∧
    (w.on x = false → t.unit.sustainRange = true →
      r.1 = w ∧ r.2.unit.release = true ∧ r.2.unit.mute = t.unit.mute) := by
  unfold Track.setNote Track.noteCase at h
  rw [if_neg (by decide), if_pos rfl] at h
  obtain ⟨r1, h1, h⟩ := bind_ok_iff.1 h
  cases h
  dsimp only
  unfold Track.releaseNote at h1
  dsimp only at h1
  split at h1
  · rename_i hon
    obtain ⟨r2, h2, h1⟩ := bind_ok_iff.1 h1
    obtain ⟨t1, k1, h1⟩ := bind_ok_iff.1 h1
    cases h1
    unfold Track.instrPhase at h2
    obtain ⟨w', hw, h2⟩ := bind_ok_iff.1 h2
    obtain ⟨t2, k2, h2⟩ := bind_ok_iff.1 h2
    cases h2
    dsimp only at k1 ⊢
    have km := Track.setUnit_mute (by simp) k1
    have kn := (Track.setUnit_note k1).curNote
    have hcur : t2.curNote = -1 := by
      rcases IWorld.setPhase_news hw with e | e
      · rw [Track.hear_nil e] at k2; cases k2; rfl
      · rw [Track.hear_single e] at k2
        exact (Track.told_mute k2).2
    refine ⟨by rw [kn]; exact hcur, fun _ => ?_, fun _ hp => ?_, fun h => ?_, fun h => ?_⟩
    · rcases IWorld.setPhase_release hon hw with ⟨e, -⟩ | ⟨e, en⟩
      · exact Or.inl e
      · refine Or.inr ⟨e, fun hm => ?_⟩
        rw [if_neg hm] at en
        rw [Track.hear_single en] at k2
        rw [km]
        exact (Track.told_mute k2).1
    · rw [IWorld.setPhase_again hp] at hw
      cases hw; rfl
    · rw [hon] at h; cases h
    · rw [hon] at h; cases h
  · rename_i hoff
    split at h1
    · rename_i hsus
      obtain ⟨t1, k1, h1⟩ := bind_ok_iff.1 h1
      cases h1
      refine ⟨(Track.setUnit_note k1).curNote, fun h => absurd h hoff, fun h => absurd h hoff,
        fun _ h => ?_, fun _ _ => ⟨rfl, ?_, ?_⟩⟩
      · rw [hsus] at h; cases h
      · obtain ⟨q, hq, rfl⟩ := Track.setUnit_eq k1
        show q.2.release = true
        unfold UCore.setAttr at hq
        dsimp only at hq
        rw [if_pos hsus] at hq
        split at hq
        · split at hq
          · cases hq; rfl
          · obtain ⟨z, -, hq⟩ := bind_ok_iff.1 hq
            cases hq; rfl
        · cases hq; rfl
      · have := Track.setUnit_mute (by simp) k1
        exact this
    · rename_i hsus
      obtain ⟨t1, k1, h1⟩ := bind_ok_iff.1 h1
      cases h1
      refine ⟨(Track.setUnit_note k1).curNote, fun h => absurd h hoff, fun h => absurd h hoff,
        fun _ h => ⟨rfl, ?_⟩, fun _ h => absurd h hsus⟩
      rw [Track.setMute k1]; rfl

theorem IWorld.setPhase_mute {w w' : IWorld} {x : Nat} (hon : w.on x = true)
    (h : w.setPhase x .mute = .ok w') : (w'.states x).phase = .mute := by
  unfold IWorld.setPhase at h
  unfold IWorld.on at hon
  split at h
  · rename_i h0; rw [h0] at hon; cases hon
  · obtain ⟨r, hr, h⟩ := bind_ok_iff.1 h
    cases h
    have e : upd w.states x r.2 x = r.2 := by unfold upd; simp
    dsimp only
    rw [e]
    have core : ∀ {y : IState} {c : Bool × IState} {ins : Instr},
        y.setPhaseCore w.heap ins .mute = .ok c → c.2.phase = .mute := by
      intro y c ins hc
      unfold IState.setPhaseCore at hc
      rw [if_neg (by simp)] at hc
      obtain ⟨l, hl, hc⟩ := bind_ok_iff.1 hc
      rw [if_neg (by simp)] at hc
      dsimp only at hc
      split at hc
      · rename_i hm; cases hc; exact hm
      · cases hc; rfl
    unfold IState.setPhase at hr
    obtain ⟨c, hc, hr⟩ := bind_ok_iff.1 hr
    split at hr
    · obtain ⟨d, hd, hr⟩ := bind_ok_iff.1 hr
      cases hr
      exact core hd
    · cases hr
      exact core hc

/-- Muting, whatever the state: no note is playing, the track is muted at once, and so is the
instrument. -/
theorem C57_mute (x : Nat) (w : IWorld) (t : Track) (r : IWorld × Track)
    (h : t.setNote x w (-2) = .ok r) :
    r.2.curNote = -1 ∧ r.2.unit.mute = 1 ∧ (w.on x = true → (r.1.states x).phase = .mute) ∧
    (w.on x = false → r.1 = w) := by
  unfold Track.setNote Track.noteCase at h
  rw [if_neg (by decide), if_neg (by decide), if_pos rfl] at h
  obtain ⟨r1, h1, h⟩ := bind_ok_iff.1 h
  cases h
  dsimp only
  unfold Track.muteNote at h1
  dsimp only at h1
  split at h1
  · rename_i hon
    obtain ⟨r2, h2, h1⟩ := bind_ok_iff.1 h1
    obtain ⟨t1, k1, h1⟩ := bind_ok_iff.1 h1
    cases h1
    unfold Track.instrPhase at h2
    obtain ⟨w', hw, h2⟩ := bind_ok_iff.1 h2
    obtain ⟨t2, k2, h2⟩ := bind_ok_iff.1 h2
    cases h2
    dsimp only at k1 ⊢
    have hcur : t2.curNote = -1 := by
      rcases IWorld.setPhase_news hw with e | e
      · rw [Track.hear_nil e] at k2; cases k2; rfl
      · rw [Track.hear_single e] at k2
        exact (Track.told_mute k2).2
    refine ⟨(Track.silence_same k1).2.curNote.trans hcur, Track.silence_mute k1,
      fun _ => IWorld.setPhase_mute hon hw, fun h => ?_⟩
    rw [hon] at h; cases h
  · rename_i hoff
    obtain ⟨r2, h2, h1⟩ := bind_ok_iff.1 h1
    cases h2
    obtain ⟨t1, k1, h1⟩ := bind_ok_iff.1 h1
    cases h1
    exact ⟨(Track.silence_same k1).2.curNote, Track.silence_mute k1, fun h => absurd h hoff,
      fun _ => rfl⟩

/-- While the instrument plays, a tick leaves the track playing; when it has come to its end, the
track is muted and no note is playing. -/
theorem C57_ended (x : Nat) (w : IWorld) (t : Track) (r : IWorld × Track) (hon : w.on x = true)
    (h : t.tick x w = .ok r) :
    ((r.1.states x).phase = (w.states x).phase → (w.states x).phase ≠ .mute →
      r.2.unit.mute = t.unit.mute ∧ r.2.curNote = t.curNote) ∧
    ((r.1.states x).phase ≠ (w.states x).phase →
      (r.1.states x).phase = .mute ∧ r.2.unit.mute = 1 ∧ r.2.curNote = -1) := by
  obtain ⟨t1, r1, t2, h1, hr, h2, h3, e⟩ := Track.tick_stages h
  obtain ⟨a, d, n, rfl⟩ := Track.arpeggioTick_same h1
  have km := Track.updateUnit_mute h2
  have kn := (Track.updateUnit_same h2).2.curNote
  obtain ⟨a', b, c, d'', e', f, g, i, j, k, h3⟩ := Track.effectsTick_same h3
  have e1 : r.2.unit.mute = r1.2.unit.mute := by rw [h3]; exact km
  have e2 : r.2.curNote = r1.2.curNote := by rw [h3]; exact kn
  rw [e1, e2, e]
  unfold Track.instrTick at hr
  rw [if_pos hon] at hr
  obtain ⟨q, -, hr⟩ := bind_ok_iff.1 hr
  obtain ⟨w', hw, hr⟩ := bind_ok_iff.1 hr
  obtain ⟨t3, k3, hr⟩ := bind_ok_iff.1 hr
  cases hr
  dsimp only
  obtain ⟨n1, n2, n3⟩ := IWorld.tick_news hw
  by_cases hn : w.news w' x = []
  · rw [Track.hear_nil hn] at k3
    cases k3
    exact ⟨fun _ _ => ⟨rfl, rfl⟩, fun h => absurd (n2 hn) h⟩
  · have := Track.hear_mutes n1 hn k3
    refine ⟨fun hp hm => ?_, fun _ => ⟨n3 hn, this⟩⟩
    rw [n3 hn] at hp
    exact absurd hp.symm hm

/-- A track with an instrument whose volume ends two ticks after release. -/
def notedOps : List WOp :=
  [.init 0 16385, .setSequence 0 0 (.values [5, 6, 7, 8] 1 2), .track 0 (.instrument (some 0)),
   .track 0 (.attr .instrDivider 1)]

/-- Phase of the instrument, note and mute flag after further calls. -/
def notedAfter (ops : List TOp) : C (SeqPhase × Option (Int × Int)) :=
  (({} : TWorld).run 1 (notedOps ++ ops.map (.track 0))).map fun s =>
    ((s.iw.states 0).phase, (s.tracks 0).map fun t => (t.curNote, t.unit.mute))

example : [[], [.attr .note 7], [.attr .note 7, .tick, .tick, .attr .note (-1)],
      [.attr .note 7, .tick, .attr .note (-1), .tick, .tick], [.attr .note 7, .attr .note (-2)],
      [.attr .note 7, .attr .note (-2), .attr .note 9]].map notedAfter =
    [.ok (.mute, some (-1, 1)), .ok (.attack, some (7, 0)), .ok (.release, some (-1, 0)),
     .ok (.mute, some (-1, 1)), .ok (.mute, some (-1, 1)), .ok (.attack, some (9, 0))] := by
  decide +kernel

/-- The release phase is not always started only once: a second release after the instrument has
come to its end starts it again (unheard, because the track is muted). -/
theorem C57_refuted :
    notedAfter [.attr .note 7, .tick, .attr .note (-1), .tick, .tick] = .ok (.mute, some (-1, 1)) ∧
    notedAfter [.attr .note 7, .tick, .attr .note (-1), .tick, .tick, .attr .note (-1)] =
      .ok (.release, some (-1, 1)) := by decide +kernel

end BK
