import Verif.Spec.Phrases
import Verif.Props.Legato
/-!
What a phrase leaves behind.
-/
namespace BK

theorem IWorld.tick_frame {w w2 : IWorld} {x : Nat} {d : Bool} (h : w.tick x d = .ok w2) : w2.instrs = w.instrs ∧ w2.heap = w.heap ∧ w2.links = w.links := by
  unfold IWorld.tick at h
  cases hx : w.links.owner x with
  | none => rw [hx] at h; cases h
  | some i =>
    rw [hx] at h
    obtain ⟨r, -, h⟩ := bind_ok_iff.1 h
    cases h
    exact ⟨rfl, rfl, rfl⟩

theorem IWorld.run_ticks_frame {fuel x : Nat} : ∀ (ds : List Bool) {w w2 : IWorld}, w.run fuel (ticksOf x ds) = .ok w2 →
    w2.instrs = w.instrs ∧ w2.heap = w.heap ∧ w2.links = w.links
  | [], w, w2, h => by cases h; exact ⟨rfl, rfl, rfl⟩
  | d :: ds, w, w2, h => by
    unfold ticksOf at h
    rw [List.map_cons] at h
    unfold IWorld.run at h
    obtain ⟨w1, h1, h⟩ := bind_ok_iff.1 h
    obtain ⟨a, b, c⟩ := IWorld.run_ticks_frame ds h
    unfold IWorld.exec at h1
    dsimp only at h1
    split at h1
    · cases h1; exact ⟨a, b, c⟩
    · obtain ⟨a', b', c'⟩ := IWorld.tick_frame h1
      exact ⟨a.trans a', b.trans b', c.trans c'⟩

theorem IWorld.setPhase_frame {w w2 : IWorld} {x : Nat} {p : SeqPhase} (h : w.setPhase x p = .ok w2) :
    w2.instrs = w.instrs ∧ w2.heap = w.heap ∧ w2.links = w.links := by
  unfold IWorld.setPhase at h
  cases hx : w.links.owner x with
  | none => rw [hx] at h; cases h; exact ⟨rfl, rfl, rfl⟩
  | some i =>
    rw [hx] at h
    obtain ⟨r, -, h⟩ := bind_ok_iff.1 h
    cases h
    exact ⟨rfl, rfl, rfl⟩

/-- A released track stays so. -/
theorem Track.tick_silent {x : Nat} {w : IWorld} {t : Track} {r : IWorld × Track} (hon : w.on x = true) (h : t.tick x w = .ok r) (hc : t.curNote = -1) :
    r.2.curNote = -1 := by
  obtain ⟨t1, r1, t2, h1, hr, h2, h3, e⟩ := Track.tick_stages h
  obtain ⟨a, d, n, rfl⟩ := Track.arpeggioTick_same h1
  have kn := (Track.updateUnit_same h2).2.curNote
  obtain ⟨a', b, c, d'', e', f, g, i, j, k, h3⟩ := Track.effectsTick_same h3
  have e2 : r.2.curNote = r1.2.curNote := by rw [h3]; exact kn
  rw [e2]
  unfold Track.instrTick at hr
  rw [if_pos hon] at hr
  obtain ⟨q, -, hr⟩ := bind_ok_iff.1 hr
  obtain ⟨w', hw, hr⟩ := bind_ok_iff.1 hr
  obtain ⟨t3, k3, hr⟩ := bind_ok_iff.1 hr
  cases hr
  dsimp only
  obtain ⟨n1, n2, n3⟩ := IWorld.tick_news hw
  by_cases hn : w.news w' x = []
  · rw [Track.hear_nil hn] at k3
    cases k3
    exact hc
  · exact (Track.hear_mutes n1 hn k3).2

theorem world_silent {fuel x : Nat} : ∀ (n : Nat) {s s2 : TWorld} {t : Track}, s.tracks x = some t → s.iw.on x = true → t.curNote = -1 →
    s.run fuel (List.replicate n (.track x .tick)) = .ok s2 → ∃ t2, s2.tracks x = some t2 ∧ t2.curNote = -1
  | 0, s, s2, t, ht, hon, hc, h => by cases h; exact ⟨t, ht, hc⟩
  | n + 1, s, s2, t, ht, hon, hc, h => by
    rw [List.replicate_succ] at h
    unfold TWorld.run at h
    obtain ⟨s1, h1, h⟩ := bind_ok_iff.1 h
    unfold TWorld.exec at h1
    dsimp only at h1
    rw [ht] at h1
    obtain ⟨r, hr, h1⟩ := bind_ok_iff.1 h1
    cases h1
    have hr : t.tick x s.iw = .ok r := hr
    obtain ⟨q, hq, e1, e2⟩ := Track.tick_instr hr hon
    refine world_silent n (s := ⟨r.1, upd s.tracks x (some r.2)⟩) (t := r.2) (upd_self _ _ _) ?_ (Track.tick_silent hon hr hc) h
    show r.1.on x = true
    unfold IWorld.on
    rw [(IWorld.tick_frame e2).2.2]
    exact hon

/-- Notes and ticks do not put the volume out of date. -/
theorem stale_notes (x : Nat) (b : Bool) : ∀ l : List WOp, (∀ op ∈ l, op = .track x .tick ∨ ∃ v, op = .track x (.attr .note v)) → l.foldl (WOp.stale x .vol) b = b
  | [], _ => rfl
  | op :: l, h => by
    rw [List.foldl_cons]
    have : WOp.stale x .vol b op = b := by
      rcases h op (List.mem_cons_self ..) with rfl | ⟨v, rfl⟩ <;> unfold WOp.stale <;> simp [TOp.renews, TOp.upsets]
    rw [this]
    exact stale_notes x b l fun o ho => h o (List.mem_cons_of_mem _ ho)

theorem Phrase.calls {x : Nat} (p : Phrase) : ∀ op ∈ p.played x, op = .track x .tick ∨ ∃ v, op = .track x (.attr .note v) := by
  have hn : ∀ v n, ∀ op ∈ notePlayed x v n, op = .track x .tick ∨ ∃ v, op = .track x (.attr .note v) := by
    intro v n op hop
    unfold notePlayed at hop
    rcases List.mem_cons.1 hop with rfl | hop
    · exact .inr ⟨v, rfl⟩
    · exact .inl (List.eq_of_mem_replicate hop)
  intro op hop
  unfold Phrase.played melody at hop
  rcases List.mem_append.1 hop with hop | hop
  · obtain ⟨q, -, hop⟩ := List.mem_flatMap.1 hop
    exact hn _ _ op hop
  · exact hn _ _ op hop

end BK
