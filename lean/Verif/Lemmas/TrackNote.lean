import Verif.Lemmas.TrackArp
/-!
Notes of tracks.
-/
namespace BK

/-- What a unit attribute does to the mute flag. -/
theorem UCore.setAttr_mute {c : UCore} {a : UAttr} {v : Int} {r : Ret × UCore} (ha : a ≠ .mute)
    (h : c.setAttr a v = .ok r) : r.2.mute = c.mute := by
  unfold UCore.setAttr at h
  cases a <;> dsimp only at h
  case mute => exact absurd rfl ha
  case dutyCycle =>
    split at h <;> cases h <;> rfl
  case waveform =>
    split at h
    · cases h
      dsimp only
      split <;> rfl
    · cases h; rfl
  case period =>
    obtain ⟨z, -, h⟩ := bind_ok_iff.1 h
    cases h; rfl
  case samplePeriod =>
    obtain ⟨z, -, h⟩ := bind_ok_iff.1 h
    cases h; rfl
  case flagRelease =>
    split at h
    · split at h
      · split at h
        · cases h; rfl
        · obtain ⟨z, -, h⟩ := bind_ok_iff.1 h
          cases h; rfl
      · cases h; rfl
    · cases h; rfl
  all_goals (cases h; rfl)

theorem Track.setUnit_mute {t t' : Track} {a : UAttr} {v : Int} (ha : a ≠ .mute)
    (h : t.setUnit a v = .ok t') : t'.unit.mute = t.unit.mute := by
  obtain ⟨r, hr, rfl⟩ := Track.setUnit_eq h
  exact UCore.setAttr_mute ha hr

theorem Track.setMute {t t' : Track} {v : Int} (h : t.setUnit .mute v = .ok t') :
    t'.unit.mute = if v ≠ 0 then 1 else 0 := by
  obtain ⟨r, hr, rfl⟩ := Track.setUnit_eq h
  cases hr
  rfl

theorem Track.updateVolume_mute {x : Nat} {w : IWorld} {t t' : Track}
    (h : t.updateVolume x w = .ok t') : t'.unit.mute = t.unit.mute := by
  unfold Track.updateVolume at h
  obtain ⟨m, -, h⟩ := bind_ok_iff.1 h
  split at h
  · obtain ⟨c, -, h⟩ := bind_ok_iff.1 h
    obtain ⟨t1, h1, h⟩ := bind_ok_iff.1 h
    rw [Track.setUnit_mute (by simp) h, Track.setUnit_mute (by simp) h1]
  · exact Track.setUnit_mute (by simp) h

theorem Track.updateNote_mute {x : Nat} {w : IWorld} {t t' : Track}
    (h : t.updateNote x w = .ok t') : t'.unit.mute = t.unit.mute := by
  unfold Track.updateNote at h
  split at h
  · cases h; rfl
  · obtain ⟨n, -, h⟩ := bind_ok_iff.1 h
    split at h
    · obtain ⟨p, -, h⟩ := bind_ok_iff.1 h
      obtain ⟨q, -, h⟩ := bind_ok_iff.1 h
      exact Track.setUnit_mute (by simp) h
    · obtain ⟨p, -, h⟩ := bind_ok_iff.1 h
      obtain ⟨q, -, h⟩ := bind_ok_iff.1 h
      exact Track.setUnit_mute (by simp) h

theorem Track.updateUnit_mute {x : Nat} {w : IWorld} {t t' : Track}
    (h : t.updateUnit x w = .ok t') : t'.unit.mute = t.unit.mute := by
  unfold Track.updateUnit at h
  obtain ⟨a, ha, h⟩ := bind_ok_iff.1 h
  obtain ⟨b, hb, h⟩ := bind_ok_iff.1 h
  have h1 : a.unit.mute = t.unit.mute := by
    unfold Track.flushVolume at ha
    split at ha
    · obtain ⟨u, hu, ha⟩ := bind_ok_iff.1 ha
      cases ha
      have := Track.updateVolume_mute hu
      exact this
    · cases ha; rfl
  have h2 : b.unit.mute = a.unit.mute := by
    unfold Track.flushNote at hb
    split at hb
    · obtain ⟨u, hu, hb⟩ := bind_ok_iff.1 hb
      cases hb
      have := Track.updateNote_mute hu
      exact this
    · cases hb; rfl
  have h3 : t'.unit.mute = b.unit.mute := by
    unfold Track.flushDuty at h
    split at h
    · obtain ⟨u, hu, h⟩ := bind_ok_iff.1 h
      cases h
      have := Track.setUnit_mute (by simp) hu
      exact this
    · cases h; rfl
  rw [h3, h2, h1]

theorem Track.silence_mute {t t' : Track} (h : t.silence = .ok t') : t'.unit.mute = 1 := by
  unfold Track.silence at h
  obtain ⟨a, ha, h⟩ := bind_ok_iff.1 h
  obtain ⟨b, hb, h⟩ := bind_ok_iff.1 h
  cases h
  show b.unit.mute = 1
  rw [Track.setUnit_mute (by simp) hb, Track.setMute ha]
  rfl

/-- After a mute event a track is silent. -/
theorem Track.told_mute {x : Nat} {w : IWorld} {t t' : Track} (h : t.told x w .mute = .ok t') :
    t'.unit.mute = 1 ∧ t'.curNote = -1 := by
  unfold Track.told at h
  dsimp only at h
  exact ⟨Track.silence_mute h, (Track.silence_same h).2.curNote⟩

theorem IState.setPhase_told {heap : SeqHeap} {ins : Instr} {x : IState} {p : SeqPhase}
    {r : List InstrEvent × IState} (h : x.setPhase heap ins p = .ok r) :
    (r.1 = [] ∨ r.1 = [.mute]) := by
  unfold IState.setPhase at h
  obtain ⟨q, -, h⟩ := bind_ok_iff.1 h
  split at h
  · obtain ⟨q', -, h⟩ := bind_ok_iff.1 h
    cases h; exact Or.inr rfl
  · cases h; exact Or.inl rfl

/-- What tracks are told about a change of phase. -/
theorem IWorld.setPhase_news {w w' : IWorld} {x : Nat} {p : SeqPhase} (h : w.setPhase x p = .ok w') :
    w.news w' x = [] ∨ w.news w' x = [.mute] := by
  unfold IWorld.setPhase at h
  split at h
  · cases h
    left
    unfold IWorld.news
    rw [List.drop_length]; rfl
  · obtain ⟨r, hr, h⟩ := bind_ok_iff.1 h
    cases h
    unfold IWorld.news
    dsimp only
    rw [List.drop_left]
    rcases IState.setPhase_told hr with e | e <;> rw [e]
    · exact Or.inl rfl
    · right; simp

theorem Track.hear_nil {x : Nat} {w w' : IWorld} {t : Track} (h : w.news w' x = []) :
    t.hear x w w' = .ok t := by
  unfold Track.hear
  rw [h]; rfl

theorem Track.hear_single {x : Nat} {w w' : IWorld} {t : Track} {e : InstrEvent}
    (h : w.news w' x = [e]) : t.hear x w w' = t.told x w' e := by
  unfold Track.hear
  rw [h, List.foldlM_cons]
  show (t.told x w' e >>= fun t => .ok t) = _
  cases t.told x w' e <;> rfl

theorem IState.tick_told {heap : SeqHeap} {ins : Instr} {x : IState} {b : Bool}
    {r : List InstrEvent × IState} (h : x.tick heap ins b = .ok r) :
    (∀ e ∈ r.1, e = .mute) ∧ (r.1 = [] → r.2.phase = x.phase) ∧ (r.1 ≠ [] → r.2.phase = .mute) := by
  unfold IState.tick at h
  refine foldlM_inv (P := fun a : List InstrEvent × IState => (∀ e ∈ a.1, e = .mute) ∧
    (a.1 = [] → a.2.phase = x.phase) ∧ (a.1 ≠ [] → a.2.phase = .mute)) ?_ _
    ⟨by simp, by simp, by simp⟩ h
  intro a i a' ⟨h1, h2, h3⟩ ha
  unfold IState.tickStep at ha
  obtain ⟨-, -, ha⟩ := bind_ok_iff.1 ha
  obtain ⟨q, -, ha⟩ := bind_ok_iff.1 ha
  dsimp only at ha
  split at ha
  · obtain ⟨n, -, ha⟩ := bind_ok_iff.1 ha
    split at ha
    · obtain ⟨z, hz, ha⟩ := bind_ok_iff.1 ha
      cases ha
      have hm : z.2.phase = .mute ∧ (z.1 = [] → a.2.phase = .mute) := by
        unfold IState.setPhase at hz
        obtain ⟨c, hc, hz⟩ := bind_ok_iff.1 hz
        have core : ∀ {y : IState} {c : Bool × IState}, y.setPhaseCore heap ins .mute = .ok c →
            c.2.phase = .mute ∧ (c.1 = false → y.phase = .mute) := by
          intro y c hc
          unfold IState.setPhaseCore at hc
          rw [if_neg (by simp)] at hc
          obtain ⟨l, hl, hc⟩ := bind_ok_iff.1 hc
          have hp : l.phase = y.phase := by
            refine foldlM_inv (P := fun l : IState => l.phase = y.phase) (b := { y with numActive := 0 }) ?_ _ rfl hl
            intro l i l' hl hs
            unfold IState.phaseStep at hs
            obtain ⟨-, -, hs⟩ := bind_ok_iff.1 hs
            split at hs
            · cases hs; exact hl
            · obtain ⟨r, -, hs⟩ := bind_ok_iff.1 hs
              dsimp only at hs
              split at hs
              · cases hs; exact hl
              · obtain ⟨r, -, hs⟩ := bind_ok_iff.1 hs
                cases hs; exact hl
          rw [if_neg (by simp)] at hc
          dsimp only at hc
          split at hc
          · rename_i hm
            cases hc
            exact ⟨hm, fun _ => hp ▸ hm⟩
          · cases hc
            exact ⟨rfl, fun h => by cases h⟩
        obtain ⟨c1, c2⟩ := core hc
        split at hz
        · obtain ⟨d, hd, hz⟩ := bind_ok_iff.1 hz
          cases hz
          exact ⟨(core hd).1, fun h => by cases h⟩
        · rename_i hf
          cases hz
          exact ⟨c1, fun _ => c2 (by simpa using hf)⟩
      refine ⟨?_, ?_, fun _ => hm.1⟩
      · intro e he
        rcases List.mem_append.1 he with he | he
        · exact h1 e he
        · rcases IState.setPhase_told hz with e' | e' <;> rw [e'] at he
          · cases he
          · simpa using he
      · intro h0
        obtain ⟨h4, h5⟩ := List.append_eq_nil_iff.1 h0
        rw [hm.1, ← h2 h4, hm.2 h5]
    · cases ha
      exact ⟨h1, h2, h3⟩
  · cases ha
    exact ⟨h1, h2, h3⟩

/-- What tracks are told by a tick: nothing while the phase stays, or that it has become mute. -/
theorem IWorld.tick_news {w w' : IWorld} {x : Nat} {b : Bool} (h : w.tick x b = .ok w') :
    (∀ e ∈ w.news w' x, e = .mute) ∧ (w.news w' x = [] → (w'.states x).phase = (w.states x).phase) ∧
    (w.news w' x ≠ [] → (w'.states x).phase = .mute) := by
  unfold IWorld.tick at h
  split at h
  · cases h
  · obtain ⟨r, hr, h⟩ := bind_ok_iff.1 h
    cases h
    have e : IWorld.news w { w with states := upd w.states x r.2
                                    log := w.log ++ r.1.map (fun e => (x, e)) } x = r.1 := by
      unfold IWorld.news
      dsimp only
      rw [List.drop_left]
      induction r.1 with
      | nil => rfl
      | cons e l ih =>
        rw [List.map_cons, List.filter_cons, if_pos (by simp), List.map_cons, ih]
    have s : upd w.states x r.2 x = r.2 := by unfold upd; simp
    dsimp only
    rw [e, s]
    exact IState.tick_told hr

theorem Track.hear_mutes {x : Nat} {w w' : IWorld} {t t' : Track} (h1 : ∀ e ∈ w.news w' x, e = .mute)
    (h2 : w.news w' x ≠ []) (h : t.hear x w w' = .ok t') : t'.unit.mute = 1 ∧ t'.curNote = -1 := by
  unfold Track.hear at h
  revert h1 h2 h
  generalize w.news w' x = l
  induction l generalizing t with
  | nil => intro _ h; exact absurd rfl h
  | cons e l ih =>
    intro h1 _ h
    rw [List.foldlM_cons] at h
    obtain ⟨u, hu, h'⟩ := bind_ok_iff.1 h
    clear h
    have he := h1 e (by simp)
    subst he
    have hm := Track.told_mute hu
    cases l with
    | nil => cases h'; exact hm
    | cons e' l => exact ih (fun e he => h1 e (List.mem_cons_of_mem _ he)) (by simp) h'

end BK
