import Verif.Props.InstrHeard
/-!
Arpeggios on tracks with instruments.
-/
namespace BK

/-- The arpeggio of the intervals `ns` with divider `e`, `k` ticks after its beginning. -/
structure Track.ArpAt (e : Nat) (ns : List Int) (k : Nat) (t : Track) : Prop where
  on : t.arpeggioOn = true
  div : t.arpDiv = DivState.at e 0 k
  wf : t.arp.Wf
  off : t.arp.offset = ((firings e 0 k % ns.length : Nat) : Int)
  count : t.arp.count = ns.length
  notes : t.arp.notes.take ns.length = ns
  delta : 0 < k → t.arp.delta = intervalAt e ns (k - 1)

theorem Track.ArpAt.same {e k : Nat} {ns : List Int} {t t' : Track} (h : t.ArpAt e ns k) (h1 : t'.arp = t.arp) (h2 : t'.arpDiv = t.arpDiv)
    (h3 : t'.arpeggioOn = t.arpeggioOn) : t'.ArpAt e ns k := by
  obtain ⟨a, b, c, d, e, f, g⟩ := h
  exact ⟨h3.trans a, h2.trans b, by rw [h1]; exact c, by rw [h1]; exact d, by rw [h1]; exact e, by rw [h1]; exact f, by rw [h1]; exact g⟩

theorem Track.ArpAt.tick {e k : Nat} {ns : List Int} {x : Nat} {w : IWorld} {t : Track} {s : IWorld × Track} (h : t.ArpAt e ns k)
    (he : 1 ≤ e) (he2 : e ≤ 2147483647) (h1 : 1 ≤ ns.length) (ht : t.tick x w = .ok s) : s.2.ArpAt e ns (k + 1) := by
  obtain ⟨r, hr, d1, d2⟩ := (Track.tick_arp ht).1 h.on
  rw [h.div, DivState.tick_at e 0 k (by omega) he2] at hr
  cases hr
  have hon : s.2.arpeggioOn = true := (Track.tick_switches ht).1.trans h.on
  have hfs := firings_succ e 0 k (by omega)
  dsimp only at d1 d2
  by_cases hk : k % e = 0
  · rw [if_pos (by rw [decide_eq_true_eq]; exact hk)] at d2
    have hc := h.count
    have := Arp.times_tick h.wf (by omega) 1
    have e1 : times Arp.tick 1 t.arp = t.arp.tick := by
      unfold times times
      rw [ok_bind]
    rw [e1, d2] at this
    have this := Except.ok.inj this
    rw [if_neg (by decide), hc, h.off, Int.toNat_natCast, Int.toNat_natCast, h.notes] at this
    have hf : firings e 0 k = k / e := by
      unfold firings
      have hm := Nat.div_add_mod k e
      rw [hk, Nat.add_zero] at hm
      generalize k / e = q at hm ⊢
      rw [Nat.sub_zero, ← hm, Nat.mul_add_div (by omega), Nat.div_eq_of_lt (by omega : e - 1 < e), Nat.add_zero]
    refine ⟨hon, d1, ?_, ?_, by rw [this], by rw [this]; exact h.notes, fun _ => ?_⟩
    · have w := h.wf
      exact Arp.Wf.tick w d2
    · rw [this, hfs, if_pos hk]
      dsimp only
      rw [Nat.mod_add_mod]
    · rw [this, Nat.add_sub_cancel]
      dsimp only
      unfold intervalAt
      rw [Nat.sub_self, Nat.add_zero, Nat.mod_mod, hf]
  · rw [if_neg (by rw [decide_eq_true_eq]; exact hk)] at d2
    have d2 := (Except.ok.inj d2).symm
    refine ⟨hon, d1, by rw [d2]; exact h.wf, ?_, by rw [d2]; exact h.count, by rw [d2]; exact h.notes, fun _ => ?_⟩
    · rw [d2, hfs, if_neg hk, Nat.add_zero]; exact h.off
    · have hk0 : 0 < k := by
        rcases Nat.eq_zero_or_pos k with rfl | h
        · exact absurd (Nat.zero_mod e) hk
        · exact h
      rw [d2, h.delta hk0, Nat.add_sub_cancel]
      unfold intervalAt
      congr 2
      have := @Nat.succ_div (k - 1) e
      rw [Nat.sub_add_cancel hk0, if_neg (fun q => hk (Nat.mod_eq_zero_of_dvd q)), Nat.add_zero] at this
      exact this.symm

/-- Many ticks in a world. -/
theorem world_arp {fuel x e : Nat} {ns : List Int} (he : 1 ≤ e) (he2 : e ≤ 2147483647) (h1 : 1 ≤ ns.length) :
    ∀ (n : Nat) {k : Nat} {s s2 : TWorld} {t : Track}, s.tracks x = some t → t.ArpAt e ns k →
    s.run fuel (List.replicate n (.track x .tick)) = .ok s2 → ∃ t2, s2.tracks x = some t2 ∧ t2.ArpAt e ns (k + n)
  | 0, k, s, s2, t, ht, ha, h => by
    cases h
    exact ⟨t, ht, ha⟩
  | n + 1, k, s, s2, t, ht, ha, h => by
    rw [List.replicate_succ] at h
    unfold TWorld.run at h
    obtain ⟨s1, g1, h⟩ := bind_ok_iff.1 h
    unfold TWorld.exec at g1
    dsimp only at g1
    rw [ht] at g1
    obtain ⟨r, hr, g1⟩ := bind_ok_iff.1 g1
    cases g1
    have hr : t.tick x s.iw = .ok r := hr
    obtain ⟨t2, k1, k2⟩ := world_arp he he2 h1 n (s := ⟨r.1, upd s.tracks x (some r.2)⟩) (t := r.2) (upd_self _ _ _) (ha.tick he he2 h1 hr) h
    exact ⟨t2, k1, by rw [show k + (n + 1) = k + 1 + n by omega]; exact k2⟩

/-- A note after silence begins the arpeggio anew and leaves its divider alone. -/
theorem Track.newNote_arp {x : Nat} {w : IWorld} {t : Track} {v : Int} {r : IWorld × Track} (h0 : 0 ≤ v) (hc : t.curNote = -1)
    (h : t.setNote x w v = .ok r) :
    r.2.arp = { t.arp with offset := 0 } ∧ r.2.arpDiv = t.arpDiv ∧ r.2.arpeggioOn = t.arpeggioOn := by
  unfold Track.setNote Track.noteCase at h
  rw [if_pos (by omega)] at h
  unfold Track.playNote at h
  dsimp only at h
  obtain ⟨r1, hr1, h⟩ := bind_ok_iff.1 h
  obtain ⟨s, hs, hr1⟩ := bind_ok_iff.1 hr1
  obtain ⟨r2, hr2, hr1⟩ := bind_ok_iff.1 hr1
  obtain ⟨t0, ht0, hr1⟩ := bind_ok_iff.1 hr1
  obtain ⟨t1, ht1, hr1⟩ := bind_ok_iff.1 hr1
  obtain ⟨t2, ht2, hr1⟩ := bind_ok_iff.1 hr1
  cases hr1
  cases h
  have k0 := Track.startSample_same ht0
  have k1 := Track.setUnit_same ht1
  have k2 := Track.setUnit_same ht2
  have e1 : t2.arp = r2.2.arp := k2.arp.trans (k1.arp.trans k0.arp)
  have e2 : t2.arpDiv = r2.2.arpDiv := k2.arpDiv.trans (k1.arpDiv.trans k0.arpDiv)
  have e3 : t2.arpeggioOn = r2.2.arpeggioOn := k2.arpeggioOn.trans (k1.arpeggioOn.trans k0.arpeggioOn)
  have k : r2.2.arp = { t.arp with offset := 0 } ∧ r2.2.arpDiv = t.arpDiv ∧ r2.2.arpeggioOn = t.arpeggioOn := by
    unfold Track.startNote at hr2
    dsimp only at hr2
    rw [if_pos hc] at hr2
    split at hr2
    · obtain ⟨r3, hr3, hr2⟩ := bind_ok_iff.1 hr2
      cases hr2
      unfold Track.instrAttack at hr3
      obtain ⟨w', -, hr3⟩ := bind_ok_iff.1 hr3
      obtain ⟨t3, ht3, hr3⟩ := bind_ok_iff.1 hr3
      cases hr3
      have k := Track.hear_same ht3
      have ka : t3.arp = t.arp := k.arp
      refine ⟨?_, k.arpDiv, k.arpeggioOn⟩
      show ({ t3.arp with offset := 0 } : Arp) = _
      rw [ka]
    · cases hr2
      exact ⟨rfl, rfl, rfl⟩
  exact ⟨e1.trans k.1, e2.trans k.2.1, e3.trans k.2.2⟩

/-- A release leaves the arpeggio alone. -/
theorem Track.release_arp {x : Nat} {w : IWorld} {t : Track} {r : IWorld × Track} (hon : w.on x = true) (h : t.setNote x w (-1) = .ok r) :
    r.2.arp = t.arp ∧ r.2.arpDiv = t.arpDiv ∧ r.2.arpeggioOn = t.arpeggioOn := by
  unfold Track.setNote Track.noteCase at h
  rw [if_neg (by decide), if_pos rfl] at h
  obtain ⟨r1, hr1, h⟩ := bind_ok_iff.1 h
  cases h
  unfold Track.releaseNote at hr1
  dsimp only at hr1
  rw [if_pos hon] at hr1
  obtain ⟨r2, hr2, hr1⟩ := bind_ok_iff.1 hr1
  obtain ⟨t1, ht1, hr1⟩ := bind_ok_iff.1 hr1
  cases hr1
  have k1 := Track.instrPhase_same hr2
  have k2 := Track.setUnit_same ht1
  exact ⟨k2.arp.trans k1.arp, k2.arpDiv.trans k1.arpDiv, k2.arpeggioOn.trans k1.arpeggioOn⟩

theorem TWorld.note_run {fuel x n : Nat} {v : Int} {s0 s : TWorld} {t : Track} (ht : s0.tracks x = some t)
    (e : s0.run fuel (notePlayed x v n) = .ok s) :
    ∃ r, t.setNote x s0.iw v = .ok r ∧ TWorld.run fuel ⟨r.1, upd s0.tracks x (some r.2)⟩ (List.replicate n (.track x .tick)) = .ok s := by
  unfold notePlayed TWorld.run at e
  obtain ⟨s1, g1, e⟩ := bind_ok_iff.1 e
  unfold TWorld.exec at g1
  dsimp only at g1
  rw [ht] at g1
  obtain ⟨r0, hr0, g1⟩ := bind_ok_iff.1 g1
  cases g1
  obtain ⟨⟨ret, r⟩, hr1, f⟩ := bind_ok_iff.1 hr0
  cases f
  obtain ⟨r', hr, f⟩ := bind_ok_iff.1 hr1
  cases f
  exact ⟨_, hr, e⟩

/-- The calls on one track, in a world. -/
theorem TWorld.run_calls {fuel x : Nat} : ∀ (ops : List TOp) {s : TWorld} {t : Track} {r : IWorld × Track}, s.tracks x = some t →
    Track.calls x ops (s.iw, t) = .ok r → ∃ s', s.run fuel (ops.map (.track x)) = .ok s' ∧ s'.iw = r.1 ∧ s'.tracks x = some r.2
  | [], s, t, r, ht, h => by
    cases h
    exact ⟨s, rfl, rfl, ht⟩
  | op :: ops, s, t, r, ht, h => by
    unfold Track.calls at h
    obtain ⟨r1, h1, h⟩ := bind_ok_iff.1 h
    obtain ⟨s', k1, k2, k3⟩ := TWorld.run_calls (fuel := fuel) ops (s := ⟨r1.1, upd s.tracks x (some r1.2)⟩) (t := r1.2) (upd_self _ _ _) h
    refine ⟨s', ?_, k2, k3⟩
    rw [List.map_cons]
    unfold TWorld.run
    have : s.exec fuel (.track x op) = .ok ⟨r1.1, upd s.tracks x (some r1.2)⟩ := by
      unfold TWorld.exec
      dsimp only
      rw [ht]
      dsimp only
      rw [h1, ok_bind]
      rfl
    rw [this, ok_bind]
    exact k1

end BK
