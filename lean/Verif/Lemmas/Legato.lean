import Verif.Spec.Legato
import Verif.Lemmas.ArpInstr
/-!
Notes played without a release between them.
-/
namespace BK

theorem IWorld.run_ticks_append {fuel x : Nat} : ∀ (as bs : List Bool) {w w1 w2 : IWorld}, w.run fuel (ticksOf x as) = .ok w1 →
    w1.run fuel (ticksOf x bs) = .ok w2 → w.run fuel (ticksOf x (as ++ bs)) = .ok w2
  | [], bs, w, w1, w2, h, h' => by cases h; exact h'
  | a :: as, bs, w, w1, w2, h, h' => by
    have h : (do let w ← w.exec fuel (.tick x a); w.run fuel (ticksOf x as)) = .ok w1 := h
    obtain ⟨u, h1, h⟩ := bind_ok_iff.1 h
    show (do let w ← w.exec fuel (.tick x a); w.run fuel (ticksOf x (as ++ bs))) = .ok w2
    rw [h1, ok_bind]
    exact IWorld.run_ticks_append as bs h h'

theorem dividedTicks_add (d c m n : Nat) : dividedTicks d c (m + n) = dividedTicks d c m ++ dividedTicks d (c + m) n := by
  unfold dividedTicks
  rw [List.range_add, List.map_append, List.map_map]
  congr 1
  refine List.map_congr_left fun k _ => ?_
  show decide ((c + (m + k)) % d = 0) = _
  rw [Nat.add_assoc]

theorem Track.Kept.renote {t u : Track} (h : t.Kept u) (sl : Slide) : ({ t with note := sl } : Track).Kept { u with note := sl } := by
  obtain ⟨⟨a, d, s⟩, -, w⟩ := h
  obtain ⟨h1, h2, h3, h4, h5, h6, h7, h8, h9, h10, h11, h12, h13, h14, h15, h16, h17, h18, h19, h20, h21, h22, h23, h24, h25, h26, h27, h28⟩ := s
  exact ⟨⟨a, d, ⟨h1, h2, h3, h4, h5, h6, h7, h8, h9, h10, h11, h12, h13, h14, h15, h16, h17, h18, h19, h20, h21, h22, h23, h24, h25, h26, h27, h28⟩⟩,
    fun _ => rfl, w⟩

/-- A note while another one is playing. -/
theorem Track.nextNote_kept {x : Nat} {w : IWorld} {t : Track} {v : Int} {r : IWorld × Track} (hc : t.curNote ≠ -1)
    {s : Slide} (h0 : 0 ≤ v) (h1 : v ≤ 100663296) (hs : t.note.setValue v = .ok s)
    (h : t.setNote x w v = .ok r) : ({ t with note := s } : Track).Kept r.2 ∧ r.2.instrDiv = t.instrDiv := by
  unfold Track.setNote Track.noteCase at h
  rw [if_pos (by omega)] at h
  unfold Track.playNote at h
  dsimp only at h
  rw [show cclamp v 0 (96 * 1048576) = v from cclamp_self h0 h1, hs] at h
  rw [ok_bind] at h
  obtain ⟨r1, hr1, h⟩ := bind_ok_iff.1 h
  obtain ⟨r2, hr2, hr1⟩ := bind_ok_iff.1 hr1
  obtain ⟨t0, ht0, hr1⟩ := bind_ok_iff.1 hr1
  obtain ⟨t1, ht1, hr1⟩ := bind_ok_iff.1 hr1
  obtain ⟨t2, ht2, hr1⟩ := bind_ok_iff.1 hr1
  cases hr1
  cases h
  unfold Track.startNote at hr2
  dsimp only at hr2
  rw [if_neg hc] at hr2
  cases hr2
  unfold Track.startSample at ht0
  rw [if_neg (fun q => hc q.2)] at ht0
  cases ht0
  refine ⟨?_, ?_⟩
  · have k2 : ({ t with note := s } : Track).Kept { t with note := s, curNote := v } := .but { Track.SameBut.refl ({ t with note := s } : Track) with } (fun _ => rfl) rfl
    exact ((k2.trans (Track.setMute_kept ht1)).trans (Track.setRelease_kept ht2)).trans (.flagged _ _ _ _)
  · exact (Track.setUnit_same ht2).instrDiv.trans (Track.setUnit_same ht1).instrDiv

/-- A melody has been going on for `j` ticks with an instrument that had been attacked at first, giving `w1`; now the note `v` is playing. -/
structure TWorld.Mel (N m fuel x d : Nat) (w0 w1 : IWorld) (t : Track) (j : Nat) (v : Int) (s : TWorld) (t' : Track) : Prop where
  inv : s.Inv m N
  here : s.tracks x = some t'
  div : t'.instrDiv = DivState.at d 0 j
  mute : t'.unit.mute = 0
  cur : t'.curNote ≠ -1
  note : ∃ sl : Slide, sl.halt true = sl ∧ sl.get = .ok v ∧ sl.roundBias = 0 ∧ sl.steps = 0 ∧ ({ t with note := sl } : Track).Kept t'
  ok : ∀ p, t'.Ok x s.iw p
  links : s.iw.links = w0.links
  run : w1.run fuel (ticksOf x (dividedTicks d 0 j)) = .ok s.iw
  phase : (s.iw.states x).phase = .attack

theorem TWorld.Mel.next {N m fuel x d i n j : Nat} {w0 w1 : IWorld} {A : BK.Lists} {t t' : Track} {v v' : Int} {s s' : TWorld}
    (h : s.Mel N m fuel x d w0 w1 t j v t') (hf : m + (n + 1) ≤ fuel) (hv : 0 ≤ v') (hv' : v' ≤ 96 * U20) (hd : 1 ≤ d) (hd2 : d ≤ 2147483647)
    (hA : w0.Inv False A) (hx : w0.links.owner x = some i) (hat : w0.attack x t.dutyCycle = .ok w1)
    (hsu : ∃ k new, new.Short ∧ w0.Plays i k new ∧ new.Sustained) (he : t.effectsOff)
    (e : s.run fuel (notePlayed x v' n) = .ok s') :
    ∃ t2, s'.Mel N (m + (n + 1)) fuel x d w0 w1 t (j + n) v' t2 ∧ (n ≠ 0 → t2.updVolume = false ∧ t2.updNote = false ∧ t2.updDuty = false) := by
  have hpv : Plain v' := ⟨⟨by omega, by omega⟩, by omega⟩
  have hlen : (notePlayed x v' n).length = n + 1 := by unfold notePlayed; rw [List.length_cons, List.length_replicate]
  have hend := h.inv.run (fuel := fuel) (notePlayed x v' n) (by omega) (legal_note hpv n s)
  rw [e, hlen] at hend
  have hend : s'.Inv (m + (n + 1)) N := hend
  have hti := h.inv.tracks x t' h.here
  obtain ⟨r, hr, er⟩ := TWorld.note_run h.here e
  obtain ⟨p1, p2, -, p4⟩ := C57_play x s.iw t' v' hv r hr
  have p4 := p4 h.cur
  obtain ⟨sl, q1, q2, q3, q4, q5⟩ := h.note
  have hnote : t'.note = sl := q5.note q1
  obtain ⟨s2, hs2, -⟩ := hti.note.setValue (by decide) hv (by omega : v' ≤ 100663296)
  have es2 := Slide.set_zero (by rw [hnote, q4]) hs2
  have hshift := hti.note.shift
  have ehalt : s2.halt true = s2 := by rw [es2]; rfl
  have hb : s2.roundBias = 0 := by rw [es2, ← q3, ← hnote]
  have eget : s2.get = .ok v' := by
    unfold Slide.get
    rw [hb, es2]
    dsimp only
    rw [hshift, show v' * 2 ^ 0 + 0 = v' by omega, i32_ok (by omega) (by omega), ok_bind]
    show Except.ok (v' / 2 ^ 0) = _
    congr 1
    omega
  obtain ⟨kn, kd⟩ := Track.nextNote_kept h.cur hv (by omega) hs2 hr
  have kk : ({ t with note := s2 } : Track).Kept r.2 := (q5.renote s2).trans kn
  obtain ⟨⟨aa, dd, sb⟩, -, -⟩ := id kk
  obtain ⟨he1, he2, he3, he4, he5⟩ := he
  obtain ⟨t2, k1, k2, k3, k4, -, -, k6⟩ := track_ticks (i := i) hd hd2 n j (s := ⟨r.1, upd s.tracks x (some r.2)⟩) (t := r.2) (upd_self _ _ _)
    (by show r.1.links.owner x = some i; rw [p4, h.links]; exact hx) (kd.trans h.div) er
  obtain ⟨t3, j1, j2, j3⟩ := world_ticks n (s := ⟨r.1, upd s.tracks x (some r.2)⟩) (t := r.2) (upd_self _ _ _)
    ⟨sb.volumeSlide.trans he1, sb.panningSlide.trans he2, sb.tremoloOn.trans he3, sb.portamento.trans he4, sb.vibratoOn.trans he5⟩ er
  rw [k1] at j1
  cases j1
  have k2 : r.1.run fuel (ticksOf x (dividedTicks d j n)) = .ok s'.iw := k2
  have hrun : w1.run fuel (ticksOf x (dividedTicks d 0 (j + n))) = .ok s'.iw := by
    rw [dividedTicks_add, Nat.zero_add]
    rw [p4] at k2
    exact IWorld.run_ticks_append _ _ h.run k2
  have hph : (s'.iw.states x).phase = .attack := by
    obtain ⟨k, new, g1, g2, g3⟩ := hsu
    obtain ⟨id, q, e5, e6, hh⟩ := Plays.holds g2 g1 g3
    exact (held_kept hA hx hat hrun e5 e6 hh).2
  have hph1 : (r.1.states x).phase = .attack := by rw [p4]; exact h.phase
  rcases k6 (by show (r.1.states x).phase ≠ _; rw [hph1]; simp) with ⟨k, -⟩ | ⟨-, k', k''⟩
  · rw [hph] at k; cases k
  have hl : s'.iw.links = w0.links := by
    have : s'.iw.links = r.1.links := k4
    rw [this, p4]; exact h.links
  refine ⟨t2, ⟨hend, k1, k3, k'.trans p1, ?_, ⟨s2, ehalt, eget, hb, by rw [es2], kk.trans j2⟩, fun p => ?_, hl, hrun, hph⟩, j3⟩
  · rw [k'', p2]; omega
  · exact h.inv.played_ok (b := false) hf hpv h.here (fun _ => h.ok p) (.inl rfl) e k1

/-- What the release of a melody does to the instrument, as long as the track is not muted. -/
theorem TWorld.Mel.released {N m fuel x d i j k : Nat} {w0 w1 : IWorld} {t t1 t2 : Track} {v : Int} {s1 s : TWorld}
    (h : s1.Mel N m fuel x d w0 w1 t j v t1) (hd : 1 ≤ d) (hd2 : d ≤ 2147483647) (hx1 : s1.iw.links.owner x = some i)
    (h' : s1.run fuel (notePlayed x (-1) k) = .ok s) (ht2 : s.tracks x = some t2) (hm : t2.unit.mute = 0) :
    ∃ w3, s1.iw.setPhase x .release = .ok w3 ∧ w3.run fuel (ticksOf x (dividedTicks d j k)) = .ok s.iw ∧
      (s.iw.states x).phase = .release ∧ (w3.states x).phase = .release ∧ w3.log = s1.iw.log := by
  obtain ⟨r, hr, h'⟩ := TWorld.note_run h.here h'
  have hon : s1.iw.on x = true := by unfold IWorld.on; rw [hx1]; rfl
  obtain ⟨p1, p2, p3, p4⟩ := Track.release_muted hr hon
  have hl2 : r.1.links = s1.iw.links := by
    unfold IWorld.setPhase at p2
    rw [hx1] at p2
    obtain ⟨q, -, p2⟩ := bind_ok_iff.1 p2
    rw [← Except.ok.inj p2]
  obtain ⟨t2', k1, k2, k3, k4, k5, k5', k6⟩ := track_ticks (i := i) (d := d) hd hd2 k j
    (s := ⟨r.1, upd s1.tracks x (some r.2)⟩) (t := r.2) (upd_self _ _ _) (by rw [← hx1]; exact congrArg (fun l => l.owner x) hl2)
    (by rw [p1, h.div]) h'
  rw [ht2] at k1
  cases k1
  refine ⟨r.1, p2, k2, ?_⟩
  rcases p4 h.phase with ⟨g1, g2⟩ | ⟨g1, g2, g3⟩
  · have := k5 g2; omega
  · rcases k6 (by show (r.1.states x).phase ≠ _; rw [g1]; simp) with g | ⟨g, g', -⟩
    · omega
    · exact ⟨g.trans g1, g1, g3⟩

/-- What the parts of the instrument show at the end of a melody. -/
theorem TWorld.Mel.gives {N m fuel x d i T : Nat} {w0 w1 : IWorld} {A : BK.Lists} {t t2 : Track} {v : Int} {s : TWorld}
    (m1 : s.Mel N m fuel x d w0 w1 t T v t2) (hd : 1 ≤ d) (k1 : w0.Inv False A) (hx : w0.links.owner x = some i) (k2 : w0.attack x t.dutyCycle = .ok w1)
    {k : Nat} {a : Int} (hk : k < 4) (h : w0.Gives i k (firings d 0 T) a) : s.iw.value x k = a := by
  obtain ⟨slog, sinv, slinks, sins, -⟩ := same_log k1 hx k2 m1.run m1.phase
  have hcount := dividedTicks_count (d := d) (by omega) 0 T
  rw [firings_zero (by omega), Nat.zero_add, Nat.zero_add] at hcount
  rcases h with ⟨vals, so, sl, g1, g2, g3, rfl⟩ | ⟨g1, g2, rfl⟩
  · rw [← hcount]
    exact held_value k1 hx k2 m1.run slog g2 g1 g3
  · have hat := (sinv.att x i (by rw [slinks]; exact hx)).has
    exact (hat.val k (by omega)).1 (by rw [hat.pt k hk, sins]; exact g1)

/-- What they show after its release. -/
theorem TWorld.Mel.gives_released {N m fuel x d i T n : Nat} {w0 w1 : IWorld} {A : BK.Lists} {t t1 t2 : Track} {v : Int} {s1 s : TWorld}
    (m1 : s1.Mel N m fuel x d w0 w1 t T v t1) (hd : 1 ≤ d) (hd2 : d ≤ 2147483647) (k1 : w0.Inv False A) (hx : w0.links.owner x = some i)
    (k2 : w0.attack x t.dutyCycle = .ok w1) (e' : s1.run fuel (notePlayed x (-1) n) = .ok s) (a2' : s.tracks x = some t2) (hmute : t2.unit.mute = 0) :
    s.iw.on x = true ∧ ∀ k a, k < 4 → w0.GivesReleased i k (firings d 0 T) (firings d 0 (T + n) - firings d 0 T) a → s.iw.value x k = a := by
  have hx1 : s1.iw.links.owner x = some i := by rw [m1.links]; exact hx
  obtain ⟨w3, c7, c8, g1, g2, g3⟩ := m1.released (by omega) (by omega) hx1 e' a2' hmute
  obtain ⟨hlog0, c2, slinks, sins, sheap⟩ := same_log k1 hx k2 m1.run m1.phase
  obtain ⟨i3, x3, -⟩ := released_inv c2 hx1 m1.phase c7
  have hlog := release_log c2 hx1 m1.phase c7 c8 g1 g2
  obtain ⟨f1, f2, f3, -⟩ := ticks_slots (dividedTicks d T n) w3 A i3 x3 (by rw [g2]; simp) s.iw c8 hlog
  have sinv : s.iw.Inv False A := (ticks_events (dividedTicks d T n) w3 A i3 x3 (by rw [g2]; simp) s.iw c8).1
  have hw3 : w3.instrs = s1.iw.instrs := by
    have c7 := c7
    unfold IWorld.setPhase at c7
    rw [hx1] at c7
    obtain ⟨q, -, c7⟩ := bind_ok_iff.1 c7
    rw [← Except.ok.inj c7]
  have hcount := dividedTicks_count (d := d) (by omega) 0 T
  rw [firings_zero (by omega), Nat.zero_add, Nat.zero_add] at hcount
  have hcount2 := dividedTicks_count (d := d) (by omega) T n
  have hcount2 : (dividedTicks d T n).count true = firings d 0 (T + n) - firings d 0 T := by omega
  refine ⟨by unfold IWorld.on; rw [f3, x3]; rfl, ?_⟩
  rintro k a hk (⟨vals, so, sl, q1, q2, q3, rfl⟩ | ⟨q1, q2, rfl⟩)
  · rw [← hcount2, ← hcount, ← held_value k1 hx k2 m1.run hlog0 q2 q1 q3]
    refine released_value c2 hx1 m1.phase c7 c8 (by rw [← g3]; exact hlog) q2 q1 ?_
    obtain ⟨id, q, e5, e6, e7⟩ := q3
    exact ⟨id, q, by rw [sins]; exact e5, by rw [sheap]; exact e6, e7⟩
  · have hat := (sinv.att x i (by rw [f3]; exact x3)).has
    exact (hat.val k (by omega)).1 (by rw [hat.pt k hk, f1, hw3, sins]; exact q1)

end BK
