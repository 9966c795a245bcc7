import Verif.Lemmas.TrackTick
/-!
C53: dividers of tracks.  C54: arpeggios.
-/
namespace BK

/-- A divider `d` that fires at ticks `c`, `c + d`, …, in front of tick `k`. -/
def DivState.at (d c k : Nat) : DivState := ⟨d, ((c + (d - k % d)) % d : Nat)⟩

theorem DivState.at_zero {d c : Nat} (hc : c < d) : DivState.at d c 0 = ⟨d, c⟩ := by
  unfold DivState.at
  rw [Nat.zero_mod, Nat.sub_zero, Nat.add_mod_right, Nat.mod_eq_of_lt hc]

theorem mod_succ (k d : Nat) (hd : 1 ≤ d) :
    (k + 1) % d = if k % d + 1 = d then 0 else k % d + 1 := by
  have hk : k % d < d := Nat.mod_lt _ hd
  rw [Nat.add_mod]
  by_cases h1 : d = 1
  · subst h1; simp [Nat.mod_one]
  · rw [Nat.mod_eq_of_lt (show 1 < d by omega)]
    split
    · rename_i h; rw [h, Nat.mod_self]
    · exact Nat.mod_eq_of_lt (by omega)

theorem DivState.at_counter (d c k : Nat) (hc : c < d) :
    (c + (d - k % d)) % d = if k % d ≤ c then c - k % d else c + d - k % d := by
  have hk : k % d < d := Nat.mod_lt _ (by omega)
  split
  · rw [show c + (d - k % d) = (c - k % d) + d by omega, Nat.add_mod_right]
    exact Nat.mod_eq_of_lt (by omega)
  · rw [show c + d - k % d = c + (d - k % d) by omega]
    exact Nat.mod_eq_of_lt (by omega)

theorem DivState.tick_at (d c k : Nat) (hc : c < d) (hm : d ≤ 2147483647) :
    (DivState.at d c k).tick = .ok (decide (k % d = c), DivState.at d c (k + 1)) := by
  have hk : k % d < d := Nat.mod_lt _ (by omega)
  have e0 := DivState.at_counter d c k hc
  have e1 := DivState.at_counter d c (k + 1) hc
  rw [mod_succ k d (by omega)] at e1
  unfold DivState.tick DivState.at
  rw [e0, mod_succ k d (by omega), e1]
  have hd : decide ((((if k % d ≤ c then c - k % d else c + d - k % d : Nat)) : Int) = 0) =
      decide (k % d = c) := by
    rw [decide_eq_decide]; split <;> omega
  have hi : i32 ((if (((if k % d ≤ c then c - k % d else c + d - k % d : Nat)) : Int) = 0 then (d : Int)
      else ((if k % d ≤ c then c - k % d else c + d - k % d : Nat) : Int)) - 1) =
      .ok ((if (if k % d + 1 = d then 0 else k % d + 1) ≤ c then
        c - (if k % d + 1 = d then 0 else k % d + 1)
        else c + d - (if k % d + 1 = d then 0 else k % d + 1) : Nat) : Int) := by
    split_ifs <;> first | omega | (rw [i32_ok (by omega) (by omega)]; congr 1; omega)
  dsimp only
  rw [hi, hd]
  rfl

/-- A divider `d` set on a track fires on the first tick and then on every `d`-th. -/
theorem C53_fires_partial (d n : Nat) (hd : 1 ≤ d) (hm : d ≤ 2147483647) :
    ∃ e, DivState.fires ⟨d, 0⟩ n = .ok ((List.range n).map fun k => decide (k % d = 0), e) := by
  refine ⟨DivState.at d 0 n, ?_⟩
  rw [show (0 : Int) = ((0 : Nat) : Int) from rfl, ← DivState.at_zero (show 0 < d from hd)]
  induction n with
  | zero => rfl
  | succ n ih =>
    unfold DivState.fires
    rw [ih, ok_bind, DivState.tick_at d 0 n hd hm, ok_bind, List.range_succ, List.map_append]
    rfl

example : ∃ e, DivState.fires ⟨3, 0⟩ 7 =
    .ok ([true, false, false, true, false, false, true], e) := ⟨_, rfl⟩

theorem firings_zero {d c : Nat} (hc : c < d) : firings d c 0 = 0 := by
  unfold firings
  exact Nat.div_eq_of_lt (by omega)

theorem firings_succ (d c n : Nat) (hc : c < d) :
    firings d c (n + 1) = firings d c n + if n % d = c then 1 else 0 := by
  unfold firings
  rw [show n + 1 + (d - 1) - c = (n + (d - 1) - c) + 1 by omega, Nat.succ_div]
  congr 1
  have hn := Nat.div_add_mod n d
  have hl : n % d < d := Nat.mod_lt _ (by omega)
  rw [show n + (d - 1) - c + 1 = n + d - c by omega]
  have : d ∣ n + d - c ↔ n % d = c := by
    rw [show n + d - c = d * (n / d) + (n % d + (d - c)) by omega,
      Nat.dvd_add_right (Nat.dvd_mul_right _ _)]
    constructor
    · rintro ⟨q, hq⟩
      have h1 : q < 2 := by
        by_contra h2
        have : d * 2 ≤ d * q := Nat.mul_le_mul_left d (by omega)
        omega
      have h0 : q ≠ 0 := by rintro rfl; omega
      have : q = 1 := by omega
      subst this
      omega
    · intro h
      exact ⟨1, by omega⟩
  simp only [this]

/-- What ticks under a divider amounts to. -/
theorem counted {S A : Type} {step : S → C S} {f : Bool → A → C A} {proj : S → A}
    {div : S → DivState} {I : S → Prop} {d c : Nat} (hc : c < d) (hm : d ≤ 2147483647)
    (hstep : ∀ s s', I s → step s = .ok s' →
      I s' ∧ ∃ r, (div s).tick = .ok r ∧ div s' = r.2 ∧ f r.1 (proj s) = .ok (proj s'))
    {n : Nat} {s s' : S} (h : times step n s = .ok s') (hi : I s) (h0 : div s = ⟨d, c⟩) :
    I s' ∧ div s' = DivState.at d c n ∧ timesEvery f d c n (proj s) = .ok (proj s') := by
  induction n generalizing s' with
  | zero =>
    cases h
    exact ⟨hi, by rw [DivState.at_zero hc]; exact h0, rfl⟩
  | succ n ih =>
    unfold times at h
    obtain ⟨a, ha, h⟩ := bind_ok_iff.1 h
    obtain ⟨ia, da, fa⟩ := ih ha
    obtain ⟨is, r, hr, ds, fs⟩ := hstep a s' ia h
    rw [da, DivState.tick_at d c n hc hm] at hr
    cases hr
    refine ⟨is, ds, ?_⟩
    unfold timesEvery
    rw [fa, ok_bind]
    exact fs

/-- Steps that only do something when special. -/
theorem timesEvery_if {A : Type} {g : A → C A} {d c : Nat} (hc : c < d) {n : Nat} {a b : A}
    (h : timesEvery (fun c a => if c then g a else .ok a) d c n a = .ok b) :
    times g (firings d c n) a = .ok b := by
  induction n generalizing b with
  | zero =>
    cases h
    rw [firings_zero hc]
    rfl
  | succ n ih =>
    unfold timesEvery at h
    obtain ⟨e, he, h⟩ := bind_ok_iff.1 h
    have := ih he
    rw [firings_succ d c n hc]
    by_cases h0 : n % d = c
    · simp only [h0, decide_true, if_true] at h ⊢
      unfold times
      rw [this, ok_bind]
      exact h
    · simp only [h0, decide_false, if_false] at h ⊢
      cases h
      exact this

/-- After `n` ticks of a track whose arpeggio divider is `d`, with `c` ticks to go before it
fires (none when just set), the arpeggio has advanced as often as the divider fires. -/
theorem C53_arpeggio_partial (x n d c : Nat) (hc : c < d) (hm : d ≤ 2147483647) (w : IWorld) (t : Track)
    (s : IWorld × Track) (ht : t.arpDiv = ⟨d, c⟩) (hon : t.arpeggioOn = true)
    (h : Track.ticks x n (w, t) = .ok s) : times Arp.tick (firings d c n) t.arp = .ok s.2.arp := by
  have := counted (proj := fun s : IWorld × Track => s.2.arp) (div := fun s => s.2.arpDiv)
    (I := fun s => s.2.arpeggioOn = true) (f := fun b a => if b then a.tick else .ok a) hc hm
    (fun s s' is hs => by
      obtain ⟨r, hr, e1, e2⟩ := (Track.tick_arp hs).1 is
      exact ⟨(Track.tick_switches hs).1.trans is, r, hr, e1, e2⟩) h hon ht
  exact timesEvery_if hc this.2.2

/-- Likewise for the effects. -/
theorem C53_effects_partial (x n d c : Nat) (hc : c < d) (hm : d ≤ 2147483647) (w : IWorld) (t : Track)
    (s : IWorld × Track) (ht : t.effectDiv = ⟨d, c⟩) (hon : t.effects = true)
    (h : Track.ticks x n (w, t) = .ok s) :
    times (Fx.step t.volumeSlide t.panningSlide t.tremoloOn t.vibratoOn) (firings d c n) t.fx =
      .ok s.2.fx ∧
    (w.on x = false → times (fun a => Slide.tickIf a t.portamento) (firings d c n) t.note =
      .ok s.2.note) := by
  have sw : ∀ {s s' : IWorld × Track}, s.2.tick x s.1 = .ok s' → s'.2.effects = s.2.effects := by
    intro s s' hs
    obtain ⟨-, e1, e2, e3, e4, e5, -, -⟩ := Track.tick_switches hs
    unfold Track.effects
    rw [e1, e2, e3, e4, e5]
  have on : ∀ {w w' : IWorld}, w'.links = w.links → w'.on x = w.on x := by
    intro w w' e
    unfold IWorld.on
    rw [e]
  constructor
  · have := counted (proj := fun s : IWorld × Track => s.2.fx) (div := fun s => s.2.effectDiv)
      (I := fun s => s.2.effects = true ∧ s.2.volumeSlide = t.volumeSlide ∧
        s.2.panningSlide = t.panningSlide ∧ s.2.tremoloOn = t.tremoloOn ∧
        s.2.vibratoOn = t.vibratoOn)
      (f := fun b a => if b then a.step t.volumeSlide t.panningSlide t.tremoloOn t.vibratoOn
        else .ok a) hc hm
      (fun s s' is hs => by
        obtain ⟨r, hr, e1, e2, -⟩ := (Track.tick_fx hs).1 is.1
        obtain ⟨-, f1, f2, f3, f4, f5, -, -⟩ := Track.tick_switches hs
        obtain ⟨i0, i1, i2, i3, i4⟩ := is
        rw [i1, i2, i3, i4] at e2
        exact ⟨⟨(sw hs).trans i0, f1.trans i1, f2.trans i2, f4.trans i3, f5.trans i4⟩,
          r, hr, e1, e2⟩) h ⟨hon, rfl, rfl, rfl, rfl⟩ ht
    exact timesEvery_if hc this.2.2
  · intro hw
    have := counted (proj := fun s : IWorld × Track => s.2.note) (div := fun s => s.2.effectDiv)
      (I := fun s => s.2.effects = true ∧ s.2.portamento = t.portamento ∧ s.1.on x = false)
      (f := fun b a => if b then a.tickIf t.portamento else .ok a) hc hm
      (fun s s' is hs => by
        obtain ⟨r, hr, e1, -, e2⟩ := (Track.tick_fx hs).1 is.1
        obtain ⟨-, f1, f2, f3, f4, f5, f6, -⟩ := Track.tick_switches hs
        obtain ⟨i0, i1, i2⟩ := is
        have e2 := e2 i2
        rw [i1] at e2
        exact ⟨⟨(sw hs).trans i0, f3.trans i1, (on f6).trans i2⟩, r, hr, e1, e2⟩)
      h ⟨hon, rfl, hw⟩ ht
    exact timesEvery_if hc this.2.2

/-- The instrument gets every tick; every `d`-th one also advances its value
sequences. -/
theorem C53_instrument_partial (x n d c : Nat) (hc : c < d) (hm : d ≤ 2147483647) (w : IWorld)
    (t : Track) (s : IWorld × Track) (ht : t.instrDiv = ⟨d, c⟩) (hon : w.on x = true)
    (h : Track.ticks x n (w, t) = .ok s) :
    timesEvery (fun b w => IWorld.tick w x b) d c n w = .ok s.1 := by
  have := counted (proj := fun s : IWorld × Track => s.1) (div := fun s => s.2.instrDiv)
    (I := fun s => s.1.on x = true) (f := fun b w => IWorld.tick w x b) hc hm
    (fun s s' is hs => by
      obtain ⟨r, hr, e1, e2⟩ := Track.tick_instr hs is
      obtain ⟨-, -, -, -, -, -, f6, -⟩ := Track.tick_switches hs
      have : s'.1.on x = true := by unfold IWorld.on at is ⊢; rw [f6]; exact is
      exact ⟨this, r, hr, e1, e2⟩) h hon ht
  exact this.2.2

/-- A track with an arpeggio, a volume slide and dividers 2 and 3, the volume falling by a quarter
per step. -/
def tickedTrack : Track :=
  { arpeggioOn := true, arp := ⟨0, 0, 2, [5 * U20, 7 * U20, 0, 0, 0, 0, 0, 0]⟩, arpDiv := ⟨2, 0⟩
    volumeSlide := true, effectDiv := ⟨3, 0⟩
    volume := match (Slide.init 32767).setValueAndSteps 4000 4 with | .ok s => s | .error _ => {} }

example : tickedTrack.arpDiv = ⟨2, 0⟩ ∧ tickedTrack.arpeggioOn = true ∧
    (Track.ticks 0 5 ({}, tickedTrack)).map (fun s => (s.2.arp.offset, s.2.arp.delta)) =
      .ok (1, 5 * U20) ∧ firings 2 0 5 = 3 := ⟨rfl, rfl, by decide +kernel, rfl⟩

example : tickedTrack.effectDiv = ⟨3, 0⟩ ∧ tickedTrack.effects = true ∧
    (Track.ticks 0 5 ({}, tickedTrack)).map (fun s => s.2.volume.value) =
      (tickedTrack.volume.ticks 2).map (·.value) ∧ firings 3 0 5 = 2 :=
  ⟨rfl, rfl, by decide +kernel, rfl⟩

/-- A world in which track 0 plays an instrument with a volume sequence of three values. -/
def tickedWorld : C (IWorld × Track) := do
  let r ← ({} : IWorld).setSequence 1 0 0 (.values [1, 2, 3] 0 3)
  let t : Track := { instrDiv := ⟨2, 0⟩ }
  t.setInstrument 0 r.2 (some 0)

example : (tickedWorld.map fun s => (s.1.on 0, s.2.instrDiv.divider, s.2.instrDiv.counter)) =
    .ok (true, 2, 0) ∧
    (tickedWorld >>= Track.ticks 0 3).map (fun s => s.1.value 0 0) = .ok 2 :=
  ⟨by decide +kernel, by decide +kernel⟩

theorem DivState.tick_neg (d : Int) (c : Int) (hc : c < 0) (hl : -2147483648 < c) :
    DivState.tick ⟨d, c⟩ = .ok (false, ⟨d, c - 1⟩) := by
  unfold DivState.tick
  dsimp only
  rw [if_neg (by omega), i32_ok (by omega) (by omega), ok_bind]
  show Except.ok _ = _
  rw [decide_eq_false (by omega)]

/-- Not for all divider values: a divider that is not positive, which is accepted, fires once and
then never again, until the counter overflows. -/
theorem C53_refuted (d : Int) (h : d ≤ 0) (hd : -2147483648 < d) :
    (∀ x w t, (Track.setAttr x w t .arpeggioDivider d).map (fun r => (r.1, r.2.2.arpDiv)) =
      .ok (.ok, ⟨d, 0⟩)) ∧
    (∀ n : Nat, (n : Int) ≤ 2147483647 + d →
      ∃ e, DivState.fires ⟨d, 0⟩ (n + 1) = .ok (true :: List.replicate n false, e)) ∧
    ∃ n : Nat, DivState.fires ⟨d, 0⟩ n = .error .overflow := by
  have main : ∀ n : Nat, (n : Int) ≤ 2147483647 + d →
      DivState.fires ⟨d, 0⟩ (n + 1) = .ok (true :: List.replicate n false, ⟨d, d - 1 - n⟩) := by
    intro n hn
    induction n with
    | zero =>
      unfold DivState.fires DivState.fires
      rw [ok_bind]
      unfold DivState.tick
      dsimp only
      rw [if_pos rfl, i32_ok (by omega) (by omega)]
      simp
    | succ n ih =>
      unfold DivState.fires
      rw [ih (by omega), ok_bind]
      dsimp only
      rw [DivState.tick_neg d (d - 1 - n) (by omega) (by omega), ok_bind]
      show Except.ok _ = Except.ok _
      have : List.replicate (n + 1) false = List.replicate n false ++ [false] :=
        List.replicate_succ'
      rw [this]
      simp
      omega
  refine ⟨fun x w t => rfl, fun n hn => ⟨_, main n hn⟩, ?_⟩
  refine ⟨(2147483647 + d).toNat + 2, ?_⟩
  unfold DivState.fires
  rw [main _ (by omega), ok_bind]
  dsimp only
  have e : d - 1 - ((2147483647 + d).toNat : Int) = -2147483648 := by omega
  rw [e]
  rfl

example : ∃ e, DivState.fires ⟨0, 0⟩ 4 = .ok ([true, false, false, false], e) := ⟨_, rfl⟩

end BK
