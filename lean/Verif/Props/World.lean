import Verif.Lemmas.World
import Verif.Props.Links
/-!
C43 and C77: disposing contexts.
-/
namespace BK

/-- C43 for units: after any attaching and detaching, disposing context `c` ends, no unit refers to
it, its units can be attached to any context, and the other contexts keep their units in order. -/
theorem C43_units (ops : List UnitOp) (c : Nat) : ∃ A fuel h',
    Lists.UnitRun (fun _ => []) ops (Links.unitRun {} ops).1 A ∧
    (Links.unitRun {} ops).2.detachAll fuel ((Links.unitRun {} ops).2.first c) = .ok h' ∧
    (∀ n, h'.owner n ≠ some c) ∧ (∀ n ∈ A c, ∀ d, (h'.unitAttach n d).1 = .ok) ∧
    h'.Visits c [] ∧ ∀ d, d ≠ c → h'.Visits d (A d) := by
  obtain ⟨A, h1, h2⟩ := unitRun_repr ops Links.Repr.empty
  obtain ⟨h', g1, g2⟩ := h2.detachAll c (A c) (A c).length rfl (Nat.le_refl _)
  refine ⟨A, (A c).length, h', h1, by rw [h2.first]; exact g1, ?_, ?_, ?_, ?_⟩
  · intro n hn
    have := (g2.owner n c).1 hn
    simp at this
  · intro n hn d
    have : h'.owner n = none := by
      cases ho : h'.owner n with
      | none => rfl
      | some e =>
        have he := (g2.owner n e).1 ho
        split at he
        · simp at he
        · rename_i hne
          exact absurd he (h2.elsewhere hn hne)
    unfold Links.unitAttach
    rw [if_pos this]
    dsimp only
    split <;> rfl
  · have := g2.visits c
    simpa using this
  · intro d hd
    have := g2.visits d
    simpa [hd] using this

/-- Units 1 and 2 in context 7, unit 3 in context 8, context 7 disposed. -/
example : ∃ h', (Links.unitRun {} [.attach 1 7, .attach 3 8, .attach 2 7]).2.detachAll 2 (some 1) = .ok h' ∧
    h'.owner 1 = none ∧ h'.owner 2 = none ∧ h'.owner 3 = some 8 := ⟨_, rfl, rfl, rfl, rfl⟩

/-- C43 for clocks, as long as every clock was attached before a clock of the same context (see
`C43_refuted`). -/
theorem C43_clocks_partial (ops : List ClockOp) (hl : Lists.LegalRun (fun _ => []) ops) (c : Nat) : ∃ r A fuel h',
    Links.clockRun {} ops = .ok r ∧ Lists.ClockRun (fun _ => []) ops r.1 A ∧
    r.2.detachAll fuel (r.2.first c) = .ok h' ∧ (∀ n, h'.owner n ≠ some c) ∧
    (∀ n ∈ A c, ∀ d, ∃ k, h'.clockAttach n d .null = .ok (.ok, k)) ∧
    h'.Visits c [] ∧ ∀ d, d ≠ c → h'.Visits d (A d) := by
  obtain ⟨r, A, h0, h1, h2⟩ := clockRun_repr ops Links.Repr.empty hl
  obtain ⟨h', g1, g2⟩ := h2.detachAll c (A c) (A c).length rfl (Nat.le_refl _)
  refine ⟨r, A, (A c).length, h', h0, h1, by rw [h2.first]; exact g1, ?_, ?_, ?_, ?_⟩
  · intro n hn
    have := (g2.owner n c).1 hn
    simp at this
  · intro n hn d
    have : h'.owner n = none := by
      cases ho : h'.owner n with
      | none => rfl
      | some e =>
        have he := (g2.owner n e).1 ho
        split at he
        · simp at he
        · rename_i hne
          exact absurd he (h2.elsewhere hn hne)
    unfold Links.clockAttach
    rw [if_pos this]
    dsimp only [Before.resolve]
    split <;> exact ⟨_, rfl⟩
  · have := g2.visits c
    simpa using this
  · intro d hd
    have := g2.visits d
    simpa [hd] using this

example : Lists.LegalRun (fun _ => []) [.attach 1 7 .null, .attach 2 7 .firstElement] := by
  refine ⟨trivial, fun _ _ _ => ⟨trivial, fun _ _ _ => trivial⟩⟩

/-- C43 does not hold for clocks: a clock whose attaching to context 7 was refused is marked as
attached to it.  It stays so when the context is disposed, and cannot be attached anywhere. -/
theorem C43_refuted : ∃ r h', Links.clockRun {} [.attach 2 8 .null, .attach 3 7 (.clock 2)] = .ok r ∧
    r.1 = [.ok, .invalidValue] ∧ r.2.detachAll 5 (r.2.first 7) = .ok h' ∧ h'.owner 3 = some 7 ∧
    ∃ k, h'.clockAttach 3 9 .null = .ok (.invalidState, k) :=
  ⟨_, _, rfl, rfl, rfl, rfl, _, rfl⟩

/-- What a track attached to context `c` needs: its unit is rendered, its divider ticks, and so does
the master clock. -/
structure World.Works (w : World) (n c : Nat) : Prop where
  unit : ∃ l, w.units.Visits c l ∧ n ∈ l
  divider : ∃ l, w.dividers.Visits c l ∧ n ∈ l
  clock : ∃ l, w.clocks.Visits c l ∧ c ∈ l

/-- The pointers of a world represent lists. -/
structure World.Sound (w : World) : Prop where
  units : ∃ A, w.units.Repr A
  dividers : ∃ A, w.dividers.Repr A
  clocks : ∃ A, w.clocks.Repr A

theorem Links.Repr.unowned {h : Links} {A : Lists} (hr : h.Repr A) {n : Nat} (hn : h.owner n = none) : ¬ A.Attached n := by
  rintro ⟨c, hc⟩
  rw [(hr.owner n c).2 hc] at hn
  cases hn

/-- C77: attaching a track whose unit and divider are free makes it work; the master clock must not
be attached to another context. -/
theorem C77_attach_partial {w : World} (hw : w.Sound) {n c : Nat} (hu : w.units.owner n = none)
    (hd : w.dividers.owner n = none) (hk : w.clocks.owner c = none ∨ w.clocks.owner c = some c) :
    ∃ w', w.trackAttach n c = .ok (.ok, w') ∧ w'.Works n c ∧ w'.Sound := by
  obtain ⟨⟨U, hU⟩, ⟨D, hD⟩, ⟨K, hK⟩⟩ := hw
  obtain ⟨U', u1, u2⟩ := hU.unitAttach n c
  obtain ⟨D', d1, d2⟩ := hD.dividerAttach n c
  rcases u2 with ⟨u2, -, -⟩ | ⟨-, u3, u4⟩
  · exact absurd u2 (hU.unowned hu)
  rcases d2 with ⟨d2, -, -⟩ | ⟨-, d3, d4⟩
  · exact absurd d2 (hD.unowned hd)
  have hclk : ∃ ret k K', w.clocks.clockAttach c c (Before.ofPtr (w.clocks.first c)) = .ok (ret, k) ∧ k.Repr K' ∧ c ∈ K' c := by
    obtain ⟨ret, k, K', k1, k2, k3⟩ := hK.clockAttach (n := c) (c := c) (before := Before.ofPtr (w.clocks.first c)) (by
        rw [hK.first]
        cases hf : (K c).head? with
        | none => trivial
        | some b => exact .inr (List.mem_of_mem_head? hf))
    refine ⟨ret, k, K', k1, k2, ?_⟩
    rcases k3 with ⟨hatt, -, k4⟩ | ⟨hna, -, k4⟩
    · rw [k4]
      rcases hk with hk | hk
      · exact absurd hatt (hK.unowned hk)
      · exact (hK.owner c c).1 hk
    · rw [k4]
      dsimp only
      rw [if_pos rfl]
      rw [hK.first]
      cases hc : K c with
      | nil => simp [Before.ofPtr]
      | cons b l => simp [Before.ofPtr, insertBefore]
  obtain ⟨ret, k, K', k1, k2, k3⟩ := hclk
  refine ⟨{ units := (w.units.unitAttach n c).2, clocks := k, dividers := (w.dividers.dividerAttach n c).2 }, ?_,
    ⟨⟨U' c, u1.visits c, ?_⟩, ⟨D' c, d1.visits c, ?_⟩, ⟨K' c, k2.visits c, k3⟩⟩, ⟨⟨_, u1⟩, ⟨_, d1⟩, ⟨_, k2⟩⟩⟩
  · unfold World.trackAttach
    dsimp only
    rw [if_pos u3]
    unfold World.attachDivider
    dsimp only
    rw [k1]
    rfl
  · rw [u4]; simp
  · rw [d4]; simp

example : ∃ w', World.trackAttach {} 1 7 = .ok (.ok, w') ∧ w'.dividers.first 7 = some 1 := ⟨_, rfl, rfl⟩

theorem Links.Repr.freed {h : Links} {A : Lists} (hr : h.Repr A) (n : Nat) : (h.detach n).owner n = none := by
  obtain ⟨A', h1, h2⟩ := hr.detach n
  cases ho : (h.detach n).owner n with
  | none => rfl
  | some c =>
    have := (h1.owner n c).1 ho
    rw [h2] at this
    simp at this

/-- C77, for a track that is detached before its context is disposed: it can be attached to another
context and works there. -/
theorem C77_moved_partial {w : World} (hw : w.Sound) {n c d : Nat} (hcd : d ≠ c)
    (hk : w.clocks.owner d = none ∨ w.clocks.owner d = some d) :
    ∃ fuel w1 w2, (w.trackDetach n).contextDispose fuel c = .ok w1 ∧ w1.trackAttach n d = .ok (.ok, w2) ∧ w2.Works n d := by
  obtain ⟨⟨U, hU⟩, ⟨D, hD⟩, ⟨K, hK⟩⟩ := hw
  obtain ⟨U', u1, u2⟩ := hU.detach n
  obtain ⟨D', d1, d2⟩ := hD.detach n
  have hfu := hU.freed n
  obtain ⟨hu, a1, a2⟩ := u1.detachAll c (U' c) ((U' c).length + (K c).length) rfl (by omega)
  obtain ⟨hc, b1, b2⟩ := hK.detachAll c (K c) ((U' c).length + (K c).length) rfl (by omega)
  obtain ⟨K'', c1, c2⟩ := b2.detach c
  have hs : World.Sound { units := hu, clocks := hc.detach c, dividers := w.dividers.detach n } :=
    ⟨⟨_, a2⟩, ⟨_, d1⟩, ⟨_, c1⟩⟩
  have ho : hu.owner n = none := by
    cases ho : hu.owner n with
    | none => rfl
    | some e =>
      have := (a2.owner n e).1 ho
      split at this
      · simp at this
      · rw [(u1.owner n e).2 this] at hfu
        cases hfu
  have hk' : (hc.detach c).owner d = none ∨ (hc.detach c).owner d = some d := by
    cases ho : (hc.detach c).owner d with
    | none => exact .inl rfl
    | some e =>
      refine .inr ?_
      have h1 := (c1.owner d e).1 ho
      rw [c2] at h1
      have h2 : d ∈ (if e = c then [] else K e) := (List.mem_filter.1 h1).1
      split at h2
      · simp at h2
      · have h3 := (hK.owner d e).2 h2
        rcases hk with hk | hk
        · rw [hk] at h3; cases h3
        · rw [hk] at h3; exact h3.symm
  obtain ⟨w2, e1, e2, -⟩ := C77_attach_partial hs (n := n) (c := d) ho (hD.freed n) hk'
  refine ⟨(U' c).length + (K c).length, _, w2, ?_, e1, e2⟩
  unfold World.contextDispose World.trackDetach
  dsimp only
  rw [u1.first, a1, ok_bind, hK.first, b1]
  rfl

/-- A track attached to context 7. -/
example : ∃ w w1 w2, World.trackAttach {} 1 7 = .ok (.ok, w) ∧ (w.trackDetach 1).contextDispose 3 7 = .ok w1 ∧
    w1.trackAttach 1 8 = .ok (.ok, w2) ∧ w2.dividers.first 8 = some 1 := ⟨_, _, _, rfl, rfl, rfl, rfl⟩

/-- C77 does not hold: when context 7 is disposed while track 1 is attached, the track's divider stays
attached to it.  The track can be attached to context 8, with success, but its divider is not among
those of context 8, and still refers to context 7. -/
theorem C77_refuted : ∃ w w1 w2, World.trackAttach {} 1 7 = .ok (.ok, w) ∧ w.Works 1 7 ∧ w.contextDispose 3 7 = .ok w1 ∧
    w1.trackAttach 1 8 = .ok (.ok, w2) ∧ w2.dividers.Visits 8 [] ∧ w2.dividers.owner 1 = some 7 ∧ ¬ w2.Works 1 8 := by
  have hv : ∀ w2 : World, w2.dividers.first 8 = none → w2.dividers.Visits 8 [] := by
    intro w2 h f _
    rw [h]
    cases f <;> rfl
  obtain ⟨w, e1, e2, -⟩ := C77_attach_partial (w := {}) ⟨⟨_, Links.Repr.empty⟩, ⟨_, Links.Repr.empty⟩, ⟨_, Links.Repr.empty⟩⟩
    (n := 1) (c := 7) rfl rfl (.inl rfl)
  have hw : World.trackAttach {} 1 7 = .ok (.ok, _) := rfl
  rw [hw] at e1
  cases e1
  refine ⟨_, _, _, hw, e2, rfl, rfl, hv _ rfl, rfl, ?_⟩
  rintro ⟨-, ⟨l, h1, h2⟩, -⟩
  have := (hv _ rfl l.length (by simp)).symm.trans (h1 l.length (Nat.le_refl _))
  cases this
  simp at h2

end BK
