import Verif.Lemmas.Links
/-!
C32–C34, C36, C73: lists of units, clocks and dividers.
-/
namespace BK

theorem unitRun_repr (ops : List UnitOp) : ∀ {h : Links} {A : Lists}, h.Repr A →
    ∃ A', A.UnitRun ops (h.unitRun ops).1 A' ∧ (h.unitRun ops).2.Repr A' := by
  induction ops with
  | nil => intro h A hr; exact ⟨A, .nil A, hr⟩
  | cons op ops ih =>
    intro h A hr
    have step : ∃ A', A.UnitStep op (h.unitStep op).1 A' ∧ (h.unitStep op).2.Repr A' := by
      cases op with
      | attach n c =>
        obtain ⟨A', h1, h2⟩ := hr.unitAttach n c
        exact ⟨A', h2, h1⟩
      | detach n =>
        obtain ⟨A', h1, h2⟩ := hr.detach n
        exact ⟨A', ⟨rfl, h2⟩, h1⟩
    obtain ⟨A', h1, h2⟩ := step
    obtain ⟨A'', h3, h4⟩ := ih h2
    exact ⟨A'', .cons h1 h3, h4⟩

theorem dividerRun_repr (ops : List UnitOp) : ∀ {h : Links} {A : Lists}, h.Repr A →
    ∃ A', A.UnitRun ops (h.dividerRun ops).1 A' ∧ (h.dividerRun ops).2.Repr A' := by
  induction ops with
  | nil => intro h A hr; exact ⟨A, .nil A, hr⟩
  | cons op ops ih =>
    intro h A hr
    have step : ∃ A', A.UnitStep op (h.dividerStep op).1 A' ∧ (h.dividerStep op).2.Repr A' := by
      cases op with
      | attach n c =>
        obtain ⟨A', h1, h2⟩ := hr.dividerAttach n c
        exact ⟨A', h2, h1⟩
      | detach n =>
        obtain ⟨A', h1, h2⟩ := hr.detach n
        exact ⟨A', ⟨rfl, h2⟩, h1⟩
    obtain ⟨A', h1, h2⟩ := step
    obtain ⟨A'', h3, h4⟩ := ih h2
    exact ⟨A'', .cons h1 h3, h4⟩

/-- C32: after any sequence of attach and detach calls on any units and contexts, all return
values are as expected, and walking a context's list visits exactly the attached units in attach
order and stops. -/
theorem C32_units (ops : List UnitOp) :
    ∃ A, Lists.UnitRun (fun _ => []) ops (Links.unitRun {} ops).1 A ∧
      ∀ c, (Links.unitRun {} ops).2.Visits c (A c) ∧ (A c).Nodup := by
  obtain ⟨A, h1, h2⟩ := unitRun_repr ops Links.Repr.empty
  exact ⟨A, h1, fun c => ⟨h2.visits c, h2.nodup c⟩⟩

/-- Three units in two contexts, one attach refused, the first unit moved. -/
example : (Links.unitRun {} [.attach 1 7, .attach 2 7, .attach 3 8, .attach 2 8, .detach 1,
      .attach 1 8]).1 = [.ok, .ok, .ok, .invalidState, .ok, .ok] ∧
    (let h := (Links.unitRun {} [.attach 1 7, .attach 2 7, .attach 3 8, .attach 2 8, .detach 1,
      .attach 1 8]).2
     h.walk 5 (h.first 7) = .ok [2] ∧ h.walk 5 (h.first 8) = .ok [3, 1]) := by
  decide

/-- C32: attaching a unit that is attached anywhere changes nothing at all. -/
theorem C32_refused (h : Links) (n c : Nat) (hn : h.owner n ≠ none) :
    h.unitAttach n c = (.invalidState, h) := by
  unfold Links.unitAttach; rw [if_neg hn]

example : (Links.unitRun {} [.attach 4 1]).2.owner 4 ≠ none := by decide

/-- C73: the same for divider groups. -/
theorem C73_dividers (ops : List UnitOp) :
    ∃ A, Lists.UnitRun (fun _ => []) ops (Links.dividerRun {} ops).1 A ∧
      ∀ c, (Links.dividerRun {} ops).2.Visits c (A c) ∧ (A c).Nodup := by
  obtain ⟨A, h1, h2⟩ := dividerRun_repr ops Links.Repr.empty
  exact ⟨A, h1, fun c => ⟨h2.visits c, h2.nodup c⟩⟩

example : (let h := (Links.dividerRun {} [.attach 1 7, .attach 2 7, .attach 3 7, .detach 2,
      .attach 2 7]).2
     h.walk 5 (h.first 7) = .ok [1, 3, 2]) := by
  decide

/-- C73: a divider that is in a group is refused without any effect. -/
theorem C73_refused (h : Links) (n c : Nat) (hn : h.owner n ≠ none) :
    h.dividerAttach n c = (.invalidState, h) := by
  unfold Links.dividerAttach; rw [if_neg hn]

example : (Links.dividerRun {} [.attach 4 1]).2.owner 4 ≠ none := by decide

theorem clockRun_repr (ops : List ClockOp) : ∀ {h : Links} {A : Lists}, h.Repr A →
    A.LegalRun ops →
    ∃ r A', h.clockRun ops = .ok r ∧ A.ClockRun ops r.1 A' ∧ r.2.Repr A' := by
  induction ops with
  | nil => intro h A hr _; exact ⟨_, A, rfl, .nil A, hr⟩
  | cons op ops ih =>
    intro h A hr hl
    obtain ⟨hl1, hl2⟩ := hl
    have step : ∃ ret h' A', h.clockStep op = .ok (ret, h') ∧ A.ClockStep op ret A' ∧
        h'.Repr A' := by
      cases op with
      | attach n c b =>
        obtain ⟨ret, h', A', h1, h2, h3⟩ := hr.clockAttach hl1
        exact ⟨ret, h', A', h1, h3, h2⟩
      | detach n =>
        obtain ⟨A', h1, h2⟩ := hr.detach n
        exact ⟨.ok, _, A', rfl, ⟨rfl, h2⟩, h1⟩
    obtain ⟨ret, h', A', h1, h2, h3⟩ := step
    obtain ⟨r, A'', h4, h5, h6⟩ := ih h3 (hl2 ret A' h2)
    refine ⟨(ret :: r.1, r.2), A'', ?_, .cons h2 h5, h6⟩
    unfold Links.clockRun
    rw [h1]
    show (do let t ← h'.clockRun ops; return (ret :: t.1, t.2)) = _
    rw [h4]
    rfl

/-- C33, partial: as long as every `before` argument is NULL, "first" or a clock attached to the
same context, no call fails in memory, and each context's list is exactly the requested one.
Missing: other `before` arguments, where the claim is false (`C33_refuted`,
`C33_self_refuted`). -/
theorem C33_clocks_partial (ops : List ClockOp) (hl : Lists.LegalRun (fun _ => []) ops) :
    ∃ r A, Links.clockRun {} ops = .ok r ∧ Lists.ClockRun (fun _ => []) ops r.1 A ∧
      ∀ c, r.2.Visits c (A c) ∧ (A c).Nodup := by
  obtain ⟨r, A, h1, h2, h3⟩ := clockRun_repr ops Links.Repr.empty hl
  exact ⟨r, A, h1, h2, fun c => ⟨h3.visits c, h3.nodup c⟩⟩

/-- Clock 2 at the end, 3 at the front, 4 before 2: the order is 3, 1, 4, 2. -/
example : (match Links.clockRun {} [.attach 1 7 .null, .attach 2 7 .null, .attach 3 7 .firstElement,
      .attach 4 7 (.clock 2)] with
    | .ok r => decide (r.2.walk 5 (r.2.first 7) = .ok [3, 1, 4, 2])
    | .error _ => false) = true := by
  decide

example : Lists.LegalRun (fun _ => []) [.attach 1 7 .null, .attach 2 7 (.clock 1)] := by
  refine ⟨trivial, ?_⟩
  rintro r A' (⟨⟨c, hc⟩, -⟩ | ⟨-, -, rfl⟩)
  · cases hc
  · refine ⟨.inr (by simp), fun _ _ _ => trivial⟩

/-- C33 is violated: a clock whose attach was refused, because `before` belongs to another
context, is marked as attached.  Detaching it then empties the list of the context: clock 1 is
lost though it was never detached. -/
theorem C33_refuted :
    ∃ r, Links.clockRun {} [.attach 1 7 .null, .attach 2 8 .null, .attach 3 7 (.clock 2),
        .detach 3] = .ok r ∧
      r.1 = [.ok, .ok, .invalidValue, .ok] ∧ r.2.owner 1 = some 7 ∧
      r.2.walk 5 (r.2.first 7) = .ok [] :=
  ⟨_, rfl, by decide, by decide, by decide⟩

/-- C33 is violated: attaching a new clock before itself follows a NULL pointer. -/
theorem C33_self_refuted : Links.clockRun {} [.attach 1 7 (.clock 1)] = .error .null := by
  rfl

/-- C34 is violated: the refused attach of clock 3 leaves it marked as attached to context 7. -/
theorem C34_refuted :
    ∃ h : Links, ∃ A, h.Repr A ∧ ∃ h', h.clockAttach 3 7 (.clock 2) = .ok (.invalidValue, h') ∧
      h.owner 3 = none ∧ h'.owner 3 = some 7 ∧
      -- so that a correct attach is refused afterwards
      h'.clockAttach 3 7 .null = .ok (.invalidState, h') := by
  obtain ⟨A, -, h2⟩ := unitRun_repr [.attach 1 7, .attach 2 8] Links.Repr.empty
  exact ⟨_, A, h2, _, rfl, by decide, by decide, rfl⟩

/-- C34, partial: an attach refused because the clock is attached changes nothing; one refused
because of `before` changes only the owner field of the clock.  Missing: the owner field
(`C34_refuted`). -/
theorem C34_attach_partial (h : Links) (n c : Nat) (b : Before) (r : AttachRet) (h' : Links)
    (hc : h.clockAttach n c b = .ok (r, h')) :
    (r = .invalidState → h' = h) ∧
    (r = .invalidValue → h' = { h with owner := upd h.owner n (some c) }) := by
  unfold Links.clockAttach at hc
  split at hc
  · dsimp only at hc
    repeat' split at hc
    all_goals simp only [pure_eq_ok, Except.ok.injEq, Prod.mk.injEq, reduceCtorEq] at hc
    all_goals obtain ⟨rfl, rfl⟩ := hc
    all_goals simp
  · simp only [pure_eq_ok, Except.ok.injEq, Prod.mk.injEq] at hc
    obtain ⟨rfl, rfl⟩ := hc
    simp

example : (match (Links.unitRun {} [.attach 2 8]).2.clockAttach 3 7 (.clock 2) with
    | .ok r => decide (r.1 = .invalidValue)
    | .error _ => false) = true := by
  decide

/-- C36 is violated: disposing a clock with at least one divider never returns, however long one
waits. -/
theorem C36_refuted (h : Links) (c d : Nat) (hd : h.first c = some d) (fuel : Nat) :
    h.disposeLoop fuel (h.first c) = .error .endless := by
  rw [hd]
  clear hd
  induction fuel generalizing h with
  | zero => rfl
  | succ fuel ih => exact ih (h.detach d)

example : (Links.dividerRun {} [.attach 4 1]).2.first 1 = some 4 := by decide

/-- C36, partial: it returns if the clock has no dividers, and leaves all links alone. -/
theorem C36_dispose_partial (h : Links) (c : Nat) (hd : h.first c = none) (fuel : Nat) :
    h.disposeLoop fuel (h.first c) = .ok h := by
  rw [hd]
  cases fuel <;> rfl

example : (Links.dividerRun {} [.attach 4 1, .detach 4]).2.first 1 = none := by decide

end BK
