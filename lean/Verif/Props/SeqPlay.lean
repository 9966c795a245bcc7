import Verif.Lemmas.SeqPlay
/-! Sequences played by the caller itself: C94. -/
namespace BK

/-- **C94** (memory): any number of states and sequences, any legal calls in any order.  No call reads a
sequence that was disposed of, none runs forever, only arithmetic overflow is left; in the end the list of every sequence
holds exactly the states that play it, and every state plays a sequence that exists. -/
theorem C94_memory_partial (x : Nat) (ops : List SeqCall) (hl : SeqPlay.LegalRun {} ops) :
    (∀ e, SeqPlay.run x {} ops = .error e → e = .overflow) ∧
    (∀ t, SeqPlay.run x {} ops = .ok t → t.1.ListsExact ∧
      ∀ y id, t.1.links.owner y = some id → t.1.heap id ≠ none) := by
  have key := SeqPlay.Inv.run (B := False) x ops (SeqPlay.Inv.init False) hl False.elim
  constructor
  · intro e h
    rw [h] at key
    exact key.1
  · intro t h
    rw [h] at key
    obtain ⟨A, hA⟩ : ∃ A', t.1.Inv False A' := key
    refine ⟨hA.lists, fun y id hy => ?_⟩
    obtain ⟨q, h1, _⟩ := hA.bound y id hy
    rw [h1]; simp

/-- **C94** (no overflow): if sequences are of usual size, values that are set fit, and states are cleared before
they get a new envelope, nothing goes wrong. -/
theorem C94_usual (x : Nat) (ops : List SeqCall) (hl : SeqPlay.LegalRun {} ops)
    (hu : SeqPlay.UsualRun {} ops) : ∃ t, SeqPlay.run x {} ops = .ok t := by
  obtain ⟨t, h, _⟩ := (SeqPlay.Inv.run (B := True) x ops (SeqPlay.Inv.init True) hl fun _ => hu).get trivial
  exact ⟨t, h⟩

/-- **C94** (independence): what state `x` returns and which values it takes does not depend on the other
states: leaving out all calls on them, even of those which play the same sequences, changes nothing. -/
theorem C94_alone (x : Nat) (w : SeqPlay) (ops : List SeqCall) (t : SeqPlay × List (Option SeqRet × Int))
    (h : w.run x ops = .ok t) :
    ∃ v, w.run x (seqCallsFor x ops) = .ok (v, t.2) ∧ v.st x = t.1.st x := by
  obtain ⟨v, h1, h2⟩ := SeqPlay.run_alone x ops (SeqPlay.Same.refl x w) h
  exact ⟨v, h1, h2.st⟩

/-- Two states play one envelope, a third a value sequence; one changes its sequence, one sequence is disposed of
after its states have left. -/
def seqPlayExample : List SeqCall :=
  [.create (.points [⟨2, 100⟩, ⟨3, 40⟩] 1 1), .create (.values [7, 8, 9] 1 2),
   .bind 1 (some 0), .bind 2 (some 0), .bind 3 (some 1),
   .phase 1 .attack, .phase 3 .attack, .step 1 false, .phase 2 .attack, .step 1 false, .step 3 true, .step 2 false,
   .step 1 false, .value 2 20, .bind 2 (some 1), .step 2 true, .step 1 false, .step 3 true, .bind 1 none,
   .dispose 0, .clear 1, .bind 1 (some 1), .phase 1 .attack, .step 3 true]

/-- The example is legal and usual; the states take these values. -/
example : SeqPlay.LegalRun {} seqPlayExample ∧ SeqPlay.UsualRun {} seqPlayExample := by
  refine SeqPlay.good_run (xs := [1, 2, 3]) _ (fun _ _ => rfl) (by decide +kernel) ?_
  intro new h
  have h : new = .points [⟨2, 100⟩, ⟨3, 40⟩] 1 1 ∨ new = .values [7, 8, 9] 1 2 := by
    simpa [seqPlayExample] using h
  cases h with
  | inl h =>
    subst h
    exact ⟨⟨by decide, by decide, by decide, by decide⟩, ⟨by decide, by decide, by decide, by decide, by decide⟩⟩
  | inr h =>
    subst h
    exact ⟨⟨by decide, by decide, by decide⟩, trivial⟩
example : (SeqPlay.run 1 {} seqPlayExample).map (·.2.map (·.2)) = .ok [0, 0, 50, 100, 80, 60, 60, 0, 0, 7] ∧
    (SeqPlay.run 2 {} seqPlayExample).map (·.2.map (·.2)) = .ok [0, 0, 50, 20, 7, 7] ∧
    (SeqPlay.run 3 {} seqPlayExample).map (·.2.map (·.2)) = .ok [0, 7, 7, 8, 9] ∧
    (SeqPlay.run 3 {} seqPlayExample).map (fun t => (t.1.links.walk 9 (t.1.links.first 1)).toOption) =
      .ok (some [1, 2, 3]) := by
  refine ⟨by decide +kernel, by decide +kernel, by decide +kernel, by decide +kernel⟩

/-- **C94** needs the rule about disposing: the states of a sequence are not told when it is disposed of.  After
that the next step reads freed memory, and so does giving the state another sequence. -/
theorem C94_dispose_refuted :
    let ops : List SeqCall := [.create (.values [7, 8, 9] 1 2), .create (.values [1] 0 1), .bind 1 (some 0),
      .phase 1 .attack, .dispose 0]
    (SeqPlay.run 1 {} ops).map (·.2) = .ok [(some .finish, 0), (some .none, 7)] ∧
    (SeqPlay.run 1 {} (ops ++ [.step 1 true])).map (·.2) = .error .useAfterFree ∧
    (SeqPlay.run 1 {} (ops ++ [.bind 1 (some 1)])).map (·.2) = .error .useAfterFree := by
  refine ⟨by decide +kernel, by decide +kernel, by decide +kernel⟩

/-- **C94** needs the rule about clearing: a state has arrived at 1, the end of its envelope, and gets another
envelope which leads to 32767.  It does not start from 1 but from 16384, since the two envelopes use different scales.
The other way round, the value 32767 does not fit the scale of the first envelope. -/
theorem C94_rebind_refuted :
    let create : List SeqCall := [.create (.points [⟨4, 1⟩] 1 0), .create (.points [⟨4, 32767⟩] 1 0)]
    let steps : List SeqCall := [.phase 1 .attack, .step 1 false, .step 1 false, .step 1 false, .step 1 false]
    (SeqPlay.run 1 {} (create ++ [.bind 1 (some 0)] ++ steps ++ [.bind 1 (some 1)])).map (·.2.map (·.2)) =
      .ok [0, 0, 0, 0, 0, 1, 16384] ∧
    (SeqPlay.run 1 {} (create ++ [.bind 1 (some 1)] ++ steps ++ [.phase 1 .mute])).map (·.2.map (·.2)) =
      .ok [0, 0, 8191, 16383, 24575, 32767, 32767] ∧
    (SeqPlay.run 1 {} (create ++ [.bind 1 (some 1)] ++ steps ++ [.phase 1 .mute, .bind 1 (some 0)])).map
      (·.2.map (·.2)) = .error .overflow := by
  refine ⟨by decide +kernel, by decide +kernel, by decide +kernel⟩

end BK
