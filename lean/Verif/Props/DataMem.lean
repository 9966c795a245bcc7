import Verif.Lemmas.DataMemOps
/-! C62: frames of data are not used after they have been freed. -/
namespace BK

/-- **C62** (partial: for callers observing `DataOp.Legal`; see `C62_refuted` for what happens otherwise).
Whatever the calls are — initialising, setting frames and raw data, loading files, normalising, converting and disposing data; attaching,
detaching and disposing units; setting data as custom waveform or sample, which may fail, ranges and built-in
waveforms; playing; running out of memory at any time — no memory is accessed that has been freed or is too
small, and none is freed twice or freed although it belongs to the caller. -/
theorem C62_memory_partial (ops : List DataOp) (fuel : Nat) (hl : ({} : DWorld).LegalRun fuel ops)
    (hf : ops.length + 1 ≤ fuel) : ∃ w, ({} : DWorld).run fuel ops = .ok w := by
  obtain ⟨w, _, e, _⟩ := DWorld.Fine.run fuel ops {} (fun _ => []) 0 .empty hl (fun _ => Nat.le_refl _) (by omega)
  exact ⟨w, e⟩

/-- **C62** (a unit never plays data that is gone; partial in the same way).  After such calls, a unit that plays
frames plays the memory of a data object that exists; if that was allocated by the library it has not been
freed. -/
theorem C62_alive_partial (ops : List DataOp) (fuel : Nat) (hl : ({} : DWorld).LegalRun fuel ops)
    (hf : ops.length + 1 ≤ fuel) (w : DWorld) (hw : ({} : DWorld).run fuel ops = .ok w) (u : Nat)
    (hu : (w.units u).kind ≠ .builtin) :
    (∃ d, w.links.owner u = some d ∧ (w.datas d).alive = true) ∧ w.access (w.units u).need (w.units u).frames = .ok () := by
  obtain ⟨w', A, e, h⟩ := DWorld.Fine.run fuel ops {} (fun _ => []) 0 .empty hl (fun _ => Nat.le_refl _) (by omega)
  rw [hw] at e
  have e := Except.ok.inj e
  subst e
  obtain ⟨⟨d, hd⟩, -⟩ := h.kinds u hu
  refine ⟨⟨d, (h.links.owner u d).2 hd, ?_⟩, access_ok (h.ok d u hd hu).2.1⟩
  cases ha : (w.datas d).alive with
  | true => rfl
  | false => rw [h.dead d ha] at hd; cases hd

/-- **C62** does not hold without these conditions:
1. frames set without copying after a copy are freed although they are the caller's;
2. a unit detached while it plays a sample plays it after it has been freed when it is attached again;
3. a unit plays freed memory if its sample gets frames with a number of channels that is refused by the unit;
4. a custom waveform is played after the data is gone if it has been removed as sample;
5. a unit plays freed memory after raw data has been set;
6. after two of four units have refused other data, the last one plays the data after it is gone;
7. a unit plays beyond the end of a file with fewer channels that has been loaded while it plays, if its range is set. -/
theorem C62_refuted :
    let src : Ptr := .user 100
    let play := fun u : Nat => [DataOp.init 0, .setFrames 0 src 8 1 true true, .attach u 2, .use u .sample (some 0)]
    ({} : DWorld).run 20 [.init 0, .setFrames 0 src 8 1 true true, .setFrames 0 src 8 1 false true, .dispose 0] =
      .error .badFree ∧
    ({} : DWorld).run 20 (play 1 ++ [.detach 1, .dispose 0, .attach 1 2, .play 1]) = .error .useAfterFree ∧
    ({} : DWorld).run 20 (play 1 ++ [.setFrames 0 src 8 3 true true, .play 1]) = .error .useAfterFree ∧
    ({} : DWorld).run 20 [.init 0, .setFrames 0 src 8 1 true true, .attach 1 2, .use 1 .custom (some 0),
      .use 1 .sample none, .dispose 0, .play 1] = .error .useAfterFree ∧
    ({} : DWorld).run 20 (play 1 ++ [.setRaw 0 8 1 true, .play 1]) = .error .useAfterFree ∧
    ({} : DWorld).run 40 (play 1 ++ [.attach 2 2, .attach 3 2, .attach 4 2, .use 2 .sample (some 0),
      .use 3 .sample (some 0), .use 4 .sample (some 0), .init 1, .use 2 .sample (some 1), .use 3 .sample (some 1),
      .setFrames 0 src 8 1 true true, .dispose 0, .play 4]) = .error .useAfterFree ∧
    ({} : DWorld).run 20 [.init 0, .setFrames 0 src 8 2 true true, .attach 1 2, .use 1 .sample (some 0), .load 0 8 1 true,
      .range 1, .play 1] = .error .oob := by
  refine ⟨rfl, rfl, rfl, rfl, rfl, rfl, rfl⟩

theorem DWorld.LegalRun.step {fuel : Nat} {w w1 : DWorld} {op : DataOp} {ops : List DataOp} (hl : op.Legal w)
    (he : w.exec fuel op = .ok w1) (hr : w1.LegalRun fuel ops) : w.LegalRun fuel (op :: ops) :=
  ⟨hl, fun w' h => by rw [he] at h; have h := Except.ok.inj h; rw [← h]; exact hr⟩

/-- The hypotheses are met: a sample is played while it gets other frames, another one fails to be set, then the
first one is disposed. -/
example : ({} : DWorld).LegalRun 20 [.init 0, .setFrames 0 (.user 16) 8 1 true true, .attach 1 2,
    .use 1 .sample (some 0), .play 1, .load 0 9 1 true, .play 1, .setFrames 0 (.user 16) 8 2 true true, .play 1, .normalize 0 true,
    .convert 0 true, .init 1, .use 1 .sample (some 1), .use 1 .sample (some 0), .dispose 0, .play 1] := by
  refine .step rfl rfl (.step ⟨rfl, ⟨16, rfl, by decide⟩, (fun h => nomatch h), (fun u h => nomatch h)⟩ rfl
    (.step trivial rfl (.step ⟨by decide, rfl⟩ rfl (.step trivial rfl (.step ⟨rfl, by decide, fun u h => ?_⟩ rfl (.step trivial rfl (.step ⟨rfl, ⟨16, rfl, by decide⟩,
    (fun h => nomatch h), fun u h => ?_⟩ rfl (.step trivial rfl (.step rfl rfl
    (.step ⟨rfl, by decide, fun u h => ?_⟩ rfl (.step rfl rfl
    (.step ⟨by decide, rfl⟩ rfl (.step ⟨by decide, rfl⟩ rfl (.step rfl rfl (.step trivial rfl trivial)))))))))))))))
  · by_cases hu : u = 1
    · subst hu; exact fun _ => rfl
    · exfalso
      have h : upd (fun _ => none) 1 (some 0) u = some 0 := h
      rw [upd_ne _ _ hu] at h
      cases h
  all_goals
    by_cases hu : u = 1
    · subst hu; exact ⟨by decide, fun _ => .inr rfl⟩
    · exfalso
      have h : upd (fun _ => none) 1 (some 0) u = some 0 := h
      rw [upd_ne _ _ hu] at h
      cases h

end BK
