import Verif.Lemmas.Moved
import Verif.Lemmas.Band
/-!
Calls on tracks and instruments do not depend on the times of units, nor on the bound of loops if it is
large enough.
-/
namespace BK

/-- A track whose unit is possibly moved. -/
def Track.movedAt (o : Option Int) (t : Track) : Track :=
  match o with
  | some v => t.moved v
  | none => t

/-- Tracks with units at other times. -/
def TWorld.movedBy (τ : Nat → Option Int) (s : TWorld) : TWorld :=
  { s with tracks := fun x => (s.tracks x).map (Track.movedAt (τ x)) }

theorem map_id {α : Type} (m : C α) : m = m.map id := by cases m <;> rfl

theorem Track.movedAt_exec {x : Nat} {w : IWorld} {t : Track} {op : TOp} (hq : op.Quiet) (o : Option Int) :
    (t.movedAt o).exec x w op = (t.exec x w op).map fun r => (r.1, r.2.movedAt o) := by
  cases o with
  | none => exact map_id _
  | some v => exact Track.moved_exec hq

theorem Track.movedAt_told {x : Nat} {w : IWorld} {t : Track} {e : InstrEvent} (o : Option Int) :
    (t.movedAt o).told x w e = (t.told x w e).map (Track.movedAt o) := by
  cases o with
  | none => exact map_id _
  | some v => exact Track.moved_told

theorem upd_moved {τ : Nat → Option Int} {ts : Nat → Option Track} {x : Nat} {t : Track} :
    (fun y => (upd ts x (some t) y).map (Track.movedAt (τ y))) =
      upd (fun y => (ts y).map (Track.movedAt (τ y))) x (some (t.movedAt (τ x))) := by
  funext y
  by_cases e : y = x
  · subst e; rw [upd_self, upd_self]; rfl
  · rw [upd_ne _ _ e, upd_ne _ _ e]

theorem TWorld.tell_moved {iw : IWorld} {τ : Nat → Option Int} : ∀ (es : List (Nat × InstrEvent)) (ts : Nat → Option Track),
    es.foldlM (TWorld.tell iw) (fun y => (ts y).map (Track.movedAt (τ y))) =
      (es.foldlM (TWorld.tell iw) ts).map fun ts y => (ts y).map (Track.movedAt (τ y))
  | [], ts => rfl
  | e :: es, ts => by
    rw [List.foldlM_cons, List.foldlM_cons]
    refine mv_bind' (fun ts y => (ts y).map (Track.movedAt (τ y))) ?_ fun ts => TWorld.tell_moved es ts
    unfold TWorld.tell
    show (match (ts e.1).map (Track.movedAt (τ e.1)) with | none => _ | some t => _ : C (Nat → Option Track)) = _
    cases h : ts e.1 with
    | none => rfl
    | some t =>
      rw [Option.map_some]
      exact mv_bind' (Track.movedAt (τ e.1)) (Track.movedAt_told _) fun t => congrArg Except.ok upd_moved.symm

theorem TWorld.hear_moved {τ : Nat → Option Int} (s : TWorld) (iw : IWorld) :
    (s.movedBy τ).hear iw = (s.hear iw).map (TWorld.movedBy τ) := by
  unfold TWorld.hear
  exact mv_bind' (fun ts y => (ts y).map (Track.movedAt (τ y))) (TWorld.tell_moved _ _) fun ts => rfl

theorem TWorld.exec_moved {τ : Nat → Option Int} {s : TWorld} (hτ : ∀ x, s.tracks x = none → τ x = none) {fuel : Nat} {op : WOp}
    (hq : op.Quiet) : (s.movedBy τ).exec fuel op = (s.exec fuel op).map (TWorld.movedBy τ) := by
  cases op <;> unfold TWorld.exec <;> dsimp only
  · rename_i x wf
    show (match (s.tracks x).map (Track.movedAt (τ x)) with | some _ => _ | none => _ : C TWorld) = _
    cases h : s.tracks x with
    | some t => rfl
    | none =>
      rw [Option.map_none]
      refine mv_bind (m := Track.init x s.iw wf) fun r => ?_
      show Except.ok _ = Except.ok _
      unfold TWorld.movedBy
      dsimp only
      rw [upd_moved, hτ x h]
      rfl
  · rename_i x o
    show (match (s.tracks x).map (Track.movedAt (τ x)) with | none => _ | some t => _ : C TWorld) = _
    cases h : s.tracks x with
    | none => rfl
    | some t =>
      rw [Option.map_some]
      refine mv_bind' (fun r : IWorld × Track => (r.1, r.2.movedAt (τ x))) (Track.movedAt_exec hq _) fun r => ?_
      show Except.ok _ = Except.ok _
      unfold TWorld.movedBy
      dsimp only
      rw [upd_moved]
  · exact mv_bind (m := s.iw.setSequence fuel _ _ _) fun r => TWorld.hear_moved s r.2
  · exact mv_bind (m := s.iw.detach fuel _) fun r => TWorld.hear_moved s r
  · exact mv_bind (m := s.iw.dispose fuel _) fun r => TWorld.hear_moved s r

/-- Tracks do not vanish. -/
theorem TWorld.run_moved {τ : Nat → Option Int} {ids : List Nat} (hτ : ∀ x, τ x ≠ none → x ∈ ids) {fuel : Nat} :
    ∀ (ops : List WOp) {s : TWorld}, s.Attached ids → (∀ op ∈ ops, op.Quiet) →
    (s.movedBy τ).run fuel ops = (s.run fuel ops).map (TWorld.movedBy τ)
  | [], s, _, _ => rfl
  | op :: ops, s, h, hq => by
    have hn : ∀ x, s.tracks x = none → τ x = none := by
      intro x hx
      cases ht : τ x with
      | none => rfl
      | some v =>
        obtain ⟨t, h1, -⟩ := h x (hτ x (by rw [ht]; simp))
        rw [hx] at h1; cases h1
    have e := TWorld.exec_moved hn (fuel := fuel) (hq op (List.mem_cons_self ..))
    unfold TWorld.run
    rw [e]
    cases h1 : s.exec fuel op with
    | error f => rfl
    | ok s1 =>
      exact TWorld.run_moved hτ ops (TWorld.exec_attached (hq op (List.mem_cons_self ..)) h h1)
        fun o ho => hq o (List.mem_cons_of_mem _ ho)

theorem TOp.legal_moved {N : Nat} {t : Track} {op : TOp} (o : Option Int) (h : op.Legal N t) : op.Legal N (t.movedAt o) := by
  cases o with
  | none => exact h
  | some v =>
    cases op with
    | effect e vs => cases e <;> exact h
    | arpeggio ws => cases ws <;> exact h
    | _ => exact h

theorem WOp.legal_moved {N : Nat} {s : TWorld} {op : WOp} (τ : Nat → Option Int) (h : op.Legal N s) : op.Legal N (s.movedBy τ) := by
  cases op with
  | track x o =>
    intro t ht
    obtain ⟨t0, h0, ht⟩ := Option.map_eq_some_iff.1 (show (s.tracks x).map _ = some t from ht)
    rw [← ht]
    exact TOp.legal_moved _ (h t0 h0)
  | _ => exact h

theorem TWorld.legal_moved {N : Nat} {τ : Nat → Option Int} {ids : List Nat} (hτ : ∀ x, τ x ≠ none → x ∈ ids) {fuel : Nat} :
    ∀ (ops : List WOp) {s : TWorld}, s.Attached ids → (∀ op ∈ ops, op.Quiet) → s.LegalRun N fuel ops →
    (s.movedBy τ).LegalRun N fuel ops
  | [], s, _, _, _ => trivial
  | op :: ops, s, h, hq, hl => by
    have hn : ∀ x, s.tracks x = none → τ x = none := by
      intro x hx
      cases ht : τ x with
      | none => rfl
      | some v =>
        obtain ⟨t, h1, -⟩ := h x (hτ x (by rw [ht]; simp))
        rw [hx] at h1; cases h1
    have e := TWorld.exec_moved hn (fuel := fuel) (hq op (List.mem_cons_self ..))
    refine ⟨WOp.legal_moved τ hl.1, ?_⟩
    intro s' hs'
    rw [e] at hs'
    cases h1 : s.exec fuel op with
    | error f => rw [h1] at hs'; cases hs'
    | ok s1 =>
      rw [h1] at hs'
      cases hs'
      exact TWorld.legal_moved hτ ops (TWorld.exec_attached (hq op (List.mem_cons_self ..)) h h1)
        (fun o ho => hq o (List.mem_cons_of_mem _ ho)) (hl.2 s1 h1)

/-! The bound of loops. -/

theorem IWorld.forAfter_more {body : IWorld → Nat → C IWorld} : ∀ {f F : Nat} {w w' : IWorld} {o : Option Nat}, f ≤ F →
    IWorld.forAfter body f w o = .ok w' → IWorld.forAfter body F w o = .ok w'
  | _, _, w, w', none, _, h => by
    unfold IWorld.forAfter at h ⊢
    exact h
  | 0, _, w, w', some x, _, h => by unfold IWorld.forAfter at h; cases h
  | f + 1, 0, w, w', some x, hf, h => absurd hf (by omega)
  | f + 1, F + 1, w, w', some x, hf, h => by
    unfold IWorld.forAfter at h ⊢
    obtain ⟨v, h1, h2⟩ := bind_ok_iff.1 h
    rw [h1, ok_bind]
    exact IWorld.forAfter_more (by omega) h2

theorem IWorld.forBefore_more {body : IWorld → Nat → C IWorld} : ∀ {f F : Nat} {w w' : IWorld} {o : Option Nat}, f ≤ F →
    IWorld.forBefore body f w o = .ok w' → IWorld.forBefore body F w o = .ok w'
  | _, _, w, w', none, _, h => by
    unfold IWorld.forBefore at h ⊢
    exact h
  | 0, _, w, w', some x, _, h => by unfold IWorld.forBefore at h; cases h
  | f + 1, 0, w, w', some x, hf, h => absurd hf (by omega)
  | f + 1, F + 1, w, w', some x, hf, h => by
    unfold IWorld.forBefore at h ⊢
    obtain ⟨v, h1, h2⟩ := bind_ok_iff.1 h
    dsimp only
    rw [h1, ok_bind]
    exact IWorld.forBefore_more (by omega) h2

theorem IWorld.replace_more {f F i slot : Nat} {w w' : IWorld} {q : Option Sequence} (hf : f ≤ F)
    (h : w.replace f i slot q = .ok w') : w.replace F i slot q = .ok w' := by
  unfold IWorld.replace at h ⊢
  dsimp only at h ⊢
  obtain ⟨heap, h1, h⟩ := bind_ok_iff.1 h
  obtain ⟨v, h2, h⟩ := bind_ok_iff.1 h
  obtain ⟨u, h3, h⟩ := bind_ok_iff.1 h
  rw [h1, ok_bind, IWorld.forAfter_more hf h2, ok_bind, IWorld.forAfter_more hf h3, ok_bind]
  exact IWorld.forBefore_more hf h

theorem IWorld.setSequence_more {f F i slot : Nat} {w : IWorld} {new : NewSeq} {r : Bool × IWorld} (hf : f ≤ F)
    (h : w.setSequence f i slot new = .ok r) : w.setSequence F i slot new = .ok r := by
  unfold IWorld.setSequence at h ⊢
  by_cases hs : slot < 4
  · rw [if_pos hs] at h ⊢
    obtain ⟨o, h1, h⟩ := bind_ok_iff.1 h
    rw [h1, ok_bind]
    cases o with
    | none => exact h
    | some q =>
      dsimp only at h ⊢
      obtain ⟨v, h2, h⟩ := bind_ok_iff.1 h
      rw [IWorld.replace_more hf h2, ok_bind]
      exact h
  · rw [if_neg hs] at h ⊢
    exact h

theorem IWorld.detach_more {f F i : Nat} {w w' : IWorld} (hf : f ≤ F) (h : w.detach f i = .ok w') : w.detach F i = .ok w' :=
  IWorld.forBefore_more hf h

theorem IWorld.dispose_more {f F i : Nat} {w w' : IWorld} (hf : f ≤ F) (h : w.dispose f i = .ok w') : w.dispose F i = .ok w' := by
  unfold IWorld.dispose at h ⊢
  obtain ⟨v, h1, h⟩ := bind_ok_iff.1 h
  rw [IWorld.detach_more hf h1, ok_bind]
  exact h

theorem TWorld.exec_more {f F : Nat} {s s' : TWorld} {op : WOp} (hf : f ≤ F) (h : s.exec f op = .ok s') : s.exec F op = .ok s' := by
  cases op <;> unfold TWorld.exec at h ⊢ <;> dsimp only at h ⊢
  · exact h
  · exact h
  · obtain ⟨r, h1, h⟩ := bind_ok_iff.1 h
    rw [IWorld.setSequence_more hf h1, ok_bind]; exact h
  · obtain ⟨r, h1, h⟩ := bind_ok_iff.1 h
    rw [IWorld.detach_more hf h1, ok_bind]; exact h
  · obtain ⟨r, h1, h⟩ := bind_ok_iff.1 h
    rw [IWorld.dispose_more hf h1, ok_bind]; exact h

theorem TWorld.run_more {N f F : Nat} (hf : f ≤ F) : ∀ (ops : List WOp) {s s' : TWorld}, s.run f ops = .ok s' →
    s.LegalRun N f ops → s.run F ops = .ok s' ∧ s.LegalRun N F ops
  | [], s, s', h, _ => ⟨h, trivial⟩
  | op :: ops, s, s', h, hl => by
    unfold TWorld.run at h ⊢
    obtain ⟨s1, h1, h⟩ := bind_ok_iff.1 h
    have e := TWorld.exec_more hf h1
    obtain ⟨k1, k2⟩ := TWorld.run_more hf ops h (hl.2 s1 h1)
    rw [e, ok_bind]
    refine ⟨k1, hl.1, fun s2 h2 => ?_⟩
    rw [e] at h2
    cases h2
    exact k2

theorem TWorld.run_append {f : Nat} : ∀ (as bs : List WOp) {s s1 s2 : TWorld}, s.run f as = .ok s1 → s1.run f bs = .ok s2 →
    s.run f (as ++ bs) = .ok s2
  | [], bs, s, s1, s2, h, h' => by cases h; exact h'
  | a :: as, bs, s, s1, s2, h, h' => by
    rw [List.cons_append]
    unfold TWorld.run at h ⊢
    obtain ⟨u, h1, h⟩ := bind_ok_iff.1 h
    rw [h1, ok_bind]
    exact TWorld.run_append as bs h h'

theorem TWorld.legalRun_append {N f : Nat} : ∀ (as bs : List WOp) {s s1 : TWorld}, s.run f as = .ok s1 → s.LegalRun N f as →
    s1.LegalRun N f bs → s.LegalRun N f (as ++ bs)
  | [], bs, s, s1, h, _, h' => by cases h; exact h'
  | a :: as, bs, s, s1, h, hl, h' => by
    rw [List.cons_append]
    unfold TWorld.run at h
    obtain ⟨u, h1, h⟩ := bind_ok_iff.1 h
    refine ⟨hl.1, fun s' hs' => ?_⟩
    rw [h1] at hs'
    cases hs'
    exact TWorld.legalRun_append as bs h (hl.2 u h1) h'

end BK
