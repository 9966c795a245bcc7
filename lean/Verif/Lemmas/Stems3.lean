import Verif.Lemmas.Stems2
import Verif.Spec.Stems
/-!
A track alone does what it does among others.
-/
namespace BK

variable {N : Nat}

theorem TWorld.Same.symm {x n : Nat} {s s' : TWorld} (h : s.Same x n s') : s'.Same x n s := ⟨h.1.symm, h.2.symm⟩

theorem TWorld.Same.trans {x n : Nat} {a b c : TWorld} (h : a.Same x n b) (h' : b.Same x n c) : a.Same x n c :=
  ⟨h.1.trans h'.1, h'.2.trans h.2⟩

/-- Calls on other tracks change nothing that `x` sees. -/
theorem TWorld.exec_other {x f : Nat} {s s1 : TWorld} {op : WOp} (h : op.reaches x = false) (e : s.exec f op = .ok s1) :
    s.Same x s.iw.fresh s1 := by
  have hid : s.Same x s.iw.fresh s := ⟨.refl _ _, rfl⟩
  cases op with
  | init y wf =>
    have hy : x ≠ y := by
      unfold WOp.reaches at h
      intro e
      subst e
      simp at h
    unfold TWorld.exec at e
    dsimp only at e
    split at e
    · cases e; exact hid
    · obtain ⟨r, hr, e⟩ := bind_ok_iff.1 e
      cases e
      have k := Track.init_touches hr
      obtain ⟨r', e', hv, -⟩ := Track.init_view (View.refl y s.iw) wf r hr
      exact ⟨⟨k.owner x hy, k.states x hy, k.instrs, k.heap, rfl, hv.fresh⟩, upd_ne _ _ hy⟩
  | track y op =>
    have hy : x ≠ y := by
      unfold WOp.reaches at h
      intro e
      subst e
      simp at h
    unfold TWorld.exec at e
    dsimp only at e
    split at e
    · cases e; exact hid
    · obtain ⟨r, hr, e⟩ := bind_ok_iff.1 e
      cases e
      have k := Track.exec_touches hr
      obtain ⟨r', e', hv, -⟩ := Track.exec_view (View.refl y s.iw) _ op r hr
      exact ⟨⟨k.owner x hy, k.states x hy, k.instrs, k.heap, rfl, hv.fresh⟩, upd_ne _ _ hy⟩
  | _ => cases h

/-- Calls on `x` and on instruments do the same to `x` in both. -/
theorem TWorld.exec_own {x n m m' f f' : Nat} {s s' s1 s1' : TWorld} {op : WOp} (h : s.Same x n s') (hr : op.reaches x = true)
    (hi : s.Inv m N) (hi' : s'.Inv m' N) (hf : m ≤ f) (hf' : m' ≤ f')
    (e : s.exec f op = .ok s1) (e' : s'.exec f' op = .ok s1') : ∃ k, s1.Same x k s1' := by
  obtain ⟨A, hA, hlen⟩ := hi.good
  obtain ⟨A', hA', hlen'⟩ := hi'.good
  cases op with
  | init y wf =>
    unfold WOp.reaches at hr
    simp only [decide_eq_true_eq] at hr
    subst hr
    unfold TWorld.exec at e e'
    dsimp only at e e'
    rw [h.2] at e'
    cases ht : s.tracks y with
    | some t => rw [ht] at e e'; cases e; cases e'; exact ⟨n, h⟩
    | none =>
      rw [ht] at e e'
      dsimp only at e e'
      obtain ⟨r, h1, e⟩ := bind_ok_iff.1 e
      obtain ⟨r', h1', e'⟩ := bind_ok_iff.1 e'
      cases e
      cases e'
      obtain ⟨r2, h2, k1, k2⟩ := Track.init_view h.1 wf r h1
      rw [h1'] at h2
      cases h2
      exact ⟨n, k1, by dsimp only; rw [upd_self, upd_self, k2]⟩
  | track y op =>
    unfold WOp.reaches at hr
    simp only [decide_eq_true_eq] at hr
    subst hr
    unfold TWorld.exec at e e'
    dsimp only at e e'
    rw [h.2] at e'
    cases ht : s.tracks y with
    | none => rw [ht] at e e'; cases e; cases e'; exact ⟨n, h⟩
    | some t =>
      rw [ht] at e e'
      dsimp only at e e'
      obtain ⟨r, h1, e⟩ := bind_ok_iff.1 e
      obtain ⟨r', h1', e'⟩ := bind_ok_iff.1 e'
      cases e
      cases e'
      obtain ⟨r2, h2, k1, k2⟩ := Track.exec_view h.1 t op r h1
      rw [h1'] at h2
      cases h2
      exact ⟨n, k1, by dsimp only; rw [upd_self, upd_self, k2]⟩
  | setSequence i slot q =>
    unfold TWorld.exec at e e'
    dsimp only at e e'
    obtain ⟨r, h1, e⟩ := bind_ok_iff.1 e
    obtain ⟨r', h1', e'⟩ := bind_ok_iff.1 e'
    obtain ⟨k, hk⟩ := IWorld.setSequence_view h.1 hA.inv.repr hA'.inv.repr h1 h1'
    exact ⟨k, TWorld.hear_view h hk e e'⟩
  | detachInstr i =>
    unfold TWorld.exec at e e'
    dsimp only at e e'
    obtain ⟨r, h1, e⟩ := bind_ok_iff.1 e
    obtain ⟨r', h1', e'⟩ := bind_ok_iff.1 e'
    have hk := IWorld.detach_view h.1 hA.inv hA'.inv (Nat.le_trans (hlen i) hf) (Nat.le_trans (hlen' i) hf') h1 h1'
    exact ⟨n, TWorld.hear_view h hk e e'⟩
  | disposeInstr i =>
    unfold TWorld.exec at e e'
    dsimp only at e e'
    obtain ⟨r, h1, e⟩ := bind_ok_iff.1 e
    obtain ⟨r', h1', e'⟩ := bind_ok_iff.1 e'
    have hk := IWorld.dispose_view h.1 hA.inv hA'.inv (Nat.le_trans (hlen i) hf) (Nat.le_trans (hlen' i) hf') h1 h1'
    exact ⟨n, TWorld.hear_view h hk e e'⟩

theorem WOp.Legal.same {x n : Nat} {s s' : TWorld} (h : s.Same x n s') {op : WOp} (hr : op.reaches x = true) (hl : op.Legal N s) :
    op.Legal N s' := by
  cases op with
  | track y op =>
    unfold WOp.reaches at hr
    simp only [decide_eq_true_eq] at hr
    subst hr
    intro t ht
    rw [h.2] at ht
    exact hl t ht
  | _ => exact hl

/-- Only track `x` exists. -/
def TWorld.Alone (x : Nat) (s : TWorld) : Prop := ∀ z, z ≠ x → s.tracks z = none

theorem TWorld.Alone.exec {x f : Nat} {s s1 : TWorld} {op : WOp} (h : s.Alone x) (hr : op.reaches x = true)
    (e : s.exec f op = .ok s1) : s1.Alone x := by
  intro z hz
  have hear : ∀ {iw : IWorld}, s.hear iw = .ok s1 → s1.tracks z = none := by
    intro iw e
    unfold TWorld.hear at e
    obtain ⟨ts, e1, e⟩ := bind_ok_iff.1 e
    cases e
    have k := tell_own (x := z) _ _ _ e1
    rw [h z hz] at k
    exact k
  cases op with
  | init y wf =>
    unfold WOp.reaches at hr
    simp only [decide_eq_true_eq] at hr
    subst hr
    unfold TWorld.exec at e
    dsimp only at e
    split at e
    · cases e; exact h z hz
    · obtain ⟨r, -, e⟩ := bind_ok_iff.1 e
      cases e
      dsimp only
      rw [upd_ne _ _ hz]; exact h z hz
  | track y op =>
    unfold WOp.reaches at hr
    simp only [decide_eq_true_eq] at hr
    subst hr
    unfold TWorld.exec at e
    dsimp only at e
    split at e
    · cases e; exact h z hz
    · obtain ⟨r, -, e⟩ := bind_ok_iff.1 e
      cases e
      dsimp only
      rw [upd_ne _ _ hz]; exact h z hz
  | setSequence i slot q =>
    obtain ⟨r, -, e⟩ := bind_ok_iff.1 e
    exact hear e
  | detachInstr i =>
    obtain ⟨r, -, e⟩ := bind_ok_iff.1 e
    exact hear e
  | disposeInstr i =>
    obtain ⟨r, -, e⟩ := bind_ok_iff.1 e
    exact hear e

theorem TWorld.run_solo {x f f' : Nat} : ∀ (ops : List WOp) {n m m' : Nat} {s s1 s' : TWorld}, s.Same x n s' → s.Inv m N → s'.Inv m' N →
    s'.Alone x → m + ops.length ≤ f → m' + (ops.filter (WOp.reaches x)).length ≤ f' → s.LegalRun N f ops → s.run f ops = .ok s1 →
    s'.LegalRun N f' (ops.filter (WOp.reaches x)) ∧ ∃ s1' k, s'.run f' (ops.filter (WOp.reaches x)) = .ok s1' ∧ s1.Same x k s1' ∧ s1'.Alone x
  | [], n, m, m', s, s1, s', h, _, _, ha, _, _, _, e => by
    cases e
    exact ⟨trivial, s', n, rfl, h, ha⟩
  | op :: ops, n, m, m', s, s1, s', h, hi, hi', ha, hf, hf', hl, e => by
    unfold TWorld.run at e
    obtain ⟨a, ea, e⟩ := bind_ok_iff.1 e
    rw [List.length_cons] at hf
    obtain ⟨a1, e1, hia⟩ := (hi.exec (fuel := f) (by omega) hl.1).get trivial
    rw [ea] at e1
    cases e1
    by_cases hr : op.reaches x = true
    · rw [List.filter_cons_of_pos hr] at hf' ⊢
      rw [List.length_cons] at hf'
      have hl' := WOp.Legal.same h hr hl.1
      obtain ⟨b, eb, hib⟩ := (hi'.exec (fuel := f') (by omega) hl').get trivial
      obtain ⟨k, hk⟩ := TWorld.exec_own h hr hi hi' (by omega) (by omega) ea eb
      obtain ⟨c1, s1', k', c2, c3, c4⟩ := TWorld.run_solo (f' := f') ops hk hia hib (ha.exec hr eb) (by omega) (by omega) (hl.2 a ea) e
      refine ⟨⟨hl', fun s2 e2 => ?_⟩, s1', k', ?_, c3, c4⟩
      · rw [eb] at e2
        cases e2
        exact c1
      · unfold TWorld.run
        rw [eb]
        exact c2
    · rw [List.filter_cons_of_neg hr] at hf' ⊢
      have k := TWorld.exec_other (Bool.eq_false_iff.2 hr) ea
      have hn : s.iw.fresh = n := h.1.fresh
      rw [hn] at k
      exact TWorld.run_solo ops (k.symm.trans h) hia hi' ha (by omega) hf' (hl.2 a ea) e

/-! ### Time -/

theorem TWorld.waitSteps_same {x n : Nat} {s s' : TWorld} (h : s.Same x n s') (d : Int) : s'.waitSteps d x = s.waitSteps d x := by
  unfold TWorld.waitSteps
  rw [h.2]
  simp only [Track.run_view h.1]

theorem TWorld.waited_same {x n : Nat} {s s' : TWorld} (h : s.Same x n s') (d : Int) : (s.waited d).Same x n (s'.waited d) := by
  refine ⟨h.1, ?_⟩
  unfold TWorld.waited
  dsimp only
  rw [h.2]
  simp only [Track.run_view h.1]

theorem TWorld.Alone.waited {x : Nat} {s : TWorld} (h : s.Alone x) (d : Int) : (s.waited d).Alone x := by
  intro z hz
  unfold TWorld.waited
  dsimp only
  rw [h z hz]
  rfl

/-- Does the track make sound? -/
def TWorld.attached (s : TWorld) (x : Nat) : Bool :=
  match s.tracks x with
  | none => false
  | some t => decide (t.ctx ≠ none)

theorem TWorld.attached_iff {s : TWorld} {x : Nat} : s.attached x = true ↔ ∃ t, s.tracks x = some t ∧ t.ctx ≠ none := by
  unfold TWorld.attached
  cases h : s.tracks x with
  | none => simp
  | some t => simp

theorem TWorld.Alone.lists {x : Nat} {s : TWorld} (h : s.Alone x) : s.Lists (if s.attached x then [x] else []) := by
  constructor
  · split <;> simp
  · intro y
    by_cases hy : y = x
    · subst hy
      rw [← TWorld.attached_iff]
      cases s.attached y <;> simp
    · rw [h y hy]
      cases s.attached x <;> simp [hy]

theorem callCount_cons (e : Int × List WOp) (L : List (Int × List WOp)) : callCount (e :: L) = e.2.length + callCount L := by
  unfold callCount
  simp

theorem solo_append (y : Nat) (L L' : List (Int × List WOp)) : solo y (L ++ L') = solo y L ++ solo y L' := by
  unfold solo; rw [List.map_append]

/-- Track `y` played alone: what was done up to now. -/
structure Stem (N : Nat) (t : Int) (s : TWorld) (L : List (Int × List WOp)) (y : Nat) (s' : TWorld) (P' : List Pulse) : Prop where
  perf : Performance N t s' P' (solo y L)
  alone : s'.Alone y
  same : ∃ n, s.Same y n s'

theorem steps_sum {K : List Nat} (hK : K.Nodup) {l : List Nat} (hl : l.Nodup) (hs : ∀ y ∈ l, y ∈ K) (f : Nat → Int) :
    (l.map f).sum = (K.map fun y => if y ∈ l then f y else 0).sum := by
  induction K generalizing l with
  | nil =>
    cases l with
    | nil => rfl
    | cons a l => exact absurd (hs a (by simp)) (by simp)
  | cons a K ih =>
    obtain ⟨h1, h2⟩ := List.nodup_cons.1 hK
    by_cases ha : a ∈ l
    · have hp := List.perm_cons_erase ha
      have hnd : (l.erase a).Nodup := hl.erase a
      have hna : a ∉ l.erase a := fun h => (List.nodup_cons.1 (hp.nodup_iff.1 hl)).1 h
      have k := ih h2 hnd (fun y hy => by
        have hya : y ≠ a := fun e => hna (e ▸ hy)
        have := hs y (List.mem_of_mem_erase hy)
        rcases List.mem_cons.1 this with h | h
        · exact absurd h hya
        · exact h)
      rw [perm_sum (hp.map f), List.map_cons, List.sum_cons, List.map_cons, List.sum_cons, if_pos ha, k]
      congr 1
      congr 1
      refine List.map_congr_left fun y hy => ?_
      have hya : y ≠ a := fun e => h1 (e ▸ hy)
      by_cases hyl : y ∈ l
      · rw [if_pos hyl, if_pos ((List.mem_erase_of_ne hya).2 hyl)]
      · rw [if_neg hyl, if_neg fun h => hyl (List.mem_of_mem_erase h)]
    · rw [List.map_cons, List.sum_cons, if_neg ha, Int.zero_add]
      refine ih h2 hl fun y hy => ?_
      rcases List.mem_cons.1 (hs y hy) with h | h
      · exact absurd (h ▸ hy) ha
      · exact h

theorem stepsAt_flatMap (l : List Nat) (g : Nat → List Pulse) (c m : Nat) :
    stepsAt (l.flatMap g) c m = (l.map fun y => stepsAt (g y) c m).sum := by
  induction l with
  | nil => rfl
  | cons y l ih => rw [List.flatMap_cons, stepsAt_append, List.map_cons, List.sum_cons, ih]

theorem sum_add (K : List Nat) (f g : Nat → Int) : (K.map fun y => f y + g y).sum = (K.map f).sum + (K.map g).sum := by
  induction K with
  | nil => rfl
  | cons y K ih => simp only [List.map_cons, List.sum_cons, ih]; omega

/-- Tracks that exist keep existing. -/
theorem TWorld.exec_keeps {f y : Nat} {s s1 : TWorld} {op : WOp} (e : s.exec f op = .ok s1) (h : s.tracks y ≠ none) : s1.tracks y ≠ none := by
  have hear : ∀ {iw : IWorld}, s.hear iw = .ok s1 → s1.tracks y ≠ none := by
    intro iw e
    unfold TWorld.hear at e
    obtain ⟨ts, e1, e⟩ := bind_ok_iff.1 e
    cases e
    have k := tell_own (x := y) _ _ _ e1
    cases ht : s.tracks y with
    | none => exact absurd ht h
    | some t =>
      rw [ht] at k
      obtain ⟨t', -, k⟩ := k
      dsimp only
      rw [k]
      simp
  have put : ∀ (z : Nat) (t : Track), upd s.tracks z (some t) y ≠ none := by
    intro z t
    by_cases hz : y = z
    · subst hz; rw [upd_self]; simp
    · rw [upd_ne _ _ hz]; exact h
  cases op with
  | init z wf =>
    unfold TWorld.exec at e
    dsimp only at e
    split at e
    · cases e; exact h
    · obtain ⟨r, -, e⟩ := bind_ok_iff.1 e
      cases e
      exact put _ _
  | track z op =>
    unfold TWorld.exec at e
    dsimp only at e
    split at e
    · cases e; exact h
    · obtain ⟨r, -, e⟩ := bind_ok_iff.1 e
      cases e
      exact put _ _
  | setSequence i slot q =>
    obtain ⟨r, -, e⟩ := bind_ok_iff.1 e
    exact hear e
  | detachInstr i =>
    obtain ⟨r, -, e⟩ := bind_ok_iff.1 e
    exact hear e
  | disposeInstr i =>
    obtain ⟨r, -, e⟩ := bind_ok_iff.1 e
    exact hear e

theorem TWorld.run_keeps {f y : Nat} : ∀ (ops : List WOp) {s s1 : TWorld}, s.run f ops = .ok s1 → s.tracks y ≠ none → s1.tracks y ≠ none
  | [], s, s1, e, h => by cases e; exact h
  | op :: ops, s, s1, e, h => by
    unfold TWorld.run at e
    obtain ⟨a, ea, e⟩ := bind_ok_iff.1 e
    exact TWorld.run_keeps ops e (TWorld.exec_keeps ea h)

/-- A performance is the sum of its tracks played alone. -/
theorem Performance.stems {t : Int} {s : TWorld} {P : List Pulse} {L : List (Int × List WOp)} (h : Performance N t s P L) :
    ∃ (q : Nat → TWorld) (p : Nat → List Pulse), (∀ y, Stem N t s L y (q y) (p y)) ∧
      ∀ K : List Nat, K.Nodup → (∀ y, s.tracks y ≠ none → y ∈ K) → ∀ c m, stepsAt P c m = (K.map fun y => stepsAt (p y) c m).sum := by
  induction h with
  | start =>
    refine ⟨fun _ => {}, fun _ => [], fun y => ⟨.start, fun _ _ => rfl, 0, ⟨rfl, rfl, rfl, rfl, rfl, rfl⟩, rfl⟩, ?_⟩
    intro K _ _ c m
    show (0 : Int) = (K.map fun _ => (0 : Int)).sum
    clear * -
    induction K with
    | nil => rfl
    | cons y K ih => rw [List.map_cons, List.sum_cons, ← ih]; rfl
  | @calls t s s1 P L ops h hq hl hr ih =>
    obtain ⟨q, p, a, b⟩ := ih
    have key : ∀ y, ∃ s1', Stem N t s1 (L ++ [(t, ops)]) y s1' (p y) := by
      intro y
      obtain ⟨n, hs⟩ := (a y).same
      have i1 := h.sane.1.inv
      have i2 := (a y).perf.sane.1.inv
      obtain ⟨c1, s1', k, c2, c3, c4⟩ := TWorld.run_solo (f' := callCount (solo y L) + (ops.filter (WOp.reaches y)).length) ops hs i1 i2
        (a y).alone (Nat.le_refl _) (Nat.le_refl _) hl hr
      refine ⟨s1', ?_, c4, k, c3⟩
      rw [solo_append]
      exact .calls (a y).perf (fun op hop => hq op (List.mem_filter.1 hop).1) c1 c2
    choose q' hq' using key
    exact ⟨q', p, hq', fun K hK hm => b K hK fun y hy => hm y (TWorld.run_keeps ops hr hy)⟩
  | @wait t d s s1 P L ps l h h0 h1 hls hw ih =>
    obtain ⟨q, p, a, b⟩ := ih
    obtain ⟨k1, k2, k3, k4⟩ := h.sane.1.waits (Int.le_of_lt h0) h1
    obtain ⟨rfl, hps⟩ := hw.det k1
    refine ⟨fun y => (q y).waited d, fun y => p y ++ ((if (q y).attached y then [y] else []).flatMap ((q y).waitSteps d)).map (Pulse.later t),
      fun y => ?_, ?_⟩
    · obtain ⟨n, hs⟩ := (a y).same
      obtain ⟨m1, -⟩ := (a y).perf.sane.1.waits (Int.le_of_lt h0) h1
      exact ⟨.wait (a y).perf h0 h1 (a y).alone.lists m1, (a y).alone.waited d, n, TWorld.waited_same hs d⟩
    · intro K hK hm c m
      have hin : ∀ y, s.tracks y ≠ none → y ∈ K := by
        intro y hy
        refine hm y fun e => hy ?_
        unfold TWorld.waited at e
        dsimp only at e
        cases ht : s.tracks y with
        | none => rfl
        | some t => rw [ht] at e; cases e
      have e1 : ∀ y, stepsAt (p y ++ ((if (q y).attached y then [y] else []).flatMap ((q y).waitSteps d)).map (Pulse.later t)) c m =
          stepsAt (p y) c m + if y ∈ l then stepsAt ((ps y).map (Pulse.later t)) c m else 0 := by
        intro y
        obtain ⟨n, hs⟩ := (a y).same
        rw [stepsAt_append]
        congr 1
        have hat : (q y).attached y = true ↔ y ∈ l := by
          rw [TWorld.attached_iff, hs.2, hls.mem y]
        by_cases hy : y ∈ l
        · rw [if_pos hy, if_pos (hat.2 hy), List.flatMap_cons, List.flatMap_nil, List.append_nil, TWorld.waitSteps_same hs]
          obtain ⟨t', ht', hc'⟩ := (hls.mem y).1 hy
          rw [hps y t' ht' hc']
        · rw [if_neg hy, if_neg fun h => hy (hat.1 h)]
          rfl
      simp only [e1]
      rw [sum_add, stepsAt_append, b K hK hin c m, List.map_flatMap, stepsAt_flatMap]
      congr 1
      exact steps_sum hK hls.nodup (fun y hy => by
        obtain ⟨t', ht', -⟩ := (hls.mem y).1 hy
        exact hin y (by rw [ht']; simp)) _

/-- Tracks exist only if they were initialised. -/
theorem TWorld.exec_born {f y : Nat} {s s1 : TWorld} {op : WOp} (e : s.exec f op = .ok s1) (h : s1.tracks y ≠ none) :
    s.tracks y ≠ none ∨ ∃ wf, op = .init y wf := by
  have hear : ∀ {iw : IWorld}, s.hear iw = .ok s1 → s.tracks y ≠ none := by
    intro iw e
    unfold TWorld.hear at e
    obtain ⟨ts, e1, e⟩ := bind_ok_iff.1 e
    cases e
    have k := tell_own (x := y) _ _ _ e1
    intro ht
    rw [ht] at k
    exact h k
  cases op with
  | init z wf =>
    unfold TWorld.exec at e
    dsimp only at e
    split at e
    · cases e; exact .inl h
    · obtain ⟨r, -, e⟩ := bind_ok_iff.1 e
      cases e
      by_cases hz : y = z
      · subst hz; exact .inr ⟨wf, rfl⟩
      · dsimp only at h
        rw [upd_ne _ _ hz] at h; exact .inl h
  | track z op =>
    left
    unfold TWorld.exec at e
    dsimp only at e
    split at e
    · cases e; exact h
    · rename_i t ht
      obtain ⟨r, -, e⟩ := bind_ok_iff.1 e
      cases e
      by_cases hz : y = z
      · subst hz; rw [ht]; simp
      · dsimp only at h
        rw [upd_ne _ _ hz] at h; exact h
  | setSequence i slot q =>
    obtain ⟨r, -, e⟩ := bind_ok_iff.1 e
    exact .inl (hear e)
  | detachInstr i =>
    obtain ⟨r, -, e⟩ := bind_ok_iff.1 e
    exact .inl (hear e)
  | disposeInstr i =>
    obtain ⟨r, -, e⟩ := bind_ok_iff.1 e
    exact .inl (hear e)

theorem TWorld.run_born {f y : Nat} : ∀ (ops : List WOp) {s s1 : TWorld}, s.run f ops = .ok s1 → s1.tracks y ≠ none →
    s.tracks y ≠ none ∨ ∃ wf, .init y wf ∈ ops
  | [], s, s1, e, h => by cases e; exact .inl h
  | op :: ops, s, s1, e, h => by
    unfold TWorld.run at e
    obtain ⟨a, ea, e⟩ := bind_ok_iff.1 e
    rcases TWorld.run_born ops e h with h | ⟨wf, h⟩
    · rcases TWorld.exec_born ea h with h | ⟨wf, h⟩
      · exact .inl h
      · exact .inr ⟨wf, by rw [h]; exact List.mem_cons_self ..⟩
    · exact .inr ⟨wf, List.mem_cons_of_mem _ h⟩

theorem Performance.born {t : Int} {s : TWorld} {P : List Pulse} {L : List (Int × List WOp)} (h : Performance N t s P L) {y : Nat}
    (hy : s.tracks y ≠ none) : ∃ e ∈ L, ∃ wf, .init y wf ∈ e.2 := by
  induction h with
  | start => exact absurd rfl hy
  | calls h _ _ hr ih =>
    rcases TWorld.run_born _ hr hy with k | k
    · obtain ⟨e, he, k⟩ := ih k
      exact ⟨e, List.mem_append_left _ he, k⟩
    · exact ⟨_, List.mem_append_right _ (List.mem_singleton.2 rfl), k⟩
  | @wait t d s s' P L ps l h _ _ _ hw ih =>
    refine ih fun k => hy ?_
    rw [hw.off y (fun t ht => by rw [k] at ht; cases ht), k]

end BK
