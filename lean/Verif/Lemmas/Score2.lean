import Verif.Lemmas.Score
/-!
Performances in small steps.
-/
namespace BK

variable {N : Nat}

/-- What is known of tracks in a performance. -/
structure TWorld.Sane (n N : Nat) (s : TWorld) : Prop where
  inv : s.Inv n N
  time : s.Timed

/-- Tracks after a time. -/
def TWorld.waited (s : TWorld) (d : Int) : TWorld :=
  { s with tracks := fun y => (s.tracks y).map fun t =>
      if t.ctx = none then t else
        match t.run y s.iw d with
        | .ok r => r.1.sooner d
        | .error _ => t }

/-- The steps that a track makes. -/
def TWorld.waitSteps (s : TWorld) (d : Int) (y : Nat) : List Pulse :=
  match s.tracks y with
  | none => []
  | some t =>
    match t.run y s.iw d with
    | .ok r => r.2
    | .error _ => []

theorem TWorld.waited_on {s : TWorld} {d : Int} {y : Nat} {t t' : Track} {ps : List Pulse} (ht : s.tracks y = some t) (hc : t.ctx ≠ none)
    (hr : t.run y s.iw d = .ok (t', ps)) : (s.waited d).tracks y = some (t'.sooner d) ∧ s.waitSteps d y = ps := by
  refine ⟨?_, ?_⟩
  · unfold TWorld.waited
    dsimp only
    rw [ht, Option.map_some, if_neg hc, hr]
  · unfold TWorld.waitSteps
    rw [ht]
    dsimp only
    rw [hr]

theorem TWorld.waited_off {s : TWorld} {d : Int} {y : Nat} (h : ∀ t, s.tracks y = some t → t.ctx = none) :
    (s.waited d).tracks y = s.tracks y := by
  unfold TWorld.waited
  dsimp only
  cases ht : s.tracks y with
  | none => rfl
  | some t => rw [Option.map_some, if_pos (h t ht)]

theorem TWorld.Sane.waits {n : Nat} {s : TWorld} (h : s.Sane n N) {d : Int} (h0 : 0 ≤ d) (h1 : d ≤ 1073741824) :
    s.Waits d (s.waited d) (s.waitSteps d) ∧ (s.waited d).Sane n N ∧ (∀ l, s.Lists l → (s.waited d).Lists l) ∧
    ∀ y t, s.tracks y = some t → t.ctx ≠ none → ∀ q ∈ s.waitSteps d y, 0 ≤ q.time := by
  have key : ∀ y t, s.tracks y = some t → t.ctx ≠ none → ∃ t' ps, t.run y s.iw d = .ok (t', ps) ∧ (t'.sooner d).Inv N False ∧
      t'.ctx = t.ctx ∧ d ≤ t'.unit.time ∧ t'.unit.time ≤ d + 2147483647 ∧ ∀ q ∈ ps, 0 ≤ q.time := by
    intro y t ht hc
    have := h.time y t ht
    obtain ⟨t1, p1, -, -, -, -, a1, -, -, -, -, a2, a3, a4, a5, a6⟩ := (h.inv.tracks y t ht).apart hc this.1 this.2 (y := y) h.inv.good
      (a := d) (b := 0) h0 (by omega) (by omega)
    exact ⟨t1, p1, a1, a2, a3, a4, a5, a6⟩
  refine ⟨⟨rfl, ?_, fun y hy => TWorld.waited_off hy⟩, ⟨⟨h.inv.good, ?_⟩, ?_⟩, ?_, ?_⟩
  · intro y t ht hc
    obtain ⟨t', ps, a1, -⟩ := key y t ht hc
    obtain ⟨b1, b2⟩ := TWorld.waited_on ht hc a1
    exact ⟨t', by rw [b2]; exact a1, b1⟩
  · intro y u hu
    by_cases hy : ∀ t, s.tracks y = some t → t.ctx = none
    · rw [TWorld.waited_off hy] at hu
      exact h.inv.tracks y u hu
    · simp only [not_forall] at hy
      obtain ⟨t, ht, hc⟩ := hy
      obtain ⟨t', ps, a1, a2, -⟩ := key y t ht hc
      rw [(TWorld.waited_on ht hc a1).1] at hu
      cases hu
      exact a2
  · intro y u hu
    by_cases hy : ∀ t, s.tracks y = some t → t.ctx = none
    · rw [TWorld.waited_off hy] at hu
      exact h.time y u hu
    · simp only [not_forall] at hy
      obtain ⟨t, ht, hc⟩ := hy
      obtain ⟨t', ps, a1, -, -, a4, a5, -⟩ := key y t ht hc
      rw [(TWorld.waited_on ht hc a1).1] at hu
      cases hu
      unfold Track.sooner
      dsimp only
      omega
  · intro l hl
    refine ⟨hl.nodup, fun y => ?_⟩
    rw [hl.mem y]
    by_cases hy : ∀ t, s.tracks y = some t → t.ctx = none
    · rw [TWorld.waited_off hy]
    · have hy' := hy
      simp only [not_forall] at hy
      obtain ⟨t, ht, hc⟩ := hy
      obtain ⟨t', ps, a1, -, a3, -⟩ := key y t ht hc
      rw [(TWorld.waited_on ht hc a1).1, ht]
      exact ⟨fun _ => ⟨_, rfl, fun e => hc (a3.symm.trans e)⟩, fun _ => ⟨t, rfl, hc⟩⟩
  · intro y t ht hc
    obtain ⟨t', ps, a1, -, -, -, -, a6⟩ := key y t ht hc
    rw [(TWorld.waited_on ht hc a1).2]
    exact a6

/-- Waiting twice is waiting once. -/
theorem TWorld.Sane.split {n : Nat} {s : TWorld} (h : s.Sane n N) {a b : Int} (ha : 0 ≤ a) (hb : 0 ≤ b) (hab : a + b ≤ 1073741824) :
    (s.waited a).waited b = s.waited (a + b) ∧ ∀ y t, s.tracks y = some t → t.ctx ≠ none →
      Alike (s.waitSteps (a + b) y) (s.waitSteps a y ++ ((s.waited a).waitSteps b y).map (Pulse.later a)) := by
  refine ⟨TWorld.same rfl (funext fun y => ?_), ?_⟩
  · by_cases hy : ∀ t, s.tracks y = some t → t.ctx = none
    · rw [TWorld.waited_off, TWorld.waited_off hy, TWorld.waited_off hy]
      rw [TWorld.waited_off hy]
      exact hy
    · simp only [not_forall] at hy
      obtain ⟨t, ht, hc⟩ := hy
      have := h.time y t ht
      obtain ⟨t1, p1, t2, p2, t3, p3, a1, a2, a3, a4, -, -, a7, -⟩ := (h.inv.tracks y t ht).apart hc this.1 this.2 (y := y) h.inv.good
        ha hb hab
      rw [(TWorld.waited_on ht hc a3).1, (TWorld.waited_on (TWorld.waited_on ht hc a1).1 (fun e => hc (a7.symm.trans e)) a2).1, a4]
  · intro y t ht hc
    have := h.time y t ht
    obtain ⟨t1, p1, t2, p2, t3, p3, a1, a2, a3, -, a5, -, a7, -⟩ := (h.inv.tracks y t ht).apart hc this.1 this.2 (y := y) h.inv.good
      ha hb hab
    rw [(TWorld.waited_on ht hc a3).2, (TWorld.waited_on ht hc a1).2,
      (TWorld.waited_on (TWorld.waited_on ht hc a1).1 (fun e => hc (a7.symm.trans e)) a2).2]
    exact a5

theorem callCount_append (L : List (Int × List WOp)) (t : Int) (ops : List WOp) :
    callCount (L ++ [(t, ops)]) = callCount L + ops.length := by
  unfold callCount
  simp

theorem Performance.sane {t : Int} {s : TWorld} {P : List Pulse} {L : List (Int × List WOp)} (h : Performance N t s P L) :
    s.Sane (callCount L) N ∧ 0 ≤ t ∧ ∀ e ∈ L, e.1 ≤ t := by
  induction h with
  | start =>
    exact ⟨⟨TWorld.Inv.init N, fun y t ht => by cases ht⟩, by omega, by simp⟩
  | calls h hq hl hr ih =>
    obtain ⟨a, b, c⟩ := ih
    refine ⟨⟨?_, TWorld.run_timed _ hq a.time hr⟩, b, ?_⟩
    · rw [callCount_append]
      obtain ⟨s', e1, e2⟩ := (a.inv.run _ (Nat.le_refl _) hl).get trivial
      rw [hr] at e1
      cases e1
      exact e2
    · intro e he
      rcases List.mem_append.1 he with he | he
      · exact c e he
      · rw [List.mem_singleton] at he
        subst he
        exact Int.le_refl _
  | wait h h0 h1 hl hw ih =>
    obtain ⟨a, b, c⟩ := ih
    obtain ⟨k1, k2, -⟩ := a.waits (Int.le_of_lt h0) h1
    rw [(hw.det k1).1]
    refine ⟨k2, by omega, fun e he => ?_⟩
    have := c e he
    omega

/-- A performance in which each wait is as short as possible. -/
inductive Steady (N : Nat) : Int → TWorld → List Pulse → List (Int × List WOp) → Prop
  | start : Steady N 0 {} [] []
  | calls {t : Int} {s s' : TWorld} {P : List Pulse} {L : List (Int × List WOp)} {ops : List WOp} : Steady N t s P L →
      (∀ op ∈ ops, op.Here) → s.LegalRun N (callCount L + ops.length) ops → s.run (callCount L + ops.length) ops = .ok s' →
      Steady N t s' P (L ++ [(t, ops)])
  | wait {t : Int} {s s' : TWorld} {P : List Pulse} {L : List (Int × List WOp)} {l : List Nat} :
      Steady N t s P L → s.Lists l → s' = s.waited 1 →
      Steady N (t + 1) s' (P ++ (l.flatMap (s.waitSteps 1)).map (Pulse.later t)) L

theorem Steady.performance {t : Int} {s : TWorld} {P : List Pulse} {L : List (Int × List WOp)} (h : Steady N t s P L) :
    Performance N t s P L := by
  induction h with
  | start => exact .start
  | calls _ hq hl hr ih => exact .calls ih hq hl hr
  | wait _ hl e ih =>
    subst e
    exact .wait ih (by omega) (by omega) hl (ih.sane.1.waits (by omega) (by omega)).1

theorem Steady.waits {t : Int} {s : TWorld} {P : List Pulse} {L : List (Int × List WOp)} (h : Steady N t s P L) {l : List Nat}
    (hl : s.Lists l) : ∀ (d : Nat), d + 1 ≤ 1073741824 →
    ∃ P', Steady N (t + (d + 1 : Nat)) (s.waited (d + 1 : Nat)) P' L ∧
      Alike P' (P ++ (l.flatMap (s.waitSteps (d + 1 : Nat))).map (Pulse.later t))
  | 0, _ => ⟨_, .wait h hl rfl, Alike.refl _⟩
  | d + 1, hd => by
    obtain ⟨P1, a1, a2⟩ := Steady.waits h hl d (by omega)
    obtain ⟨D, hD⟩ : ∃ D : Int, D = ((d + 1 : Nat) : Int) := ⟨_, rfl⟩
    rw [← hD] at a1 a2
    rw [show ((d + 1 + 1 : Nat) : Int) = D + 1 by rw [hD]; push_cast; rfl]
    have hs := h.performance.sane.1
    obtain ⟨-, -, b3, -⟩ := hs.waits (d := D) (by omega) (by omega)
    obtain ⟨e1, e2⟩ := hs.split (a := D) (b := 1) (by omega) (by omega) (by omega)
    refine ⟨P1 ++ (l.flatMap ((s.waited D).waitSteps 1)).map (Pulse.later (t + D)), ?_, ?_⟩
    · rw [show t + (D + 1) = (t + D) + 1 by omega]
      exact .wait a1 (b3 l hl) e1.symm
    · refine (a2.append (Alike.refl _)).trans ?_
      rw [List.append_assoc]
      refine (Alike.refl P).append ?_
      refine Alike.symm ?_
      refine ((flatMap_alike (qs := fun y => s.waitSteps D y ++ ((s.waited D).waitSteps 1 y).map (Pulse.later D)) l fun y hy => ?_).later t).trans ?_
      · obtain ⟨u, hu, hc⟩ := (hl.mem y).1 hy
        exact e2 y u hu hc
      · refine ((flatMap_append_alike l).later t).trans ?_
        rw [List.map_append]
        refine (Alike.refl _).append ?_
        rw [← List.map_flatMap, List.map_map]
        refine Alike.of_perm (List.Perm.of_eq (List.map_congr_left fun q _ => ?_))
        exact Pulse.later_later _ _ _

theorem Performance.steady {t : Int} {s : TWorld} {P : List Pulse} {L : List (Int × List WOp)} (h : Performance N t s P L) :
    ∃ P', Steady N t s P' L ∧ Alike P' P := by
  induction h with
  | start => exact ⟨[], .start, Alike.refl _⟩
  | calls _ hq hl hr ih =>
    obtain ⟨P', a, b⟩ := ih
    exact ⟨P', .calls a hq hl hr, b⟩
  | @wait t d s s' P L ps l h h0 h1 hl hw ih =>
    obtain ⟨P', a, b⟩ := ih
    obtain ⟨n, hn⟩ : ∃ n : Nat, d = ((n + 1 : Nat) : Int) := ⟨(d - 1).toNat, by omega⟩
    subst hn
    obtain ⟨P2, a1, a2⟩ := a.waits hl n (by omega)
    obtain ⟨k1, -⟩ := h.sane.1.waits (Int.le_of_lt h0) h1
    rw [(hw.det k1).1]
    exact ⟨P2, a1, a2.trans (b.append ((k1.alike hw hl hl).later t))⟩

theorem Steady.before {t : Int} {s : TWorld} {P : List Pulse} {L : List (Int × List WOp)} (h : Steady N t s P L) :
    0 ≤ t ∧ ∀ e ∈ L, e.1 ≤ t := h.performance.sane.2

/-- State and steps follow from the calls. -/
theorem Steady.det {t : Int} {s : TWorld} {P : List Pulse} {L : List (Int × List WOp)} (h : Steady N t s P L) :
    ∀ {s' : TWorld} {P' : List Pulse} {t' : Int} {L' : List (Int × List WOp)}, Steady N t' s' P' L' → t' = t → L' = L → s = s' ∧ Alike P P' := by
  induction h with
  | start =>
    intro s' P' t' L' h' e e'
    cases h' with
    | start => exact ⟨rfl, Alike.refl _⟩
    | calls _ => simp at e'
    | wait k => have := k.before.1; omega
  | @calls t s0 s1 P0 L0 ops h hq hl hr ih =>
    intro s' P' t' L' h' e e'
    cases h' with
    | start => simp at e'
    | @calls _ s2 s3 P2 L2 ops2 k kq kl kr =>
      obtain ⟨rfl, e2⟩ := List.append_inj' e' rfl
      simp only [List.cons.injEq, Prod.mk.injEq, and_true] at e2
      obtain ⟨rfl, rfl⟩ := e2
      obtain ⟨rfl, b⟩ := ih k rfl rfl
      rw [hr] at kr
      cases kr
      exact ⟨rfl, b⟩
    | wait k =>
      have := k.before.2 (t, ops) (by rw [e']; simp)
      dsimp only at this
      omega
  | @wait t s0 s1 P0 L0 l h hl hw ih =>
    intro s' P' t' L' h' e e'
    have hb := h.before
    cases h' with
    | start => omega
    | @calls _ s2 s3 P2 L2 ops2 k kq kl kr =>
      have := hb.2 (t', ops2) (by rw [← e']; simp)
      dsimp only at this
      omega
    | @wait t2 s2 s3 P2 L2 l2 k kl kw =>
      obtain ⟨rfl, b⟩ := ih k (by omega) e'
      have ht : t2 = t := by omega
      subst ht
      subst hw kw
      have w := (h.performance.sane.1.waits (d := 1) (by omega) (by omega)).1
      exact ⟨rfl, b.append ((w.alike w hl kl).later _)⟩

/-- A performance up to some time. -/
theorem Steady.cut {t : Int} {s : TWorld} {P : List Pulse} {L : List (Int × List WOp)} (h : Steady N t s P L) {τ : Int} (h0 : 0 ≤ τ) (h1 : τ ≤ t) :
    ∃ (s0 : TWorld) (P0 Q : List Pulse), Steady N τ s0 P0 (L.filter fun e => decide (e.1 < τ)) ∧ P = P0 ++ Q.map (Pulse.later τ) ∧ ∀ q ∈ Q, 0 ≤ q.time := by
  induction h with
  | start =>
    have : τ = 0 := by omega
    subst this
    exact ⟨{}, [], [], .start, rfl, by simp⟩
  | @calls t s0 s1 P0 L0 ops h hq hl hr ih =>
    obtain ⟨s2, P2, Q, a1, a2, a3⟩ := ih h1
    refine ⟨s2, P2, Q, ?_, a2, a3⟩
    rw [List.filter_append, List.filter_cons_of_neg (by simpa using h1), List.filter_nil, List.append_nil]
    exact a1
  | @wait t s0 s1 P0 L0 l h hl hw ih =>
    have hb := h.before
    by_cases hτ : τ ≤ t
    · obtain ⟨s2, P2, Q, a1, a2, a3⟩ := ih hτ
      refine ⟨s2, P2, Q ++ (l.flatMap (s0.waitSteps 1)).map (Pulse.later (t - τ)), a1, ?_, ?_⟩
      · rw [a2, List.map_append, List.append_assoc, List.map_map]
        congr 2
        refine List.map_congr_left fun q _ => ?_
        show Pulse.later t q = Pulse.later τ (Pulse.later (t - τ) q)
        rw [Pulse.later_later]
        congr 1
        omega
      · intro q hq
        rcases List.mem_append.1 hq with hq | hq
        · exact a3 q hq
        · obtain ⟨q', hq', rfl⟩ := List.mem_map.1 hq
          obtain ⟨y, hy, hq'⟩ := List.mem_flatMap.1 hq'
          obtain ⟨u, hu, hc⟩ := (hl.mem y).1 hy
          have := (h.performance.sane.1.waits (d := 1) (by omega) (by omega)).2.2.2 y u hu hc q' hq'
          unfold Pulse.later
          dsimp only
          omega
    · have : τ = t + 1 := by omega
      subst this
      rw [List.filter_eq_self.2 (fun e he => by have := hb.2 e he; simp; omega)]
      exact ⟨_, _, [], .wait h hl hw, by simp, by simp⟩

/-! Calls one by one. -/

/-- Each call apart. -/
def onesOf (L : List (Int × WOp)) : List (Int × List WOp) := L.map fun e => (e.1, [e.2])

theorem timedCalls_append (L M : List (Int × List WOp)) : timedCalls (L ++ M) = timedCalls L ++ timedCalls M := by
  unfold timedCalls; rw [List.flatMap_append]

theorem onesOf_append (L M : List (Int × WOp)) : onesOf (L ++ M) = onesOf L ++ onesOf M := by
  unfold onesOf; rw [List.map_append]

theorem timedCalls_one (t : Int) (ops : List WOp) : timedCalls [(t, ops)] = ops.map fun o => (t, o) := by
  unfold timedCalls; simp

theorem callCount_ones (L : List (Int × WOp)) : callCount (onesOf L) = L.length := by
  unfold callCount onesOf
  induction L with
  | nil => rfl
  | cons e L ih =>
    rw [List.map_cons, List.flatMap_cons, List.length_append, ih, List.length_cons]
    simp; omega

theorem callCount_timed (L : List (Int × List WOp)) : (timedCalls L).length = callCount L := by
  unfold callCount timedCalls
  induction L with
  | nil => rfl
  | cons e L ih => rw [List.flatMap_cons, List.flatMap_cons, List.length_append, List.length_append, ih, List.length_map]

theorem timedCalls_filter (τ : Int) (L : List (Int × List WOp)) :
    timedCalls (L.filter fun e => decide (e.1 < τ)) = callsBefore τ L := by
  unfold callsBefore
  induction L with
  | nil => rfl
  | cons e L ih =>
    rw [show timedCalls (e :: L) = timedCalls [e] ++ timedCalls L from timedCalls_append [e] L, List.filter_append, ← ih]
    by_cases h : e.1 < τ
    · rw [List.filter_cons_of_pos (by simpa using h), show ∀ M, timedCalls (e :: M) = timedCalls [e] ++ timedCalls M from timedCalls_append [e]]
      congr 1
      unfold timedCalls
      symm
      rw [List.filter_eq_self]
      intro a ha
      simp only [List.flatMap_cons, List.flatMap_nil, List.append_nil, List.mem_map] at ha
      obtain ⟨o, -, rfl⟩ := ha
      simpa using h
    · rw [List.filter_cons_of_neg (by simpa using h)]
      symm
      convert List.nil_append _
      rw [List.filter_eq_nil_iff]
      intro a ha
      unfold timedCalls at ha
      simp only [List.flatMap_cons, List.flatMap_nil, List.append_nil, List.mem_map] at ha
      obtain ⟨o, -, rfl⟩ := ha
      simpa using h

theorem Steady.single {t : Int} {P : List Pulse} {F : Nat} : ∀ (ops : List WOp) {s s' : TWorld} {M : List (Int × WOp)}, Steady N t s P (onesOf M) →
    (∀ op ∈ ops, op.Here) → s.LegalRun N F ops → s.run F ops = .ok s' → M.length + ops.length ≤ F →
    Steady N t s' P (onesOf (M ++ ops.map fun o => (t, o)))
  | [], s, s', M, h, _, _, e, _ => by
    cases e
    rw [List.map_nil, List.append_nil]
    exact h
  | op :: ops, s, s', M, h, hq, hl, e, hF => by
    unfold TWorld.run at e
    obtain ⟨s1, e1, e⟩ := bind_ok_iff.1 e
    rw [List.length_cons] at hF
    have hc := callCount_ones M
    obtain ⟨s2, e2, -⟩ := (h.performance.sane.1.inv.exec (fuel := callCount (onesOf M) + 1) (by omega) hl.1).get trivial
    have e3 := TWorld.exec_more (F := F) (by omega) e2
    rw [e1] at e3
    cases e3
    have k := Steady.calls h (ops := [op]) (by
      intro o ho
      rw [List.mem_singleton] at ho
      subst ho
      exact hq _ (List.mem_cons_self ..)) ⟨hl.1, fun _ _ => trivial⟩ (by
      unfold TWorld.run
      rw [List.length_singleton, e2]
      rfl)
    have := Steady.single ops (M := M ++ [(t, op)]) (by rw [onesOf_append]; exact k) (fun o ho => hq o (List.mem_cons_of_mem _ ho))
      (hl.2 _ e1) e (by rw [List.length_append, List.length_singleton]; omega)
    rw [List.append_assoc] at this
    exact this

theorem Steady.ones {t : Int} {s : TWorld} {P : List Pulse} {L : List (Int × List WOp)} (h : Steady N t s P L) :
    Steady N t s P (onesOf (timedCalls L)) := by
  induction h with
  | start => exact .start
  | calls h hq hl hr ih =>
    rw [timedCalls_append, timedCalls_one]
    exact Steady.single _ ih hq hl hr (by rw [callCount_timed])
  | wait h hl hw ih => exact .wait ih hl hw

theorem Steady.follows {t : Int} {s s' : TWorld} {P P' : List Pulse} {L L' : List (Int × List WOp)} (h : Steady N t s P L)
    (h' : Steady N t s' P' L') (e : timedCalls L = timedCalls L') : s = s' ∧ Alike P P' :=
  h.ones.det h'.ones rfl (by rw [e])

end BK
