import Verif.Lemmas.Stems
/-!
Calls on instruments do the same to a track, whatever other tracks there are.
-/
namespace BK

/-- Nothing that `x` sees changes, and `x` is told nothing. -/
def Still (x n : Nat) (w w1 : IWorld) : Prop := View x n w w1 ∧ Hears x [] w w1

theorem Still.refl (x : Nat) {n : Nat} {w : IWorld} (h : w.fresh = n) : Still x n w w := by
  subst h; exact ⟨.refl _ _, .refl _ _⟩

theorem Still.trans {x n : Nat} {a b c : IWorld} (h : Still x n a b) (h' : Still x n b c) : Still x n a c :=
  ⟨h.1.trans h'.1, h.2.trans h'.2⟩

/-- The body of a loop changes only the state it is for. -/
def Single (body : IWorld → Nat → C IWorld) : Prop :=
  ∀ w y w', body w y = .ok w' → w'.links = w.links ∧ ∀ x, x ≠ y → Still x w.fresh w w'

theorem forAfter_seen {body : IWorld → Nat → C IWorld} {L : Links} {A : Lists} (hr : L.HRepr A) (hb : Single body)
    (i x : Nat) {n : Nat} (hn : ∀ w y w', body w y = .ok w' → w'.fresh = w.fresh) :
    ∀ (r l : List Nat) (fuel : Nat) (w w1 : IWorld), A i = l ++ r → w.links = L → w.fresh = n →
      IWorld.forAfter body fuel w r.head? = .ok w1 → w1.links = L ∧ w1.fresh = n ∧
      ((x ∉ r ∧ Still x n w w1) ∨ (x ∈ r ∧ ∃ wa wb, Still x n w wa ∧ wa.links = L ∧ body wa x = .ok wb ∧ Still x n wb w1)) := by
  intro r
  induction r with
  | nil =>
    intro l fuel w w1 _ hL hf h
    cases fuel <;> (cases h; exact ⟨hL, hf, Or.inl ⟨by simp, .refl x hf⟩⟩)
  | cons y r ih =>
    intro l fuel w w1 hA hL hf h
    cases fuel with
    | zero => cases h
    | succ fuel =>
      have h : (do let w ← body w y; IWorld.forAfter body fuel w (w.links.next y)) = .ok w1 := h
      obtain ⟨a, ha, h⟩ := bind_ok_iff.1 h
      obtain ⟨h1, h2⟩ := hb w y a ha
      have h3 := (hn w y a ha).trans hf
      rw [h1, hL, (hr.split hA).2] at h
      obtain ⟨b1, b2, b3⟩ := ih (l ++ [y]) fuel a w1 (by rw [hA]; simp) (h1.trans hL) h3 h
      refine ⟨b1, b2, ?_⟩
      have hnd := hr.nodup i
      rw [hA] at hnd
      have hyr : y ∉ r := (List.nodup_cons.1 (List.nodup_append.1 hnd).2.1).1
      by_cases e : x = y
      · subst e
        rcases b3 with ⟨_, b3⟩ | ⟨b3, _⟩
        · exact Or.inr ⟨by simp, w, a, .refl x hf, hL, ha, b3⟩
        · exact absurd b3 hyr
      · have k := h2 x e
        rw [hf] at k
        rcases b3 with ⟨b3, b4⟩ | ⟨b3, wa, wb, b4, b5, b6, b7⟩
        · exact Or.inl ⟨by simp [e, b3], k.trans b4⟩
        · exact Or.inr ⟨by simp [b3], wa, wb, k.trans b4, b5, b6, b7⟩

/-- Loops over the states of an instrument do the same to state `x` in both worlds. -/
theorem forAfter_both {body : IWorld → Nat → C IWorld} {A A' : Lists} {w w' w1 w1' : IWorld} {i x n f f' : Nat}
    (hr : w.links.HRepr A) (hr' : w'.links.HRepr A') (hb : Single body)
    (hn : ∀ w y w', body w y = .ok w' → w'.fresh = w.fresh)
    (hx : x ∈ A i ↔ x ∈ A' i) (hc : ∀ a a' b b', View x n a a' → body a x = .ok b → body a' x = .ok b' → Abreast x n a a' b b')
    (h : View x n w w') (e : IWorld.forAfter body f w (w.links.first i) = .ok w1)
    (e' : IWorld.forAfter body f' w' (w'.links.first i) = .ok w1') :
    Abreast x n w w' w1 w1' ∧ w1.links = w.links ∧ w1'.links = w'.links := by
  rw [hr.first] at e
  rw [hr'.first] at e'
  obtain ⟨a1, -, a2⟩ := forAfter_seen hr hb i x (n := n) hn (A i) [] f w w1 rfl rfl h.fresh e
  obtain ⟨b1, -, b2⟩ := forAfter_seen hr' hb i x (n := n) hn (A' i) [] f' w' w1' rfl rfl h.fresh' e'
  refine ⟨?_, a1, b1⟩
  rcases a2 with ⟨a3, a4⟩ | ⟨a3, wa, wb, a4, -, a5, a6⟩
  · rcases b2 with ⟨b3, b4⟩ | ⟨b3, -⟩
    · exact ⟨a4.1.symm.trans (h.trans b4.1), [], a4.2, b4.2⟩
    · exact absurd (hx.2 b3) a3
  · rcases b2 with ⟨b3, -⟩ | ⟨b3, wa', wb', b4, -, b5, b6⟩
    · exact absurd (hx.1 a3) b3
    · obtain ⟨v, l, c1, c2⟩ := hc wa wa' wb wb' (a4.1.symm.trans (h.trans b4.1)) a5 b5
      refine ⟨a6.1.symm.trans (v.trans b6.1), l, ?_, ?_⟩
      · have := (a4.2.trans c1).trans a6.2
        simpa using this
      · have := (b4.2.trans c2).trans b6.2
        simpa using this

theorem forBefore_after {body : IWorld → Nat → C IWorld} (hb : ∀ w y w', body w y = .ok w' → w'.links = w.links) :
    ∀ (fuel : Nat) (w : IWorld) (s : Option Nat), IWorld.forBefore body fuel w s = IWorld.forAfter body fuel w s
  | 0, w, none => rfl
  | 0, w, some x => rfl
  | n + 1, w, none => rfl
  | n + 1, w, some x => by
    unfold IWorld.forBefore IWorld.forAfter
    dsimp only
    cases h : body w x with
    | error e => rfl
    | ok a =>
      show IWorld.forBefore body n a (w.links.next x) = IWorld.forAfter body n a (a.links.next x)
      rw [hb w x a h]
      exact forBefore_after hb n a _

/-! ### Bodies of loops -/

theorem pointBody_single (slot : Nat) (id : Option Nat) : Single (IWorld.pointBody slot id) := by
  intro w y w' h
  cases h
  exact ⟨rfl, fun x hx => ⟨⟨rfl, upd_ne _ _ hx, rfl, rfl, rfl, rfl⟩, [], by simp, rfl⟩⟩

theorem resetBody_single : Single IWorld.resetBody := by
  intro w y w' h
  cases h
  refine ⟨rfl, fun x hx => ⟨⟨rfl, rfl, rfl, rfl, rfl, rfl⟩, _, rfl, ?_⟩⟩
  simp [Ne.symm hx]

theorem muteBody_single : Single IWorld.muteBody := by
  intro w y w' h
  unfold IWorld.muteBody at h
  obtain ⟨s, -, h⟩ := bind_ok_iff.1 h
  unfold IWorld.setPhase at h
  split at h
  · cases h
    exact ⟨rfl, fun x hx => ⟨⟨rfl, upd_ne _ _ hx, rfl, rfl, rfl, rfl⟩, [], by simp, rfl⟩⟩
  · obtain ⟨r, -, h⟩ := bind_ok_iff.1 h
    cases h
    refine ⟨rfl, fun x hx => ⟨⟨rfl, ?_, rfl, rfl, rfl, rfl⟩, _, rfl, ?_⟩⟩
    · dsimp only
      rw [upd_ne _ _ hx, upd_ne _ _ hx]
    · rw [List.filter_eq_nil_iff.2]
      · rfl
      · intro e he
        obtain ⟨e', -, rfl⟩ := List.mem_map.1 he
        simp [Ne.symm hx]

theorem muteBody_fresh (w : IWorld) (y : Nat) (w' : IWorld) (h : w.muteBody y = .ok w') : w'.fresh = w.fresh := by
  unfold IWorld.muteBody at h
  obtain ⟨s, -, h⟩ := bind_ok_iff.1 h
  unfold IWorld.setPhase at h
  split at h
  · cases h; rfl
  · obtain ⟨r, -, h⟩ := bind_ok_iff.1 h
    cases h; rfl

theorem pointBody_both {slot x n : Nat} {id : Option Nat} (a a' b b' : IWorld) (h : View x n a a')
    (e : IWorld.pointBody slot id a x = .ok b) (e' : IWorld.pointBody slot id a' x = .ok b') : Abreast x n a a' b b' := by
  cases e
  cases e'
  refine ⟨⟨h.owner, ?_, h.instrs, h.heap, h.fresh, h.fresh'⟩, [], ⟨[], by simp, rfl⟩, ⟨[], by simp, rfl⟩⟩
  dsimp only
  rw [upd_self, upd_self, h.states]

theorem resetBody_both {x n : Nat} (a a' b b' : IWorld) (h : View x n a a')
    (e : a.resetBody x = .ok b) (e' : a'.resetBody x = .ok b') : Abreast x n a a' b b' := by
  cases e
  cases e'
  exact ⟨⟨h.owner, h.states, h.instrs, h.heap, h.fresh, h.fresh'⟩, [.reset], Hears.own [.reset] rfl, Hears.own [.reset] rfl⟩

theorem muteBody_both {x n : Nat} (a a' b b' : IWorld) (h : View x n a a')
    (e : a.muteBody x = .ok b) (e' : a'.muteBody x = .ok b') : Abreast x n a a' b b' := by
  unfold IWorld.muteBody at e e'
  rw [h.states, h.heap] at e'
  obtain ⟨s, h1, e⟩ := bind_ok_iff.1 e
  obtain ⟨s', h1', e'⟩ := bind_ok_iff.1 e'
  rw [h1] at h1'
  cases h1'
  have hv : View x n { a with states := upd a.states x s } { a' with states := upd a'.states x s } :=
    ⟨h.owner, by dsimp only; rw [upd_self, upd_self], h.instrs, h.heap, h.fresh, h.fresh'⟩
  obtain ⟨r', e2, k⟩ := IWorld.setPhase_view hv .mute b e
  have e2 : _ = _ := e2
  rw [h.heap] at e2
  rw [e'] at e2
  cases e2
  exact ⟨k.1, k.2⟩

/-! ### Calls on instruments -/

section
variable {x n f f' i : Nat} {w w' w1 w1' : IWorld} {A A' : Lists}

theorem View.lists (h : View x n w w') (hr : w.links.HRepr A) (hr' : w'.links.HRepr A') (i : Nat) : x ∈ A i ↔ x ∈ A' i := by
  rw [← hr.owner, ← hr'.owner, h.owner]

theorem IWorld.replace_view (h : View x n w w') (hr : w.links.HRepr A) (hr' : w'.links.HRepr A') {slot : Nat} {q : Option Sequence}
    (e : w.replace f i slot q = .ok w1) (e' : w'.replace f' i slot q = .ok w1') : ∃ m, Abreast x m w w' w1 w1' := by
  have hx := h.lists hr hr' i
  unfold IWorld.replace at e e'
  dsimp only at e e'
  have hs : ∃ m, View x m (w.store q).2 (w'.store q).2 ∧ (w'.store q).1 = (w.store q).1 ∧ (w.store q).2.links = w.links ∧
      (w'.store q).2.links = w'.links ∧ (w.store q).2.log = w.log ∧ (w'.store q).2.log = w'.log := by
    cases q with
    | none => exact ⟨n, h, rfl, rfl, rfl, rfl, rfl⟩
    | some q =>
      refine ⟨n + 1, ⟨h.owner, h.states, h.instrs, ?_, ?_, ?_⟩, ?_, rfl, rfl, rfl, rfl⟩
      · show upd w'.heap w'.fresh _ = upd w.heap w.fresh _
        rw [h.heap, h.fresh, h.fresh']
      · show w.fresh + 1 = _
        rw [h.fresh]
      · show w'.fresh + 1 = _
        rw [h.fresh']
      · show some w'.fresh = some w.fresh
        rw [h.fresh, h.fresh']
  obtain ⟨m, hv, hid, l0, l0', g0, g0'⟩ := hs
  refine ⟨m, ?_⟩
  rw [hid] at e'
  generalize (w.store q).1 = id at e e'
  generalize (w.store q).2 = v at *
  generalize (w'.store q).2 = v' at *
  rw [hv.heap, hv.instrs] at e'
  obtain ⟨hp, e0, e⟩ := bind_ok_iff.1 e
  obtain ⟨hp', e0', e'⟩ := bind_ok_iff.1 e'
  rw [e0] at e0'
  cases e0'
  obtain ⟨a, e1, e⟩ := bind_ok_iff.1 e
  obtain ⟨a', e1', e'⟩ := bind_ok_iff.1 e'
  obtain ⟨b, e2, e⟩ := bind_ok_iff.1 e
  obtain ⟨b', e2', e'⟩ := bind_ok_iff.1 e'
  rw [← l0] at hr
  rw [← l0'] at hr'
  have hv0 : View x m { v with heap := hp, instrs := upd v.instrs i ((v.instrs i).setSeq slot id) }
      { v' with heap := hp, instrs := upd v.instrs i ((v.instrs i).setSeq slot id) } :=
    ⟨hv.owner, hv.states, rfl, rfl, hv.fresh, hv.fresh'⟩
  obtain ⟨k1, m1, m1'⟩ := forAfter_both (A := A) (A' := A') (w := { v with heap := hp, instrs := upd v.instrs i ((v.instrs i).setSeq slot id) })
    (w' := { v' with heap := hp, instrs := upd v.instrs i ((v.instrs i).setSeq slot id) }) hr hr' (pointBody_single slot id)
    (fun w y w' h => by cases h; rfl) hx (fun a a' b b' => pointBody_both a a' b b') hv0 e1 e1'
  have hv1 : View x m { a with instrs := upd a.instrs i (a.instrs i).updateNum }
      { a' with instrs := upd a'.instrs i (a'.instrs i).updateNum } :=
    ⟨k1.1.owner, k1.1.states, by dsimp only; rw [k1.1.instrs], k1.1.heap, k1.1.fresh, k1.1.fresh'⟩
  have hra : a.links.HRepr A := by rw [m1]; exact hr
  have hra' : a'.links.HRepr A' := by rw [m1']; exact hr'
  obtain ⟨k2, m2, m2'⟩ := forAfter_both (A := A) (A' := A') (w := { a with instrs := upd a.instrs i (a.instrs i).updateNum })
    (w' := { a' with instrs := upd a'.instrs i (a'.instrs i).updateNum }) hra hra' muteBody_single
    muteBody_fresh hx (fun a a' b b' => muteBody_both a a' b b') hv1 e2 e2'
  have hrb : b.links.HRepr A := by rw [m2]; exact hra
  have hrb' : b'.links.HRepr A' := by rw [m2']; exact hra'
  rw [forBefore_after (fun w y w' h => (resetBody_single w y w' h).1)] at e e'
  obtain ⟨k3, -, -⟩ := forAfter_both (A := A) (A' := A') hrb hrb' resetBody_single
    (fun w y w' h => by cases h; rfl) hx (fun a a' b b' => resetBody_both a a' b b') k2.1 e e'
  obtain ⟨-, q1, c1, c1'⟩ := k1
  obtain ⟨-, q2, c2, c2'⟩ := k2
  obtain ⟨v3, q3, c3, c3'⟩ := k3
  have d1 : Hears x q1 w a := by
    obtain ⟨m, h1, h2⟩ := c1
    exact ⟨m, by rw [h1]; dsimp only; rw [g0], h2⟩
  have d1' : Hears x q1 w' a' := by
    obtain ⟨m, h1, h2⟩ := c1'
    exact ⟨m, by rw [h1]; dsimp only; rw [g0'], h2⟩
  exact ⟨v3, q1 ++ q2 ++ q3, (d1.trans c2).trans c3, (d1'.trans c2').trans c3'⟩

theorem IWorld.setSequence_view (h : View x n w w') (hr : w.links.HRepr A) (hr' : w'.links.HRepr A') {slot : Nat} {q : NewSeq}
    {r r' : Bool × IWorld} (e : w.setSequence f i slot q = .ok r) (e' : w'.setSequence f' i slot q = .ok r') :
    ∃ m, Abreast x m w w' r.2 r'.2 := by
  have hid : ∃ m, Abreast x m w w' w w' := ⟨n, h, [], .refl _ _, .refl _ _⟩
  unfold IWorld.setSequence at e e'
  split at e
  · rename_i hs
    rw [if_pos hs] at e'
    obtain ⟨c, e1, e⟩ := bind_ok_iff.1 e
    obtain ⟨c', e1', e'⟩ := bind_ok_iff.1 e'
    rw [e1] at e1'
    cases e1'
    cases c with
    | none => cases e; cases e'; exact hid
    | some s =>
      dsimp only at e e'
      obtain ⟨a, e2, e⟩ := bind_ok_iff.1 e
      obtain ⟨a', e2', e'⟩ := bind_ok_iff.1 e'
      cases e
      cases e'
      exact IWorld.replace_view h hr hr' e2 e2'
  · rename_i hs
    rw [if_neg hs] at e'
    cases e
    cases e'
    exact hid

theorem filter_events {l : List Nat} (h : l.Nodup) (x : Nat) (e : InstrEvent) :
    ((l.map fun y => (y, e)).filter (·.1 = x)).map (·.2) = if x ∈ l then [e] else [] := by
  induction l with
  | nil => rfl
  | cons y l ih =>
    obtain ⟨h1, h2⟩ := List.nodup_cons.1 h
    rw [List.map_cons, List.filter_cons]
    by_cases e1 : y = x
    · subst e1
      simp [ih h2, h1]
    · have : ¬ x = y := fun e => e1 e.symm
      simp [ih h2, e1, this]

theorem IWorld.detach_view {B B' : Prop} (h : View x n w w') (hr : w.Inv B A) (hr' : w'.Inv B' A') (hf : (A i).length ≤ f)
    (hf' : (A' i).length ≤ f') (e : w.detach f i = .ok w1) (e' : w'.detach f' i = .ok w1') : Abreast x n w w' w1 w1' := by
  have hx := h.lists hr.repr hr'.repr i
  unfold IWorld.detach at e e'
  obtain ⟨a, -, a1, -, -, -, a2⟩ := IWorld.detach_aux i (A i) f w A hr rfl hf
  obtain ⟨b, -, b1, -, -, -, b2⟩ := IWorld.detach_aux i (A' i) f' w' A' hr' rfl hf'
  rw [hr.repr.first, a1] at e
  rw [hr'.repr.first, b1] at e'
  cases e
  cases e'
  refine ⟨⟨?_, ?_, ?_, ?_, ?_, ?_⟩, if x ∈ A i then [.dispose] else [], ⟨_, a2.log, ?_⟩, ⟨_, b2.log, ?_⟩⟩
  · rw [a2.owner, b2.owner, h.owner]
    by_cases k : x ∈ A i
    · rw [if_pos k, if_pos (hx.1 k)]
    · rw [if_neg k, if_neg (fun e => k (hx.2 e))]
  · rw [a2.states, b2.states, h.states]
    by_cases k : x ∈ A i
    · rw [if_pos k, if_pos (hx.1 k)]
    · rw [if_neg k, if_neg (fun e => k (hx.2 e))]
  · rw [a2.instrs, b2.instrs, h.instrs]
  · rw [a2.heap, b2.heap, h.heap]
  · rw [a2.fresh, h.fresh]
  · rw [b2.fresh, h.fresh']
  · exact filter_events (hr.repr.nodup i) x _
  · rw [filter_events (hr'.repr.nodup i) x _]
    by_cases k : x ∈ A i
    · rw [if_pos k, if_pos (hx.1 k)]
    · rw [if_neg k, if_neg (fun e => k (hx.2 e))]

theorem IWorld.dispose_view {B B' : Prop} (h : View x n w w') (hr : w.Inv B A) (hr' : w'.Inv B' A') (hf : (A i).length ≤ f)
    (hf' : (A' i).length ≤ f') (e : w.dispose f i = .ok w1) (e' : w'.dispose f' i = .ok w1') : Abreast x n w w' w1 w1' := by
  unfold IWorld.dispose at e e'
  obtain ⟨a, e1, e⟩ := bind_ok_iff.1 e
  obtain ⟨a', e1', e'⟩ := bind_ok_iff.1 e'
  obtain ⟨v, l, k1, k2⟩ := IWorld.detach_view h hr hr' hf hf' e1 e1'
  rw [v.heap, v.instrs] at e'
  obtain ⟨b, e2, e⟩ := bind_ok_iff.1 e
  obtain ⟨b', e2', e'⟩ := bind_ok_iff.1 e'
  rw [e2] at e2'
  cases e2'
  cases e
  cases e'
  exact ⟨⟨v.owner, v.states, rfl, rfl, v.fresh, v.fresh'⟩, l, k1, k2⟩

end

/-! ### Tracks and instruments -/

/-- Abreast look the same to track `x`. -/
def TWorld.Same (x n : Nat) (s s' : TWorld) : Prop := View x n s.iw s'.iw ∧ s'.tracks x = s.tracks x

theorem tell_own {iw : IWorld} {x : Nat} : ∀ (l : List (Nat × InstrEvent)) (ts ts' : Nat → Option Track),
    l.foldlM (TWorld.tell iw) ts = .ok ts' →
    match ts x with
    | none => ts' x = none
    | some t => ∃ t', ((l.filter (·.1 = x)).map (·.2)).foldlM (fun t e => t.told x iw e) t = .ok t' ∧ ts' x = some t' := by
  intro l
  induction l with
  | nil =>
    intro ts ts' h
    cases h
    split
    · assumption
    · exact ⟨_, rfl, by assumption⟩
  | cons e l ih =>
    intro ts ts' h
    rw [List.foldlM_cons] at h
    obtain ⟨a, ha, h⟩ := bind_ok_iff.1 h
    have k := ih a ts' h
    unfold TWorld.tell at ha
    by_cases ex : e.1 = x
    · rw [ex] at ha
      cases ht : ts x with
      | none =>
        rw [ht] at ha
        cases ha
        rw [ht] at k
        exact k
      | some t =>
        rw [ht] at ha
        dsimp only at ha
        obtain ⟨t1, h1, ha⟩ := bind_ok_iff.1 ha
        cases ha
        rw [upd_self] at k
        obtain ⟨t', k1, k2⟩ := k
        refine ⟨t', ?_, k2⟩
        rw [List.filter_cons_of_pos (by simpa using ex), List.map_cons, List.foldlM_cons, h1]
        exact k1
    · have hax : a x = ts x := by
        split at ha
        · cases ha; rfl
        · obtain ⟨t1, h1, ha⟩ := bind_ok_iff.1 ha
          cases ha
          exact upd_ne _ _ (Ne.symm ex)
      rw [hax] at k
      rw [List.filter_cons_of_neg (by simpa using ex)]
      exact k

theorem TWorld.hear_view {x n m : Nat} {s s' s1 s1' : TWorld} {a b : IWorld} (h : s.Same x n s') (hab : Abreast x m s.iw s'.iw a b)
    (e : s.hear a = .ok s1) (e' : s'.hear b = .ok s1') : s1.Same x m s1' := by
  obtain ⟨v, l, h1, h2⟩ := hab
  have n1 : ((a.log.drop s.iw.log.length).filter (·.1 = x)).map (·.2) = l := h1.news
  have n2 : ((b.log.drop s'.iw.log.length).filter (·.1 = x)).map (·.2) = l := h2.news
  unfold TWorld.hear at e e'
  obtain ⟨ts, e1, e⟩ := bind_ok_iff.1 e
  obtain ⟨ts', e1', e'⟩ := bind_ok_iff.1 e'
  cases e
  cases e'
  have k1 := tell_own (x := x) _ _ _ e1
  have k2 := tell_own (x := x) _ _ _ e1'
  rw [h.2] at k2
  refine ⟨v, ?_⟩
  dsimp only
  cases ht : s.tracks x with
  | none =>
    rw [ht] at k1 k2
    exact k2.trans k1.symm
  | some t =>
    rw [ht] at k1 k2
    obtain ⟨t1, a1, a2⟩ := k1
    obtain ⟨t2, b1, b2⟩ := k2
    rw [n1] at a1
    rw [n2] at b1
    simp only [Track.told_view v] at b1
    rw [a1] at b1
    cases b1
    rw [a2, b2]

end BK
