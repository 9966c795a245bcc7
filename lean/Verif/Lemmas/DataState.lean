import Verif.Spec.DataState
import Verif.Lemmas.Links
/-! Singly linked lists represent plain lists. -/
namespace BK

/-- The pointers `next` from `p` on go through a list and then to `q`. -/
def Seg (next : Nat → Option Nat) : Option Nat → List Nat → Option Nat → Prop
  | p, [], q => p = q
  | p, x :: xs, q => p = some x ∧ Seg next (next x) xs q

/-- The pointers represent the lists. -/
structure Links.SRepr (h : Links) (A : Lists) : Prop where
  nodup : ∀ d, (A d).Nodup
  owner : ∀ s d, h.owner s = some d ↔ s ∈ A d
  chain : ∀ d, Seg h.next (h.first d) (A d) none

theorem Seg.head {next : Nat → Option Nat} {p : Option Nat} {L : List Nat} (h : Seg next p L none) :
    p = L.head? := by
  cases L with
  | nil => exact h
  | cons x L => exact h.1

theorem Seg.congr {next next' : Nat → Option Nat} : ∀ {L : List Nat} {p q : Option Nat}, Seg next p L q →
    (∀ x ∈ L, next' x = next x) → Seg next' p L q
  | [], _, _, h, _ => h
  | x :: L, _, _, h, e => ⟨h.1, by
    rw [e x List.mem_cons_self]
    exact Seg.congr h.2 (fun y hy => e y (List.mem_cons_of_mem _ hy))⟩

theorem Seg.append {next : Nat → Option Nat} : ∀ {L : List Nat} {p q : Option Nat} {R : List Nat},
    Seg next p (L ++ R) q ↔ ∃ m, Seg next p L m ∧ Seg next m R q
  | [], p, q, R => ⟨fun h => ⟨p, rfl, h⟩, fun ⟨m, h1, h2⟩ => by
    have h1 : p = m := h1
    subst h1; exact h2⟩
  | x :: L, p, q, R => by
    constructor
    · intro h
      obtain ⟨m, h1, h2⟩ := Seg.append.1 h.2
      exact ⟨m, ⟨h.1, h1⟩, h2⟩
    · rintro ⟨m, h1, h2⟩
      exact ⟨h1.1, Seg.append.2 ⟨m, h1.2, h2⟩⟩

/-- The pointer of the last element goes elsewhere. -/
theorem Seg.last {next next' : Nat → Option Nat} {L : List Nat} {p m q : Option Nat} {l : Nat}
    (h : Seg next p (L ++ [l]) m) (hn : (L ++ [l]).Nodup) (e : ∀ x ∈ L, next' x = next x) (el : next' l = q) :
    Seg next' p (L ++ [l]) q := by
  obtain ⟨k, h1, h2⟩ := Seg.append.1 h
  exact Seg.append.2 ⟨k, h1.congr e, h2.1, el⟩

theorem getLast_concat {L : List Nat} : L = [] ∨ ∃ K l, L = K ++ [l] := by
  rcases List.eq_nil_or_concat L with h | ⟨K, l, h⟩
  · exact .inl h
  · exact .inr ⟨K, l, by rw [h, List.concat_eq_append]⟩

theorem Links.SRepr.other {h : Links} {A : Lists} (hr : h.SRepr A) {s c d : Nat} (hs : s ∈ A d) (hc : c ≠ d) :
    s ∉ A c := by
  intro h1
  have a := (hr.owner s c).2 h1
  have b := (hr.owner s d).2 hs
  rw [a] at b
  exact hc (Option.some.inj b)

/-- Taking an element out. -/
theorem Links.SRepr.cut {h h' : Links} {A : Lists} (hr : h.SRepr A) {d s : Nat} {L R : List Nat}
    (he : A d = L ++ s :: R) (ho : ∀ x, h'.owner x = if x = s then none else h.owner x)
    (hn : ∀ x, h'.next x = if x = s then none else if L.getLast? = some x then h.next s else h.next x)
    (hf : ∀ c, h'.first c = if c = d ∧ L = [] then h.next s else h.first c) :
    h'.SRepr (fun c => if c = d then L ++ R else A c) := by
  have nd := hr.nodup d
  rw [he] at nd
  have sL : s ∉ L := fun c => by
    have := (List.nodup_append.1 nd).2.2 s c s List.mem_cons_self
    exact this rfl
  have sR : s ∉ R := (List.nodup_cons.1 (List.nodup_append.1 nd).2.1).1
  have hsd : s ∈ A d := by rw [he]; simp
  have nd' : (L ++ R).Nodup := by
    refine List.Nodup.sublist ?_ nd
    exact List.Sublist.append (List.Sublist.refl _) (List.sublist_cons_self _ _)
  have hc := hr.chain d
  rw [he] at hc
  obtain ⟨m, c1, c2⟩ := Seg.append.1 hc
  have lastL : ∀ x, L.getLast? = some x → x ∈ L := fun x hx => List.mem_of_getLast? hx
  refine ⟨fun c => ?_, fun x c => ?_, fun c => ?_⟩
  · skip
    split
    · exact nd'
    · exact hr.nodup c
  · skip
    rw [ho]
    by_cases hx : x = s
    · subst hx
      rw [if_pos rfl]
      constructor
      · intro c; cases c
      · intro c
        exfalso
        split at c
        · rcases List.mem_append.1 c with c | c
          · exact sL c
          · exact sR c
        · rename_i hcd
          exact hr.other hsd hcd c
    · rw [if_neg hx, hr.owner]
      split
      · rename_i hcd
        subst hcd
        rw [he]
        simp only [List.mem_append, List.mem_cons]
        constructor
        · rintro (h | h | h)
          · exact .inl h
          · exact absurd h hx
          · exact .inr h
        · rintro (h | h)
          · exact .inl h
          · exact .inr (.inr h)
      · exact Iff.rfl
  · skip
    by_cases hcd : c = d
    · subst hcd
      rw [if_pos rfl]
      have cR : Seg h'.next (h.next s) R none := by
        refine c2.2.congr (fun x hx => ?_)
        rw [hn, if_neg (show ¬ (x = s) from fun e => sR (e ▸ hx)), if_neg]
        intro e
        exact (List.nodup_append.1 nd').2.2 x (lastL x e) x hx rfl
      rcases getLast_concat (L := L) with hL | ⟨K, l, hL⟩
      · subst hL
        rw [hf, if_pos ⟨rfl, rfl⟩]
        exact cR
      · have hne : L ≠ [] := by rw [hL]; simp
        have hlast : L.getLast? = some l := by rw [hL]; simp
        have ndL : (K ++ [l]).Nodup := by rw [← hL]; exact (List.nodup_append.1 nd').1
        have hlK : l ∉ K := fun c => (List.nodup_append.1 ndL).2.2 l c l List.mem_cons_self rfl
        rw [hf, if_neg (fun c => hne c.2)]
        refine Seg.append.2 ⟨h.next s, ?_, cR⟩
        rw [hL] at c1 ⊢
        refine Seg.last c1 ndL (fun x hx => ?_) ?_
        · rw [hn, if_neg (fun e => sL (by rw [hL, ← e]; simp [hx])), if_neg]
          intro e
          rw [hlast] at e
          exact hlK ((Option.some.inj e) ▸ hx)
        · rw [hn, if_neg (fun e => sL (by rw [hL, ← e]; simp)), if_pos hlast]
    · rw [if_neg hcd, hf, if_neg (fun c => hcd c.1)]
      refine (hr.chain c).congr (fun x hx => ?_)
      rw [hn, if_neg (show ¬ (x = s) from fun e => hr.other hsd hcd (e ▸ hx)), if_neg]
      intro e
      exact hr.other (by rw [he]; exact List.mem_append_left _ (lastL x e)) hcd hx

/-- Adding an element at the end. -/
theorem Links.SRepr.add {h h' : Links} {A : Lists} (hr : h.SRepr A) {d s : Nat} (hs : h.owner s = none)
    (ho : ∀ x, h'.owner x = if x = s then some d else h.owner x)
    (hn : ∀ x, h'.next x = if x = s then none else if (A d).getLast? = some x then some s else h.next x)
    (hf : ∀ c, h'.first c = if c = d ∧ A d = [] then some s else h.first c) :
    h'.SRepr (fun c => if c = d then A d ++ [s] else A c) := by
  have no : ∀ c, s ∉ A c := fun c hc => by
    rw [(hr.owner s c).2 hc] at hs; cases hs
  have lastA : ∀ x, (A d).getLast? = some x → x ∈ A d := fun x hx => List.mem_of_getLast? hx
  refine ⟨fun c => ?_, fun x c => ?_, fun c => ?_⟩
  · skip
    split
    · refine List.nodup_append.2 ⟨hr.nodup d, by simp, fun a ha b hb e => ?_⟩
      rw [List.mem_singleton] at hb
      subst e hb
      exact no d ha
    · exact hr.nodup c
  · skip
    rw [ho]
    by_cases hx : x = s
    · subst hx
      rw [if_pos rfl]
      constructor
      · intro e
        have e := Option.some.inj e
        rw [if_pos e.symm]
        simp
      · intro e
        split at e
        · rename_i h; rw [h]
        · exact absurd e (no c)
    · rw [if_neg hx, hr.owner]
      split
      · rename_i h
        rw [h]
        simp [hx]
      · exact Iff.rfl
  · skip
    by_cases hcd : c = d
    · subst hcd
      rw [if_pos rfl]
      have hc := hr.chain c
      rcases getLast_concat (L := A c) with hL | ⟨K, l, hL⟩
      · rw [hf, if_pos ⟨rfl, hL⟩, hL]
        exact ⟨rfl, by rw [hn, if_pos rfl]; rfl⟩
      · have hne : A c ≠ [] := by rw [hL]; simp
        have hlast : (A c).getLast? = some l := by rw [hL]; simp
        have ndL : (K ++ [l]).Nodup := by rw [← hL]; exact hr.nodup c
        have hlK : l ∉ K := fun c => (List.nodup_append.1 ndL).2.2 l c l List.mem_cons_self rfl
        rw [hf, if_neg (fun e => hne e.2)]
        refine Seg.append.2 ⟨some s, ?_, rfl, by rw [hn, if_pos rfl]; rfl⟩
        have hsA := no c
        rw [hL] at hc hsA ⊢
        refine Seg.last hc ndL (fun x hx => ?_) ?_
        · rw [hn, if_neg (fun e => hsA (by rw [← e]; simp [hx])), if_neg]
          intro e
          rw [hlast] at e
          exact hlK ((Option.some.inj e) ▸ hx)
        · rw [hn, if_neg (fun e => hsA (by rw [← e]; simp)), if_pos hlast]
    · rw [if_neg hcd, hf, if_neg (fun e => hcd e.1)]
      refine (hr.chain c).congr (fun x hx => ?_)
      rw [hn, if_neg (show ¬ (x = s) from fun e => no c (e ▸ hx)), if_neg]
      intro e
      exact hr.other (lastA x e) hcd hx

theorem Links.lastState_eq (h : Links) : ∀ (L : List Nat) (fuel x : Nat), Seg h.next (h.next x) L none →
    L.length + 1 ≤ fuel → h.lastState fuel x = .ok (L.getLastD x)
  | [], fuel + 1, x, hs, _ => by
    have hs : h.next x = none := hs
    unfold Links.lastState
    rw [hs]
    rfl
  | y :: L, fuel + 1, x, hs, hf => by
    unfold Links.lastState
    rw [hs.1]
    dsimp only
    rw [Links.lastState_eq h L fuel y hs.2 (by simp only [List.length_cons] at hf; omega)]
    rw [List.getLastD_cons]
  | _, 0, _, _, hf => by omega

theorem Links.prevState_eq (h : Links) (s : Nat) : ∀ (L R : List Nat) (fuel : Nat) (p prev : Option Nat),
    Seg h.next p (L ++ s :: R) none → s ∉ L → L.length + 1 ≤ fuel →
    h.prevState s fuel p prev = .ok (if L = [] then prev else L.getLast?)
  | [], R, fuel + 1, p, prev, hs, _, _ => by
    rw [hs.1]
    unfold Links.prevState
    rw [if_pos rfl, if_pos rfl]
  | x :: L, R, fuel + 1, p, prev, hs, hL, hf => by
    rw [hs.1]
    unfold Links.prevState
    rw [if_neg (fun e => hL (by rw [e]; simp)),
      Links.prevState_eq h s L R fuel _ _ hs.2 (fun c => hL (List.mem_cons_of_mem _ c))
        (by simp only [List.length_cons] at hf; omega), if_neg (show ¬ (x :: L = []) by simp)]
    congr 1
    cases L with
    | nil => rfl
    | cons y L => rw [if_neg (show ¬ (y :: L = []) by simp)]; simp [List.getLast?_cons_cons]
  | _, _, 0, _, _, _, _, hf => by omega

theorem filter_ne_self {L : List Nat} {s : Nat} (h : s ∉ L) : L.filter (· ≠ s) = L := by
  rw [List.filter_eq_self]
  intro x hx
  simp only [decide_eq_true_eq]
  intro e
  exact h (e ▸ hx)

theorem filter_ne_split {L R : List Nat} {s : Nat} (h : (L ++ s :: R).Nodup) :
    (L ++ s :: R).filter (· ≠ s) = L ++ R := by
  have sL : s ∉ L := fun c => (List.nodup_append.1 h).2.2 s c s List.mem_cons_self rfl
  have sR : s ∉ R := (List.nodup_cons.1 (List.nodup_append.1 h).2.1).1
  rw [List.filter_append, filter_ne_self sL, List.filter_cons, if_neg (by simp), filter_ne_self sR]

theorem Links.dataCut_owner (h : Links) (s d : Nat) (p : Option Nat) : (h.dataCut s d p).owner = h.owner := by
  unfold Links.dataCut
  cases p
  · dsimp only
    split <;> rfl
  · rfl

theorem Links.SRepr.remove {h : Links} {A : Lists} (hr : h.SRepr A) (fuel s : Nat)
    (hf : ∀ d, (A d).length ≤ fuel) :
    ∃ h', h.dataRemove fuel s = .ok h' ∧ h'.SRepr (fun c => (A c).filter (· ≠ s)) ∧ h'.owner s = none := by
  unfold Links.dataRemove
  cases ho : h.owner s with
  | none =>
    refine ⟨h, rfl, ?_, ho⟩
    have : (fun c => (A c).filter (· ≠ s)) = A := by
      funext c
      refine filter_ne_self (fun hc => ?_)
      rw [(hr.owner s c).2 hc] at ho; cases ho
    rw [this]
    exact hr
  | some d =>
    have hsd := (hr.owner s d).1 ho
    obtain ⟨L, R, he⟩ := List.append_of_mem hsd
    have nd := hr.nodup d
    rw [he] at nd
    have sL : s ∉ L := fun c => (List.nodup_append.1 nd).2.2 s c s List.mem_cons_self rfl
    have hc := hr.chain d
    rw [he] at hc
    have hfd := hf d
    rw [he, List.length_append, List.length_cons] at hfd
    dsimp only
    rw [Links.prevState_eq h s L R fuel _ none hc sL (by omega), ok_bind]
    refine ⟨_, rfl, ?_, ?_⟩
    · have hA : (fun c => (A c).filter (· ≠ s)) = fun c => if c = d then L ++ R else A c := by
        funext c
        split
        · rename_i e
          rw [e, he, filter_ne_split nd]
        · rename_i e
          exact filter_ne_self (hr.other hsd e)
      rw [hA]
      refine hr.cut he (fun x => ?_) (fun x => ?_) (fun c => ?_)
      · show upd _ s none x = _
        rw [Links.dataCut_owner]
        rfl
      · show upd _ s none x = _
        unfold upd
        split
        · rfl
        · cases L with
          | nil =>
            rw [if_pos rfl]
            unfold Links.dataCut
            dsimp only
            rw [if_neg (show ¬ (([] : List Nat).getLast? = some x) by simp)]
            split <;> rfl
          | cons y L =>
            rw [if_neg (by simp)]
            cases e : (y :: L).getLast? with
            | none => simp at e
            | some p =>
              unfold Links.dataCut
              dsimp only
              unfold upd
              by_cases hxp : x = p
              · rw [if_pos hxp, if_pos (by rw [hxp])]
              · rw [if_neg hxp, if_neg (fun c => hxp (Option.some.inj c).symm)]
      · show (h.dataCut s d _).first c = _
        cases L with
        | nil =>
          rw [if_pos rfl]
          unfold Links.dataCut
          dsimp only
          rw [if_pos hc.1]
          dsimp only
          unfold upd
          by_cases hcd : c = d
          · rw [if_pos hcd, if_pos ⟨hcd, rfl⟩]
          · rw [if_neg hcd, if_neg (fun c => hcd c.1)]
        | cons y L =>
          rw [if_neg (by simp), if_neg (by simp)]
          cases e : (y :: L).getLast? with
          | none => simp at e
          | some p => rfl
    · show upd _ s none s = none
      exact upd_self _ _ _

theorem Links.SRepr.addTo {h : Links} {A : Lists} (hr : h.SRepr A) (fuel s d : Nat)
    (hf : (A d).length ≤ fuel) (hs : h.owner s = none) :
    ∃ h', h.dataAdd fuel s (some d) = .ok h' ∧ h'.SRepr (fun c => if c = d then A d ++ [s] else A c) := by
  unfold Links.dataAdd
  dsimp only
  rw [if_pos hs]
  have hc := hr.chain d
  cases hA : A d with
  | nil =>
    rw [hA] at hc
    have hc : h.first d = none := hc
    rw [hc]
    dsimp only
    rw [pure_eq_ok, ok_bind]
    refine ⟨_, rfl, ?_⟩
    have e : (fun c => if c = d then [] ++ [s] else A c) = fun c => if c = d then A d ++ [s] else A c := by rw [hA]
    rw [e]
    refine hr.add hs (fun x => ?_) (fun x => ?_) (fun c => ?_)
    · rfl
    · rw [hA]; rfl
    · show upd _ _ _ c = _
      unfold upd
      simp only [hA, and_true]
  | cons f L =>
    rw [hA] at hc hf
    rw [hc.1]
    dsimp only
    rw [Links.lastState_eq h L fuel f hc.2 (by simpa using hf), ok_bind, pure_eq_ok, ok_bind]
    refine ⟨_, rfl, ?_⟩
    rw [← hA]
    refine hr.add hs (fun x => ?_) (fun x => ?_) (fun c => ?_)
    · rfl
    · show upd (upd _ _ _) _ _ x = _
      unfold upd
      split
      · rfl
      · rw [hA, List.getLast?_cons, ← List.getLastD_eq_getLast?]
        by_cases hx : x = L.getLastD f
        · rw [if_pos hx, if_pos (by rw [hx])]
        · rw [if_neg hx, if_neg (fun e => hx (Option.some.inj e).symm)]
    · rw [if_neg (by rw [hA]; simp)]

theorem Links.SRepr.bind {h : Links} {A : Lists} (hr : h.SRepr A) (fuel s : Nat) (d : Option Nat)
    (hf : ∀ d, (A d).length ≤ fuel) :
    ∃ h', h.dataBind fuel s d = .ok h' ∧ h'.SRepr (A.bind s d) := by
  unfold Links.dataBind
  obtain ⟨h1, e1, r1, o1⟩ := hr.remove fuel s hf
  rw [e1, ok_bind]
  cases d with
  | none =>
    refine ⟨h1, rfl, ?_⟩
    have : A.bind s none = fun c => (A c).filter (· ≠ s) := by
      funext c
      unfold Lists.bind
      rw [if_neg (by intro e; cases e)]
    rw [this]
    exact r1
  | some d =>
    have hl : ((A d).filter (· ≠ s)).length ≤ fuel := Nat.le_trans (List.length_filter_le _ _) (hf d)
    obtain ⟨h2, e2, r2⟩ := r1.addTo fuel s d hl o1
    refine ⟨h2, e2, ?_⟩
    have : A.bind s (some d) = fun c => if c = d then (A d).filter (· ≠ s) ++ [s] else (A c).filter (· ≠ s) := by
      funext c
      unfold Lists.bind
      by_cases hcd : c = d
      · subst hcd; rw [if_pos rfl, if_pos rfl]
      · rw [if_neg (fun e => hcd (Option.some.inj e).symm), if_neg hcd]
    rw [this]
    exact r2

/-- May the loop take out the next state, after the states `K` have been kept? -/
def DropOk (fails : Nat → Bool) : List Nat → Option Nat → List Nat → Prop
  | _, _, [] => True
  | K, prev, s :: R =>
    if fails s then prev = K.getLast? ∧ DropOk fails K none R else DropOk fails (K ++ [s]) (some s) R

theorem Links.dataDrop_next (h : Links) (d s : Nat) (prev nx : Option Nat) :
    (h.dataDrop d s prev nx).next =
      upd (match prev with
        | some p => upd h.next p nx
        | none => h.next) s none := by
  unfold Links.dataDrop
  cases prev <;> (dsimp only; split <;> rfl)

/-- The loop notifies all states in order, and takes out exactly those that fail, if `DropOk`. -/
theorem resetLoop_eq {α : Type} (cb : α → Nat → C (Bool × α)) (all : Bool) (d : Nat) (fails : Nat → Bool)
    (P : List Nat → α → Prop) (A : Lists) :
    ∀ (R K D : List Nat) (fuel : Nat) (p prev : Option Nat) (h : Links) (a : α),
    (∀ pre s a, pre ++ [s] <+: D ++ R → P pre a → ∃ r a', cb a s = .ok (r, a') ∧ (r || all) = fails s ∧ P (pre ++ [s]) a') →
    h.SRepr (fun c => if c = d then K ++ R else A c) → p = R.head? → DropOk fails K prev R → R.length + 1 ≤ fuel →
    P D a →
    ∃ h' a', resetLoop cb all d fuel p prev h a = .ok (h', a') ∧
      h'.SRepr (fun c => if c = d then K ++ R.filter (fun s => !fails s) else A c) ∧ P (D ++ R) a'
  | [], K, D, fuel + 1, p, prev, h, a, _, hr, hp, _, _, hP => by
    subst hp
    refine ⟨h, a, rfl, ?_, by rw [List.append_nil]; exact hP⟩
    exact hr
  | s :: R, K, D, fuel + 1, p, prev, h, a, hcb, hr, hp, hok, hf, hP => by
    subst hp
    obtain ⟨r, a', e1, e2, e3⟩ := hcb D s a ⟨R, by simp⟩ hP
    have hc := hr.chain d
    rw [if_pos rfl] at hc
    obtain ⟨m, c1, c2⟩ := Seg.append.1 hc
    have nd := hr.nodup d
    rw [if_pos rfl] at nd
    have hnext : h.next s = R.head? := Seg.head c2.2
    have hcb' : ∀ pre x a, pre ++ [x] <+: D ++ [s] ++ R → P pre a →
        ∃ r a', cb a x = .ok (r, a') ∧ (r || all) = fails x ∧ P (pre ++ [x]) a' := fun pre x a hp' => by
      rw [List.append_assoc] at hp'
      exact hcb pre x a hp'
    have hlen : R.length + 1 ≤ fuel := by simp only [List.length_cons] at hf; omega
    have eD : D ++ s :: R = D ++ [s] ++ R := by simp
    rw [show (s :: R).head? = some s from rfl]
    unfold resetLoop
    rw [e1, ok_bind]
    dsimp only
    unfold DropOk at hok
    by_cases hfs : fails s = true
    · rw [hfs] at e2
      rw [if_pos hfs] at hok
      rw [if_pos (by simpa using e2)]
      have hr2 : (h.dataDrop d s prev (h.next s)).SRepr (fun c => if c = d then K ++ R else A c) := by
        have := hr.cut (h' := h.dataDrop d s prev (h.next s)) (d := d) (s := s) (L := K) (R := R) (by
          show (if d = d then _ else _) = _
          rw [if_pos rfl]) (fun x => ?_) (fun x => ?_) (fun c => ?_)
        · have e : (fun c => if c = d then K ++ R else if c = d then K ++ s :: R else A c) =
            fun c => if c = d then K ++ R else A c := by
            funext c
            split <;> rfl
          rw [e] at this
          exact this
        · unfold Links.dataDrop
          cases prev <;> (dsimp only; split <;> rfl)
        · rw [Links.dataDrop_next, ← hok.1]
          by_cases hxs : x = s
          · rw [hxs, upd_self, if_pos rfl]
          · rw [upd_ne _ _ hxs, if_neg hxs]
            cases prev with
            | none => rfl
            | some p =>
              by_cases hxp : x = p
              · rw [hxp, if_pos rfl]
                exact upd_self _ _ _
              · rw [if_neg (fun c => hxp (Option.some.inj c).symm)]
                exact upd_ne _ _ hxp
        · unfold Links.dataDrop
          have hfirst : h.first d = (K ++ s :: R).head? := Seg.head hc
          cases K with
          | nil =>
            have hpn : prev = none := hok.1
            subst hpn
            dsimp only
            have hfirst : h.first d = some s := hfirst
            rw [if_pos hfirst]
            dsimp only
            unfold upd
            by_cases hcd : c = d
            · rw [if_pos hcd, if_pos ⟨hcd, rfl⟩]
            · rw [if_neg hcd, if_neg (fun e => hcd e.1)]
          | cons k K =>
            rw [if_neg (by simp)]
            have hks : k ≠ s := fun e => by
              subst e
              exact (List.nodup_append.1 nd).2.2 k (by simp) k List.mem_cons_self rfl
            have hfirst : h.first d = some k := hfirst
            have hne : ¬ (h.first d = some s) := by
              rw [hfirst]
              exact fun e => hks (Option.some.inj e)
            cases prev with
            | none => dsimp only; rw [if_neg hne]
            | some p => dsimp only; rw [if_neg hne]
      obtain ⟨h', b, f1, f2, f3⟩ := resetLoop_eq cb all d fails P A R K (D ++ [s]) fuel (h.next s) none _ a' hcb' hr2
        hnext hok.2 hlen e3
      refine ⟨h', b, f1, ?_, by rw [eD]; exact f3⟩
      rw [List.filter_cons, if_neg (by simp [hfs])]
      exact f2
    · have hfs' : fails s = false := by simpa using hfs
      rw [hfs'] at e2
      rw [if_neg hfs] at hok
      rw [if_neg (by simpa using e2)]
      have hr2 : h.SRepr (fun c => if c = d then (K ++ [s]) ++ R else A c) := by
        have : (K ++ [s]) ++ R = K ++ s :: R := by simp
        rw [this]
        exact hr
      obtain ⟨h', b, f1, f2, f3⟩ := resetLoop_eq cb all d fails P A R (K ++ [s]) (D ++ [s]) fuel (h.next s) (some s) h a'
        hcb' hr2 hnext hok hlen e3
      refine ⟨h', b, f1, ?_, by rw [eD]; exact f3⟩
      rw [List.filter_cons, if_pos (by simp [hfs'])]
      have : K ++ s :: List.filter (fun s => !fails s) R = K ++ [s] ++ List.filter (fun s => !fails s) R := by simp
      rw [this]
      exact f2
  | _, _, _, 0, _, _, _, _, _, _, _, _, hf, _ => by omega

theorem dropOk_noTwo (fails : Nat → Bool) : ∀ (R K : List Nat) (prev : Option Nat), NoTwo fails R →
    (prev = K.getLast? ∨ ∀ s ∈ R.head?, fails s = false) → DropOk fails K prev R
  | [], _, _, _, _ => trivial
  | [s], K, prev, _, hp => by
    unfold DropOk
    split
    · rename_i hf
      rcases hp with h | h
      · exact ⟨h, trivial⟩
      · rw [h s rfl] at hf; cases hf
    · trivial
  | s :: t :: R, K, prev, hn, hp => by
    unfold DropOk
    split
    · rename_i hf
      refine ⟨?_, dropOk_noTwo fails (t :: R) K none hn.2 (.inr ?_)⟩
      · rcases hp with h | h
        · exact h
        · rw [h s rfl] at hf; cases hf
      · intro x hx
        have hx : t = x := Option.some.inj hx
        subst hx
        cases h : fails t
        · rfl
        · exact absurd ⟨hf, h⟩ hn.1
    · exact dropOk_noTwo fails (t :: R) (K ++ [s]) (some s) hn.2 (.inl (by simp))

theorem dropOk_legal (fails : Nat → Bool) : ∀ (R : List Nat), NoTwo fails (R.dropWhile fails) →
    DropOk fails [] none R
  | [], _ => trivial
  | s :: R, hn => by
    by_cases hf : fails s = true
    · rw [List.dropWhile_cons, if_pos hf] at hn
      unfold DropOk
      rw [if_pos hf]
      exact ⟨rfl, dropOk_legal fails R hn⟩
    · rw [List.dropWhile_cons, if_neg hf] at hn
      exact dropOk_noTwo fails (s :: R) [] none hn (.inl rfl)

theorem dropOk_all : ∀ (R : List Nat), DropOk (fun _ => true) [] none R
  | [] => trivial
  | _ :: R => ⟨rfl, dropOk_all R⟩

/-- Notification of all states of `d`. -/
theorem Links.SRepr.reset {α : Type} {h : Links} {A : Lists} (hr : h.SRepr A) (cb : α → Nat → C (Bool × α))
    (all : Bool) (d fuel : Nat) (fails : Nat → Bool) (P : List Nat → α → Prop) (a : α)
    (hcb : ∀ pre s a, pre ++ [s] <+: A d → P pre a → ∃ r a', cb a s = .ok (r, a') ∧ (r || all) = fails s ∧ P (pre ++ [s]) a')
    (hok : DropOk fails [] none (A d)) (hf : (A d).length + 1 ≤ fuel) (hP : P [] a) :
    ∃ h' a', resetStates cb all d fuel h a = .ok (h', a') ∧ h'.SRepr (A.drop d fails) ∧ P (A d) a' := by
  have hA : (fun c => if c = d then [] ++ A d else A c) = A := by
    funext c
    split
    · rename_i e; rw [e]; rfl
    · rfl
  obtain ⟨h', a', h1, h2, h3⟩ := resetLoop_eq cb all d fails P A (A d) [] [] fuel (h.first d) none h a hcb
    (by rw [hA]; exact hr) (hr.chain d).head hok hf hP
  refine ⟨h', a', h1, ?_, h3⟩
  have : A.drop d fails = fun c => if c = d then [] ++ (A d).filter (fun s => !fails s) else A c := by
    funext c
    unfold Lists.drop
    split
    · rename_i e; rw [e]; rfl
    · rfl
  rw [this]
  exact h2

theorem Links.SRepr.empty : Links.SRepr {} (fun _ => []) :=
  ⟨fun _ => List.nodup_nil, fun _ _ => ⟨fun h => (by cases h), fun h => (by cases h)⟩, fun _ => rfl⟩

theorem Links.SRepr.visits {h : Links} {A : Lists} (hr : h.SRepr A) (d : Nat) : h.Visits d (A d) := by
  have key : ∀ (L : List Nat) (p : Option Nat) (fuel : Nat), Seg h.next p L none → L.length ≤ fuel →
      h.walk fuel p = .ok L := by
    intro L
    induction L with
    | nil =>
      intro p fuel hs _
      have hs : p = none := hs
      subst hs
      unfold Links.walk
      cases fuel <;> rfl
    | cons x L ih =>
      intro p fuel hs hf
      match fuel, hf with
      | fuel + 1, hf =>
        rw [hs.1]
        unfold Links.walk
        rw [ih _ fuel hs.2 (by simp only [List.length_cons] at hf; omega)]
        rfl
  intro fuel hf
  exact key _ _ _ (hr.chain d) hf

end BK
