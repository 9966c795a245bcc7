import Verif.Model.Instrument
import Verif.Lemmas.Links
/-!
The state list of an instrument: singly anchored, elements are put in front.
-/
namespace BK

/-- The pointers represent the lists; there is no pointer to the last element. -/
def Links.HRepr (h : Links) (A : Lists) : Prop :=
  ({ h with last := fun c => (A c).getLast? } : Links).Repr A

theorem Links.Repr.agree {h h' : Links} {A : Lists} (hr : h.Repr A)
    (ho : ∀ x, h'.owner x = h.owner x) (hf : ∀ d, h'.first d = h.first d)
    (hl : ∀ d, h'.last d = h.last d)
    (hm : ∀ x c, x ∈ A c → h'.prev x = h.prev x ∧ h'.next x = h.next x) : h'.Repr A := by
  refine ⟨hr.nodup, fun n c => by rw [ho]; exact hr.owner n c, fun c => by rw [hf]; exact hr.first c,
    fun c => by rw [hl]; exact hr.last c, ?_⟩
  intro c l n r e
  obtain ⟨h1, h2⟩ := hm n c (split_mem e)
  rw [h1, h2]
  exact hr.split c l n r e

theorem Links.HRepr.owner {h : Links} {A : Lists} (hr : h.HRepr A) (n c : Nat) :
    h.owner n = some c ↔ n ∈ A c := Links.Repr.owner hr n c

theorem Links.HRepr.nodup {h : Links} {A : Lists} (hr : h.HRepr A) (c : Nat) : (A c).Nodup :=
  Links.Repr.nodup hr c

theorem Links.HRepr.first {h : Links} {A : Lists} (hr : h.HRepr A) (c : Nat) :
    h.first c = (A c).head? := Links.Repr.first hr c

theorem Links.HRepr.split {h : Links} {A : Lists} (hr : h.HRepr A) {c n : Nat} {l r : List Nat}
    (e : A c = l ++ n :: r) : h.prev n = l.getLast? ∧ h.next n = r.head? :=
  Links.Repr.split hr c l n r e

theorem Links.HRepr.empty : ({} : Links).HRepr (fun _ => []) :=
  Links.Repr.empty.agree (fun _ => rfl) (fun _ => rfl) (fun _ => rfl) (fun _ _ _ => ⟨rfl, rfl⟩)

/-- Without owner in no list. -/
theorem Links.HRepr.notMem {h : Links} {A : Lists} (hr : h.HRepr A) {n : Nat} (e : h.owner n = none)
    (d : Nat) : n ∉ A d := by
  intro hd
  rw [(hr.owner n d).2 hd] at e; cases e

theorem Links.removeState_eq {h : Links} {x c : Nat} (e : h.owner x = some c)
    (hp : h.prev x ≠ some x) :
    h.removeState x =
      { prev := fun y => if y = x then none else if h.next x = some y then h.prev x else h.prev y
        next := fun y => if y = x then none else if h.prev x = some y then h.next x else h.next y
        owner := fun y => if y = x then none else h.owner y
        first := fun d => if d = c ∧ h.first c = some x then h.next x else h.first d
        last := h.last } := by
  unfold Links.removeState
  rw [e]
  dsimp only
  have h1 : h.joinPrev x = { h with next := fun y => if h.prev x = some y then h.next x else h.next y } := by
    unfold Links.joinPrev
    cases e1 : h.prev x with
    | none => simp
    | some p => simp only [Option.some.injEq, Links.mk.injEq, true_and, and_true]; funext y; simp [upd, eq_comm]
  have hnx : (if h.prev x = some x then h.next x else h.next x) = h.next x := by simp
  have h2 : (h.joinPrev x).joinNext x = { h.joinPrev x with
      prev := fun y => if h.next x = some y then h.prev x else h.prev y } := by
    unfold Links.joinNext
    rw [h1]
    dsimp only
    rw [hnx]
    cases e1 : h.next x with
    | none => simp
    | some p => simp only [Option.some.injEq, Links.mk.injEq, true_and, and_true]; funext y; simp [upd, eq_comm]
  have h3 : ((h.joinPrev x).joinNext x).cutFirst c x = { (h.joinPrev x).joinNext x with
      first := fun d => if d = c ∧ h.first c = some x then h.next x else h.first d } := by
    unfold Links.cutFirst
    rw [h2, h1]
    dsimp only
    rw [hnx]
    by_cases hf : h.first c = some x
    · rw [if_pos hf]; simp only [Links.mk.injEq, true_and, and_true]; funext y; simp [upd, hf]
    · rw [if_neg hf]; simp [hf]
  rw [h3, h2, h1]
  dsimp only
  simp only [Links.mk.injEq, and_true]
  refine ⟨?_, ?_, ?_⟩
  · funext y; simp [upd]
  · funext y; simp [upd]
  · funext y; simp [upd]

theorem Links.HRepr.removeState {h : Links} {A : Lists} (hr : h.HRepr A) (x : Nat) :
    (h.removeState x).HRepr (fun d => (A d).filter (· ≠ x)) := by
  cases e : h.owner x with
  | none =>
    have : (fun d => (A d).filter (· ≠ x)) = A := by
      funext d; exact filter_self (hr.notMem e d)
    rw [this]
    unfold Links.removeState
    rw [e]
    exact hr
  | some c =>
    have hmem := (hr.owner x c).1 e
    obtain ⟨l, r, hA⟩ := List.append_of_mem hmem
    obtain ⟨hp, hx⟩ := hr.split hA
    have hnd := hr.nodup c
    rw [hA] at hnd
    have hnd' := List.nodup_append.1 hnd
    have hxl : x ∉ l := fun e => hnd'.2.2 x e x (by simp) rfl
    have hxr : x ∉ r := (List.nodup_cons.1 hnd'.2.1).1
    have hAf : (fun d => (A d).filter (· ≠ x)) = fun d => if d = c then l ++ r else A d := by
      funext d
      by_cases hd : d = c
      · subst hd
        rw [if_pos rfl, hA, List.filter_append, List.filter_cons, filter_self hxl, filter_self hxr]
        simp
      · rw [if_neg hd]
        refine filter_self ?_
        intro hxd
        have := (hr.owner x d).2 hxd
        rw [e] at this
        exact hd (by simpa using this.symm)
    rw [hAf]
    have hfst : h.first c = some x ↔ l = [] := by
      rw [hr.first, hA]
      cases l with
      | nil => simp
      | cons y l =>
        simp only [List.cons_append, List.head?_cons, Option.some.injEq, reduceCtorEq, iff_false]
        intro hy; subst hy; simp at hxl
    have hpne : h.prev x ≠ some x := by
      rw [hp]; intro h1; exact hxl (getLast?_mem' h1)
    have hxne : h.next x ≠ some x := by
      rw [hx]; intro h1; exact hxr (List.mem_of_mem_head? h1)
    let h1 : Links :=
      { prev := fun y => if r.head? = some y then l.getLast? else h.prev y
        next := fun y => if l.getLast? = some y then r.head? else h.next y
        owner := fun y => if y = x then none else h.owner y
        first := fun d => if d = c ∧ l = [] then r.head? else h.first d
        last := fun d => if d = c then (l ++ r).getLast? else (A d).getLast? }
    have hr1 : h1.Repr (fun d => if d = c then l ++ r else A d) := by
      refine Links.Repr.unlink hr hA (fun _ => rfl) (fun _ => rfl) ?_ (fun _ => rfl) (fun _ => rfl)
      intro d
      by_cases hd : d = c
      · subst hd
        show (if d = d then _ else _) = if d = d ∧ r = [] then _ else (A d).getLast?
        rw [if_pos rfl, hA]
        by_cases hrn : r = []
        · subst hrn; simp
        · rw [if_neg (by simp [hrn]), getLast?_append_ne l hrn, getLast?_append_ne l (by simp),
            getLast?_cons_ne hrn]
      · show (if d = c then _ else _) = if d = c ∧ r = [] then _ else (A d).getLast?
        rw [if_neg hd, if_neg (by simp [hd])]
    refine Links.Repr.agree hr1 ?_ ?_ ?_ ?_
    · intro y
      show (h.removeState x).owner y = _
      rw [Links.removeState_eq e hpne]
    · intro d
      show (h.removeState x).first d = if d = c ∧ l = [] then r.head? else h.first d
      rw [Links.removeState_eq e hpne, hx]
      by_cases hd : d = c
      · subst hd; simp [hfst]
      · simp [hd]
    · intro d
      show (if d = c then l ++ r else A d).getLast? = if d = c then (l ++ r).getLast? else (A d).getLast?
      split <;> rfl
    · intro y d hy
      have hyx : y ≠ x := by
        intro h2; subst h2
        by_cases hd : d = c
        · rw [if_pos hd] at hy
          rcases List.mem_append.1 hy with h3 | h3
          · exact hxl h3
          · exact hxr h3
        · rw [if_neg hd] at hy
          have := (hr.owner y d).2 hy
          rw [e] at this
          exact hd (by simpa using this.symm)
      show (h.removeState x).prev y = (if r.head? = some y then l.getLast? else h.prev y) ∧
        (h.removeState x).next y = (if l.getLast? = some y then r.head? else h.next y)
      rw [Links.removeState_eq e hpne, ← hp, ← hx]
      simp [hyx]

theorem Links.HRepr.addState {h : Links} {A : Lists} (hr : h.HRepr A) {x : Nat}
    (hx : h.owner x = none) (i : Nat) :
    (h.addState x i).HRepr (fun d => if d = i then x :: A i else A d) := by
  have hnot := hr.notMem hx
  unfold Links.addState
  rw [if_pos hx]
  dsimp only
  cases e : A i with
  | nil =>
    have hf : h.first i = none := by rw [hr.first, e]; rfl
    rw [hf]
    dsimp only
    have key := Links.Repr.append (h := { h with last := fun c => (A c).getLast? })
      (h' := { prev := upd h.prev x none, next := upd h.next x none,
               owner := upd h.owner x (some i), first := upd h.first i (some x)
               last := fun d => if d = i then some x else (A d).getLast? }) (c := i) hr hx
      (fun _ => rfl) ?_ (fun _ => rfl) ?_ ?_
    · rw [e] at key
      refine Links.Repr.agree key (fun _ => rfl) (fun _ => rfl) ?_ (fun _ _ _ => ⟨rfl, rfl⟩)
      intro d
      show (if d = i then [x] else A d).getLast? = if d = i then some x else (A d).getLast?
      split <;> rfl
    · intro d
      show upd h.first i (some x) d = if d = i ∧ (A i).getLast? = none then some x else h.first d
      rw [e]
      simp [upd]
    · intro y
      show upd h.prev x none y = if y = x then (A i).getLast? else h.prev y
      rw [e]; rfl
    · intro y
      show upd h.next x none y = if y = x then none else if (A i).getLast? = some y then some x else h.next y
      rw [e]; simp [upd]
  | cons b r =>
    have hf : h.first i = some b := by rw [hr.first, e]; rfl
    have hbx : b ≠ x := by
      intro h2; subst h2; exact hnot i (by rw [e]; simp)
    rw [hf]
    dsimp only
    have key := Links.Repr.insert (h := { h with last := fun c => (A c).getLast? })
      (h' := { prev := upd (upd h.prev x none) b (some x), next := upd h.next x (some b),
               owner := upd h.owner x (some i), first := upd h.first i (some x)
               last := fun d => (A d).getLast? }) (c := i) (b := b) (l := []) (r := r) hr e hx
      (fun _ => rfl) ?_ (fun _ => rfl) ?_ ?_
    · refine Links.Repr.agree key (fun _ => rfl) (fun _ => rfl) ?_ (fun _ _ _ => ⟨rfl, rfl⟩)
      intro d
      show (if d = i then x :: b :: r else A d).getLast? = (A d).getLast?
      split
      · rename_i hd
        rw [hd, e, getLast?_cons_ne (by simp)]
      · rfl
    · intro d
      simp [upd]
    · intro y
      show upd (upd h.prev x none) b (some x) y = if y = x then none else if y = b then some x else h.prev y
      by_cases h1 : y = x
      · subst h1; simp [upd, Ne.symm hbx]
      · simp [upd, h1]
    · intro y
      show upd h.next x (some b) y = if y = x then some b else if none = some y then some x else h.next y
      simp [upd]

end BK
