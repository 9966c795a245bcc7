import Verif.Spec.Links
/-!
Pointer lists represent plain lists.
-/
namespace BK

theorem upd_self {α : Type} (f : Nat → α) (i : Nat) (v : α) : upd f i v i = v := by simp [upd]

theorem upd_ne {α : Type} (f : Nat → α) {i j : Nat} (v : α) (h : j ≠ i) : upd f i v j = f j := by
  simp [upd, h]

theorem split_mem {l r : List Nat} {n : Nat} {L : List Nat} (h : L = l ++ n :: r) : n ∈ L := by
  subst h; simp

theorem getLast?_mem' {l : List Nat} {p : Nat} (h : l.getLast? = some p) : p ∈ l :=
  List.mem_of_getLast? h

theorem head?_append_ne {l : List Nat} (r : List Nat) (h : l ≠ []) : (l ++ r).head? = l.head? := by
  cases l with
  | nil => exact absurd rfl h
  | cons x l => rfl

theorem getLast?_append_ne (l : List Nat) {r : List Nat} (h : r ≠ []) :
    (l ++ r).getLast? = r.getLast? := by
  rw [List.getLast?_append]
  cases e : r.getLast? with
  | none => exact absurd (by simpa using e) h
  | some x => rfl

theorem getLast?_cons_ne {x : Nat} {l : List Nat} (h : l ≠ []) :
    (x :: l).getLast? = l.getLast? :=
  getLast?_append_ne [x] h

theorem Links.Repr.ne_of_owner {h : Links} {A : Lists} (hr : h.Repr A) {m n c d : Nat}
    (hm : m ∈ A c) (hn : n ∈ A d) (hcd : c ≠ d) : m ≠ n := by
  intro e; subst e
  have h1 := (hr.owner m c).2 hm
  have h2 := (hr.owner m d).2 hn
  rw [h1] at h2
  exact hcd (by simpa using h2)

theorem Links.Repr.attached_iff {h : Links} {A : Lists} (hr : h.Repr A) (n : Nat) :
    A.Attached n ↔ h.owner n ≠ none := by
  constructor
  · rintro ⟨c, hc⟩
    rw [(hr.owner n c).2 hc]; simp
  · intro hn
    cases e : h.owner n with
    | none => exact absurd e hn
    | some c => exact ⟨c, (hr.owner n c).1 e⟩

/-- `L ++ [n]` split at `m`. -/
theorem append_split {L l r : List Nat} {n m : Nat} (h : L ++ [n] = l ++ m :: r) :
    (r = [] ∧ m = n ∧ l = L) ∨ ∃ r', r = r' ++ [n] ∧ L = l ++ m :: r' := by
  rcases List.eq_nil_or_concat r with hr | ⟨r', x, hr⟩
  · left
    subst hr
    have := List.append_inj' h (by simp)
    exact ⟨rfl, by simpa using this.2.symm, this.1.symm⟩
  · right
    rw [List.concat_eq_append] at hr
    subst hr
    rw [show l ++ m :: (r' ++ [x]) = (l ++ m :: r') ++ [x] by simp] at h
    have := List.append_inj' h (by simp)
    have hx : n = x := by simpa using this.2
    subst hx
    exact ⟨r', rfl, this.1⟩

/-- Result of linking `n` at the end, for all attach functions. -/
theorem Links.Repr.append {h h' : Links} {A : Lists} (hr : h.Repr A) {n c : Nat}
    (hn : h.owner n = none)
    (ho : ∀ x, h'.owner x = if x = n then some c else h.owner x)
    (hf : ∀ d, h'.first d = if d = c ∧ h.last c = none then some n else h.first d)
    (hl : ∀ d, h'.last d = if d = c then some n else h.last d)
    (hp : ∀ x, h'.prev x = if x = n then h.last c else h.prev x)
    (hx : ∀ x, h'.next x = if x = n then none else if h.last c = some x then some n else h.next x) :
    h'.Repr (fun d => if d = c then A c ++ [n] else A d) := by
  have hnot : ∀ d, n ∉ A d := by
    intro d hd
    rw [(hr.owner n d).2 hd] at hn; cases hn
  refine ⟨?_, ?_, ?_, ?_, ?_⟩
  · intro d
    split
    · rw [List.nodup_append]
      refine ⟨hr.nodup c, by simp, ?_⟩
      intro a ha b hb e
      simp at hb; subst hb; subst e
      exact hnot _ ha
    · exact hr.nodup d
  · intro m d
    rw [ho]
    by_cases hm : m = n
    · subst hm
      rw [if_pos rfl]
      by_cases hd : d = c
      · subst hd; simp
      · rw [if_neg hd]
        constructor
        · intro e; exact absurd (by simpa using e.symm) hd
        · intro e; exact absurd e (hnot d)
    · rw [if_neg hm, hr.owner]
      by_cases hd : d = c
      · subst hd; simp [hm]
      · rw [if_neg hd]
  · intro d
    rw [hf, hr.last]
    by_cases hd : d = c
    · subst hd
      by_cases e : A d = []
      · simp [e]
      · have e1 : (A d).getLast? ≠ none := by simpa using e
        rw [if_neg (by simp [e]), if_pos rfl, hr.first, head?_append_ne _ e]
    · rw [if_neg (by simp [hd]), if_neg hd, hr.first]
  · intro d
    rw [hl]
    by_cases hd : d = c
    · subst hd; simp
    · rw [if_neg hd, if_neg hd, hr.last]
  · intro d l m r e
    by_cases hd : d = c
    · subst hd
      rw [if_pos rfl] at e
      rcases append_split e with ⟨rfl, rfl, rfl⟩ | ⟨r', rfl, e'⟩
      · rw [hp, hx, if_pos rfl, if_pos rfl, hr.last]
        exact ⟨rfl, rfl⟩
      · have hm : m ≠ n := by
          intro e2; subst e2; exact hnot d (split_mem e')
        obtain ⟨h1, h2⟩ := hr.split d l m r' e'
        rw [hp, hx, if_neg hm, if_neg hm, h1]
        refine ⟨rfl, ?_⟩
        rw [hr.last, e', getLast?_append_ne _ (by simp)]
        by_cases er : r' = []
        · subst er; simp
        · have hnd := hr.nodup d
          rw [e'] at hnd
          have : ((m :: r').getLast?) ≠ some m := by
            intro e3
            rw [getLast?_cons_ne er] at e3
            have := getLast?_mem' e3
            have h4 := (List.nodup_append.1 hnd).2.1
            simp at h4
            exact h4.1 this
          rw [if_neg this, h2, head?_append_ne _ er]
    · rw [if_neg hd] at e
      have hmd := split_mem e
      have hm : m ≠ n := by
        intro e2; subst e2; exact hnot d hmd
      obtain ⟨h1, h2⟩ := hr.split d l m r e
      rw [hp, hx, if_neg hm, if_neg hm]
      refine ⟨h1, ?_⟩
      rw [if_neg, h2]
      rw [hr.last]
      intro e3
      exact hr.ne_of_owner hmd (getLast?_mem' e3) hd rfl

theorem Links.Repr.unitAttach {h : Links} {A : Lists} (hr : h.Repr A) (n c : Nat) :
    ∃ A', (h.unitAttach n c).2.Repr A' ∧ A.AttachEnd n c (h.unitAttach n c).1 A' := by
  unfold Links.unitAttach
  by_cases hn : h.owner n = none
  · rw [if_pos hn]
    refine ⟨_, ?_, .inr ⟨?_, ?_, rfl⟩⟩
    · dsimp only
      cases e : h.last c with
      | none =>
        dsimp only
        apply hr.append hn
        · intro x; simp [upd]
        · intro d; by_cases hd : d = c <;> simp [upd, hd, e]
        · intro d; simp [upd]
        · intro x; simp [upd, e]
        · intro x; simp [upd, e]
      | some l =>
        dsimp only
        have hl : l ≠ n := by
          intro e2; subst e2
          rw [hr.last] at e
          rw [(hr.owner l c).2 (getLast?_mem' e)] at hn; cases hn
        apply hr.append hn
        · intro x; simp [upd]
        · intro d; simp [e]
        · intro d; simp [upd]
        · intro x; simp [upd, e]
        · intro x
          rw [e]
          by_cases hx : x = n
          · subst hx; simp [upd, hl.symm]
          · by_cases hxl : x = l
            · subst hxl; simp [upd, hx]
            · simp [upd, hx, hxl, Ne.symm hxl]
    · rw [hr.attached_iff]; simp [hn]
    · dsimp only
      cases h.last c <;> rfl
  · rw [if_neg hn]
    exact ⟨A, hr, .inl ⟨(hr.attached_iff n).2 hn, rfl, rfl⟩⟩

theorem Links.Repr.dividerAttach {h : Links} {A : Lists} (hr : h.Repr A) (n c : Nat) :
    ∃ A', (h.dividerAttach n c).2.Repr A' ∧ A.AttachEnd n c (h.dividerAttach n c).1 A' := by
  unfold Links.dividerAttach
  by_cases hn : h.owner n = none
  · rw [if_pos hn]
    refine ⟨_, ?_, .inr ⟨?_, ?_, rfl⟩⟩
    · dsimp only
      cases e : h.last c with
      | none =>
        dsimp only
        apply hr.append hn
        · intro x; simp [upd]
        · intro d; by_cases hd : d = c <;> simp [upd, hd, e]
        · intro d; simp [upd]
        · intro x; simp [upd, e]
        · intro x; simp [upd, e]
      | some l =>
        dsimp only
        have hl : l ≠ n := by
          intro e2; subst e2
          rw [hr.last] at e
          rw [(hr.owner l c).2 (getLast?_mem' e)] at hn; cases hn
        apply hr.append hn
        · intro x; simp [upd]
        · intro d; simp [e]
        · intro d; simp [upd]
        · intro x; simp [upd, e]
        · intro x
          rw [e]
          by_cases hx : x = n
          · subst hx; simp [upd, hl.symm]
          · by_cases hxl : x = l
            · subst hxl; simp [upd, hx]
            · simp [upd, hx, hxl, Ne.symm hxl]
    · rw [hr.attached_iff]; simp [hn]
    · rfl
  · rw [if_neg hn]
    exact ⟨A, hr, .inl ⟨(hr.attached_iff n).2 hn, rfl, rfl⟩⟩

/-- Split of a list with one element removed. -/
theorem remove_split {l r k s : List Nat} {m : Nat} (h : l ++ r = k ++ m :: s) :
    (∃ t, l = k ++ m :: t ∧ s = t ++ r) ∨ (∃ t, r = t ++ m :: s ∧ k = l ++ t) := by
  rcases List.append_eq_append_iff.1 h with ⟨t, h1, h2⟩ | ⟨t, h1, h2⟩
  · right; exact ⟨t, h2, h1⟩
  · cases t with
    | nil => right; exact ⟨[], by simpa using h2.symm, by simpa using h1.symm⟩
    | cons x t =>
      left
      rw [List.cons_append, List.cons.injEq] at h2
      obtain ⟨rfl, h2⟩ := h2
      exact ⟨t, h1, h2⟩

/-- Result of unlinking `n`. -/
theorem Links.Repr.unlink {h h' : Links} {A : Lists} (hr : h.Repr A) {n c : Nat}
    {l r : List Nat} (hA : A c = l ++ n :: r)
    (ho : ∀ x, h'.owner x = if x = n then none else h.owner x)
    (hf : ∀ d, h'.first d = if d = c ∧ l = [] then r.head? else h.first d)
    (hl : ∀ d, h'.last d = if d = c ∧ r = [] then l.getLast? else h.last d)
    (hp : ∀ x, h'.prev x = if r.head? = some x then l.getLast? else h.prev x)
    (hx : ∀ x, h'.next x = if l.getLast? = some x then r.head? else h.next x) :
    h'.Repr (fun d => if d = c then l ++ r else A d) := by
  have hnd := hr.nodup c
  rw [hA] at hnd
  have hnd' := List.nodup_append.1 hnd
  have hnl : n ∉ l := fun e => hnd'.2.2 n e n (by simp) rfl
  have hnr : n ∉ r := (List.nodup_cons.1 hnd'.2.1).1
  have hdis : ∀ x, x ∈ l → x ∉ r := fun x e1 e2 => hnd'.2.2 x e1 x (by simp [e2]) rfl
  have hndr := (List.nodup_cons.1 hnd'.2.1).2
  have memc : ∀ x, x ∈ l ++ r → x ∈ A c := by
    intro x hx; rw [hA]; simp at hx ⊢
    rcases hx with hx | hx
    · exact .inl hx
    · exact .inr (.inr hx)
  refine ⟨?_, ?_, ?_, ?_, ?_⟩
  · intro d
    split
    · exact List.nodup_append.2 ⟨hnd'.1, hndr, fun a ha b hb e => hdis a ha (e ▸ hb)⟩
    · exact hr.nodup d
  · intro m d
    rw [ho]
    by_cases hm : m = n
    · subst hm
      rw [if_pos rfl]
      by_cases hd : d = c
      · subst hd; simp [hnl, hnr]
      · rw [if_neg hd]
        constructor
        · intro e; cases e
        · intro e
          exact absurd rfl (hr.ne_of_owner e (split_mem hA) hd)
    · rw [if_neg hm, hr.owner]
      by_cases hd : d = c
      · subst hd; rw [if_pos rfl, hA]; simp [hm]
      · rw [if_neg hd]
  · intro d
    rw [hf]
    by_cases hd : d = c
    · subst hd
      rw [if_pos rfl]
      by_cases e : l = []
      · simp [e]
      · rw [if_neg (by simp [e]), hr.first, hA, head?_append_ne _ e,
          head?_append_ne _ e]
    · rw [if_neg (by simp [hd]), if_neg hd, hr.first]
  · intro d
    rw [hl]
    by_cases hd : d = c
    · subst hd
      rw [if_pos rfl]
      by_cases e : r = []
      · simp [e]
      · rw [if_neg (by simp [e]), hr.last, hA, getLast?_append_ne _ (by simp),
          getLast?_append_ne _ e, getLast?_cons_ne e]
    · rw [if_neg (by simp [hd]), if_neg hd, hr.last]
  · intro d k m s e
    rw [hp, hx]
    by_cases hd : d = c
    · subst hd
      rw [if_pos rfl] at e
      rcases remove_split e with ⟨t, h1, h2⟩ | ⟨t, h1, h2⟩
      · -- m lies before n
        have hml : m ∈ l := split_mem h1
        obtain ⟨g1, g2⟩ := hr.split d k m (t ++ n :: r) (by rw [hA, h1]; simp)
        rw [if_neg, g1]
        · refine ⟨rfl, ?_⟩
          by_cases et : t = []
          · subst et
            rw [if_pos (by rw [h1]; simp), h2]; simp
          · rw [if_neg, g2, h2, head?_append_ne _ et, head?_append_ne _ et]
            intro e3
            rw [h1, getLast?_append_ne _ (by simp), getLast?_cons_ne et] at e3
            have hnl' := hnd'.1
            rw [h1] at hnl'
            exact (List.nodup_cons.1 (List.nodup_append.1 hnl').2.1).1 (getLast?_mem' e3)
        · intro e3
          exact hdis m hml (List.mem_of_mem_head? (by rw [e3]; rfl))
      · -- m lies behind n
        have hmr : m ∈ r := split_mem h1
        obtain ⟨g1, g2⟩ := hr.split d (l ++ n :: t) m s (by rw [hA, h1]; simp)
        rw [if_neg (c := l.getLast? = some m), g2]
        · refine ⟨?_, rfl⟩
          by_cases et : t = []
          · subst et
            rw [if_pos (by rw [h1]; simp), h2]; simp
          · rw [if_neg, g1, h2, getLast?_append_ne _ (by simp),
              getLast?_append_ne _ et, getLast?_cons_ne et]
            intro e3
            rw [h1, head?_append_ne _ et] at e3
            have hmt : m ∈ t := List.mem_of_mem_head? (by rw [e3]; rfl)
            rw [h1] at hndr
            exact (List.nodup_append.1 hndr).2.2 m hmt m (by simp) rfl
        · intro e3
          exact hdis m (getLast?_mem' e3) hmr
    · rw [if_neg hd] at e
      have hmd := split_mem e
      obtain ⟨h1, h2⟩ := hr.split d k m s e
      rw [if_neg, if_neg]
      · exact ⟨h1, h2⟩
      · intro e3
        exact hr.ne_of_owner hmd (memc m (by simp [getLast?_mem' e3])) hd rfl
      · intro e3
        have : m ∈ r := List.mem_of_mem_head? (by rw [e3]; rfl)
        exact hr.ne_of_owner hmd (memc m (by simp [this])) hd rfl

theorem filter_self {L : List Nat} {n : Nat} (h : n ∉ L) : L.filter (· ≠ n) = L := by
  rw [List.filter_eq_self]
  intro a ha
  simp
  intro e; subst e; exact h ha

theorem Links.detach_eq {h : Links} {n c : Nat} (e : h.owner n = some c) (hp : h.prev n ≠ some n) :
    h.detach n =
      { prev := fun y => if h.next n = some y then h.prev n else h.prev y
        next := fun y => if h.prev n = some y then h.next n else h.next y
        owner := fun y => if y = n then none else h.owner y
        first := fun d => if d = c ∧ h.prev n = none then h.next n else h.first d
        last := fun d => if d = c ∧ h.next n = none then h.prev n else h.last d } := by
  unfold Links.detach
  rw [e]
  dsimp only
  cases e1 : h.prev n with
  | none =>
    dsimp only
    cases e2 : h.next n with
    | none => simp [e1]; refine ⟨?_, ?_, ?_⟩ <;> (funext y; simp [upd])
    | some x => simp [e1]; refine ⟨?_, ?_, ?_⟩ <;> (funext y; simp [upd, eq_comm])
  | some p =>
    have hpn : n ≠ p := by intro e3; subst e3; exact hp e1
    dsimp only
    rw [upd_ne _ _ hpn]
    cases e2 : h.next n with
    | none => simp [e1]; refine ⟨?_, ?_, ?_⟩ <;> (funext y; simp [upd, eq_comm])
    | some x => simp [e1]; refine ⟨?_, ?_, ?_⟩ <;> (funext y; simp [upd, eq_comm])

theorem Links.Repr.detach {h : Links} {A : Lists} (hr : h.Repr A) (n : Nat) :
    ∃ A', (h.detach n).Repr A' ∧ A.Detach n A' := by
  refine ⟨_, ?_, rfl⟩
  cases e : h.owner n with
  | none =>
    have hnot : ∀ d, n ∉ A d := by
      intro d hd
      rw [(hr.owner n d).2 hd] at e; cases e
    have : (fun d => (A d).filter (· ≠ n)) = A := by
      funext d; exact filter_self (hnot d)
    rw [this]
    unfold Links.detach
    rw [e]
    exact hr
  | some c =>
    obtain ⟨l, r, hA⟩ := List.append_of_mem ((hr.owner n c).1 e)
    obtain ⟨h1, h2⟩ := hr.split c l n r hA
    have hnd := hr.nodup c
    rw [hA] at hnd
    have hnd' := List.nodup_append.1 hnd
    have hnl : n ∉ l := fun e => hnd'.2.2 n e n (by simp) rfl
    have hnr : n ∉ r := (List.nodup_cons.1 hnd'.2.1).1
    have hdis : ∀ x, x ∈ l → x ∉ r := fun x e1 e2 => hnd'.2.2 x e1 x (by simp [e2]) rfl
    have hfil : (fun d => (A d).filter (· ≠ n)) = (fun d => if d = c then l ++ r else A d) := by
      funext d
      by_cases hd : d = c
      · subst hd
        rw [if_pos rfl, hA, List.filter_append, List.filter_cons]
        simp only [ne_eq, not_true_eq_false, decide_false, Bool.false_eq_true, if_false]
        have e1 := filter_self hnl
        have e2 := filter_self hnr
        simp only [ne_eq] at e1 e2
        rw [e1, e2]
      · rw [if_neg hd]
        apply filter_self
        intro e3
        exact hr.ne_of_owner e3 (split_mem hA) hd rfl
    rw [hfil]
    have hpn : h.prev n ≠ some n := by
      rw [h1]; intro e3; exact hnl (getLast?_mem' e3)
    apply hr.unlink hA
    all_goals rw [Links.detach_eq e hpn]
    all_goals intro y
    all_goals dsimp only
    · rw [h1, h2]; simp
    · rw [h1, h2]; simp
    · rw [h1, h2]
    · rw [h1, h2]

/-- Result of linking `n` before `b`. -/
theorem Links.Repr.insert {h h' : Links} {A : Lists} (hr : h.Repr A) {n c b : Nat}
    {l r : List Nat} (hA : A c = l ++ b :: r) (hn : h.owner n = none)
    (ho : ∀ x, h'.owner x = if x = n then some c else h.owner x)
    (hf : ∀ d, h'.first d = if d = c ∧ l = [] then some n else h.first d)
    (hl : ∀ d, h'.last d = h.last d)
    (hp : ∀ x, h'.prev x = if x = n then l.getLast? else if x = b then some n else h.prev x)
    (hx : ∀ x, h'.next x = if x = n then some b else if l.getLast? = some x then some n
      else h.next x) :
    h'.Repr (fun d => if d = c then l ++ n :: b :: r else A d) := by
  have hnot : ∀ d, n ∉ A d := by
    intro d hd
    rw [(hr.owner n d).2 hd] at hn; cases hn
  have hnd := hr.nodup c
  rw [hA] at hnd
  have hnd' := List.nodup_append.1 hnd
  have hnc := hnot c
  rw [hA] at hnc
  have hbl : b ∉ l := fun e => hnd'.2.2 b e b (by simp) rfl
  have hbr : b ∉ r := (List.nodup_cons.1 hnd'.2.1).1
  have hdis : ∀ x, x ∈ l → x ∉ r := fun x e1 e2 => hnd'.2.2 x e1 x (by simp [e2]) rfl
  have hnl : n ∉ l := fun e => hnc (by simp [e])
  have hnr : n ∉ r := fun e => hnc (by simp [e])
  have hnb : n ≠ b := fun e => hnc (by simp [e])
  have hbc : b ∈ A c := split_mem hA
  refine ⟨?_, ?_, ?_, ?_, ?_⟩
  · intro d
    split
    · refine List.nodup_append.2 ⟨hnd'.1, List.nodup_cons.2 ⟨?_, hnd'.2.1⟩, ?_⟩
      · simp [hnb, hnr]
      · intro a ha x hx e
        subst e
        rcases List.mem_cons.1 hx with e | e
        · subst e; exact hnl ha
        · exact hnd'.2.2 a ha a e rfl
    · exact hr.nodup d
  · intro m d
    rw [ho]
    by_cases hm : m = n
    · subst hm
      rw [if_pos rfl]
      by_cases hd : d = c
      · subst hd; simp
      · rw [if_neg hd]
        constructor
        · intro e; exact absurd (by simpa using e.symm) hd
        · intro e; exact absurd e (hnot d)
    · rw [if_neg hm, hr.owner]
      by_cases hd : d = c
      · subst hd; rw [if_pos rfl, hA]; simp [hm]
      · rw [if_neg hd]
  · intro d
    rw [hf]
    by_cases hd : d = c
    · subst hd
      rw [if_pos rfl]
      by_cases e : l = []
      · simp [e]
      · rw [if_neg (by simp [e]), hr.first, hA, head?_append_ne _ e, head?_append_ne _ e]
    · rw [if_neg (by simp [hd]), if_neg hd, hr.first]
  · intro d
    rw [hl, hr.last]
    by_cases hd : d = c
    · subst hd
      rw [if_pos rfl, hA, getLast?_append_ne l (r := b :: r) (by simp),
        getLast?_append_ne l (r := n :: b :: r) (by simp), getLast?_cons_ne (l := b :: r) (by simp)]
    · rw [if_neg hd]
  · intro d k m s e
    rw [hp, hx]
    by_cases hd : d = c
    · subst hd
      rw [if_pos rfl] at e
      rcases remove_split e with ⟨t, h1, h2⟩ | ⟨t, h1, h2⟩
      · -- m lies before n
        have hml : m ∈ l := split_mem h1
        have hmn : m ≠ n := fun e => hnl (e ▸ hml)
        have hmb : m ≠ b := fun e => hbl (e ▸ hml)
        obtain ⟨g1, g2⟩ := hr.split d k m (t ++ b :: r) (by rw [hA, h1]; simp)
        rw [if_neg hmn, if_neg hmb, if_neg hmn, g1]
        refine ⟨rfl, ?_⟩
        by_cases et : t = []
        · subst et
          rw [if_pos (by rw [h1]; simp), h2]; simp
        · rw [if_neg, g2, h2, head?_append_ne _ et, head?_append_ne _ et]
          intro e3
          rw [h1, getLast?_append_ne _ (by simp), getLast?_cons_ne et] at e3
          have hnl' := hnd'.1
          rw [h1] at hnl'
          exact (List.nodup_cons.1 (List.nodup_append.1 hnl').2.1).1 (getLast?_mem' e3)
      · cases t with
        | nil =>
          -- m is n
          rw [List.nil_append, List.cons.injEq] at h1
          obtain ⟨rfl, h1⟩ := h1
          rw [if_pos rfl, if_pos rfl, h2, ← h1]
          simp
        | cons y t =>
          rw [List.cons_append, List.cons.injEq] at h1
          obtain ⟨rfl, h1⟩ := h1
          have hmc : m ∈ b :: r := split_mem h1
          have hmn : m ≠ n := by
            intro e4; subst e4
            rcases List.mem_cons.1 hmc with e5 | e5
            · exact hnb e5
            · exact hnr e5
          have hml : l.getLast? ≠ some m := by
            intro e3
            exact hnd'.2.2 m (getLast?_mem' e3) m hmc rfl
          obtain ⟨g1, g2⟩ := hr.split d (l ++ t) m s (by rw [hA, h1]; simp)
          rw [if_neg hmn, if_neg hmn, if_neg hml, g2, g1, h2]
          refine ⟨?_, rfl⟩
          cases t with
          | nil =>
            rw [List.nil_append, List.cons.injEq] at h1
            rw [if_pos h1.1.symm]; simp
          | cons z t =>
            rw [List.cons_append, List.cons.injEq] at h1
            have hmr : m ∈ r := split_mem h1.2
            have hmb : m ≠ b := fun e => hbr (e ▸ hmr)
            rw [if_neg hmb, getLast?_append_ne l (r := z :: t) (by simp),
              getLast?_append_ne l (r := n :: z :: t) (by simp), getLast?_cons_ne (l := z :: t) (by simp)]
    · rw [if_neg hd] at e
      have hmd := split_mem e
      obtain ⟨h1, h2⟩ := hr.split d k m s e
      have hmn : m ≠ n := fun e => hnot d (e ▸ hmd)
      have hmb : m ≠ b := hr.ne_of_owner hmd hbc hd
      rw [if_neg hmn, if_neg hmn, if_neg hmb, if_neg]
      · exact ⟨h1, h2⟩
      · intro e3
        exact hr.ne_of_owner hmd (by rw [hA]; simp [getLast?_mem' e3]) hd rfl

theorem insertBefore_split {l r : List Nat} {n b : Nat} (hb : b ∉ l) :
    insertBefore n b (l ++ b :: r) = l ++ n :: b :: r := by
  induction l with
  | nil => simp [insertBefore]
  | cons x l ih =>
    have hx : x ≠ b := fun e => hb (by simp [e])
    rw [List.cons_append, List.cons_append, insertBefore, if_neg hx, ih (fun e => hb (by simp [e]))]

/-- Attaching before `b`, which is attached to `c`. -/
theorem Links.Repr.attachBefore {h : Links} {A : Lists} (hr : h.Repr A) {n c b : Nat}
    (hn : h.owner n = none) {before : Before}
    (hbe : before = .clock b ∨ before = .firstElement ∧ h.first c = some b)
    {l r : List Nat} (hA : A c = l ++ b :: r) :
    ∃ h', h.clockAttach n c before = .ok (.ok, h') ∧
      h'.Repr (fun d => if d = c then l ++ n :: b :: r else A d) := by
  have hbc : b ∈ A c := split_mem hA
  have hob := (hr.owner b c).2 hbc
  have hbn : b ≠ n := by intro e; subst e; rw [hn] at hob; cases hob
  obtain ⟨h1, -⟩ := hr.split c l b r hA
  have hfirst : h.first c = some b ↔ l = [] := by
    rw [hr.first, hA]
    cases l with
    | nil => simp
    | cons x l =>
      simp only [List.cons_append, List.head?_cons, Option.some.injEq, reduceCtorEq, iff_false]
      intro e; subst e
      have hnd := hr.nodup c
      rw [hA] at hnd
      rw [List.cons_append] at hnd
      exact (List.nodup_cons.1 hnd).1 (by simp)
  unfold Links.clockAttach
  rw [if_pos hn]
  have e2 : before.resolve (h.first c) = some b := by
    rcases hbe with e | ⟨e, e3⟩
    · rw [e]; rfl
    · rw [e]; exact e3
  simp only [e2]
  rw [if_pos (by rw [upd_ne _ _ hbn]; exact hob)]
  by_cases hl : l = []
  · rw [if_pos (hfirst.2 hl)]
    refine ⟨_, rfl, ?_⟩
    apply hr.insert hA hn
    · intro x; simp [upd]
    · intro d; simp [upd, hl]
    · intro d; rfl
    · intro x
      by_cases hx : x = n
      · subst hx; simp [upd, hbn.symm, h1]
      · by_cases hxb : x = b
        · subst hxb; simp [upd, hx]
        · simp [upd, hx, hxb]
    · intro x; simp [upd, hl]
  · rw [if_neg (fun e => hl (hfirst.1 e))]
    rw [upd_ne _ _ hbn, h1]
    rcases List.eq_nil_or_concat l with e | ⟨l', p, e⟩
    · exact absurd e hl
    · rw [List.concat_eq_append] at e
      have e3 : l.getLast? = some p := by rw [e]; simp
      have hpn : p ≠ n := by
        intro e4; subst e4
        rw [(hr.owner p c).2 (by rw [hA]; simp [getLast?_mem' e3])] at hn; cases hn
      rw [e3]
      refine ⟨_, rfl, ?_⟩
      apply hr.insert hA hn
      · intro x; simp [upd]
      · intro d; simp [hl]
      · intro d; rfl
      · intro x
        by_cases hx : x = n
        · subst hx; simp [upd, hbn.symm, e3]
        · by_cases hxb : x = b
          · subst hxb; simp [upd, hx]
          · simp [upd, hx, hxb]
      · intro x
        rw [e3]
        by_cases hx : x = n
        · subst hx; simp [upd, hpn.symm]
        · by_cases hxp : x = p
          · subst hxp; simp [upd, hx]
          · simp [upd, hx, hxp, Ne.symm hxp]

theorem Links.Repr.clockAttach {h : Links} {A : Lists} (hr : h.Repr A) {n c : Nat} {before : Before}
    (hleg : (ClockOp.attach n c before).Legal A) :
    ∃ ret h' A', h.clockAttach n c before = .ok (ret, h') ∧ h'.Repr A' ∧
      A.AttachClock n c before ret A' := by
  by_cases hn : h.owner n = none
  · have hna : ¬ A.Attached n := by rw [hr.attached_iff]; simp [hn]
    have key : ∀ b, (before = .clock b ∨ before = .firstElement ∧ h.first c = some b) → b ∈ A c →
        ∃ l r h', A c = l ++ b :: r ∧ b ∉ l ∧ h.clockAttach n c before = .ok (.ok, h') ∧
          h'.Repr (fun d => if d = c then l ++ n :: b :: r else A d) := by
      intro b hbe hb
      obtain ⟨l, r, hA⟩ := List.append_of_mem hb
      obtain ⟨h', e1, e2⟩ := hr.attachBefore hn hbe hA
      refine ⟨l, r, h', hA, ?_, e1, e2⟩
      have hnd := hr.nodup c
      rw [hA] at hnd
      intro e
      exact (List.nodup_append.1 hnd).2.2 b e b (by simp) rfl
    have tail : (before = .null ∨ before = .firstElement ∧ h.first c = none) →
        ∃ h', h.clockAttach n c before = .ok (.ok, h') ∧
          h'.Repr (fun d => if d = c then A c ++ [n] else A d) := by
      intro hbe
      obtain ⟨A', g1, g2⟩ := hr.unitAttach n c
      rcases g2 with ⟨g, -⟩ | ⟨-, -, g2⟩
      · exact absurd g hna
      · subst g2
        refine ⟨(h.unitAttach n c).2, ?_, g1⟩
        unfold Links.clockAttach Links.unitAttach
        rw [if_pos hn, if_pos hn]
        have e2 : before.resolve (h.first c) = none := by
          rcases hbe with e | ⟨e, e3⟩
          · rw [e]; rfl
          · rw [e]; exact e3
        simp only [e2]
        cases h.last c <;> rfl
    cases hb : before with
    | null =>
      obtain ⟨h', e1, e2⟩ := tail (.inl hb)
      rw [hb] at e1
      exact ⟨_, _, _, e1, e2, .inr ⟨hna, rfl, rfl⟩⟩
    | firstElement =>
      cases hf : h.first c with
      | none =>
        obtain ⟨h', e1, e2⟩ := tail (.inr ⟨hb, hf⟩)
        rw [hb] at e1
        refine ⟨_, _, _, e1, e2, .inr ⟨hna, rfl, ?_⟩⟩
        have : A c = [] := by rw [hr.first] at hf; simpa using hf
        simp [this]
      | some b =>
        have hbm : b ∈ A c := by
          rw [hr.first] at hf
          exact List.mem_of_mem_head? (by rw [hf]; rfl)
        obtain ⟨l, r, h', hA, hbl, e1, e2⟩ := key b (.inr ⟨hb, hf⟩) hbm
        rw [hb] at e1
        refine ⟨_, _, _, e1, e2, .inr ⟨hna, rfl, ?_⟩⟩
        have : l = [] := by
          rw [hr.first, hA] at hf
          cases l with
          | nil => rfl
          | cons x l => simp at hf; exact absurd (by simp [hf]) hbl
        subst this
        funext d
        by_cases hd : d = c
        · subst hd; simp [hA]
        · simp [hd]
    | clock b =>
      rw [hb] at hleg
      rcases hleg with g | hbm
      · exact absurd g hna
      obtain ⟨l, r, h', hA, hbl, e1, e2⟩ := key b (.inl hb) hbm
      rw [hb] at e1
      refine ⟨_, _, _, e1, e2, .inr ⟨hna, rfl, ?_⟩⟩
      dsimp only
      rw [hA, insertBefore_split hbl]
  · refine ⟨.invalidState, h, A, ?_, hr, .inl ⟨(hr.attached_iff n).2 hn, rfl, rfl⟩⟩
    unfold Links.clockAttach
    rw [if_neg hn]
    rfl

theorem Links.Repr.walk {h : Links} {A : Lists} (hr : h.Repr A) (c : Nat) :
    ∀ (r l : List Nat) (fuel : Nat), A c = l ++ r → r.length ≤ fuel →
      h.walk fuel r.head? = .ok r := by
  intro r
  induction r with
  | nil => intro l fuel _ _; cases fuel <;> rfl
  | cons n r ih =>
    intro l fuel e hf
    cases fuel with
    | zero => simp at hf
    | succ fuel =>
      have h2 := (hr.split c l n r e).2
      show (do let r ← h.walk fuel (h.next n); return n :: r) = _
      rw [h2, ih (l ++ [n]) fuel (by simpa using e) (by simpa using hf)]
      rfl

theorem Links.Repr.visits {h : Links} {A : Lists} (hr : h.Repr A) (c : Nat) :
    h.Visits c (A c) := by
  intro fuel hf
  rw [hr.first]
  exact hr.walk c (A c) [] fuel rfl hf

theorem Links.Repr.empty : ({} : Links).Repr (fun _ => []) := by
  refine ⟨by simp, by simp, by simp, by simp, ?_⟩
  intro c l n r h
  simp at h

end BK
