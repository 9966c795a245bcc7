import Verif.Spec.SeqPlay
import Verif.Lemmas.IWorld
/-!
States and sequences of a caller who plays them itself.
-/
namespace BK

theorem NewSeq.make_inv {B : Prop} {new : NewSeq} (hs : new.Short) (hu : B → new.Usual) :
    Safe B new.make (fun r => ∀ q, r = some q → q.Ok B) := by
  cases new with
  | nothing => exact Safe.ok (fun q hq => by cases hq)
  | values vals so sl =>
    have h1 : vals.length < 536870912 := hs.1
    have h2 : InI32 so := hs.2.1
    have h3 : InI32 sl := hs.2.2
    unfold NewSeq.make
    dsimp only
    rw [SimpleSeq.create_eq h1 h2 h3]
    show Safe B (Except.ok _) _
    refine Safe.ok fun q hq => ?_
    simp only [Option.map_some, Option.some.injEq] at hq
    subst hq
    exact ⟨vals, _, _, rfl, h1, sustain_le _ _ _⟩
  | points ps so sl =>
    by_cases hp : ps = []
    · subst hp
      obtain ⟨h1, h2, h3, h4⟩ := hs
      unfold NewSeq.make
      dsimp only
      have hc := EnvSeq.create_eq h1 h2 h3
      have hf : fracShiftOf [] = .ok 30 := by decide +kernel
      cases e : EnvSeq.create [] so sl with
      | error er =>
        rw [hc] at e
        split at e
        · rw [hf] at e; simp at e
        · simp at e
      | ok r =>
        cases r with
        | none => exact Safe.ok fun q hq => by simp at hq
        | some q0 =>
          refine Safe.ok fun q hq => ?_
          simp only [Option.map_some, Option.some.injEq] at hq
          subst hq
          exact ⟨⟨_, _, (EnvSeq.create_W h1 h2 h3 h4 e).1⟩, fun b => (usual_W (hu b) e).2.2⟩
    · have key := NewSeq.create_inv hs hu
      unfold NewSeq.create at key
      dsimp only at key
      rw [if_neg hp] at key
      unfold NewSeq.make
      dsimp only
      cases e : EnvSeq.create ps so sl with
      | error er => rw [e] at key; exact key
      | ok r =>
        rw [e] at key
        refine Safe.ok fun q hq => ?_
        cases r with
        | none => simp at hq
        | some q0 => 
          simp only [Option.map_some, Option.some.injEq] at hq
          subst hq
          exact key _ rfl

theorem Links.HRepr.visits {h : Links} {A : Lists} (hr : h.HRepr A) (c : Nat) : h.Visits c (A c) := by
  have key : ∀ (r l : List Nat) (fuel : Nat), A c = l ++ r → r.length ≤ fuel →
      h.walk fuel r.head? = .ok r := by
    intro r
    induction r with
    | nil => intro l fuel _ _; cases fuel <;> rfl
    | cons n r ih =>
      intro l fuel e hf
      cases fuel with
      | zero => simp at hf
      | succ fuel =>
        have h2 := (hr.split e).2
        show (do let r ← h.walk fuel (h.next n); return n :: r) = _
        rw [h2, ih (l ++ [n]) fuel (by simpa using e) (by simpa using hf)]
        rfl
  intro fuel hf
  rw [hr.first]
  exact key (A c) [] fuel rfl hf

/-- Invariant. -/
structure SeqPlay.Inv (B : Prop) (w : SeqPlay) (A : Lists) : Prop where
  repr : w.links.HRepr A
  ok : ∀ id q, w.heap id = some q → q.Ok B
  weak : ∀ x, Weak B (w.st x)
  bound : ∀ x id, w.links.owner x = some id → ∃ q, w.heap id = some q ∧ SlotInv B q (w.st x)
  fresh : ∀ id, w.heap id ≠ none → id < w.fresh

theorem SeqPlay.Inv.init (B : Prop) : SeqPlay.Inv B {} (fun _ => []) :=
  by
  refine ⟨.empty, ?_, fun _ => Weak.init B 0, ?_, ?_⟩
  · intro id q h; simp at h
  · intro x id h; simp at h
  · intro id h; exact absurd rfl h

theorem SeqPlay.Inv.get {B : Prop} {w : SeqPlay} {A : Lists} (h : w.Inv B A) {x id : Nat}
    (ho : w.links.owner x = some id) : ∃ q, w.heap.get id = .ok q ∧ w.heap id = some q ∧ q.Ok B ∧ SlotInv B q (w.st x) := by
  obtain ⟨q, h1, h2⟩ := h.bound x id ho
  exact ⟨q, by unfold SeqHeap.get; rw [h1], h1, h.ok id q h1, h2⟩

/-- Changing the numbers of a bound state. -/
theorem SeqPlay.Inv.set {B : Prop} {w : SeqPlay} {A : Lists} (h : w.Inv B A) {x id : Nat} {q : Sequence}
    (ho : w.links.owner x = some id) (hq : w.heap id = some q) {s : SeqState} (hs : SlotInv B q s) :
    SeqPlay.Inv B { w with st := upd w.st x s } A := by
  refine ⟨h.repr, h.ok, ?_, ?_, h.fresh⟩
  · intro y
    by_cases hy : y = x
    · subst hy; simp only [upd_self]; exact hs.weak
    · simp only [upd_ne _ _ hy]; exact h.weak y
  · intro y j hj
    by_cases hy : y = x
    · subst hy
      rw [ho] at hj
      cases hj
      exact ⟨q, hq, by simp only [upd_self]; exact hs⟩
    · simp only [upd_ne _ _ hy]; exact h.bound y j hj

theorem SlotInv.value {B : Prop} {q : Sequence} {s : SeqState} (h : SlotInv B q s) (v : Int) (hv : s.value = v) :
    SlotInv B q { s with value := v } := by
  subst hv; exact h

theorem SeqPlay.Inv.exec {B : Prop} {w : SeqPlay} {A : Lists} (h : w.Inv B A) {op : SeqCall}
    (hl : op.Legal w) (hu : B → op.Usual w) :
    Safe B (w.exec op) (fun r => ∃ A', r.2.Inv B A') := by
  cases op with
  | create new =>
    unfold SeqPlay.exec SeqPlay.create
    simp only [bind_assoc]
    refine (NewSeq.make_inv hl hu).bind fun r hr => ?_
    cases r with
    | none => exact Safe.ok ⟨A, h⟩
    | some q =>
      refine Safe.ok ⟨A, h.repr, ?_, h.weak, ?_, ?_⟩
      · intro id q' hq
        by_cases hi : id = w.fresh
        · subst hi; simp only [upd_self, Option.some.injEq] at hq; subst hq; exact hr _ rfl
        · simp only [upd_ne _ _ hi] at hq; exact h.ok id q' hq
      · intro x id hx
        obtain ⟨q', h1, h2⟩ := h.bound x id hx
        have hi : id ≠ w.fresh := by
          have := h.fresh id (by rw [h1]; simp)
          omega
        exact ⟨q', by simp only [upd_ne _ _ hi]; exact h1, h2⟩
      · intro id hi
        dsimp only at hi ⊢
        by_cases hj : id = w.fresh
        · omega
        · rw [upd_ne _ _ hj] at hi
          have := h.fresh id hi
          omega
  | dispose id =>
    obtain ⟨h1, h2⟩ := hl
    cases e : w.heap id with
    | none => exact absurd e h1
    | some q =>
      have hx : w.exec (.dispose id) = .ok (none, { w with heap := upd w.heap id none }) := by
        unfold SeqPlay.exec SeqPlay.dispose SeqHeap.free
        dsimp only
        rw [e]; rfl
      rw [hx]
      refine Safe.ok ⟨A, h.repr, ?_, h.weak, ?_, ?_⟩
      · intro j q' hq
        by_cases hi : j = id
        · subst hi; simp [upd_self] at hq
        · simp only [upd_ne _ _ hi] at hq; exact h.ok j q' hq
      · intro x j hx
        have hi : j ≠ id := fun c => h2 x (by rw [← c]; exact hx)
        obtain ⟨q', h3, h4⟩ := h.bound x j hx
        exact ⟨q', by simp only [upd_ne _ _ hi]; exact h3, h4⟩
      · intro j hj
        by_cases hi : j = id
        · subst hi; simp [upd_self] at hj
        · simp only [upd_ne _ _ hi] at hj; exact h.fresh j hj
  | clear x =>
    have hl : w.links.owner x = none := hl
    refine Safe.ok ⟨A, ?_, h.ok, ?_, ?_, h.fresh⟩
    · refine Links.Repr.agree h.repr ?_ (fun _ => rfl) (fun _ => rfl) ?_
      · intro y
        by_cases hy : y = x
        · subst hy; simp only [SeqPlay.clear, upd_self]; exact hl.symm
        · simp only [SeqPlay.clear, upd_ne _ _ hy]
      · intro y c hy
        have hne : y ≠ x := by
          intro hc; subst hc
          rw [(h.repr.owner y c).2 hy] at hl; cases hl
        simp only [SeqPlay.clear, upd_ne _ _ hne, and_self]
    · intro y
      by_cases hy : y = x
      · subst hy; simp only [SeqPlay.clear, upd_self]; exact Weak.init B 0
      · simp only [SeqPlay.clear, upd_ne _ _ hy]; exact h.weak y
    · intro y id hy
      by_cases hne : y = x
      · subst hne; simp [SeqPlay.clear, upd_self] at hy
      · simp only [SeqPlay.clear, upd_ne _ _ hne] at hy ⊢; exact h.bound y id hy
  | bind x t =>
    unfold SeqPlay.exec SeqPlay.setSequence
    dsimp only
    split
    · exact Safe.ok ⟨A, h⟩
    rename_i hne
    have hleave : w.leave x = .ok (w.links.removeState x) := by
      unfold SeqPlay.leave
      cases e : w.links.owner x with
      | none => unfold Links.removeState; rw [e]
      | some i =>
        obtain ⟨q, h1, _⟩ := h.get e
        dsimp only
        rw [h1]; rfl
    have hrem := h.repr.removeState x
    have howner : ∀ y, (w.links.removeState x).owner y = if y = x then none else w.links.owner y := by
      intro y
      by_cases hy : y = x
      · subst hy
        rw [if_pos rfl]
        cases e : (w.links.removeState y).owner y with
        | none => rfl
        | some c => have := (hrem.owner y c).1 e; simp at this
      · rw [if_neg hy]
        cases e : w.links.owner y with
        | none =>
          cases e' : (w.links.removeState x).owner y with
          | none => rfl
          | some c =>
            have := (hrem.owner y c).1 e'
            rw [List.mem_filter] at this
            rw [(h.repr.owner y c).2 this.1] at e; cases e
        | some c =>
          refine (hrem.owner y c).2 ?_
          rw [List.mem_filter]
          exact ⟨(h.repr.owner y c).1 e, by simp [hy]⟩
    rw [hleave]
    simp only [ok_bind]
    cases t with
    | none =>
      refine Safe.ok ⟨_, hrem, h.ok, h.weak, ?_, h.fresh⟩
      intro y id hy
      rw [howner] at hy
      split at hy
      · cases hy
      · exact h.bound y id hy
    | some id =>
      dsimp only
      cases e : w.heap id with
      | none => exact absurd e hl
      | some q =>
        have hg : w.heap.get id = .ok q := by unfold SeqHeap.get; rw [e]
        rw [hg]
        simp only [ok_bind]
        have hready : Ready B q (w.st x) := by
          refine ⟨h.weak x, fun e' he b => ?_⟩
          subst he
          cases hu b e' e with
          | inl h1 => exact absurd h1 hne
          | inr h1 =>
            rw [h1]
            exact ⟨by simp, by simp, by simp⟩
        refine (Sequence.setPhase_inv (h.ok id q e) hready _).bind fun r hr => ?_
        have hadd := hrem.addState (by rw [howner, if_pos rfl]) id (x := x)
        refine Safe.ok ⟨_, hadd, h.ok, ?_, ?_, h.fresh⟩
        · intro y
          by_cases hy : y = x
          · subst hy; simp only [upd_self]; exact hr.1.weak
          · simp only [upd_ne _ _ hy]; exact h.weak y
        · intro y j hy
          have hm := (hadd.owner y j).1 hy
          by_cases hyx : y = x
          · subst hyx
            have hj : j = id := by
              by_cases hj : j = id
              · exact hj
              · rw [if_neg hj] at hm; simp at hm
            subst hj
            exact ⟨q, e, by simp only [upd_self]; exact hr.1⟩
          · simp only [upd_ne _ _ hyx]
            refine h.bound y j ((h.repr.owner y j).2 ?_)
            by_cases hj : j = id
            · subst hj
              rw [if_pos rfl, List.mem_cons, List.mem_filter] at hm
              cases hm with
              | inl h1 => exact absurd h1 hyx
              | inr h1 => exact h1.1
            · rw [if_neg hj, List.mem_filter] at hm; exact hm.1
  | phase x p =>
    unfold SeqPlay.exec SeqPlay.setPhase
    dsimp only
    cases e : w.links.owner x with
    | none => exact Safe.ok ⟨A, h⟩
    | some id =>
      obtain ⟨q, h1, h2, h3, h4⟩ := h.get e
      dsimp only
      rw [h1]
      simp only [ok_bind]
      refine (Sequence.setPhase_inv h3 h4.ready p).bind fun r hr => ?_
      exact Safe.ok ⟨A, h.set e h2 hr.1⟩
  | step x d =>
    unfold SeqPlay.exec SeqPlay.step
    dsimp only
    cases e : w.links.owner x with
    | none => exact Safe.ok ⟨A, h⟩
    | some id =>
      obtain ⟨q, h1, h2, h3, h4⟩ := h.get e
      dsimp only
      rw [h1]
      simp only [ok_bind]
      refine (Sequence.step_inv h3 h4 d).bind fun r hr => ?_
      exact Safe.ok ⟨A, h.set e h2 hr.1⟩
  | value x v =>
    unfold SeqPlay.exec SeqPlay.setValue
    dsimp only
    cases e : w.links.owner x with
    | none =>
      refine Safe.ok ⟨A, h.repr, h.ok, ?_, ?_, h.fresh⟩
      · intro y
        by_cases hy : y = x
        · subst hy; simp only [upd_self]
          exact ⟨(h.weak y).off, (h.weak y).en, (h.weak y).steps⟩
        · simp only [upd_ne _ _ hy]; exact h.weak y
      · intro y j hj
        have hy : y ≠ x := by intro c; subst c; dsimp only at hj; rw [e] at hj; cases hj
        simp only [upd_ne _ _ hy]; exact h.bound y j hj
    | some id =>
      obtain ⟨q, h1, h2, h3, h4⟩ := h.get e
      dsimp only
      rw [h1]
      simp only [ok_bind, bind_assoc]
      refine (Sequence.setValue_inv h3 h4 v (fun b => hu b id q e h2)).bind fun s hs => ?_
      exact Safe.ok ⟨A, h.set e h2 (hs.1.value v hs.2.1)⟩

/-- Any number of calls. -/
theorem SeqPlay.Inv.run {B : Prop} (x : Nat) : ∀ (ops : List SeqCall) {w : SeqPlay} {A : Lists}, w.Inv B A →
    w.LegalRun ops → (B → w.UsualRun ops) → Safe B (w.run x ops) (fun r => ∃ A', r.1.Inv B A') := by
  intro ops
  induction ops with
  | nil => intro w A h _ _; exact Safe.ok ⟨A, h⟩
  | cons op ops ih =>
    intro w A h hl hu
    unfold SeqPlay.run
    refine ((h.exec hl.1 fun b => (hu b).1).and_ok (Q := fun r => w.exec op = .ok r) fun _ e => e).bind ?_
    rintro ⟨r, w'⟩ ⟨⟨A', h'⟩, e⟩
    refine (ih h' (hl.2 r w' e) fun b => (hu b).2 r w' e).bind fun t ht => ?_
    exact Safe.ok ht

theorem SeqPlay.Inv.lists {B : Prop} {w : SeqPlay} {A : Lists} (h : w.Inv B A) : w.ListsExact := by
  intro id _
  refine ⟨A id, ?_, h.repr.nodup id, fun x => (h.repr.owner x id).symm⟩
  exact h.repr.visits id

theorem Links.removeState_owner (h : Links) (x y : Nat) :
    (h.removeState x).owner y = if y = x then none else h.owner y := by
  have hk : (((h.joinPrev x).joinNext x)).owner = h.owner := by
    have h1 : (h.joinPrev x).owner = h.owner := by unfold Links.joinPrev; split <;> rfl
    rw [← h1]
    unfold Links.joinNext; split <;> rfl
  have hc : ∀ i, (((h.joinPrev x).joinNext x).cutFirst i x).owner = h.owner := by
    intro i
    rw [← hk]
    unfold Links.cutFirst; split <;> rfl
  unfold Links.removeState
  split
  · rename_i e
    by_cases hy : y = x
    · subst hy; rw [if_pos rfl, e]
    · rw [if_neg hy]
  · dsimp only
    rw [hc]
    by_cases hy : y = x
    · subst hy; rw [if_pos rfl, upd_self]
    · rw [if_neg hy, upd_ne _ _ hy]

theorem Links.addState_owner {h : Links} {x : Nat} (hx : h.owner x = none) (i y : Nat) :
    (h.addState x i).owner y = if y = x then some i else h.owner y := by
  unfold Links.addState
  rw [if_pos hx]
  dsimp only
  split <;> (by_cases hy : y = x
             · subst hy; simp [upd_self]
             · simp [upd_ne _ _ hy, hy])

theorem SeqPlay.leave_owner {w : SeqPlay} {x : Nat} {l : Links} (h : w.leave x = .ok l) (y : Nat) :
    l.owner y = if y = x then none else w.links.owner y := by
  unfold SeqPlay.leave at h
  split at h
  · rename_i e
    have h := Except.ok.inj h
    subst h
    by_cases hy : y = x
    · subst hy; rw [if_pos rfl, e]
    · rw [if_neg hy]
  · obtain ⟨q, -, h⟩ := bind_ok_iff.1 h
    have h := Except.ok.inj h
    subst h
    exact Links.removeState_owner _ _ _

/-- Two worlds which are the same for state `x`. -/
structure SeqPlay.Same (x : Nat) (w v : SeqPlay) : Prop where
  heap : v.heap = w.heap
  fresh : v.fresh = w.fresh
  st : v.st x = w.st x
  owner : v.links.owner x = w.links.owner x

theorem SeqPlay.Same.refl (x : Nat) (w : SeqPlay) : SeqPlay.Same x w w := ⟨rfl, rfl, rfl, rfl⟩

/-- The effect of a call on the state it is made on. -/
theorem SeqPlay.setSequence_ok {w : SeqPlay} {x : Nat} {t : Option Nat} {r : Option SeqRet × SeqPlay}
    (h : w.setSequence x t = .ok r) :
    r.2.heap = w.heap ∧ r.2.fresh = w.fresh ∧ r.2.links.owner x = t ∧
      ∀ y, y ≠ x → r.2.st y = w.st y ∧ r.2.links.owner y = w.links.owner y := by
  unfold SeqPlay.setSequence at h
  split at h
  · rename_i e
    have h := Except.ok.inj h
    subst h
    exact ⟨rfl, rfl, e, fun _ _ => ⟨rfl, rfl⟩⟩
  obtain ⟨l, hl, h⟩ := bind_ok_iff.1 h
  have ho := SeqPlay.leave_owner hl
  cases t with
  | none =>
    have h := Except.ok.inj h
    subst h
    exact ⟨rfl, rfl, by rw [ho, if_pos rfl], fun y hy => ⟨rfl, by rw [ho, if_neg hy]⟩⟩
  | some id =>
    dsimp only at h
    obtain ⟨q, -, h⟩ := bind_ok_iff.1 h
    obtain ⟨s, -, h⟩ := bind_ok_iff.1 h
    have h := Except.ok.inj h
    subst h
    have hx : l.owner x = none := by rw [ho, if_pos rfl]
    refine ⟨rfl, rfl, by rw [Links.addState_owner hx, if_pos rfl], fun y hy => ⟨upd_ne _ _ hy, ?_⟩⟩
    rw [Links.addState_owner hx, if_neg hy, ho, if_neg hy]

/-- A call on another state. -/
theorem SeqPlay.exec_other {w : SeqPlay} {x y : Nat} {op : SeqCall} {r : Option SeqRet × SeqPlay}
    (h : w.exec op = .ok r) (ho : op.on = some y) (hy : y ≠ x) : w.Same x r.2 := by
  have hx : x ≠ y := fun c => hy c.symm
  have hupd : ∀ s : SeqState, w.Same x { w with st := upd w.st y s } :=
    fun s => ⟨rfl, rfl, upd_ne _ _ hx, rfl⟩
  cases op with
  | create new => cases ho
  | dispose id => cases ho
  | clear z =>
    have ho : z = y := Option.some.inj ho
    subst ho
    have h := Except.ok.inj h
    subst h
    exact ⟨rfl, rfl, upd_ne _ _ hx, upd_ne _ _ hx⟩
  | bind z t =>
    have ho : z = y := Option.some.inj ho
    subst ho
    obtain ⟨h1, h2, -, h3⟩ := SeqPlay.setSequence_ok h
    exact ⟨h1, h2, (h3 x hx).1, (h3 x hx).2⟩
  | phase z p =>
    have ho : z = y := Option.some.inj ho
    subst ho
    unfold SeqPlay.exec SeqPlay.setPhase at h
    dsimp only at h
    split at h
    · have h := Except.ok.inj h
      subst h
      exact .refl x w
    · obtain ⟨q, -, h⟩ := bind_ok_iff.1 h
      obtain ⟨s, -, h⟩ := bind_ok_iff.1 h
      have h := Except.ok.inj h
      subst h
      exact hupd _
  | step z d =>
    have ho : z = y := Option.some.inj ho
    subst ho
    unfold SeqPlay.exec SeqPlay.step at h
    dsimp only at h
    split at h
    · have h := Except.ok.inj h
      subst h
      exact .refl x w
    · obtain ⟨q, -, h⟩ := bind_ok_iff.1 h
      obtain ⟨s, -, h⟩ := bind_ok_iff.1 h
      have h := Except.ok.inj h
      subst h
      exact hupd _
  | value z v =>
    have ho : z = y := Option.some.inj ho
    subst ho
    unfold SeqPlay.exec SeqPlay.setValue at h
    dsimp only at h
    obtain ⟨w', h1, h⟩ := bind_ok_iff.1 h
    have h := Except.ok.inj h
    subst h
    split at h1
    · have h1 := Except.ok.inj h1
      subst h1
      exact hupd _
    · obtain ⟨q, -, h1⟩ := bind_ok_iff.1 h1
      obtain ⟨s, -, h1⟩ := bind_ok_iff.1 h1
      have h1 := Except.ok.inj h1
      subst h1
      exact hupd _

theorem SeqPlay.Same.trans {x : Nat} {a b c : SeqPlay} (h : a.Same x b) (g : b.Same x c) : a.Same x c :=
  ⟨g.heap.trans h.heap, g.fresh.trans h.fresh, g.st.trans h.st, g.owner.trans h.owner⟩

theorem SeqPlay.Same.symm {x : Nat} {a b : SeqPlay} (h : a.Same x b) : b.Same x a :=
  ⟨h.heap.symm, h.fresh.symm, h.st.symm, h.owner.symm⟩

theorem SeqPlay.Same.update {x : Nat} {w v : SeqPlay} (h : w.Same x v) (s : SeqState) :
    SeqPlay.Same x { w with st := upd w.st x s } { v with st := upd v.st x s } :=
  ⟨h.heap, h.fresh, by simp only [upd_self], h.owner⟩

/-- A call on `x` itself, or on a sequence, in two worlds that are the same for `x`. -/
theorem SeqPlay.exec_same {w v : SeqPlay} {x : Nat} {op : SeqCall} {r : Option SeqRet × SeqPlay}
    (hs : w.Same x v) (h : w.exec op = .ok r) (ho : op.on = none ∨ op.on = some x) :
    ∃ v', v.exec op = .ok (r.1, v') ∧ r.2.Same x v' := by
  cases op with
  | create new =>
    unfold SeqPlay.exec SeqPlay.create at h ⊢
    dsimp only at h ⊢
    obtain ⟨w', h1, h⟩ := bind_ok_iff.1 h
    have h := Except.ok.inj h
    subst h
    obtain ⟨q, h2, h1⟩ := bind_ok_iff.1 h1
    rw [h2]
    cases q with
    | none =>
      have h1 := Except.ok.inj h1
      subst h1
      exact ⟨v, rfl, hs⟩
    | some q =>
      have h1 := Except.ok.inj h1
      subst h1
      refine ⟨_, rfl, ?_, ?_, hs.st, hs.owner⟩
      · show upd v.heap v.fresh (some q) = upd w.heap w.fresh (some q)
        rw [hs.heap, hs.fresh]
      · show v.fresh + 1 = w.fresh + 1
        rw [hs.fresh]
  | dispose id =>
    unfold SeqPlay.exec SeqPlay.dispose at h ⊢
    dsimp only at h ⊢
    obtain ⟨w', h1, h⟩ := bind_ok_iff.1 h
    have h := Except.ok.inj h
    subst h
    obtain ⟨q, h2, h1⟩ := bind_ok_iff.1 h1
    have h1 := Except.ok.inj h1
    subst h1
    rw [hs.heap, h2]
    exact ⟨_, rfl, rfl, hs.fresh, hs.st, hs.owner⟩
  | clear z =>
    have ho : z = x := by
      cases ho with
      | inl h => cases h
      | inr h => exact Option.some.inj h
    subst ho
    have h := Except.ok.inj h
    subst h
    refine ⟨_, rfl, hs.heap, hs.fresh, ?_, ?_⟩ <;> simp only [SeqPlay.clear, upd_self]
  | bind z t =>
    have ho : z = x := by
      cases ho with
      | inl h => cases h
      | inr h => exact Option.some.inj h
    subst ho
    have hr := SeqPlay.setSequence_ok h
    have key : ∃ v', v.setSequence z t = .ok (r.1, v') ∧ v'.st z = r.2.st z := by
      have h : w.setSequence z t = .ok r := h
      unfold SeqPlay.setSequence at h ⊢
      rw [hs.owner]
      split at h
      · rename_i e
        rw [if_pos e]
        have h := Except.ok.inj h
        subst h
        exact ⟨v, rfl, hs.st⟩
      · rename_i e
        rw [if_neg e]
        obtain ⟨l, hl, h⟩ := bind_ok_iff.1 h
        have hlv : ∃ l', v.leave z = .ok l' := by
          unfold SeqPlay.leave at hl ⊢
          rw [hs.owner]
          cases e1 : w.links.owner z with
          | none => exact ⟨_, rfl⟩
          | some i =>
            rw [e1] at hl
            dsimp only at hl ⊢
            obtain ⟨q, hq, -⟩ := bind_ok_iff.1 hl
            rw [hs.heap, hq]
            exact ⟨_, rfl⟩
        obtain ⟨l', hlv⟩ := hlv
        rw [hlv]
        cases t with
        | none =>
          have h := Except.ok.inj h
          subst h
          exact ⟨_, rfl, hs.st⟩
        | some id =>
          dsimp only at h
          obtain ⟨q, hq, h⟩ := bind_ok_iff.1 h
          obtain ⟨s, hp, h⟩ := bind_ok_iff.1 h
          have h := Except.ok.inj h
          subst h
          simp only [ok_bind]
          rw [hs.heap, hq, hs.st]
          simp only [ok_bind]
          rw [hp]
          exact ⟨_, rfl, by simp only [upd_self]⟩
    obtain ⟨v', e, es⟩ := key
    have hv := SeqPlay.setSequence_ok e
    refine ⟨v', e, ?_, ?_, es, ?_⟩
    · rw [hv.1, hr.1, hs.heap]
    · rw [hv.2.1, hr.2.1, hs.fresh]
    · rw [hv.2.2.1, hr.2.2.1]
  | phase z p =>
    have ho : z = x := by
      cases ho with
      | inl h => cases h
      | inr h => exact Option.some.inj h
    subst ho
    unfold SeqPlay.exec SeqPlay.setPhase at h ⊢
    dsimp only at h ⊢
    rw [hs.owner]
    cases e : w.links.owner z with
    | none =>
      rw [e] at h
      have h := Except.ok.inj h
      subst h
      exact ⟨v, rfl, hs⟩
    | some id =>
      rw [e] at h
      dsimp only at h ⊢
      obtain ⟨q, hq, h⟩ := bind_ok_iff.1 h
      obtain ⟨s, hp, h⟩ := bind_ok_iff.1 h
      have h := Except.ok.inj h
      subst h
      rw [show v.heap.get id = .ok q by rw [hs.heap]; exact hq]
      simp only [ok_bind]
      rw [hs.st, hp]
      exact ⟨_, rfl, hs.update _⟩
  | step z d =>
    have ho : z = x := by
      cases ho with
      | inl h => cases h
      | inr h => exact Option.some.inj h
    subst ho
    unfold SeqPlay.exec SeqPlay.step at h ⊢
    dsimp only at h ⊢
    rw [hs.owner]
    cases e : w.links.owner z with
    | none =>
      rw [e] at h
      have h := Except.ok.inj h
      subst h
      exact ⟨v, rfl, hs⟩
    | some id =>
      rw [e] at h
      dsimp only at h ⊢
      obtain ⟨q, hq, h⟩ := bind_ok_iff.1 h
      obtain ⟨s, hp, h⟩ := bind_ok_iff.1 h
      have h := Except.ok.inj h
      subst h
      rw [show v.heap.get id = .ok q by rw [hs.heap]; exact hq]
      simp only [ok_bind]
      rw [hs.st, hp]
      exact ⟨_, rfl, hs.update _⟩
  | value z u =>
    have ho : z = x := by
      cases ho with
      | inl h => cases h
      | inr h => exact Option.some.inj h
    subst ho
    unfold SeqPlay.exec SeqPlay.setValue at h ⊢
    dsimp only at h ⊢
    rw [hs.owner]
    obtain ⟨w', h1, h⟩ := bind_ok_iff.1 h
    have h := Except.ok.inj h
    subst h
    cases e : w.links.owner z with
    | none =>
      rw [e] at h1
      have h1 := Except.ok.inj h1
      subst h1
      rw [hs.st]
      exact ⟨_, rfl, hs.update _⟩
    | some id =>
      rw [e] at h1
      dsimp only at h1 ⊢
      obtain ⟨q, hq, h1⟩ := bind_ok_iff.1 h1
      obtain ⟨s, hp, h1⟩ := bind_ok_iff.1 h1
      have h1 := Except.ok.inj h1
      subst h1
      rw [show v.heap.get id = .ok q by rw [hs.heap]; exact hq]
      simp only [ok_bind]
      rw [hs.st, hp]
      exact ⟨_, rfl, hs.update _⟩

/-- Leaving out the calls on other states. -/
theorem SeqPlay.run_alone (x : Nat) : ∀ (ops : List SeqCall) {w v : SeqPlay}
    {t : SeqPlay × List (Option SeqRet × Int)}, w.Same x v → w.run x ops = .ok t →
    ∃ v', v.run x (seqCallsFor x ops) = .ok (v', t.2) ∧ t.1.Same x v' := by
  intro ops
  induction ops with
  | nil =>
    intro w v t hs h
    have h := Except.ok.inj h
    subst h
    exact ⟨v, rfl, hs⟩
  | cons op ops ih =>
    intro w v t hs h
    unfold SeqPlay.run at h
    obtain ⟨r, h1, h⟩ := bind_ok_iff.1 h
    obtain ⟨u, h2, h⟩ := bind_ok_iff.1 h
    have h := Except.ok.inj h
    subst h
    by_cases ho : op.on = none ∨ op.on = some x
    · have hf : seqCallsFor x (op :: ops) = op :: seqCallsFor x ops := by
        unfold seqCallsFor
        rw [List.filter_cons, if_pos (by simpa using ho)]
      rw [hf]
      obtain ⟨v1, e1, s1⟩ := SeqPlay.exec_same hs h1 ho
      obtain ⟨v2, e2, s2⟩ := ih s1 h2
      unfold SeqPlay.run
      rw [e1]
      simp only [ok_bind]
      rw [e2]
      refine ⟨v2, ?_, s2⟩
      simp only [ok_bind, pure_eq_ok]
      rw [s1.st]
    · have hf : seqCallsFor x (op :: ops) = seqCallsFor x ops := by
        unfold seqCallsFor
        rw [List.filter_cons, if_neg (by simpa using ho)]
      rw [hf]
      cases e : op.on with
      | none => exact absurd (Or.inl e) ho
      | some y =>
        have hy : y ≠ x := fun c => ho (Or.inr (by rw [e, c]))
        obtain ⟨v2, e2, s2⟩ := ih ((SeqPlay.exec_other h1 e hy).symm.trans hs) h2
        refine ⟨v2, ?_, s2⟩
        rw [e2]
        have hne : ¬ (some y = some x) := fun c => hy (Option.some.inj c)
        simp only [if_neg hne]

/-! ### Computing whether calls are legal -/

/-- Legal and usual, as far as only the states `xs` are used. -/
def SeqCall.good (xs : List Nat) (w : SeqPlay) : SeqCall → Bool
  | .create _ => true
  | .dispose id => (w.heap id).isSome && xs.all fun x => w.links.owner x ≠ some id
  | .clear x => x ∈ xs && w.links.owner x = none
  | .bind x none => x ∈ xs
  | .bind x (some id) => x ∈ xs && match w.heap id with
    | none => false
    | some (.simple _) => true
    | some (.env _) => w.links.owner x = some id || w.st x = {}
  | .phase x _ => x ∈ xs
  | .step x _ => x ∈ xs
  | .value x v => x ∈ xs && match w.links.owner x with
    | none => true
    | some id => match w.heap id with
      | some (.env e) => decide (-1073741824 ≤ v * 2 ^ e.fracShift ∧ v * 2 ^ e.fracShift ≤ 1073741824)
      | _ => true

def SeqPlay.good (xs : List Nat) : SeqPlay → List SeqCall → Bool
  | _, [] => true
  | w, op :: ops => op.good xs w && match w.exec op with
    | .ok r => r.2.good xs ops
    | .error _ => true

theorem SeqCall.good_on {xs : List Nat} {w : SeqPlay} {op : SeqCall} (h : op.good xs w = true) :
    ∀ y, op.on = some y → y ∈ xs := by
  intro y hy
  cases op with
  | create _ => cases hy
  | dispose _ => cases hy
  | clear x =>
    cases hy
    simp only [SeqCall.good, Bool.and_eq_true, decide_eq_true_eq] at h; exact h.1
  | bind x t =>
    cases hy
    cases t with
    | none => simpa [SeqCall.good] using h
    | some id => simp only [SeqCall.good, Bool.and_eq_true, decide_eq_true_eq] at h; exact h.1
  | phase x _ => cases hy; simpa [SeqCall.good] using h
  | step x _ => cases hy; simpa [SeqCall.good] using h
  | value x v =>
    cases hy
    simp only [SeqCall.good, Bool.and_eq_true, decide_eq_true_eq] at h; exact h.1

theorem SeqPlay.good_run {xs : List Nat} : ∀ (ops : List SeqCall) {w : SeqPlay},
    (∀ x, x ∉ xs → w.links.owner x = none) → w.good xs ops = true →
    (∀ new, SeqCall.create new ∈ ops → new.Short ∧ new.Usual) → w.LegalRun ops ∧ w.UsualRun ops := by
  intro ops
  induction ops with
  | nil => intro w _ _ _; exact ⟨trivial, trivial⟩
  | cons op ops ih =>
    intro w ho hg hn
    simp only [SeqPlay.good, Bool.and_eq_true] at hg
    obtain ⟨h1, h2⟩ := hg
    have hon := SeqCall.good_on h1
    have hstep : ∀ r w', w.exec op = .ok (r, w') → w'.LegalRun ops ∧ w'.UsualRun ops := by
      intro r w' e
      rw [e] at h2
      refine ih ?_ h2 (fun new hm => hn new (List.mem_cons_of_mem _ hm))
      intro x hx
      cases eo : op.on with
      | some y =>
        have hy : y ≠ x := by intro c; subst c; exact hx (hon y eo)
        rw [(SeqPlay.exec_other e eo hy).owner, ho x hx]
      | none =>
        cases op with
        | create new =>
          unfold SeqPlay.exec SeqPlay.create at e
          dsimp only at e
          obtain ⟨w1, e1, e⟩ := bind_ok_iff.1 e
          cases Except.ok.inj e
          obtain ⟨q, -, e1⟩ := bind_ok_iff.1 e1
          cases q with
          | none => have e1 := Except.ok.inj e1; subst e1; exact ho x hx
          | some q => have e1 := Except.ok.inj e1; subst e1; exact ho x hx
        | dispose id =>
          unfold SeqPlay.exec SeqPlay.dispose at e
          dsimp only at e
          obtain ⟨w1, e1, e⟩ := bind_ok_iff.1 e
          cases Except.ok.inj e
          obtain ⟨q, -, e1⟩ := bind_ok_iff.1 e1
          have e1 := Except.ok.inj e1; subst e1; exact ho x hx
        | clear _ => cases eo
        | bind _ _ => cases eo
        | phase _ _ => cases eo
        | step _ _ => cases eo
        | value _ _ => cases eo
    have hlu : op.Legal w ∧ op.Usual w := by
      cases op with
      | create new => exact hn new List.mem_cons_self
      | dispose id =>
        simp only [SeqCall.good, Bool.and_eq_true, List.all_eq_true, decide_eq_true_eq] at h1
        refine ⟨⟨by intro c; rw [c] at h1; simp at h1, fun x => ?_⟩, trivial⟩
        by_cases hx : x ∈ xs
        · exact h1.2 x hx
        · rw [ho x hx]; simp
      | clear x =>
        simp only [SeqCall.good, Bool.and_eq_true, decide_eq_true_eq] at h1
        exact ⟨h1.2, trivial⟩
      | bind x t =>
        cases t with
        | none => exact ⟨trivial, trivial⟩
        | some id =>
          simp only [SeqCall.good, Bool.and_eq_true] at h1
          obtain ⟨-, h1⟩ := h1
          cases eh : w.heap id with
          | none => rw [eh] at h1; cases h1
          | some q =>
            refine ⟨by show w.heap id ≠ none; rw [eh]; simp, ?_⟩
            intro e he
            rw [he] at h1
            simpa using h1
      | phase x p => exact ⟨trivial, trivial⟩
      | step x d => exact ⟨trivial, trivial⟩
      | value x v =>
        refine ⟨trivial, ?_⟩
        intro id q h3 h4
        cases q with
        | simple q => trivial
        | env e =>
          simp only [SeqCall.good, Bool.and_eq_true] at h1
          obtain ⟨-, h1⟩ := h1
          rw [h3] at h1
          dsimp only at h1
          rw [h4] at h1
          simp only [decide_eq_true_eq] at h1
          exact h1
    exact ⟨⟨hlu.1, fun r w' e => (hstep r w' e).1⟩, ⟨hlu.2, fun r w' e => (hstep r w' e).2⟩⟩

end BK
