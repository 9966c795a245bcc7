import Verif.Lemmas.IWorld
/-!
The calls keep the invariant.
-/
namespace BK

theorem Links.owner_removeState (h : Links) (x y : Nat) :
    (h.removeState x).owner y = if y = x then none else h.owner y := by
  unfold Links.removeState
  cases e : h.owner x with
  | none =>
    dsimp only
    by_cases hy : y = x
    · subst hy; simp [e]
    · simp [hy]
  | some i =>
    dsimp only
    have : (((h.joinPrev x).joinNext x).cutFirst i x).owner = h.owner := by
      have h1 : (h.joinPrev x).owner = h.owner := by unfold Links.joinPrev; split <;> rfl
      have h2 : ((h.joinPrev x).joinNext x).owner = h.owner := by
        rw [← h1]; unfold Links.joinNext; split <;> rfl
      rw [← h2]; unfold Links.cutFirst; split <;> rfl
    rw [this]; rfl

theorem Links.owner_addState (h : Links) (x i y : Nat) (hx : h.owner x = none) :
    (h.addState x i).owner y = if y = x then some i else h.owner y := by
  unfold Links.addState
  rw [if_pos hx]
  dsimp only
  split <;> rfl

theorem IState.setSeqs_slot (x : IState) (f : Nat → Option Nat) {k : Nat} (hk : k < 4) :
    (x.setSeqs f).slots k = { x.slots k with seq := f k } := by
  show (if k < 4 then _ else _) = _
  rw [if_pos hk]

theorem IState.setSeqs_twice (x : IState) (f g : Nat → Option Nat) :
    (x.setSeqs f).setSeqs g = x.setSeqs g := by
  unfold IState.setSeqs
  congr 1
  funext k
  dsimp only
  split <;> rfl

/-- Lists after removing `x`. -/
theorem IWorld.unset_inv {B : Prop} {w : IWorld} {A : Lists} (h : w.Inv B A) (x : Nat)
    (log : List (Nat × InstrEvent)) :
    ({ w with links := w.links.removeState x
              states := upd w.states x ((w.states x).setSeqs fun _ => none), log := log } : IWorld).Inv B
      (fun d => (A d).filter (· ≠ x)) := by
  refine ⟨h.repr.removeState x, h.num, h.live, h.inj, h.noLeak, ?_, ?_⟩
  · intro y j hy
    have hy' : (w.links.removeState x).owner y = some j := hy
    rw [Links.owner_removeState] at hy'
    by_cases e : y = x
    · rw [if_pos e] at hy'; cases hy'
    · rw [if_neg e] at hy'
      show (upd w.states x _ y).Inv _ _ _
      rw [upd_ne _ _ e]; exact h.att y j hy'
  · intro y hy k hk
    have hy' : (w.links.removeState x).owner y = none := hy
    rw [Links.owner_removeState] at hy'
    show ((upd w.states x _ y).slots k).seq = none ∧ Weak B ((upd w.states x _ y).slots k).st
    by_cases e : y = x
    · subst e
      rw [upd_self, IState.setSeqs_slot _ _ hk]
      exact ⟨rfl, (h.slots y).2 k hk⟩
    · rw [if_neg e] at hy'
      rw [upd_ne _ _ e]; exact h.idle y hy' k hk

theorem IWorld.setInstrument_inv {B : Prop} {w : IWorld} {A : Lists} (h : w.Inv B A) (x i : Nat) :
    Safe B (w.setInstrument x (some i)) (fun w' =>
      w'.Inv B (fun d => if d = i then x :: (A i).filter (· ≠ x) else (A d).filter (· ≠ x)) ∧
      ∃ s, w' = { w with links := (w.links.removeState x).addState x i, states := upd w.states x s }) := by
  show Safe B (do
    let s ← (w.states x).setDefaults w.heap
    let s ← (s.setSeqs (w.instrs i).sequences).setDefaults w.heap
    IWorld.setPhase { w with links := (w.links.removeState x).addState x i, states := upd w.states x s } x .attack) _
  obtain ⟨hl, hw⟩ := h.slots x
  refine (IState.setDefaults_inv hl hw).bind ?_
  intro s1 hs1
  refine (IState.setDefaults_inv (B := B) (heap := w.heap) (x := s1.setSeqs (w.instrs i).sequences) ?_ ?_).bind ?_
  · intro k id hk e
    rw [IState.setSeqs_slot _ _ hk] at e
    obtain ⟨_, _, q, hq, _⟩ := h.live i k id e
    exact ⟨q, hq⟩
  · intro k hk
    rw [IState.setSeqs_slot _ _ hk]; exact hs1.weak k hk
  intro s2 hs2
  have hno : (w.links.removeState x).owner x = none := by rw [Links.owner_removeState, if_pos rfl]
  have hown : ∀ y, ((w.links.removeState x).addState x i).owner y = if y = x then some i else w.links.owner y := by
    intro y
    rw [Links.owner_addState _ _ _ _ hno, Links.owner_removeState]
    split <;> rfl
  have hrepr := (h.repr.removeState x).addState hno i
  have hpt : ∀ k, k < 4 → (s2.slots k).seq = (w.instrs i).sequences k := fun k hk => by
    rw [hs2.seq k hk, IState.setSeqs_slot _ _ hk]
  have hhas : s2.Has (Ready B) B w.heap (w.instrs i) :=
    ⟨hpt, hs2.weak, fun k id q hk e hq => hs2.ready k id q hk (by rw [IState.setSeqs_slot _ _ hk]; exact e) hq,
     fun k hk => hs2.val (by omega)⟩
  unfold IWorld.setPhase
  dsimp only
  rw [hown x, if_pos rfl]
  dsimp only
  rw [upd_self]
  refine (IState.setPhase_inv (h.instrOk i) hhas (p := .attack) (by simp)).bind ?_
  rintro r ⟨h1, h2⟩
  obtain ⟨y, hy, h3, -⟩ := h2.go
  have hr1 : r.1 = [] := by rw [h3 rfl]
  refine Safe.ok ?_
  have e : upd (upd w.states x s2) x r.2 = upd w.states x r.2 := by
    funext z
    by_cases hz : z = x
    · subst hz; rw [upd_self, upd_self]
    · rw [upd_ne _ _ hz, upd_ne _ _ hz, upd_ne _ _ hz]
  rw [e, hr1]
  simp only [List.map_nil, List.append_nil]
  refine ⟨⟨hrepr, h.num, h.live, h.inj, h.noLeak, ?_, ?_⟩, r.2, rfl⟩
  · intro z j hz
    have hz' : ((w.links.removeState x).addState x i).owner z = some j := hz
    rw [hown] at hz'
    show (upd w.states x r.2 z).Inv _ _ _
    by_cases ez : z = x
    · subst ez
      rw [if_pos rfl] at hz'
      cases hz'
      rw [upd_self]; exact h1
    · rw [if_neg ez] at hz'
      rw [upd_ne _ _ ez]; exact h.att z j hz'
  · intro z hz
    have hz' : ((w.links.removeState x).addState x i).owner z = none := hz
    rw [hown] at hz'
    by_cases ez : z = x
    · rw [if_pos ez] at hz'; cases hz'
    · rw [if_neg ez] at hz'
      show ∀ k, k < 4 → ((upd w.states x r.2 z).slots k).seq = none ∧ Weak B ((upd w.states x r.2 z).slots k).st
      rw [upd_ne _ _ ez]; exact h.idle z hz'

/-! ### Detaching all states -/

theorem filter_head {x : Nat} {r : List Nat} (h : (x :: r).Nodup) : (x :: r).filter (· ≠ x) = r := by
  rw [List.filter_cons_of_neg (by simp)]
  refine List.filter_eq_self.2 fun y hy => ?_
  have := (List.nodup_cons.1 h).1
  simp only [ne_eq, decide_not, Bool.not_eq_eq_eq_not, Bool.not_true, decide_eq_false_iff_not]
  intro e; subst e; exact this hy

theorem Links.removeState_none {h : Links} {x : Nat} (e : h.owner x = none) : h.removeState x = h := by
  unfold Links.removeState; rw [e]

theorem IWorld.disposeBody_eq (w : IWorld) (x : Nat) :
    w.disposeBody x = .ok { w with links := w.links.removeState x
                                   states := upd w.states x ((w.states x).setSeqs fun _ => none)
                                   log := w.log ++ [(x, InstrEvent.dispose)] } := by
  unfold IWorld.disposeBody IWorld.setInstrument
  simp only [ok_bind]
  rw [Links.removeState_none (h := w.links.removeState x) (by rw [Links.owner_removeState, if_pos rfl])]
  congr 2
  funext z
  by_cases hz : z = x
  · subst hz; rw [upd_self, upd_self, IState.setSeqs_twice]
  · rw [upd_ne _ _ hz, upd_ne _ _ hz]

/-- All states after detaching the list `l`. -/
structure Detached (i : Nat) (l : List Nat) (w w' : IWorld) : Prop where
  instrs : w'.instrs = w.instrs
  heap : w'.heap = w.heap
  fresh : w'.fresh = w.fresh
  log : w'.log = w.log ++ l.map fun x => (x, InstrEvent.dispose)
  owner : ∀ y, w'.links.owner y = if y ∈ l then none else w.links.owner y
  states : ∀ y, w'.states y = if y ∈ l then (w.states y).setSeqs (fun _ => none) else w.states y

theorem IWorld.detach_aux {B : Prop} (i : Nat) : ∀ (r : List Nat) (fuel : Nat) (w : IWorld) (A : Lists),
    w.Inv B A → A i = r → r.length ≤ fuel →
    ∃ w' A', IWorld.forBefore IWorld.disposeBody fuel w r.head? = .ok w' ∧ w'.Inv B A' ∧ A' i = [] ∧
      (∀ d, d ≠ i → A' d = A d) ∧ Detached i r w w' := by
  intro r
  induction r with
  | nil =>
    intro fuel w A h hA _
    refine ⟨w, A, by cases fuel <;> rfl, h, hA, fun _ _ => rfl, rfl, rfl, rfl, by simp, by simp, by simp⟩
  | cons x r ih =>
    intro fuel w A h hA hf
    cases fuel with
    | zero => simp at hf
    | succ fuel =>
      have hnd := h.repr.nodup i
      rw [hA] at hnd
      have hxr : x ∉ r := (List.nodup_cons.1 hnd).1
      have hsp := (h.repr.split (l := []) (n := x) (r := r) (c := i) (by rw [hA]; rfl)).2
      have hinv := IWorld.unset_inv h x (w.log ++ [(x, InstrEvent.dispose)])
      obtain ⟨w', A', e, h1, h2, h3, h4⟩ := ih fuel _ _ hinv (by show (A i).filter _ = r; rw [hA]; exact filter_head hnd)
        (by simpa using hf)
      refine ⟨w', A', ?_, h1, h2, ?_, ?_⟩
      · show (do let w' ← w.disposeBody x; IWorld.forBefore IWorld.disposeBody fuel w' (w.links.next x)) = _
        rw [IWorld.disposeBody_eq, hsp]
        exact e
      · intro d hd
        rw [h3 d hd]
        refine List.filter_eq_self.2 fun y hy => ?_
        simp only [ne_eq, decide_not, Bool.not_eq_eq_eq_not, Bool.not_true, decide_eq_false_iff_not]
        intro e; subst e
        have e1 := (h.repr.owner y d).2 hy
        have e2 := (h.repr.owner y i).2 (by rw [hA]; simp)
        rw [e1] at e2; cases e2; exact hd rfl
      · refine ⟨h4.instrs, h4.heap, h4.fresh, ?_, ?_, ?_⟩
        · rw [h4.log]; simp
        · intro y
          rw [h4.owner]
          show (if y ∈ r then none else (w.links.removeState x).owner y) = _
          rw [Links.owner_removeState]
          by_cases e1 : y = x <;> by_cases e2 : y ∈ r <;> simp [e1, e2]
        · intro y
          rw [h4.states]
          show (if y ∈ r then (upd w.states x ((w.states x).setSeqs fun _ => none) y).setSeqs _ else
            upd w.states x ((w.states x).setSeqs fun _ => none) y) = _
          by_cases e1 : y = x
          · subst e1
            rw [upd_self, if_neg hxr, if_pos (by simp)]
          · rw [upd_ne _ _ e1]
            by_cases e2 : y ∈ r <;> simp [e1, e2]

theorem IWorld.detach_inv {B : Prop} {w : IWorld} {A : Lists} (h : w.Inv B A) (i fuel : Nat)
    (hf : (A i).length ≤ fuel) :
    ∃ w' A', w.detach fuel i = .ok w' ∧ w'.Inv B A' ∧ A' i = [] ∧ (∀ d, d ≠ i → A' d = A d) ∧
      Detached i (A i) w w' := by
  unfold IWorld.detach
  rw [h.repr.first]
  exact IWorld.detach_aux i (A i) fuel w A h rfl hf

/-! ### Disposing -/

theorem IState.Inv.heapCongr {B : Prop} {heap heap' : SeqHeap} {ins : Instr} {x : IState}
    (h : x.Inv B heap ins) (e : ∀ k id, k < 4 → ins.sequences k = some id → heap' id = heap id) :
    x.Inv B heap' ins :=
  ⟨⟨h.has.pt, h.has.weak, fun k id q hk e1 e2 => h.has.slot k id q hk e1 (by rw [← e k id hk e1]; exact e2),
    fun k hk => ⟨(h.has.val k hk).1, fun id q e1 e2 => (h.has.val k hk).2.1 id q e1
      (by rw [← e k id (by omega) (by rw [← h.has.pt k (by omega)]; exact e1)]; exact e2),
      fun id q e1 e2 => (h.has.val k hk).2.2 id q e1
      (by rw [← e k id (by omega) (by rw [← h.has.pt k (by omega)]; exact e1)]; exact e2)⟩⟩, h.cnt⟩

theorem freeAll {f : Nat → Option Nat} : ∀ (l : List Nat),
    l.Nodup → (∀ k ∈ l, ∀ m ∈ l, ∀ id, f k = some id → f m = some id → k = m) →
    ∀ heap : SeqHeap, (∀ k ∈ l, ∀ id, f k = some id → heap id ≠ none) →
    ∃ heap' : SeqHeap, l.foldlM (fun h k => SeqHeap.freeOpt h (f k)) heap = .ok heap' ∧
      (∀ k ∈ l, ∀ id, f k = some id → heap' id = none) ∧
      (∀ id, (∀ k ∈ l, f k ≠ some id) → heap' id = heap id) := by
  intro l
  induction l with
  | nil => intro _ _ heap _; exact ⟨heap, rfl, by simp, by simp⟩
  | cons k l ih =>
    intro hnd hinj heap hlive
    have hkl := (List.nodup_cons.1 hnd).1
    have ih' := ih (List.nodup_cons.1 hnd).2 (fun a ha b hb => hinj a (by simp [ha]) b (by simp [hb]))
    rw [List.foldlM_cons]
    cases e : f k with
    | none =>
      obtain ⟨heap', h1, h2, h3⟩ := ih' heap (fun a ha => hlive a (by simp [ha]))
      refine ⟨heap', by rw [show SeqHeap.freeOpt heap none = .ok heap from rfl]; exact h1, ?_, ?_⟩
      · intro m hm id hid
        rcases List.mem_cons.1 hm with rfl | hm
        · rw [e] at hid; cases hid
        · exact h2 m hm id hid
      · intro id hid; exact h3 id fun m hm => hid m (by simp [hm])
    | some id0 =>
      have hl0 := hlive k (by simp) id0 e
      obtain ⟨q, hq⟩ := Option.ne_none_iff_exists'.1 hl0
      have e1 : SeqHeap.freeOpt heap (some id0) = .ok (upd heap id0 none) := by
        show SeqHeap.free heap id0 = _
        unfold SeqHeap.free; rw [hq]
      have hne : ∀ a ∈ l, ∀ id, f a = some id → id ≠ id0 := by
        intro a ha id hid e2
        subst e2
        have := hinj a (by simp [ha]) k (by simp) _ hid e
        subst this; exact hkl ha
      obtain ⟨heap', h1, h2, h3⟩ := ih' (upd heap id0 none) (fun a ha id hid => by
        rw [upd_ne _ _ (hne a ha id hid)]; exact hlive a (by simp [ha]) id hid)
      refine ⟨heap', by rw [e1]; exact h1, ?_, ?_⟩
      · intro m hm id hid
        rcases List.mem_cons.1 hm with rfl | hm
        · rw [e] at hid; cases hid
          rw [h3 id0 fun m hm e2 => hne m hm _ e2 rfl, upd_self]
        · exact h2 m hm id hid
      · intro id hid
        rw [h3 id fun m hm => hid m (by simp [hm])]
        exact upd_ne _ _ fun e2 => hid k (by simp) (by rw [e2]; exact e)

/-- Everything after disposing instrument `i`. -/
structure Disposed (i : Nat) (l : List Nat) (w w' : IWorld) : Prop where
  gone : w'.instrs i = {}
  others : ∀ j, j ≠ i → w'.instrs j = w.instrs j
  freed : ∀ k id, (w.instrs i).sequences k = some id → w'.heap id = none
  kept : ∀ id, (∀ k, (w.instrs i).sequences k ≠ some id) → w'.heap id = w.heap id
  log : w'.log = w.log ++ l.map fun x => (x, InstrEvent.dispose)
  owner : ∀ y, w'.links.owner y = if y ∈ l then none else w.links.owner y
  states : ∀ y, w'.states y = if y ∈ l then (w.states y).setSeqs (fun _ => none) else w.states y

theorem IWorld.dispose_inv {B : Prop} {w : IWorld} {A : Lists} (h : w.Inv B A) (i fuel : Nat)
    (hf : (A i).length ≤ fuel) :
    ∃ w' A', w.dispose fuel i = .ok w' ∧ w'.Inv B A' ∧ A' i = [] ∧ (∀ d, d ≠ i → A' d = A d) ∧
      Disposed i (A i) w w' := by
  obtain ⟨w1, A', e1, h1, h2, h3, h4⟩ := IWorld.detach_inv h i fuel hf
  have hl4 : ∀ k id, (w1.instrs i).sequences k = some id → k ∈ [0, 1, 2, 3] := by
    intro k id e
    have := (h1.live i k id e).1
    have : k = 0 ∨ k = 1 ∨ k = 2 ∨ k = 3 := by omega
    rcases this with rfl | rfl | rfl | rfl <;> simp
  obtain ⟨heap', h5, h6, h7⟩ := freeAll (f := (w1.instrs i).sequences) [0, 1, 2, 3] (by decide)
    (fun k _ m _ id ek em => (h1.inj i k i m id ek em).2) w1.heap
    (fun k _ id ek => by obtain ⟨_, _, q, hq, _⟩ := h1.live i k id ek; rw [hq]; simp)
  have hother : ∀ j k id, j ≠ i → (w1.instrs j).sequences k = some id → heap' id = w1.heap id := by
    intro j k id hj e
    exact h7 id fun m _ em => hj (h1.inj j k i m id e em).1
  refine ⟨{ w1 with heap := heap', instrs := upd w1.instrs i {} }, A', ?_, ?_, h2, h3, ?_⟩
  · unfold IWorld.dispose
    rw [e1]
    simp only [ok_bind]
    rw [h5]; rfl
  · have hsel : ∀ j, j ≠ i → (upd w1.instrs i ({} : Instr)) j = w1.instrs j := fun j hj => upd_ne _ _ hj
    have hi0 : ∀ k id, (upd w1.instrs i ({} : Instr) i).sequences k ≠ some id := by
      intro k id e; rw [upd_self] at e; cases e
    refine ⟨h1.repr, ?_, ?_, ?_, ?_, ?_, h1.idle⟩
    · intro j
      by_cases hj : j = i
      · subst hj
        show (upd w1.instrs j ({} : Instr) j).numSequences = numSeqs (upd w1.instrs j ({} : Instr) j).sequences
        rw [upd_self]; rfl
      · show (upd w1.instrs i ({} : Instr) j).numSequences = numSeqs (upd w1.instrs i ({} : Instr) j).sequences
        rw [hsel j hj]; exact h1.num j
    · intro j k id e
      have e : (upd w1.instrs i ({} : Instr) j).sequences k = some id := e
      by_cases hj : j = i
      · subst hj; exact absurd e (hi0 k id)
      · rw [hsel j hj] at e
        obtain ⟨ha, hb, q, hq, hok⟩ := h1.live j k id e
        refine ⟨ha, hb, q, ?_, hok⟩
        show heap' id = some q
        rw [hother j k id hj e]; exact hq
    · intro j k m l id ek em
      have ek : (upd w1.instrs i ({} : Instr) j).sequences k = some id := ek
      have em : (upd w1.instrs i ({} : Instr) m).sequences l = some id := em
      by_cases hj : j = i
      · subst hj; exact absurd ek (hi0 k id)
      · by_cases hm : m = i
        · subst hm; exact absurd em (hi0 l id)
        · rw [hsel j hj] at ek
          rw [hsel m hm] at em
          exact h1.inj j k m l id ek em
    · intro id hid
      have hid : heap' id ≠ none := hid
      have hno : ∀ k ∈ [0, 1, 2, 3], (w1.instrs i).sequences k ≠ some id := fun k hk ek => hid (h6 k hk id ek)
      rw [h7 id hno] at hid
      obtain ⟨j, k, e⟩ := h1.noLeak id hid
      have hj : j ≠ i := by
        intro hj; subst hj
        exact hno k (hl4 k id e) e
      refine ⟨j, k, ?_⟩
      show (upd w1.instrs i ({} : Instr) j).sequences k = some id
      rw [hsel j hj]; exact e
    · intro y j hy
      have hj : j ≠ i := by
        intro hj; subst hj
        have := (h1.repr.owner y j).1 hy
        rw [h2] at this; simp at this
      show (w1.states y).Inv B heap' (upd w1.instrs i ({} : Instr) j)
      rw [hsel j hj]
      exact (h1.att y j hy).heapCongr fun k id _ e => hother j k id hj e
  · refine ⟨upd_self _ _ _, ?_, ?_, ?_, h4.log, h4.owner, h4.states⟩
    · intro j hj
      show upd w1.instrs i ({} : Instr) j = _
      rw [upd_ne _ _ hj, h4.instrs]
    · intro k id e
      rw [← h4.instrs] at e
      exact h6 k (hl4 k id e) id e
    · intro id hid
      show heap' id = _
      rw [← h4.heap]
      refine h7 id fun k _ => ?_
      rw [h4.instrs]; exact hid k

/-! ### Replacing a sequence -/

theorem mem_append_single {l : List Nat} {x y : Nat} : y ∈ l ++ [x] ↔ y ∈ l ∨ y = x := by simp

theorem IWorld.pointLoop {w : IWorld} {A : Lists} (hr : w.links.HRepr A) (i fuel slot : Nat) (id : Option Nat)
    (hf : (A i).length ≤ fuel) :
    IWorld.forAfter (IWorld.pointBody slot id) fuel w (w.links.first i) =
      .ok { w with states := fun y => if y ∈ A i then
              (w.states y).setSlot slot { (w.states y).slots slot with seq := id } else w.states y } := by
  have key := forAfter_inv (B := True) (body := IWorld.pointBody slot id) hr i
    (fun l w' => w' = { w with states := fun y => if y ∈ l then
              (w.states y).setSlot slot { (w.states y).slots slot with seq := id } else w.states y })
    ?_ (A i) [] fuel w rfl hf rfl (by simp)
  · rw [← hr.first] at key
    obtain ⟨a, ha, -, rfl⟩ := key.get trivial
    exact ha
  · intro l x r w' hA _ hI
    subst hI
    have hnd := hr.nodup i
    rw [hA] at hnd
    have hxl : x ∉ l := fun e => (List.nodup_append.1 hnd).2.2 x e x (by simp) rfl
    refine Safe.ok ⟨rfl, ?_⟩
    dsimp only
    rw [if_neg hxl]
    congr 1
    funext y
    by_cases hy : y = x
    · subst hy
      rw [upd_self, if_pos (by simp)]
    · rw [upd_ne _ _ hy]
      by_cases hyl : y ∈ l <;> simp [hyl, hy]

theorem IWorld.resetLoop {w : IWorld} {A : Lists} (hr : w.links.HRepr A) (i fuel : Nat)
    (hf : (A i).length ≤ fuel) :
    IWorld.forBefore IWorld.resetBody fuel w (w.links.first i) =
      .ok { w with log := w.log ++ (A i).map fun x => (x, InstrEvent.reset) } := by
  have key := forBefore_inv (B := True) (body := IWorld.resetBody) hr i
    (fun l w' => w' = { w with log := w.log ++ l.map fun x => (x, InstrEvent.reset) })
    ?_ (A i) [] fuel w rfl hf rfl (by simp)
  · rw [← hr.first] at key
    obtain ⟨a, ha, -, rfl⟩ := key.get trivial
    exact ha
  · intro l x r w' hA _ hI
    subst hI
    exact Safe.ok ⟨rfl, by simp⟩

/-- Everything after replacing a sequence of instrument `i`; `l`: the states using it. -/
structure Replaced (i slot : Nat) (q : Option Sequence) (l : List Nat) (w w' : IWorld) : Prop where
  links : w'.links = w.links
  seqs : ∀ k, k ≠ slot → (w'.instrs i).sequences k = (w.instrs i).sequences k
  others : ∀ j, j ≠ i → w'.instrs j = w.instrs j
  new : match q with
    | none => (w'.instrs i).sequences slot = none
    | some q => ∃ id, (w'.instrs i).sequences slot = some id ∧ w'.heap id = some q ∧ w.heap id = none
  kept : ∀ j k id, (j, k) ≠ (i, slot) → (w.instrs j).sequences k = some id → w'.heap id = w.heap id
  freed : ∀ id, (w.instrs i).sequences slot = some id → w'.heap id = none
  states : ∀ y, y ∉ l → w'.states y = w.states y
  muted : ∀ y ∈ l, (w'.states y).phase = .mute
  log : w'.log = w.log ++ ((l.filter fun y => (w.states y).phase ≠ .mute).map fun y => (y, InstrEvent.mute)) ++
    l.map fun y => (y, InstrEvent.reset)

theorem IWorld.replace_inv {B : Prop} {w : IWorld} {A : Lists} (h : w.Inv B A) (i slot fuel : Nat)
    (q : Option Sequence) (hs : slot < 4) (hq : ∀ q', q = some q' → q'.Ok B) (hf : (A i).length ≤ fuel) :
    Safe B (w.replace fuel i slot q) (fun w' => w'.Inv B A ∧ Replaced i slot q (A i) w w') := by
  -- the new sequence
  obtain ⟨id, heap0, fresh0, hst, hle, hheap0, hnew⟩ : ∃ id heap0 fresh0,
      w.store q = (id, { w with heap := heap0, fresh := fresh0 }) ∧ w.fresh ≤ fresh0 ∧
      (∀ n, n < w.fresh → heap0 n = w.heap n) ∧
      (match q with
        | none => id = none ∧ heap0 = w.heap
        | some q => id = some w.fresh ∧ w.fresh < fresh0 ∧ heap0 = upd w.heap w.fresh (some q)) := by
    cases q with
    | none => exact ⟨none, w.heap, w.fresh, rfl, Nat.le_refl _, fun _ _ => rfl, rfl, rfl⟩
    | some q =>
      exact ⟨some w.fresh, upd w.heap w.fresh (some q), w.fresh + 1, rfl, by omega,
        fun n hn => upd_ne _ _ (by omega), rfl, by omega, rfl⟩
  have hfresh : w.heap w.fresh = none := by
    cases e : w.heap w.fresh with
    | none => rfl
    | some q =>
      obtain ⟨j, k, e2⟩ := h.noLeak w.fresh (by rw [e]; simp)
      have := (h.live j k _ e2).2.1
      omega
  -- freeing the old one
  obtain ⟨heap1, hfree, hold, hkeep⟩ : ∃ heap1, SeqHeap.freeOpt heap0 ((w.instrs i).sequences slot) = .ok heap1 ∧
      (∀ n, (w.instrs i).sequences slot = some n → heap1 n = none) ∧
      (∀ n, (w.instrs i).sequences slot ≠ some n → heap1 n = heap0 n) := by
    cases e : (w.instrs i).sequences slot with
    | none => exact ⟨heap0, rfl, by simp, fun _ _ => rfl⟩
    | some n =>
      obtain ⟨_, hlt, q', hq', _⟩ := h.live i slot n e
      refine ⟨upd heap0 n none, ?_, ?_, ?_⟩
      · show SeqHeap.free heap0 n = _
        unfold SeqHeap.free
        rw [hheap0 n hlt, hq']
      · intro m hm; cases hm; exact upd_self _ _ _
      · intro m hm; exact upd_ne _ _ fun e => hm (by rw [e])
  let ins1 : Instr := ((w.instrs i).setSeq slot id).updateNum
  have hins_ne : ∀ k, k ≠ slot → ins1.sequences k = (w.instrs i).sequences k := fun k hk => upd_ne _ _ hk
  have hins_eq : ins1.sequences slot = id := upd_self (w.instrs i).sequences slot id
  have hoks : ∀ n, id = some n → n = w.fresh ∧ w.fresh < fresh0 ∧ ∃ q', q = some q' ∧ heap1 n = some q' ∧ q'.Ok B := by
    intro n hn
    cases q with
    | none => rw [hnew.1] at hn; cases hn
    | some q =>
      obtain ⟨e1, e2, e3⟩ := hnew
      rw [e1] at hn
      cases hn
      refine ⟨rfl, e2, q, rfl, ?_, hq q rfl⟩
      rw [hkeep w.fresh, e3, upd_self]
      intro e
      have := (h.live i slot _ e).2.1
      omega
  have hother : ∀ j k n, (j, k) ≠ (i, slot) → (w.instrs j).sequences k = some n → heap1 n = w.heap n := by
    intro j k n hjk e
    rw [hkeep n, hheap0 n (h.live j k n e).2.1]
    intro e2
    obtain ⟨rfl, rfl⟩ := h.inj j k i slot n e e2
    exact hjk rfl
  have hlive1 : ∀ k n, ins1.sequences k = some n → k < 4 ∧ n < fresh0 ∧ ∃ q, heap1 n = some q ∧ q.Ok B := by
    intro k n e
    by_cases hk : k = slot
    · subst hk
      rw [hins_eq] at e
      obtain ⟨rfl, h2, q', _, h4, h5⟩ := hoks n e
      exact ⟨hs, h2, q', h4, h5⟩
    · rw [hins_ne k hk] at e
      obtain ⟨ha, hb, q', hc, hd⟩ := h.live i k n e
      exact ⟨ha, by omega, q', by rw [hother i k n (by simp [hk]) e]; exact hc, hd⟩
  have hok1 : ins1.Ok B heap1 := ⟨rfl, fun k n _ e => (hlive1 k n e).2.2⟩
  unfold IWorld.replace
  rw [hst]
  simp only
  rw [hfree]
  simp only [ok_bind]
  rw [IWorld.pointLoop (w := { w with heap := heap1, fresh := fresh0, instrs := upd w.instrs i ((w.instrs i).setSeq slot id) })
    (A := A) h.repr i fuel slot id hf]
  simp only [ok_bind]
  have eins : upd (upd w.instrs i ((w.instrs i).setSeq slot id)) i
      (upd w.instrs i ((w.instrs i).setSeq slot id) i).updateNum = upd w.instrs i ins1 := by
    rw [upd_self]
    funext j
    by_cases hj : j = i
    · subst hj; rw [upd_self, upd_self]
    · rw [upd_ne _ _ hj, upd_ne _ _ hj, upd_ne _ _ hj]
  rw [eins]
  have key := forAfter_inv (B := B) (body := IWorld.muteBody) (L := w.links) (A := A) h.repr i
    (fun l w' => ∃ S, w' = { w with
        heap := heap1, fresh := fresh0, instrs := upd w.instrs i ins1, states := S
        log := w.log ++ ((l.filter fun y => (w.states y).phase ≠ .mute).map fun y => (y, InstrEvent.mute)) } ∧
      (∀ y, y ∉ l → S y = if y ∈ A i then
              (w.states y).setSlot slot { (w.states y).slots slot with seq := id } else w.states y) ∧
      ∀ y ∈ l, (S y).Inv B heap1 ins1 ∧ (S y).phase = .mute)
    ?_ (A i) [] fuel { w with heap := heap1, fresh := fresh0, instrs := upd w.instrs i ins1
                              states := fun y => if y ∈ A i then
                                (w.states y).setSlot slot { (w.states y).slots slot with seq := id }
                                else w.states y } rfl hf rfl ⟨_, by simp, fun y _ => rfl, by simp⟩
  · rw [← h.repr.first] at key
    refine key.bind ?_
    rintro w3 ⟨-, S, rfl, hS1, hS2⟩
    rw [IWorld.resetLoop (w := { w with
        heap := heap1, fresh := fresh0, instrs := upd w.instrs i ins1, states := S
        log := w.log ++ (((A i).filter fun y => (w.states y).phase ≠ .mute).map fun y =>
          (y, InstrEvent.mute)) }) (A := A) h.repr i fuel hf]
    have hsel : ∀ j, j ≠ i → (upd w.instrs i ins1) j = w.instrs j := fun j hj => upd_ne _ _ hj
    have hseli : (upd w.instrs i ins1) i = ins1 := upd_self _ _ _
    refine Safe.ok ⟨⟨h.repr, ?_, ?_, ?_, ?_, ?_, ?_⟩, ⟨rfl, ?_, hsel, ?_, hother, hold, ?_, fun y hy => (hS2 y hy).2, rfl⟩⟩
    · intro j
      show (upd w.instrs i ins1 j).numSequences = numSeqs (upd w.instrs i ins1 j).sequences
      by_cases hj : j = i
      · subst hj; rw [hseli]; rfl
      · rw [hsel j hj]; exact h.num j
    · intro j k n e
      have e : (upd w.instrs i ins1 j).sequences k = some n := e
      by_cases hj : j = i
      · subst hj; rw [hseli] at e; exact hlive1 k n e
      · rw [hsel j hj] at e
        obtain ⟨ha, hb, q', hc, hd⟩ := h.live j k n e
        exact ⟨ha, Nat.lt_of_lt_of_le hb hle, q', by rw [← hc]; exact hother j k n (by simp [hj]) e, hd⟩
    · intro j k m l n ek em
      have ek : (upd w.instrs i ins1 j).sequences k = some n := ek
      have em : (upd w.instrs i ins1 m).sequences l = some n := em
      -- a pointer in the new instruments is an old one or the fresh one
      have cls : ∀ j k, (upd w.instrs i ins1 j).sequences k = some n →
          ((w.instrs j).sequences k = some n ∧ n < w.fresh) ∨ (j = i ∧ k = slot ∧ n = w.fresh) := by
        intro j k e
        by_cases hj : j = i
        · subst hj
          rw [hseli] at e
          by_cases hk : k = slot
          · subst hk
            rw [hins_eq] at e
            exact .inr ⟨rfl, rfl, (hoks n e).1⟩
          · rw [hins_ne k hk] at e
            exact .inl ⟨e, (h.live j k n e).2.1⟩
        · rw [hsel j hj] at e
          exact .inl ⟨e, (h.live j k n e).2.1⟩
      rcases cls j k ek with ⟨a1, a2⟩ | ⟨rfl, rfl, a3⟩ <;> rcases cls m l em with ⟨b1, b2⟩ | ⟨rfl, rfl, b3⟩
      · exact h.inj j k m l n a1 b1
      · omega
      · omega
      · exact ⟨rfl, rfl⟩
    · intro n hn
      have hn : heap1 n ≠ none := hn
      by_cases en : id = some n
      · exact ⟨i, slot, by show (upd w.instrs i ins1 i).sequences slot = _; rw [hseli, hins_eq, en]⟩
      · have hno : (w.instrs i).sequences slot ≠ some n := fun e => hn (hold n e)
        rw [hkeep n hno] at hn
        have hn' : w.heap n ≠ none := by
          cases q with
          | none => rw [hnew.2] at hn; exact hn
          | some q =>
            obtain ⟨e1, _, e3⟩ := hnew
            rw [e3, upd_ne _ _ (fun e => en (by rw [e1, e]))] at hn
            exact hn
        obtain ⟨j, k, e⟩ := h.noLeak n hn'
        refine ⟨j, k, ?_⟩
        show (upd w.instrs i ins1 j).sequences k = _
        by_cases hj : j = i
        · subst hj
          rw [hseli]
          by_cases hk : k = slot
          · subst hk; exact absurd e hno
          · rw [hins_ne k hk]; exact e
        · rw [hsel j hj]; exact e
    · intro y j hy
      have hmem := (h.repr.owner y j).1 hy
      show (S y).Inv B heap1 (upd w.instrs i ins1 j)
      by_cases hj : j = i
      · subst hj
        rw [hseli]; exact (hS2 y hmem).1
      · rw [hsel j hj]
        have hyi : y ∉ A i := fun hm => by
          have := (h.repr.owner y i).2 hm
          have hy' : w.links.owner y = some j := hy
          rw [this] at hy'; cases hy'; exact hj rfl
        rw [hS1 y hyi, if_neg hyi]
        exact (h.att y j hy).heapCongr fun k n _ e => hother j k n (by simp [hj]) e
    · intro y hy
      have hyi : y ∉ A i := fun hm => by
        have := (h.repr.owner y i).2 hm
        have hy' : w.links.owner y = none := hy
        rw [this] at hy'; cases hy'
      show ∀ k, k < 4 → ((S y).slots k).seq = none ∧ Weak B ((S y).slots k).st
      rw [hS1 y hyi, if_neg hyi]
      exact h.idle y hy
    · intro k hk
      show (upd w.instrs i ins1 i).sequences k = _
      rw [hseli]; exact hins_ne k hk
    · cases q with
      | none =>
        show (upd w.instrs i ins1 i).sequences slot = _
        rw [hseli, hins_eq]; exact hnew.1
      | some q =>
        refine ⟨w.fresh, ?_, ?_, hfresh⟩
        · show (upd w.instrs i ins1 i).sequences slot = _
          rw [hseli, hins_eq]; exact hnew.1
        · obtain ⟨_, _, q', e1, e2, _⟩ := hoks _ hnew.1
          cases e1; exact e2
    · intro y hy
      show S y = _
      rw [hS1 y hy, if_neg hy]
  · rintro l x r w' hA - ⟨S, rfl, hS1, hS2⟩
    have hnd := h.repr.nodup i
    rw [hA] at hnd
    have hxl : x ∉ l := fun e => (List.nodup_append.1 hnd).2.2 x e x (by simp) rfl
    have hxA : x ∈ A i := by rw [hA]; simp
    have hox := (h.repr.owner x i).2 hxA
    have hSx := hS1 x hxl
    rw [if_pos hxA] at hSx
    have hpt : ∀ k, k < 4 → ((S x).slots k).seq = ins1.sequences k := by
      intro k hk
      rw [hSx]
      by_cases hks : k = slot
      · subst hks
        rw [show ((w.states x).setSlot k { (w.states x).slots k with seq := id }).slots k = { (w.states x).slots k with seq := id } from upd_self (w.states x).slots k _]
        exact hins_eq.symm
      · rw [show ((w.states x).setSlot slot { (w.states x).slots slot with seq := id }).slots k = (w.states x).slots k from upd_ne _ _ hks]
        rw [hins_ne k hks]; exact (h.att x i hox).has.pt k hk
    have hwk : ∀ k, k < 4 → Weak B ((S x).slots k).st := by
      intro k hk
      rw [hSx]
      by_cases hks : k = slot
      · subst hks
        rw [show ((w.states x).setSlot k { (w.states x).slots k with seq := id }).slots k = { (w.states x).slots k with seq := id } from upd_self (w.states x).slots k _]
        exact (h.att x i hox).has.weak k hk
      · rw [show ((w.states x).setSlot slot { (w.states x).slots slot with seq := id }).slots k = (w.states x).slots k from upd_ne _ _ hks]
        exact (h.att x i hox).has.weak k hk
    have hph : (S x).phase = (w.states x).phase := by rw [hSx]; rfl
    unfold IWorld.muteBody
    dsimp only
    refine (IState.setDefaults_inv (B := B) (heap := heap1) (x := S x) ?_ hwk).bind ?_
    · intro k n hk e
      rw [hpt k hk] at e
      obtain ⟨_, _, q', h1, _⟩ := hlive1 k n e
      exact ⟨q', h1⟩
    intro s hs1
    unfold IWorld.setPhase
    dsimp only
    rw [hox]
    dsimp only
    rw [upd_self, upd_self]
    have hhas : s.Has (Ready B) B heap1 ins1 :=
      ⟨fun k hk => by rw [hs1.seq k hk]; exact hpt k hk, hs1.weak,
       fun k n q' hk e hq' => hs1.ready k n q' hk (by rw [hpt k hk]; exact e) hq',
       fun k hk => hs1.val (by omega)⟩
    refine (IState.setPhase_inv hok1 hhas (p := .mute) (by simp)).bind ?_
    rintro t ⟨h1, h2⟩
    obtain ⟨h3, h4⟩ := h2.mute rfl
    have e : upd (upd S x s) x t.2 = upd S x t.2 := by
      funext z
      by_cases hz : z = x
      · subst hz; rw [upd_self, upd_self]
      · rw [upd_ne _ _ hz, upd_ne _ _ hz, upd_ne _ _ hz]
    refine Safe.ok ⟨rfl, upd S x t.2, ?_, ?_, ?_⟩
    · rw [e, h4, hs1.phase, hph]
      congr 1
      rw [List.append_assoc, List.filter_append, List.map_append]
      by_cases hm : (w.states x).phase = .mute <;> simp [hm]
    · intro y hy
      rw [mem_append_single, not_or] at hy
      rw [upd_ne _ _ hy.2]; exact hS1 y hy.1
    · intro y hy
      by_cases hyx : y = x
      · subst hyx; rw [upd_self]; exact ⟨h1, h3⟩
      · rw [upd_ne _ _ hyx]
        rcases mem_append_single.1 hy with hy | hy
        · exact hS2 y hy
        · exact absurd hy hyx

/-! ### Any call, any sequence of calls -/

theorem IWorld.setSequence_inv {B : Prop} {w : IWorld} {A : Lists} (h : w.Inv B A) (i slot fuel : Nat)
    (new : NewSeq) (hs : new.Short) (hu : B → new.Usual) (hf : (A i).length ≤ fuel) :
    Safe B (w.setSequence fuel i slot new) (fun r => r.2.Inv B A) := by
  unfold IWorld.setSequence
  split
  · rename_i hlt
    refine (NewSeq.create_inv hs hu).bind ?_
    intro r hr
    cases r with
    | none => exact Safe.ok h
    | some q =>
      refine (IWorld.replace_inv h i slot fuel q hlt (fun q' e => hr q' (by rw [e])) hf).bind ?_
      rintro w' ⟨h1, -⟩
      exact Safe.ok h1
  · exact Safe.ok h

theorem IWorld.DutyFits.congr {w w' : IWorld} {i : Nat} {d : Int} (h : w.DutyFits i d)
    (e1 : w'.instrs = w.instrs) (e2 : w'.heap = w.heap) : w'.DutyFits i d := by
  intro id q h1 h2
  rw [e1] at h1; rw [e2] at h2
  exact h id q h1 h2

theorem IWorld.trackSetInstrument_inv {B : Prop} {w : IWorld} {A : Lists} (h : w.Inv B A) (x : Nat)
    (i : Option Nat) (playing : Bool) (duty : Int) (hu : B → ∀ j, i = some j → w.DutyFits j duty) :
    Safe B (w.trackSetInstrument x i playing duty) (fun w' => ∃ A' : Lists, w'.Inv B A' ∧
      ∀ d, (A' d).length ≤ (A d).length + 1) := by
  unfold IWorld.trackSetInstrument
  split
  · exact Safe.ok ⟨A, h, fun d => by omega⟩
  cases i with
  | none =>
    refine Safe.ok ⟨_, IWorld.unset_inv h x w.log, fun d => ?_⟩
    have := List.length_filter_le (· ≠ x) (A d)
    omega
  | some i =>
    refine (IWorld.setInstrument_inv h x i).bind ?_
    rintro w1 ⟨h1, s, e1⟩
    have ein : w1.instrs = w.instrs := by rw [e1]
    have ehe : w1.heap = w.heap := by rw [e1]
    rw [if_neg (by simp)]
    have own : w1.links.owner x = some i := by
      rw [e1]
      show ((w.links.removeState x).addState x i).owner x = _
      rw [Links.owner_addState _ _ _ _ (by rw [Links.owner_removeState, if_pos rfl]), if_pos rfl]
    refine (IWorld.initValues_inv h1 x duty ?_).bind ?_
    · intro b j hj
      rw [own] at hj; cases hj
      exact (hu b i rfl).congr ein ehe
    rintro w2 ⟨h2, s2, e2⟩
    have hfin : ∀ w' : IWorld, w'.Inv B (fun d => if d = i then x :: (A i).filter (· ≠ x) else (A d).filter (· ≠ x)) →
        ∃ A' : Lists, w'.Inv B A' ∧ ∀ d, (A' d).length ≤ (A d).length + 1 := by
      intro w' hw'
      refine ⟨_, hw', fun d => ?_⟩
      have := List.length_filter_le (· ≠ x) (A d)
      split
      · rename_i hd; subst hd; simp only [List.length_cons]; omega
      · omega
    split
    · refine (IWorld.attack_inv h2 x duty ?_).mono fun w' hw' => hfin w' hw'
      intro b j hj
      rw [e2] at hj
      have hj : w1.links.owner x = some j := hj
      rw [own] at hj; cases hj
      exact ((hu b i rfl).congr ein ehe).congr (by rw [e2]) (by rw [e2])
    · exact (IWorld.setPhase_inv h2 x .mute).mono fun w' hw' => hfin w' hw'.1

theorem IWorld.exec_inv {B : Prop} {w : IWorld} {A : Lists} (h : w.Inv B A) (fuel : Nat) (op : InstrOp)
    (hs : op.Short) (hu : B → op.Usual w) (hf : ∀ d, (A d).length ≤ fuel) :
    Safe B (w.exec fuel op) (fun w' => ∃ A' : Lists, w'.Inv B A' ∧
      ∀ d, (A' d).length ≤ (A d).length + 1) := by
  have same : ∀ w' : IWorld, w'.Inv B A → ∃ A' : Lists, w'.Inv B A' ∧
      ∀ d, (A' d).length ≤ (A d).length + 1 := fun w' hw' => ⟨A, hw', fun d => by omega⟩
  cases op with
  | setSequence i slot new =>
    refine (IWorld.setSequence_inv h i slot fuel new hs hu (hf i)).bind ?_
    intro r hr
    exact Safe.ok (same _ hr)
  | detach i =>
    obtain ⟨w', A', e, h1, h2, h3, -⟩ := IWorld.detach_inv h i fuel (hf i)
    show Safe B (w.detach fuel i) _
    rw [e]
    refine Safe.ok ⟨A', h1, fun d => ?_⟩
    by_cases hd : d = i
    · subst hd; rw [h2]; simp
    · rw [h3 d hd]; omega
  | dispose i =>
    obtain ⟨w', A', e, h1, h2, h3, -⟩ := IWorld.dispose_inv h i fuel (hf i)
    show Safe B (w.dispose fuel i) _
    rw [e]
    refine Safe.ok ⟨A', h1, fun d => ?_⟩
    by_cases hd : d = i
    · subst hd; rw [h2]; simp
    · rw [h3 d hd]; omega
  | setInstrument x i playing duty =>
    exact IWorld.trackSetInstrument_inv h x i playing duty fun b j e => by
      have := hu b
      subst e
      exact this
  | attack x duty =>
    exact (IWorld.attack_inv h x duty hu).mono fun w' hw' => same w' hw'
  | release x => exact (IWorld.setPhase_inv h x .release).mono fun w' hw' => same w' hw'.1
  | mute x => exact (IWorld.setPhase_inv h x .mute).mono fun w' hw' => same w' hw'.1
  | tick x d =>
    show Safe B (if w.links.owner x = none then .ok w else w.tick x d) _
    split
    · exact Safe.ok (same w h)
    · rename_i hx
      exact (IWorld.tick_inv h x d hx).mono fun w' hw' => same w' hw'.1

theorem IWorld.run_inv {B : Prop} (fuel : Nat) : ∀ (ops : List InstrOp) (w : IWorld) (A : Lists) (n : Nat),
    w.Inv B A → (∀ op ∈ ops, op.Short) → (B → w.UsualRun fuel ops) → (∀ d, (A d).length ≤ n) →
    n + ops.length ≤ fuel →
    Safe B (w.run fuel ops) (fun w' => ∃ A' : Lists, w'.Inv B A' ∧ ∀ d, (A' d).length ≤ n + ops.length) := by
  intro ops
  induction ops with
  | nil => intro w A n h _ _ hl _; exact Safe.ok ⟨A, h, by simpa using hl⟩
  | cons op ops ih =>
    intro w A n h hs hu hl hf
    simp only [List.length_cons] at hf
    have he := IWorld.exec_inv h fuel op (hs op (by simp)) (fun b => (hu b).1) (fun d => by have := hl d; omega)
    show Safe B (do let w ← w.exec fuel op; w.run fuel ops) _
    cases e : w.exec fuel op with
    | error er =>
      rw [e] at he
      exact he
    | ok w1 =>
      rw [e] at he
      obtain ⟨A1, h1, h2⟩ := he
      refine (ih w1 A1 (n + 1) h1 (fun o ho => hs o (by simp [ho])) (fun b => (hu b).2 w1 e)
        (fun d => by have := h2 d; have := hl d; omega) (by omega)).mono ?_
      rintro w' ⟨A', h3, h4⟩
      exact ⟨A', h3, fun d => by have := h4 d; simp only [List.length_cons]; omega⟩

end BK
